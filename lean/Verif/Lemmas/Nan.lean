import Verif.Spec.Nan
import Verif.Spec.Value
import Verif.Lemmas.VecRead
import Verif.Lemmas.Assign

/-! Lemmas for comparison with NaN. -/

namespace CML

variable {K : Type} [LinearOrder K]

theorem Ieee.lt_iff {x y : Ieee K} : x < y ↔ ∃ a b, x = .num a ∧ y = .num b ∧ a < b := by
  cases x <;> cases y
  · exact ⟨fun h => h.elim, by simp⟩
  · exact ⟨fun h => h.elim, by simp⟩
  · exact ⟨fun h => h.elim, by simp⟩
  · exact ⟨fun h => ⟨_, _, rfl, rfl, h⟩, by rintro ⟨_, _, h1, h2, h⟩; cases h1; cases h2; exact h⟩

theorem Ieee.tie_iff {x y : Ieee K} : (¬ x < y ∧ ¬ y < x) ↔ Ieee.Tie x y := by
  unfold Ieee.Tie Ieee.EqNum
  cases x with
  | nan => simp [Ieee.lt_iff]
  | num x =>
    cases y with
    | nan => simp [Ieee.lt_iff]
    | num y =>
      simp only [Ieee.lt_iff, Ieee.num.injEq, reduceCtorEq, false_or]
      constructor
      · rintro ⟨h1, h2⟩
        refine ⟨x, rfl, ?_⟩
        rcases lt_trichotomy x y with h | h | h
        · exact (h1 ⟨x, y, rfl, rfl, h⟩).elim
        · exact h.symm
        · exact (h2 ⟨y, x, rfl, rfl, h⟩).elim
      · rintro ⟨z, rfl, rfl⟩
        exact ⟨by rintro ⟨_, _, rfl, rfl, h⟩; exact lt_irrefl _ h,
          by rintro ⟨_, _, rfl, rfl, h⟩; exact lt_irrefl _ h⟩

theorem Ieee.lt_asymm {x y : Ieee K} (h : x < y) : ¬ y < x := by
  obtain ⟨a, b, rfl, rfl, h⟩ := Ieee.lt_iff.1 h
  intro h'
  obtain ⟨_, _, h1, h2, h'⟩ := Ieee.lt_iff.1 h'
  cases h1; cases h2
  exact _root_.lt_asymm h h'

/-- What the comparison loop finds, for any `<`. -/
theorem cmpLoop_first {E : Type} [LT E] [DecidableLT E] (A B : Nat → Res E)
    (lo n : Nat) (hA : ∀ i, lo ≤ i → i < lo + n → ∃ x, A i = .ok x)
    (hB : ∀ i, lo ≤ i → i < lo + n → ∃ x, B i = .ok x) :
    ∃ r, cmpLoop A B lo n = .ok r ∧
      (∀ b, r = some b → ∃ k x y, lo ≤ k ∧ k < lo + n ∧ A k = .ok x ∧ B k = .ok y ∧
        (if b then x < y else y < x) ∧
        ∀ i, lo ≤ i → i < k → ∀ u v, A i = .ok u → B i = .ok v → ¬ u < v ∧ ¬ v < u) ∧
      (r = none → ∀ i, lo ≤ i → i < lo + n → ∀ u v, A i = .ok u → B i = .ok v → ¬ u < v ∧ ¬ v < u) := by
  induction n generalizing lo with
  | zero => exact ⟨none, rfl, by simp, fun _ i h1 h2 => by omega⟩
  | succ n ih =>
    obtain ⟨x, hx⟩ := hA lo le_rfl (by omega)
    obtain ⟨y, hy⟩ := hB lo le_rfl (by omega)
    obtain ⟨r, h1, h2, h3⟩ := ih (lo + 1) (fun i _ _ => hA i (by omega) (by omega))
      (fun i _ _ => hB i (by omega) (by omega))
    simp only [cmpLoop, hx, hy, Res.ok_bind]
    by_cases hxy : x < y
    · refine ⟨some true, by simp [hxy], ?_, by simp⟩
      rintro b hb
      cases hb
      exact ⟨lo, x, y, le_rfl, by omega, hx, hy, by simpa using hxy, fun i _ _ => by omega⟩
    by_cases hyx : y < x
    · refine ⟨some false, by simp [hxy, hyx], ?_, by simp⟩
      rintro b hb
      cases hb
      exact ⟨lo, x, y, le_rfl, by omega, hx, hy, by simpa using hyx, fun i _ _ => by omega⟩
    refine ⟨r, by simp [hxy, hyx, h1], fun b hb => ?_, fun hr i hi1 hi2 u v hu hv => ?_⟩
    · obtain ⟨k, x', y', k1, k2, k3, k4, k5, k6⟩ := h2 b hb
      refine ⟨k, x', y', by omega, by omega, k3, k4, k5, fun i hi1 hi2 u v hu hv => ?_⟩
      rcases Nat.eq_or_lt_of_le hi1 with rfl | hi
      · rw [hx] at hu; rw [hy] at hv; cases hu; cases hv; exact ⟨hxy, hyx⟩
      · exact k6 i hi hi2 u v hu hv
    · rcases Nat.eq_or_lt_of_le hi1 with rfl | hi
      · rw [hx] at hu; rw [hy] at hv; cases hu; cases hv; exact ⟨hxy, hyx⟩
      · exact h3 hr i hi (by omega) u v hu hv

section
variable [Add K] [Sub K] [Mul K] [Div K] [Neg K] {s : State (Ieee K)} {a b : VNode (Ieee K)}
  {n m : Nat} {p : Fin n → Ieee K} {q : Fin m → Ieee K}

theorem firstLess_asymm (h : FirstLess p q) : ¬ FirstLess q p ∧ ¬ AllTied p q ∧ ¬ AllTied q p := by
  obtain ⟨k, h1, h2, x, y, hx, hy, hxy, ht⟩ := h
  have hlt : p ⟨k, h1⟩ < q ⟨k, h2⟩ := Ieee.lt_iff.2 ⟨x, y, hx, hy, hxy⟩
  refine ⟨?_, fun h => (Ieee.tie_iff.2 (h k h1 h2)).1 hlt, fun h => (Ieee.tie_iff.2 (h k h2 h1)).2 hlt⟩
  rintro ⟨k', h1', h2', x', y', hx', hy', hxy', ht'⟩
  have hlt' : q ⟨k', h1'⟩ < p ⟨k', h2'⟩ := Ieee.lt_iff.2 ⟨x', y', hx', hy', hxy'⟩
  rcases lt_trichotomy k k' with h | h | h
  · exact (Ieee.tie_iff.2 (ht' k h)).2 hlt
  · subst h; exact Ieee.lt_asymm hlt hlt'
  · exact (Ieee.tie_iff.2 (ht k' h)).2 hlt'

/-- The comparison loop of two operands. -/
theorem vCmp_nan (ha : VRep s a ⟨n, p⟩) (hb : VRep s b ⟨m, q⟩) (N : Nat) (hN : N = min n m) :
    ∃ r, cmpLoop (fun i => a.get s i) (fun i => b.get s i) 0 N = .ok r ∧
      (r = some true → FirstLess p q) ∧ (r = some false → FirstLess q p) ∧ (r = none → AllTied p q) := by
  have hA : ∀ i (h : i < n), a.get s i = .ok (p ⟨i, h⟩) := fun i h => ha.get ⟨i, h⟩
  have hB : ∀ i (h : i < m), b.get s i = .ok (q ⟨i, h⟩) := fun i h => hb.get ⟨i, h⟩
  obtain ⟨r, h1, h2, h3⟩ := cmpLoop_first (fun i => a.get s i) (fun i => b.get s i)
    0 N
    (fun i _ h => ⟨_, hA i (by omega)⟩) (fun i _ h => ⟨_, hB i (by omega)⟩)
  refine ⟨r, h1, ?_, ?_, ?_⟩
  · intro hr
    obtain ⟨k, x, y, -, k2, k3, k4, k5, k6⟩ := h2 true hr
    rw [hA k (by omega)] at k3
    rw [hB k (by omega)] at k4
    cases k3; cases k4
    obtain ⟨u, v, hu, hv, huv⟩ := Ieee.lt_iff.1 (by simpa using k5)
    exact ⟨k, by omega, by omega, u, v, hu, hv, huv, fun i hi => Ieee.tie_iff.1
      (k6 i (Nat.zero_le _) hi _ _ (hA i (by omega)) (hB i (by omega)))⟩
  · intro hr
    obtain ⟨k, x, y, -, k2, k3, k4, k5, k6⟩ := h2 false hr
    rw [hA k (by omega)] at k3
    rw [hB k (by omega)] at k4
    cases k3; cases k4
    obtain ⟨u, v, hu, hv, huv⟩ := Ieee.lt_iff.1 (by simpa using k5)
    exact ⟨k, by omega, by omega, u, v, hu, hv, huv, fun i hi => Ieee.tie_iff.1
      (k6 i (Nat.zero_le _) hi _ _ (hA i (by omega)) (hB i (by omega))).symm⟩
  · intro hr i h4 h5
    exact Ieee.tie_iff.1 (h3 hr i (Nat.zero_le _) (by omega) _ _ (hA i h4) (hB i h5))

end

/-- The comparison loop on NaN-free elements is the one on the numbers. -/
theorem cmpLoop_num (A B : Nat → Res (Ieee K)) (A' B' : Nat → Res K) (lo n : Nat)
    (hA : ∀ i, lo ≤ i → i < lo + n → ∃ x, A i = .ok (.num x) ∧ A' i = .ok x)
    (hB : ∀ i, lo ≤ i → i < lo + n → ∃ x, B i = .ok (.num x) ∧ B' i = .ok x) :
    cmpLoop A B lo n = cmpLoop A' B' lo n := by
  induction n generalizing lo with
  | zero => rfl
  | succ n ih =>
    obtain ⟨x, hx, hx'⟩ := hA lo le_rfl (by omega)
    obtain ⟨y, hy, hy'⟩ := hB lo le_rfl (by omega)
    have := ih (lo + 1) (fun i _ _ => hA i (by omega) (by omega)) (fun i _ _ => hB i (by omega) (by omega))
    simp only [cmpLoop, hx, hx', hy, hy', Res.ok_bind, this]
    rfl

theorem mEqRow_tie {E : Type} [LT E] [DecidableLT E] (A B : Nat → Res E) (lo n : Nat)
    (hA : ∀ i, lo ≤ i → i < lo + n → ∃ x, A i = .ok x)
    (hB : ∀ i, lo ≤ i → i < lo + n → ∃ x, B i = .ok x) :
    ∃ r, mEqRow A B lo n = .ok r ∧
      (r = true ↔ ∀ i, lo ≤ i → i < lo + n → ∀ u v, A i = .ok u → B i = .ok v → ¬ u < v ∧ ¬ v < u) := by
  induction n generalizing lo with
  | zero => exact ⟨true, rfl, by simp; intro i h1 h2; omega⟩
  | succ n ih =>
    obtain ⟨x, hx⟩ := hA lo le_rfl (by omega)
    obtain ⟨y, hy⟩ := hB lo le_rfl (by omega)
    obtain ⟨r, h1, h2⟩ := ih (lo + 1) (fun i _ _ => hA i (by omega) (by omega))
      (fun i _ _ => hB i (by omega) (by omega))
    simp only [mEqRow, hx, hy, Res.ok_bind]
    by_cases hxy : x < y
    · refine ⟨false, by simp [hxy], ?_⟩
      simp only [Bool.false_eq_true, false_iff]
      intro h; exact (h lo le_rfl (by omega) x y hx hy).1 hxy
    by_cases hyx : y < x
    · refine ⟨false, by simp [hxy, hyx], ?_⟩
      simp only [Bool.false_eq_true, false_iff]
      intro h; exact (h lo le_rfl (by omega) x y hx hy).2 hyx
    refine ⟨r, by simp [hxy, hyx, h1], h2.trans ⟨fun h i hi1 hi2 u v hu hv => ?_, fun h i hi1 hi2 =>
      h i (by omega) (by omega)⟩⟩
    rcases Nat.eq_or_lt_of_le hi1 with rfl | hi
    · rw [hx] at hu; rw [hy] at hv; cases hu; cases hv; exact ⟨hxy, hyx⟩
    · exact h i hi (by omega) u v hu hv

theorem mEqRows_tie {E : Type} [LT E] [DecidableLT E] (A B : Nat → Nat → Res E) (c lo n : Nat)
    (hA : ∀ i j, lo ≤ i → i < lo + n → j < c → ∃ x, A i j = .ok x)
    (hB : ∀ i j, lo ≤ i → i < lo + n → j < c → ∃ x, B i j = .ok x) :
    ∃ r, mEqRows A B c lo n = .ok r ∧
      (r = true ↔ ∀ i j, lo ≤ i → i < lo + n → j < c → ∀ u v, A i j = .ok u → B i j = .ok v →
        ¬ u < v ∧ ¬ v < u) := by
  induction n generalizing lo with
  | zero => exact ⟨true, rfl, by simp; intro i j h1 h2; omega⟩
  | succ n ih =>
    obtain ⟨r, h1, h2⟩ := ih (lo + 1) (fun i j _ _ => hA i j (by omega) (by omega))
      (fun i j _ _ => hB i j (by omega) (by omega))
    obtain ⟨r', q1, q2⟩ := mEqRow_tie (A lo) (B lo) 0 c
      (fun j _ h => hA lo j le_rfl (by omega) (by omega)) (fun j _ h => hB lo j le_rfl (by omega) (by omega))
    simp only [mEqRows, q1, Res.ok_bind]
    cases r' with
    | false =>
      refine ⟨false, rfl, ?_⟩
      simp only [Bool.false_eq_true, false_iff]
      intro hh
      have := q2.mpr (fun j _ hj => hh lo j le_rfl (by omega) (by omega))
      simp at this
    | true =>
      refine ⟨r, by simp [h1], h2.trans ⟨fun h i j hi1 hi2 hj => ?_, fun h i j hi1 hi2 hj =>
        h i j (by omega) (by omega) hj⟩⟩
      rcases Nat.eq_or_lt_of_le hi1 with rfl | hi
      · exact q2.1 rfl j (Nat.zero_le _) (by omega)
      · exact h i j hi (by omega) hj

/-- `vExtremize_ok` for any `<`. -/
theorem vExtremize_raw {E : Type} [Add E] [Sub E] [Mul E] [Div E] [Neg E] [LT E] [DecidableLT E]
    {triv lower : Bool} {s : State E} {x : Nat} {d : VObj}
    {n : VNode E} {p q : VVal E} {f : Bool} (hx : s.vec x = some d) (hr : VRep s n p)
    (hq : VRep s (.var x) q) (hf : n.Typed s f p.n) (hqn : q.n = p.n) (hw : d.Ready triv s.heap)
    (hal : n.Ahead (VAhead s d) (VDisj s d) (MDisj s d)) :
    ∃ h', vExtremize triv lower s x n = .ok { s with heap := h' } ∧
      (∀ i : Fin p.n, d.get h' i = .ok (if lower then (if p.f i < q.f (i.cast hqn.symm) then p.f i else q.f (i.cast hqn.symm))
        else (if q.f (i.cast hqn.symm) < p.f i then p.f i else q.f (i.cast hqn.symm)))) ∧
      SameOutside d s.heap h' := by
  have hxs : (VNode.var x : VNode E).size s = .ok (d.size : Int) := by
    simp [VNode.size, State.vobj, hx]
  have hsz : p.n = d.size := by
    have := hq.size
    rw [hxs] at this
    simp only [Res.ok.injEq] at this
    omega
  obtain ⟨h', e1, e2, e3, -⟩ := storeLoop_fin hx hw hsz
    (fun i => if lower then (if p.f i < q.f (i.cast hqn.symm) then p.f i else q.f (i.cast hqn.symm))
        else (if q.f (i.cast hqn.symm) < p.f i then p.f i else q.f (i.cast hqn.symm)))
    (f := fun s i => do
      let a ← (VNode.var x : VNode E).get s i
      let b ← n.get s i
      pure (if lower then (if b < a then b else a) else (if a < b then b else a)))
    (fun b k s' g hb hv hm hst => by
      have h1 := VNode.get_ahead (s := s) (s' := s') (k := k)
        (fun y hy j v hj => var_get_ahead hv hb (by omega) hst hy hj)
        (fun y hy j v => var_get_disj hv hb (by omega) hst hy)
        (fun y hy i j v => mvar_get_disj hm hb (by omega) hst hy)
        n hal k _ (le_refl _) (hr.get k)
      have h2 : (VNode.var x : VNode E).get s' k = .ok (q.f (k.cast hqn.symm)) :=
        var_get_ahead hv hb (by omega) hst (y := x)
          (by
            intro w hw'
            rw [hx] at hw'; cases hw'
            exact Or.inr ⟨rfl, le_refl _⟩) (le_refl _) (hq.get (k.cast hqn.symm))
      simp only [h1, h2, Res.ok_bind, Res.pure_eq, Fin.eta])
  refine ⟨h', ?_, e2, e3⟩
  unfold vExtremize
  have h1 : (VNode.var x : VNode E).Typed s d.fixed d.size := typed_vec hx
  rw [checkSameSize_eq h1 hf hxs hr.size]
  simpa [hsz] using e1

end CML
