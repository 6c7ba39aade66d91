import Verif.Lemmas.LuPivot

/-! Lemmas about forward and backward substitution. -/

set_option linter.unusedSectionVars false

namespace CML

open Finset

section
variable {K : Type} [Field K] [DecidableEq K]

/-- `Vec` with known elements. -/
structure Vec.Is (v : Vec K) (n : Nat) (p : Fin n → K) : Prop where
  size : v.size = n
  el : ∀ i : Fin n, v.el i = some (p i)

theorem substSum_ok (n : Nat) (e : Nat → Nat → K) (i lo m : Nat) (hi : i < n) (hm : lo + m ≤ n)
    (y : Vec K) (yv : Nat → K) (hs : y.size = n) (hy : ∀ j, lo ≤ j → j < lo + m → y.el j = some (yv j)) :
    Res.loop (fun j sum => do
      let l ← (⟨n, n, e⟩ : Mat K).get i j
      let z ← Vec.get y j
      pure (sum + l * z)) lo m 0 = .ok (∑ j ∈ Ico lo (lo + m), e i j * yv j) := by
  have key := Res.loop_fun (lo := lo) (n := m) (body := fun j sum => do
      let l ← (⟨n, n, e⟩ : Mat K).get i j
      let z ← Vec.get y j
      pure (sum + l * z)) (fun t => ∑ j ∈ Ico lo t, e i j * yv j) (by
      intro t h1 h2
      have ht : t < n := by omega
      simp only [Mat.get, hi, ht, and_self, if_true, Res.ok_bind, Vec.get, hs, hy t h1 h2,
        Res.pure_eq, sum_Ico_succ_top h1])
  simpa using key

theorem forward_ok (n : Nat) (e : Nat → Nat → K) (P : Nat → Nat) (hP : ∀ i, i < n → P i < n)
    (b : Vec K) (bv : Nat → K) (hb : b.size = n) (hbv : ∀ i, i < n → b.el i = some (bv i)) :
    ∃ (y : Vec K) (yv : Nat → K), forwardSubst (⟨n, n, e⟩ : Mat K) P b = .ok y ∧ y.size = n ∧
      ∀ i, i < n → y.el i = some (yv i) ∧ yv i = bv (P i) - ∑ j ∈ range i, e i j * yv j := by
  obtain ⟨y, h1, h2, yv, h3⟩ := Res.loop_inv (lo := 0) (n := n) (s := (Vec.fresh n : Vec K))
    (body := fun i y => do
      let sum ← Res.loop (fun j sum => do
        let l ← (⟨n, n, e⟩ : Mat K).get i j
        let z ← Vec.get y j
        pure (sum + l * z)) 0 i 0
      let v ← b.get (P i)
      Vec.put y i (v - sum))
    (fun t y => y.size = n ∧ ∃ yv : Nat → K, ∀ i, i < t → y.el i = some (yv i) ∧
      yv i = bv (P i) - ∑ j ∈ range i, e i j * yv j)
    ⟨rfl, fun _ => 0, fun i h => by omega⟩
    (by
      rintro t y _ ht ⟨hs, yv, hy⟩
      have ht : t < n := by omega
      rw [substSum_ok n e t 0 t ht (by omega) y yv hs (fun j _ hj => (hy j (by omega)).1)]
      have hg : b.get (P t) = .ok (bv (P t)) := by
        simp [Vec.get, hb, hP t ht, hbv _ (hP t ht)]
      rw [Res.ok_bind, hg, Res.ok_bind]
      simp only [Vec.put, hs, ht, if_true]
      refine ⟨_, rfl, rfl, fun i => if i = t then bv (P t) - ∑ j ∈ range t, e t j * yv j else yv i, ?_⟩
      intro i hi
      have hsum : ∀ m, m ≤ t → ∑ j ∈ range m, e i j *
          (if j = t then bv (P t) - ∑ j ∈ range t, e t j * yv j else yv j) =
          ∑ j ∈ range m, e i j * yv j := by
        intro m hm
        refine sum_congr rfl (fun j hj => ?_)
        have := mem_range.mp hj
        rw [if_neg (by omega)]
      rw [hsum i (by omega)]
      by_cases c : i = t
      · subst c; simp
      · have := hy i (by omega)
        simp only [c, if_false]
        exact this)
  refine ⟨y, yv, ?_, h2, fun i hi => h3 i (by omega)⟩
  unfold forwardSubst
  rw [hb]
  exact h1

theorem backward_cases (n : Nat) (e : Nat → Nat → K) (y x : Vec K) (yv : Nat → K)
    (hy : y.size = n) (hyv : ∀ i, i < n → y.el i = some (yv i)) (hx : x.size = n) :
    (∃ (x' : Vec K) (xv : Nat → K), backwardSubst (⟨n, n, e⟩ : Mat K) y x n = .ok x' ∧ x'.size = n ∧
      ∀ i, i < n → x'.el i = some (xv i) ∧ e i i ≠ 0 ∧
        e i i * xv i = yv i - ∑ j ∈ Ico (i + 1) n, e i j * xv j) ∨
    (backwardSubst (⟨n, n, e⟩ : Mat K) y x n = .ub .divZero ∧ ∃ i, i < n ∧ e i i = 0) := by
  have key := Res.loop_cases (lo := 0) (n := n) (s := x)
    (body := fun t x => do
      let i := n - 1 - t
      let sum ← Res.loop (fun j sum => do
        let u ← (⟨n, n, e⟩ : Mat K).get i j
        let z ← Vec.get x j
        pure (sum + u * z)) (i + 1) (n - (i + 1)) 0
      let v ← y.get i
      let d ← (⟨n, n, e⟩ : Mat K).get i i
      let q ← divR (v - sum) d
      Vec.put x i q)
    (fun t x => x.size = n ∧ ∃ xv : Nat → K, ∀ i, n - t ≤ i → i < n → x.el i = some (xv i) ∧ e i i ≠ 0 ∧
        e i i * xv i = yv i - ∑ j ∈ Ico (i + 1) n, e i j * xv j) (.ub .divZero) (fun _ => rfl)
    (∃ i, i < n ∧ e i i = 0)
    ⟨hx, fun _ => 0, fun i h1 h2 => by omega⟩
    (by
      rintro t x _ ht ⟨hs, xv, hxv⟩
      have hi : n - 1 - t < n := by omega
      obtain ⟨i, hidef⟩ : ∃ i, i = n - 1 - t := ⟨_, rfl⟩
      simp only [← hidef]
      rw [← hidef] at hi
      rw [substSum_ok n e i (i + 1) (n - (i + 1)) hi (by omega) x xv hs
        (fun j h1 h2 => (hxv j (by omega) (by omega)).1)]
      have hg : y.get i = .ok (yv i) := by simp [Vec.get, hy, hi, hyv i hi]
      have hg2 : (⟨n, n, e⟩ : Mat K).get i i = .ok (e i i) := by simp [Mat.get, hi]
      rw [Res.ok_bind, hg, Res.ok_bind, hg2, Res.ok_bind]
      by_cases c : e i i = 0
      · right
        exact ⟨by simp [divR, c], i, hi, c⟩
      · left
        simp only [divR, c, if_false, Res.ok_bind, Vec.put, hs, hi, if_true]
        rw [show i + 1 + (n - (i + 1)) = n by omega]
        refine ⟨_, rfl, rfl, fun a => if a = i then
          (yv i - ∑ j ∈ Ico (i + 1) n, e i j * xv j) / e i i else xv a, ?_⟩
        intro a h1 h2
        have hsum : ∑ j ∈ Ico (a + 1) n, e a j *
            (if j = i then (yv i - ∑ j ∈ Ico (i + 1) n, e i j * xv j) / e i i else xv j) =
            ∑ j ∈ Ico (a + 1) n, e a j * xv j := by
          refine sum_congr rfl (fun j hj => ?_)
          have := mem_Ico.mp hj
          rw [if_neg (by omega)]
        rw [hsum]
        by_cases c2 : a = i
        · subst c2
          simp only [if_true]
          exact ⟨trivial, c, by rw [mul_div_cancel₀ _ c]⟩
        · have := hxv a (by omega) h2
          simp only [c2, if_false]
          exact this)
  rcases key with ⟨x', h1, h2, xv, h3⟩ | ⟨h1, h2⟩
  · exact .inl ⟨x', xv, h1, h2, fun i hi => h3 i (by omega) hi⟩
  · exact .inr ⟨h1, h2⟩

theorem unitLower_mulVec {n : Nat} (e : Nat → Nat → K) (y : Nat → K) (i : Fin n) :
    (unitLower (blk n e)).mulVec (fun i : Fin n => y i) i = ∑ j ∈ range i, e i j * y j + y i := by
  simp only [Matrix.mulVec, dotProduct]
  have hf : ∀ p : Fin n, unitLower (blk n e) i p * y p =
      (fun p : Nat => if p < i.1 then e i p * y p else if p = i.1 then y p else 0) p := by
    intro p
    simp only [unitLower, blk, Fin.lt_def, Fin.ext_iff]
    by_cases c1 : p.1 < i.1
    · rw [if_pos c1, if_pos c1]
    · rw [if_neg c1, if_neg c1]
      by_cases c2 : i.1 = p.1
      · rw [if_pos c2, if_pos c2.symm, one_mul]
      · rw [if_neg c2, if_neg (fun h => c2 h.symm), zero_mul]
  rw [sum_congr rfl (fun p _ => hf p), Fin.sum_univ_eq_sum_range (fun p : Nat =>
    if p < i.1 then e i p * y p else if p = i.1 then y p else 0) n,
    ← sum_range_add_sum_Ico _ (show i.1 + 1 ≤ n by omega), sum_range_succ]
  have hz : ∑ p ∈ Ico (i.1 + 1) n,
      (if p < i.1 then e i p * y p else if p = i.1 then y p else 0) = 0 := by
    refine sum_eq_zero (fun p hp => ?_)
    have := mem_Ico.mp hp
    rw [if_neg (by omega), if_neg (by omega)]
  rw [hz, add_zero, if_neg (lt_irrefl _), if_pos rfl]
  congr 1
  refine sum_congr rfl (fun p hp => ?_)
  rw [if_pos (mem_range.mp hp)]

theorem upper_mulVec {n : Nat} (e : Nat → Nat → K) (x : Nat → K) (i : Fin n) :
    (upper (blk n e)).mulVec (fun i : Fin n => x i) i =
      e i i * x i + ∑ j ∈ Ico (i.1 + 1) n, e i j * x j := by
  simp only [Matrix.mulVec, dotProduct]
  have hf : ∀ p : Fin n, upper (blk n e) i p * x p =
      (fun p : Nat => if i.1 ≤ p then e i p * x p else 0) p := by
    intro p
    simp only [upper, blk, Fin.le_def]
    by_cases c1 : i.1 ≤ p.1
    · rw [if_pos c1, if_pos c1]
    · rw [if_neg c1, if_neg c1, zero_mul]
  rw [sum_congr rfl (fun p _ => hf p), Fin.sum_univ_eq_sum_range (fun p : Nat =>
    if i.1 ≤ p then e i p * x p else 0) n,
    ← sum_range_add_sum_Ico _ (show i.1 + 1 ≤ n by omega), sum_range_succ]
  have hz : ∑ p ∈ range i.1, (if i.1 ≤ p then e i p * x p else 0) = 0 := by
    refine sum_eq_zero (fun p hp => ?_)
    have := mem_range.mp hp
    rw [if_neg (by omega)]
  rw [hz, zero_add, if_pos (le_refl _)]
  congr 1
  refine sum_congr rfl (fun p hp => ?_)
  have := mem_Ico.mp hp
  rw [if_pos (by omega)]

/-- Both substitutions together. -/
theorem subst_cases (n : Nat) (e : Nat → Nat → K) (P : Nat → Nat) (hP : ∀ i, i < n → P i < n)
    (b x : Vec K) (p : Fin n → K) (hb : b.Is n p) (hx : x.size = n) :
    ((∀ i, i < n → e i i ≠ 0) → ∃ x' q, (do
        let y ← forwardSubst (⟨n, n, e⟩ : Mat K) P b
        backwardSubst ⟨n, n, e⟩ y x n) = .ok x' ∧ x'.Is n q ∧
        (unitLower (blk n e) * upper (blk n e)).mulVec q = fun i : Fin n => p ⟨P i, hP i i.2⟩) ∧
    ((∃ i, i < n ∧ e i i = 0) → (do
        let y ← forwardSubst (⟨n, n, e⟩ : Mat K) P b
        backwardSubst ⟨n, n, e⟩ y x n) = .ub .divZero) := by
  obtain ⟨y, yv, h1, h2, h3⟩ := forward_ok n e P hP b
    (fun i => if h : i < n then p ⟨i, h⟩ else 0) hb.size (by
      intro i hi
      simp only [hi, dite_true]
      exact hb.el ⟨i, hi⟩)
  rw [h1, Res.ok_bind]
  rcases backward_cases n e y x yv h2 (fun i hi => (h3 i hi).1) hx with
    ⟨x', xv, g1, g2, g3⟩ | ⟨g1, g2⟩
  · refine ⟨fun _ => ⟨x', fun i => xv i, g1, ⟨g2, fun i => (g3 i i.2).1⟩, ?_⟩, ?_⟩
    · rw [← Matrix.mulVec_mulVec]
      have hu : (upper (blk n e)).mulVec (fun i : Fin n => xv i) = fun i : Fin n => yv i := by
        funext i
        rw [upper_mulVec, (g3 i i.2).2.2]
        ring
      rw [hu]
      funext i
      rw [unitLower_mulVec, (h3 i i.2).2]
      simp only [hP i i.2, dite_true]
      ring
    · rintro ⟨i, hi, h0⟩
      exact absurd h0 (g3 i hi).2.1
  · refine ⟨fun hall => ?_, fun _ => g1⟩
    obtain ⟨i, hi, h0⟩ := g2
    exact absurd h0 (hall i hi)

end
end CML
