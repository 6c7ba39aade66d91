import Verif.Lemmas.Lu
import Mathlib.GroupTheory.Perm.Sign
import Mathlib.Algebra.Order.Ring.Abs

/-! Lemmas about the pivoted decomposition `luPivotInplace`. -/

set_option linter.unusedSectionVars false

namespace CML

open Finset

section
variable {K : Type} [Zero K] [Sub K] [Mul K] [Div K] [LinearOrder K] [Fabs K]

/-- The exchange of two row numbers. -/
def swp (x y a : Nat) : Nat := if a = x then y else if a = y then x else a

theorem swapRows_ok (n x y : Nat) (hx : x < n) (hy : y < n) (e : Nat → Nat → K) :
    swapRows (⟨n, n, e⟩ : Mat K) x y =
      .ok ⟨n, n, fun a b => if b < n then e (swp x y a) b else e a b⟩ := by
  have := Res.loop_fun (lo := 0) (n := n) (body := fun j (M : Mat K) => do
      let u ← M.get x j
      let v ← M.get y j
      let M ← M.put x j v
      M.put y j u)
    (fun t => (⟨n, n, fun a b => if b < t then e (swp x y a) b else e a b⟩ : Mat K)) (by
      intro t _ ht
      have ht : t < n := by omega
      simp only [Mat.get, Mat.put, Mat.set, hx, hy, ht, and_self, if_true, Res.ok_bind,
        lt_irrefl, if_false]
      congr 2
      funext a b
      simp only [swp]
      by_cases c1 : b = t
      · subst c1
        by_cases c2 : a = y
        · subst c2
          by_cases c3 : a = x
          · subst c3; simp
          · simp [c3]
        · by_cases c3 : a = x
          · subst c3; simp [c2]
          · simp [c2, c3]
      · by_cases c2 : b < t
        · simp [c1, c2, show b < t + 1 by omega]
        · simp [c1, c2, show ¬ b < t + 1 by omega])
  simpa [swapRows] using this

/-- Elements after the Schur update of the rows `k+1 … t-1`. -/
def schur (n k t : Nat) (e : Nat → Nat → K) : Nat → Nat → K := fun a b =>
  if k < a ∧ a < t then
    (if b = k then e a k / e k k
     else if k < b ∧ b < n then e a b - e a k / e k k * e k b else e a b)
  else e a b

theorem schurRow_ok (n k t : Nat) (hk : k < t) (ht : t < n) (e : Nat → Nat → K) (h0 : e k k ≠ 0) :
    schurRow k t (⟨n, n, schur n k t e⟩ : Mat K) = .ok ⟨n, n, schur n k (t + 1) e⟩ := by
  have hkn : k < n := by omega
  have e1 : ∀ b, schur n k t e t b = e t b := fun b => by simp [schur]
  have e2 : ∀ b, schur n k t e k b = e k b := fun b => by simp [schur]
  have key := Res.loop_fun (lo := k + 1) (n := n - (k + 1)) (body := fun j (M : Mat K) => do
      let x ← M.get t j
      let l ← M.get t k
      let u ← M.get k j
      M.put t j (x - l * u))
    (fun s => (⟨n, n, fun a b => if a = t then (if b = k then e t k / e k k
      else if k < b ∧ b < s then e t b - e t k / e k k * e k b else e t b)
      else schur n k t e a b⟩ : Mat K)) (by
      intro s h1 h2
      have hs : s < n := by omega
      simp only [Mat.get, Mat.put, Mat.set, ht, hkn, hs, and_self, if_true, Res.ok_bind,
        lt_irrefl, and_false, if_false, show s ≠ k by omega, show k ≠ t by omega, e2]
      congr 2
      funext a b
      by_cases c1 : a = t
      · subst c1
        by_cases c2 : b = s
        · subst c2; simp [show b ≠ k by omega, show k < b by omega]
        · by_cases c3 : k < b ∧ b < s
          · simp [c2, c3, show k < b by omega, show b < s + 1 by omega]
          · rw [if_neg (by omega), if_pos rfl, if_pos rfl, if_neg c3,
              if_neg (show ¬ (k < b ∧ b < s + 1) by omega)]
      · simp [c1])
  unfold schurRow
  simp only [Mat.get, Mat.put, Mat.set, ht, hkn, and_self, if_true, Res.ok_bind, e1, e2, divR, h0,
    if_false]
  rw [show k + 1 + (n - (k + 1)) = n by omega] at key
  have hstart : (⟨n, n, fun a b => if a = t then (if b = k then e t k / e k k
      else if k < b ∧ b < k + 1 then e t b - e t k / e k k * e k b else e t b)
      else schur n k t e a b⟩ : Mat K) =
      ⟨n, n, fun a b => if a = t ∧ b = k then e t k / e k k else schur n k t e a b⟩ := by
    congr 1
    funext a b
    by_cases c1 : a = t
    · subst c1
      rw [e1]
      rw [if_pos rfl, if_neg (show ¬ (k < b ∧ b < k + 1) by omega)]
      simp
    · simp [c1]
  rw [hstart] at key
  refine Eq.trans key ?_
  congr 2
  funext a b
  simp only [schur]
  by_cases c1 : a = t
  · subst c1; simp [hk]
  · by_cases c2 : k < a ∧ a < t
    · simp [c1, c2, show a < t + 1 by omega]
    · rw [if_neg c1, if_neg c2, if_neg (show ¬ (k < a ∧ a < t + 1) by omega)]

theorem schur_loop (n k : Nat) (hk : k < n) (e : Nat → Nat → K) (h0 : e k k ≠ 0) :
    Res.loop (schurRow k) (k + 1) (n - (k + 1)) (⟨n, n, e⟩ : Mat K) = .ok ⟨n, n, schur n k n e⟩ := by
  have key := Res.loop_fun (lo := k + 1) (n := n - (k + 1)) (body := schurRow k)
    (fun t => (⟨n, n, schur n k t e⟩ : Mat K))
    (fun t h1 h2 => schurRow_ok n k t (by omega) (by omega) e h0)
  rw [show k + 1 + (n - (k + 1)) = n by omega] at key
  have hstart : schur n k (k + 1) e = e := by
    funext a b
    simp [schur, show ¬ (k < a ∧ a < k + 1) by omega]
  rwa [hstart] at key

theorem schur_fail (n k : Nat) (hk : k + 1 < n) (e : Nat → Nat → K) (h0 : e k k = 0) :
    Res.loop (schurRow k) (k + 1) (n - (k + 1)) (⟨n, n, e⟩ : Mat K) = .ub .divZero := by
  obtain ⟨m, hm⟩ : ∃ m, n - (k + 1) = m + 1 := ⟨n - (k + 1) - 1, by omega⟩
  rw [hm, Res.loop]
  simp [schurRow, Mat.get, hk, show k < n by omega, divR, h0, Res.bind]

/-- What the pivot search returns. -/
structure PivotFound (n : Nat) (e : Nat → Nat → K) (k : Nat) (row : Nat) (mx : K) : Prop where
  lo : k ≤ row
  hi : row < n
  val : (row = k ∧ mx = e k k) ∨ (k < row ∧ mx = Fabs.fabs (e row k))
  top : e k k ≤ mx
  others : ∀ i, k < i → i < n → Fabs.fabs (e i k) ≤ mx

theorem pivotSearch_ok (n k : Nat) (hk : k < n) (e : Nat → Nat → K) :
    ∃ row mx, pivotSearch (⟨n, n, e⟩ : Mat K) k = .ok (row, mx) ∧ PivotFound n e k row mx := by
  have key := Res.loop_inv (lo := k + 1) (n := n - (k + 1)) (s := (k, e k k))
    (body := fun i (r : Nat × K) => do
      let x ← (⟨n, n, e⟩ : Mat K).get i k
      pure (if Fabs.fabs x > r.2 then (i, Fabs.fabs x) else r))
    (fun t r => k ≤ r.1 ∧ r.1 < n ∧ ((r.1 = k ∧ r.2 = e k k) ∨ (k < r.1 ∧ r.2 = Fabs.fabs (e r.1 k))) ∧
      e k k ≤ r.2 ∧ ∀ i, k < i → i < t → Fabs.fabs (e i k) ≤ r.2)
    ⟨le_refl _, hk, .inl ⟨rfl, rfl⟩, le_refl _, fun i h1 h2 => by omega⟩
    (by
      intro t r h1 h2 ⟨g1, g2, g3, g4, g5⟩
      have ht : t < n := by omega
      simp only [Mat.get, ht, hk, and_self, if_true, Res.ok_bind, Res.pure_eq]
      refine ⟨_, rfl, ?_⟩
      by_cases c : Fabs.fabs (e t k) > r.2
      · rw [if_pos c]
        refine ⟨by simp only; omega, ht, .inr ⟨by simp only; omega, rfl⟩, le_trans g4 c.le, ?_⟩
        intro i hi1 hi2
        by_cases c2 : i = t
        · subst c2; exact le_refl _
        · exact le_trans (g5 i hi1 (by omega)) c.le
      · rw [if_neg c]
        refine ⟨g1, g2, g3, g4, ?_⟩
        intro i hi1 hi2
        by_cases c2 : i = t
        · subst c2; exact not_lt.mp c
        · exact g5 i hi1 (by omega))
  obtain ⟨⟨row, mx⟩, h1, g1, g2, g3, g4, g5⟩ := key
  refine ⟨row, mx, ?_, g1, g2, g3, g4, fun i h1 h2 => g5 i h1 (by omega)⟩
  have hg : (⟨n, n, e⟩ : Mat K).get k k = .ok (e k k) := by simp [Mat.get, hk]
  unfold pivotSearch
  rw [hg, Res.ok_bind]
  exact h1

/-- State of the column loop: the invariant, or the early return with the place where it happened. -/
def PivStateG {n : Nat} (Inv : Nat → Equiv.Perm (Fin n) → (Nat → Nat → K) → Prop) (eps : K) (k : Nat)
    (r : LuPivot K ⊕ LuPivot K) : Prop :=
  match r with
  | .inl r => ∃ (e : Nat → Nat → K) (σ : Equiv.Perm (Fin n)), r.lu = ⟨n, n, e⟩ ∧
      (∀ i : Fin n, r.order i = σ i) ∧ r.sign = Equiv.Perm.sign σ ∧ Inv k σ e
  | .inr r => r.sign = 0 ∧ ∃ (e : Nat → Nat → K) (σ : Equiv.Perm (Fin n)) (k' : Nat), r.lu = ⟨n, n, e⟩ ∧
      (∀ i : Fin n, r.order i = σ i) ∧ k' + 1 < n ∧ Inv k' σ e ∧ e k' k' < eps ∧
      ∀ i, k' < i → i < n → Fabs.fabs (e i k') < eps

theorem swapOrder_perm {n : Nat} (o : Nat → Nat) (σ : Equiv.Perm (Fin n))
    (ho : ∀ i : Fin n, o i = σ i) (x y : Fin n) (i : Fin n) :
    swapOrder o x y i = (σ * Equiv.swap x y) i := by
  rw [Equiv.Perm.mul_apply, Equiv.swap_apply_def]
  simp only [swapOrder, Fin.ext_iff]
  split_ifs <;> exact ho _

/-- What an invariant of the column loop has to satisfy: it survives swaps of rows not yet processed and
elimination steps. -/
structure PivKept {n : Nat} (Inv : Nat → Equiv.Perm (Fin n) → (Nat → Nat → K) → Prop) : Prop where
  swap : ∀ {k σ e}, Inv k σ e → ∀ x y : Fin n, k ≤ x.1 → k ≤ y.1 →
    Inv k (σ * Equiv.swap x y) (fun i b => if b < n then e (swp x y i) b else e i b)
  elim : ∀ {k σ e}, Inv k σ e → k < n → e k k ≠ 0 → Inv (k + 1) σ (schur n k n e)

theorem luPivotStep_gen {n : Nat} {Inv : Nat → Equiv.Perm (Fin n) → (Nat → Nat → K) → Prop}
    (hI : PivKept Inv) (hf : Fabs.fabs (0 : K) = 0) {eps : K} {k : Nat} (hk : k + 1 < n)
    {r : LuPivot K} (h : PivStateG Inv eps k (.inl r)) :
    (∃ r', luPivotStep eps k r = .ok r' ∧ PivStateG Inv eps (k + 1) r') ∨
    (luPivotStep eps k r = .ub .divZero ∧ eps ≤ 0) := by
  obtain ⟨e, σ, h1, h2, h3, h4⟩ := h
  have hkn : k < n := by omega
  obtain ⟨row, mx, hs, hp⟩ := pivotSearch_ok n k hkn e
  unfold luPivotStep
  rw [h1, hs, Res.ok_bind]
  by_cases c : mx < eps
  · left
    simp only [c, if_true, Res.pure_eq]
    exact ⟨_, rfl, rfl, e, σ, k, rfl, h2, hk, h4, lt_of_le_of_lt hp.top c,
      fun i hi1 hi2 => lt_of_le_of_lt (hp.others i hi1 hi2) c⟩
  · simp only [c, if_false]
    by_cases c2 : row = k
    · subst c2
      rw [if_neg (by simp)]
      simp only [Res.pure_eq, Res.ok_bind, h1]
      have hmx : mx = e row row := by
        rcases hp.val with ⟨_, h⟩ | ⟨h, _⟩
        · exact h
        · omega
      by_cases c3 : e row row = 0
      · right
        rw [schur_fail n row hk e c3]
        exact ⟨rfl, by rw [← c3, ← hmx]; exact not_lt.mp c⟩
      · left
        rw [schur_loop n row hkn e c3]
        exact ⟨_, rfl, _, σ, rfl, h2, h3, hI.elim h4 hkn c3⟩
    · rw [if_pos c2, swapRows_ok n k row hkn hp.hi]
      simp only [Res.pure_eq, Res.ok_bind]
      have hrow : k < row := by have := hp.lo; omega
      have hmx : mx = Fabs.fabs (e row k) := by
        rcases hp.val with ⟨h, _⟩ | ⟨_, h⟩
        · omega
        · exact h
      have hpk : (fun a b => if b < n then e (swp k row a) b else e a b) k k = e row k := by
        simp [hkn, swp]
      have hinv := hI.swap h4 ⟨k, hkn⟩ ⟨row, hp.hi⟩ (le_refl _) hp.lo
      by_cases c3 : e row k = 0
      · right
        rw [schur_fail n k hk _ (hpk.trans c3)]
        refine ⟨rfl, ?_⟩
        rw [hmx, c3, hf] at c
        exact not_lt.mp c
      · left
        have h5 : (fun a b => if b < n then e (swp k row a) b else e a b) k k ≠ 0 := by
          rw [hpk]; exact c3
        rw [schur_loop n k hkn _ h5]
        refine ⟨_, rfl, _, σ * Equiv.swap ⟨k, hkn⟩ ⟨row, hp.hi⟩, rfl, ?_, ?_, hI.elim hinv hkn h5⟩
        · intro i
          exact swapOrder_perm r.order σ h2 ⟨k, hkn⟩ ⟨row, hp.hi⟩ i
        · simp only [h3, map_mul]
          rw [Equiv.Perm.sign_swap (by intro h; exact c2 (Fin.ext_iff.mp h).symm)]
          simp

/-- Outcome of the pivoted decomposition. -/
theorem luPivotInplace_gen {n : Nat} {Inv : Nat → Equiv.Perm (Fin n) → (Nat → Nat → K) → Prop}
    (hI : PivKept Inv) (hf : Fabs.fabs (0 : K) = 0) (a : Nat → Nat → K) (h0 : Inv 0 1 a) (eps : K) :
    (∃ r, luPivotInplace eps (⟨n, n, a⟩ : Mat K) = .ok r ∧
      (PivStateG Inv eps (n - 1) (.inl r) ∨ PivStateG Inv eps (n - 1) (.inr r))) ∨
    (luPivotInplace eps (⟨n, n, a⟩ : Mat K) = .ub .divZero ∧ eps ≤ 0) := by
  have key := Res.loop_cases (lo := 0) (n := n - 1)
    (s := (.inl ⟨⟨n, n, a⟩, fun i => i, 1⟩ : LuPivot K ⊕ LuPivot K))
    (body := luPivotBody eps)
    (fun k r => PivStateG Inv eps k r) (.ub .divZero) (fun _ => rfl) (eps ≤ 0)
    ⟨a, 1, rfl, fun i => rfl, by simp, h0⟩
    (by
      intro k r _ hk h
      match r, h with
      | .inl r, h => exact luPivotStep_gen hI hf (by omega) h
      | .inr r, h => exact .inl ⟨_, rfl, h⟩)
  unfold luPivotInplace
  rw [Nat.zero_add] at key
  rcases key with ⟨r, h1, h2⟩ | ⟨h1, h2⟩
  · left
    rw [h1, Res.ok_bind]
    match r, h2 with
    | .inl r, h2 => exact ⟨r, rfl, .inl h2⟩
    | .inr r, h2 => exact ⟨r, rfl, .inr h2⟩
  · right
    exact ⟨by rw [h1, Res.ub_bind], h2⟩

end

section
variable {K : Type} [Field K] [LinearOrder K] [IsStrictOrderedRing K]

/-- Invariant of the pivoted decomposition before column `k`: `σ` says which row of the argument each
row comes from. -/
structure PivInv {n : Nat} (a : Nat → Nat → K) (k : Nat) (σ : Equiv.Perm (Fin n))
    (e : Nat → Nat → K) : Prop where
  eq : ∀ i j : Fin n, a (σ i) j = ∑ p ∈ range (min (min i.1 j.1) k), e i p * e p j
    + (if j < i ∧ j.1 < k then e i j * e j j else e i j)
  piv : ∀ j, j < k → e j j ≠ 0

/-- A swap of two rows not yet processed keeps the invariant. -/
theorem PivInv.swap {n : Nat} {a : Nat → Nat → K} {k : Nat} {σ : Equiv.Perm (Fin n)}
    {e : Nat → Nat → K} (h : PivInv a k σ e) (x y : Fin n) (hx : k ≤ x.1) (hy : k ≤ y.1) :
    PivInv a k (σ * Equiv.swap x y) (fun i b => if b < n then e (swp x y i) b else e i b) := by
  have hs : ∀ i : Fin n, ((Equiv.swap x y i : Fin n) : Nat) = swp x y i := by
    intro i
    rw [Equiv.swap_apply_def]
    simp only [swp, Fin.ext_iff]
    split_ifs <;> rfl
  have hlow : ∀ i : Nat, i < k → swp x y i = i := by
    intro i hi; simp only [swp]; rw [if_neg (by omega), if_neg (by omega)]
  have hhigh : ∀ i : Nat, k ≤ i → k ≤ swp x y i := by
    intro i hi; simp only [swp]; split_ifs <;> omega
  obtain ⟨f, hf⟩ : ∃ f : Nat → Nat → K, f = fun i b => if b < n then e (swp x y i) b else e i b :=
    ⟨_, rfl⟩
  have hf' : ∀ i j, j < n → f i j = e (swp x y i) j := fun i j hj => by
    rw [hf]; simp only [hj, if_true]
  rw [← hf]
  have hsum : ∀ (i : Nat) (j : Fin n) (m : Nat), m ≤ k → ∑ p ∈ range m, f i p * f p j =
      ∑ p ∈ range m, e (swp x y i) p * e p j := by
    intro i j m hm
    refine sum_congr rfl (fun p hp => ?_)
    have hp' := mem_range.mp hp
    rw [hf' i p (by have := x.2; omega), hf' p j j.2, hlow p (by omega)]
  refine ⟨?_, ?_⟩
  · intro i j
    rw [Equiv.Perm.mul_apply, h.eq (Equiv.swap x y i) j, hsum i j _ (by omega), hs, hf' i j j.2]
    by_cases c : i.1 < k
    · have e1 := hlow i c
      have e2 : Equiv.swap x y i = i := Fin.ext (by rw [hs, e1])
      rw [e1, e2]
      congr 1
      by_cases c2 : j < i ∧ j.1 < k
      · rw [if_pos c2, if_pos c2, hf' j j j.2, hlow j c2.2]
      · rw [if_neg c2, if_neg c2]
    · have c' : k ≤ i.1 := by omega
      have hh := hhigh i c'
      have hm : min (min (swp x y i) j.1) k = min (min i.1 j.1) k := by omega
      rw [hm]
      congr 1
      by_cases c2 : j.1 < k
      · rw [if_pos ⟨by rw [Fin.lt_def, hs]; omega, c2⟩, if_pos ⟨by rw [Fin.lt_def]; omega, c2⟩,
          hf' j j j.2, hlow j c2]
      · rw [if_neg (by omega), if_neg (by omega)]
  · intro j hj
    have : j < n := by have := x.2; omega
    rw [hf' j j this, hlow j hj]
    exact h.piv j hj

/-- One elimination step keeps the invariant. -/
theorem PivInv.elim {n : Nat} {a : Nat → Nat → K} {k : Nat} {σ : Equiv.Perm (Fin n)}
    {e : Nat → Nat → K} (h : PivInv a k σ e) (hk : k < n) (h0 : e k k ≠ 0) :
    PivInv a (k + 1) σ (schur n k n e) := by
  have e1 : ∀ i j, i ≤ k → schur n k n e i j = e i j := by
    intro i j hi; simp only [schur]; rw [if_neg (by omega)]
  have e2 : ∀ i j, j < k → schur n k n e i j = e i j := by
    intro i j hi; simp only [schur]; split_ifs <;> first | rfl | omega
  have hsum : ∀ i j m : Nat, m ≤ k → ∑ p ∈ range m, schur n k n e i p * schur n k n e p j =
      ∑ p ∈ range m, e i p * e p j := by
    intro i j m hm
    refine sum_congr rfl (fun p hp => ?_)
    have hp' := mem_range.mp hp
    rw [e2 i p (by omega), e1 p j (by omega)]
  refine ⟨?_, ?_⟩
  · intro i j
    rw [h.eq i j]
    by_cases c : i.1 ≤ k ∨ j.1 < k
    · rw [show min (min i.1 j.1) (k + 1) = min (min i.1 j.1) k by omega, hsum _ _ _ (by omega)]
      congr 1
      have h3 : schur n k n e i j = e i j := by
        rcases c with c | c
        · exact e1 _ _ c
        · exact e2 _ _ c
      rw [h3]
      by_cases c2 : j < i ∧ j.1 < k
      · rw [if_pos c2, if_pos ⟨c2.1, by omega⟩, e1 j j (by omega)]
      · rw [if_neg c2, if_neg (by rw [Fin.lt_def] at *; omega)]
    · have hik : k < i.1 := by omega
      have hjk : k ≤ j.1 := by omega
      rw [show min (min i.1 j.1) k = k by omega, if_neg (by omega)]
      by_cases c2 : j.1 = k
      · rw [show min (min i.1 j.1) (k + 1) = k by omega, hsum _ _ _ (le_refl _),
          if_pos ⟨by rw [Fin.lt_def]; omega, by omega⟩, e1 j j (by omega)]
        congr 1
        have h3 : schur n k n e i j = e i k / e k k := by
          simp only [schur]; rw [if_pos ⟨hik, i.2⟩, if_pos c2]
        rw [h3, c2, div_mul_cancel₀ _ h0]
      · rw [show min (min i.1 j.1) (k + 1) = k + 1 by omega, sum_range_succ,
          hsum _ _ _ (le_refl _), if_neg (by omega), e1 k j (le_refl _)]
        have h3 : schur n k n e i k = e i k / e k k := by
          simp only [schur]; rw [if_pos ⟨hik, i.2⟩, if_pos trivial]
        have h4 : schur n k n e i j = e i j - e i k / e k k * e k j := by
          simp only [schur]; rw [if_pos ⟨hik, i.2⟩, if_neg c2, if_pos ⟨by omega, j.2⟩]
        rw [h3, h4]
        ring
  · intro j hj
    rw [e1 j j (by omega)]
    by_cases c : j = k
    · rw [c]; exact h0
    · exact h.piv j (by omega)

/-- The invariant at the end: packed factors of the permuted matrix. -/
theorem PivInv.packed {n : Nat} {a : Nat → Nat → K} {σ : Equiv.Perm (Fin n)}
    {e : Nat → Nat → K} (h : PivInv a (n - 1) σ e) :
    Packed n (fun i j => if hi : i < n then a (σ ⟨i, hi⟩) j else 0) e := by
  intro i j hi hj
  simp only [hi, dite_true]
  have := h.eq ⟨i, hi⟩ ⟨j, hj⟩
  simp only at this
  rw [this, show min (min i j) (n - 1) = min i j by omega]
  congr 1
  by_cases c : i ≤ j
  · rw [if_pos c, if_neg (by rw [Fin.lt_def]; simp only; omega)]
  · rw [if_neg c, if_pos ⟨by rw [Fin.lt_def]; simp only; omega, by omega⟩]

theorem PivInv.kept {n : Nat} (a : Nat → Nat → K) : PivKept (n := n) (PivInv a) :=
  ⟨fun h => h.swap, fun h => h.elim⟩

/-- State of the column loop over an ordered field. -/
abbrev PivState (n : Nat) (a : Nat → Nat → K) (eps : K) (k : Nat) (r : LuPivot K ⊕ LuPivot K) : Prop :=
  PivStateG (n := n) (PivInv a) eps k r

/-- Outcome of the pivoted decomposition over an ordered field. -/
theorem luPivotInplace_cases (n : Nat) (a : Nat → Nat → K) (eps : K) :
    (∃ r, luPivotInplace eps (⟨n, n, a⟩ : Mat K) = .ok r ∧
      (PivState n a eps (n - 1) (.inl r) ∨ PivState n a eps (n - 1) (.inr r))) ∨
    (luPivotInplace eps (⟨n, n, a⟩ : Mat K) = .ub .divZero ∧ eps ≤ 0) :=
  luPivotInplace_gen (PivInv.kept a) (by simp) a ⟨fun i j => by simp, fun j h => by omega⟩ eps

end
end CML
