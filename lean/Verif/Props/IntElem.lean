import Verif.Lemmas.IntElem
import Verif.Lemmas.OpAssign
import Mathlib.Data.Int.Order.Units
import Mathlib.Algebra.BigOperators.Fin

/-!
C122: vectors and matrices of integers.  Sums, products and the closed form determinants are exact; what
divides or takes a square root truncates.
-/

namespace CML
open Matrix

instance : IsDomain CInt := inferInstanceAs (IsDomain ℤ)
instance : IsStrictOrderedRing CInt := inferInstanceAs (IsStrictOrderedRing ℤ)

/-! ### Determinant -/

/-- C122, the part that holds of the determinant: for 2×2, 3×3 and 4×4 matrices of integers it is exact.
Missing: larger matrices, see `determinant_int_false`. -/
theorem determinant_int_partial (fixed : Bool) (eps : CInt) (M : Mat CInt) (n : Nat)
    (hn : n = 2 ∨ n = 3 ∨ n = 4) (A : Matrix (Fin n) (Fin n) CInt) (h : M.Is n A) :
    determinant fixed eps M = .ok A.det := by
  have h' := det_small_ring M
  rcases hn with rfl | rfl | rfl
  · simpa [determinant, checkSquare, h.rows, h.cols, Res.require] using h'.1 A h
  · simpa [determinant, checkSquare, h.rows, h.cols, Res.require] using h'.2.1 A h
  · simpa [determinant, checkSquare, h.rows, h.cols, Res.require] using h'.2.2 A h

/-- A 5×5 matrix of determinant 3. -/
def ex5 : Matrix (Fin 5) (Fin 5) CInt :=
  !![2, 1, 0, 0, 0; 1, 2, 0, 0, 0; 0, 0, 1, 0, 0; 0, 0, 0, 1, 0; 0, 0, 0, 0, 1]

/-- A 5×5 matrix of determinant 1. -/
def ex5u : Matrix (Fin 5) (Fin 5) CInt :=
  !![2, 1, 0, 0, 0; 1, 1, 0, 0, 0; 0, 0, 1, 0, 0; 0, 0, 0, 1, 0; 0, 0, 0, 0, 1]

private theorem ex5_det : ex5.det = 3 := by decide +kernel

private theorem ex5u_det : ex5u.det = 1 := by decide +kernel

/-- C122: the determinant of a 5×5 matrix is computed through a factorisation with truncating divisions;
here it comes out as 4 instead of 3. -/
theorem determinant_int_false : determinant true 0 (Mat.of ex5) = .ok 4 ∧ ex5.det = 3 := ⟨rfl, ex5_det⟩

/-! ### Inverse -/

/-- C122: the inverse of a singular 2×2, 3×3 or 4×4 matrix of integers divides by zero, which is
undefined for integers. -/
theorem inverse_int_singular (fixed : Bool) (M : Mat CInt) (n : Nat) (hn : n = 2 ∨ n = 3 ∨ n = 4)
    (A : Matrix (Fin n) (Fin n) CInt) (h : M.Is n A) (h0 : A.det = 0) :
    inverse fixed M = .ub .divZero := by
  obtain ⟨hr, hc, rfl⟩ := h
  exact (inverse_quot fixed M n hn hr hc).1 h0

private theorem div_one' (a : CInt) : a / (1 : CInt) = a := Int.tdiv_one a
private theorem div_neg_one' (a : CInt) : a / (-1 : CInt) = -a := by
  have h : ∀ a : ℤ, a.tdiv (-1) = -a := by intro a; rw [Int.tdiv_neg, Int.tdiv_one]
  exact h a

/-- C122: for a regular 2×2, 3×3 or 4×4 matrix of integers, `inverse` returns the inverse exactly if the
determinant is 1 or -1; for all other determinants the result is wrong. -/
theorem inverse_int_iff (fixed : Bool) (M : Mat CInt) (n : Nat) (hn : n = 2 ∨ n = 3 ∨ n = 4)
    (A : Matrix (Fin n) (Fin n) CInt) (h : M.Is n A) (h0 : A.det ≠ 0) :
    ∃ M' B, inverse fixed M = .ok M' ∧ M'.Is n B ∧
      (B * A = 1 ↔ A.det = 1 ∨ A.det = -1) ∧ (A * B = 1 ↔ A.det = 1 ∨ A.det = -1) := by
  obtain ⟨hr, hc, rfl⟩ := h
  obtain ⟨M', e1, e2⟩ := (inverse_quot fixed M n hn hr hc).2 h0
  set A := M.toMatrix n n
  have key : (Matrix.of fun i j => A.adjugate i j / A.det) * A = 1 ↔ A.det = 1 ∨ A.det = -1 := by
    constructor
    · intro hB
      have hd := congrArg Matrix.det hB
      rw [Matrix.det_mul, Matrix.det_one] at hd
      have hu : IsUnit A.det := IsUnit.of_mul_eq_one_right _ hd
      exact Int.isUnit_iff.1 hu
    · rintro (hd | hd)
      · have : (Matrix.of fun i j => A.adjugate i j / A.det) = A.adjugate := by
          ext i j
          rw [Matrix.of_apply, hd, div_one']
        rw [this, Matrix.adjugate_mul, hd, one_smul]
      · have : (Matrix.of fun i j => A.adjugate i j / A.det) = -A.adjugate := by
          ext i j
          rw [Matrix.of_apply, hd, div_neg_one']
          rfl
        rw [this, Matrix.neg_mul, Matrix.adjugate_mul, hd, neg_smul, one_smul, neg_neg]
  exact ⟨M', _, e1, e2, key, by rw [mul_eq_one_comm]; exact key⟩

/-- The hypotheses are met by a matrix of determinant 1 and by one of determinant 2. -/
example : (Mat.of !![(2 : CInt), 1; 1, 1]).Is 2 !![2, 1; 1, 1] ∧
    (!![(2 : CInt), 1; 1, 1]).det = 1 ∧ (!![(2 : CInt), 0; 1, 1]).det = 2 :=
  ⟨Mat.of_is _, by rw [Matrix.det_fin_two]; rfl, by rw [Matrix.det_fin_two]; rfl⟩

/-- C122: what is stored is each element of the adjugate divided by the determinant, rounded towards
zero: the error of an element is less than one. -/
theorem inverse_int_error (fixed : Bool) (M : Mat CInt) (n : Nat) (hn : n = 2 ∨ n = 3 ∨ n = 4)
    (A : Matrix (Fin n) (Fin n) CInt) (h : M.Is n A) (h0 : A.det ≠ 0) :
    ∃ M' B, inverse fixed M = .ok M' ∧ M'.Is n B ∧
      ∀ i j, |A.adjugate i j - B i j * A.det| < |A.det| ∧ |B i j * A.det| ≤ |A.adjugate i j| := by
  obtain ⟨hr, hc, rfl⟩ := h
  obtain ⟨M', e1, e2⟩ := (inverse_quot fixed M n hn hr hc).2 h0
  refine ⟨M', _, e1, e2, fun i j => ?_⟩
  rw [Matrix.of_apply]
  exact cdiv_error h0

/-- C122: larger matrices are inverted with pivoting and truncating divisions: even for determinant 1 the
result can be wrong. -/
theorem inverse_int_pivot_false : ∃ M' B, inverse true (Mat.of ex5u) = .ok M' ∧ M'.Is 5 B ∧
    ex5u.det = 1 ∧ B * ex5u ≠ 1 := by
  have hc : (match inverse true (Mat.of ex5u) with
      | .ok M' => decide (M'.rows = 5 ∧ M'.cols = 5 ∧ ∀ j : Fin 5, M'.el 0 j = 0)
      | _ => false) = true := by decide +kernel
  rcases h : inverse true (Mat.of ex5u) with M' | e | u
  · rw [h] at hc
    obtain ⟨h1, h2, h3⟩ := of_decide_eq_true hc
    refine ⟨M', M'.toMatrix 5 5, rfl, ⟨h1, h2, rfl⟩, ex5u_det, fun hB => ?_⟩
    have h0 := congrFun (congrFun hB 0) 0
    rw [Matrix.mul_apply, Finset.sum_eq_zero] at h0
    · exact zero_ne_one h0
    · intro j _
      have : M'.toMatrix 5 5 0 j = 0 := h3 j
      rw [this, zero_mul]
  · rw [h] at hc; cases hc
  · rw [h] at hc; cases hc

/-! ### Length and normalisation -/

section
variable {s : State CInt} {a : VNode CInt} {n : Nat} {p : Fin n → CInt}

/-- C122: the length of a vector of integers is the square root of the sum of squares, rounded down. -/
theorem vlength_int (ha : VIs s a n p) (hn : 0 < n) :
    ∃ l : CInt, vLength s a = .ok l ∧ 0 ≤ l ∧ l * l ≤ p ⬝ᵥ p ∧ p ⬝ᵥ p < (l + 1) * (l + 1) := by
  refine ⟨_, by rw [vLength, vlengthSquared_dot ha, vdot_sum ha ha hn]; rfl, ?_⟩
  exact csqrt_spec (Finset.sum_nonneg fun i _ => mul_self_nonneg (p i))

private theorem abs_le_len {l : CInt} (h0 : 0 ≤ l) (h2 : p ⬝ᵥ p < (l + 1) * (l + 1)) (i : Fin n) :
    |p i| ≤ l := by
  have h1 : p i * p i ≤ p ⬝ᵥ p :=
    Finset.single_le_sum (f := fun i => p i * p i) (fun i _ => mul_self_nonneg _) (Finset.mem_univ i)
  have h3 : |p i| < l + 1 := by
    rw [← abs_of_nonneg (show 0 ≤ l + 1 by linarith)]
    exact sq_lt_sq.1 (by rw [sq, sq]; exact lt_of_le_of_lt h1 h2)
  exact Int.lt_add_one_iff.1 h3

/-- What truncating division by the length does to an element. -/
private theorem quot_len {l : CInt} (hl : 0 < l) {x : CInt} (hx : |x| ≤ l) :
    (x = l → x / l = 1) ∧ (x = -l → x / l = -1) ∧ (|x| ≠ l → x / l = 0) := cdiv_len hl hx

private theorem scal_is {l : CInt} (ha : VIs s a n p) : VIs s (.scal .div a l) n fun i => p i / l := by
  obtain ⟨f, hf⟩ := ha.known
  refine ⟨⟨by rw [VNode.size]; exact ha.rep.size, fun i => ?_⟩, _, hf.scal _ _⟩
  have h4 := ha.rep.get i
  simp only at h4
  rw [VNode.get, h4]
  rfl

private theorem normalize_core (ha : VIs s a n p) (hp : p ≠ 0) :
    ∃ l : CInt, vLength s a = .ok l ∧ 0 < l ∧
      (∀ i, (p i = l → p i / l = 1) ∧ (p i = -l → p i / l = -1) ∧ (|p i| ≠ l → p i / l = 0)) := by
  have hn : 0 < n := by
    rcases Nat.eq_zero_or_pos n with h | h
    · subst h; exact absurd (funext fun i => i.elim0) hp
    · exact h
  obtain ⟨l, h1, h2, h3, h4⟩ := vlength_int ha hn
  have hl : 0 < l := by
    rcases h2.lt_or_eq with h | h
    · exact h
    · exfalso
      apply hp
      funext i
      have := abs_le_len h2 h4 i
      rw [← h] at this
      exact abs_nonpos_iff.1 this
  exact ⟨l, h1, hl, fun i => quot_len hl (abs_le_len h2 h4 i)⟩

/-- C122: `normalize` of a nonzero vector of integers leaves 1 or -1 in the elements whose absolute value
is the (truncated) length and zero in all others. -/
theorem normalized_int (ha : VIs s a n p) (hp : p ≠ 0) :
    ∃ b u, ∃ l : CInt, vNormalized s a = .ok b ∧ VIs s b n u ∧ vLength s a = .ok l ∧ 0 < l ∧
      ∀ i, (p i = l → u i = 1) ∧ (p i = -l → u i = -1) ∧ (|p i| ≠ l → u i = 0) := by
  obtain ⟨l, h1, h2, h3⟩ := normalize_core ha hp
  exact ⟨.scal .div a l, _, l, by rw [vNormalized, h1]; rfl, scal_is ha, h1, h2, h3⟩

/-- C122: the same in place; nothing else changes. -/
theorem normalize_int {triv : Bool} {x : Nat} {d : VObj} (hx : s.vec x = some d)
    (ha : VIs s (.var x) n p) (hp : p ≠ 0) :
    ∃ h' u, ∃ l : CInt, vNormalize triv s x = .ok { s with heap := h' } ∧
      VIs { s with heap := h' } (.var x) n u ∧ SameOutside d s.heap h' ∧
      vLength s (.var x) = .ok l ∧ 0 < l ∧
      ∀ i, (p i = l → u i = 1) ∧ (p i = -l → u i = -1) ∧ (|p i| ≠ l → u i = 0) := by
  obtain ⟨l, h1, h2, h3⟩ := normalize_core ha hp
  obtain ⟨h', g1, g2, g3⟩ := scalAssign_partial (triv := triv) (o := .div) hx _ ha.rep (.val l) l rfl
    (by intro y i h; cases h)
  exact ⟨h', fun i => p i / l, l, by simp [vNormalize, h1, g1], ⟨g2, typed_var_v ha.rep.size⟩, g3, h1, h2, h3⟩

/-- C122: the result is never the unit vector in the direction of a vector with two or more nonzero
elements. -/
theorem normalized_int_false (ha : VIs s a n p) {i j : Fin n} (hij : i ≠ j) (hi : p i ≠ 0)
    (hj : p j ≠ 0) :
    ∃ b u, vNormalized s a = .ok b ∧ VIs s b n u ∧
      ¬(u ⬝ᵥ u = 1 ∧ ∀ k m, u k * p m = u m * p k) := by
  have hp : p ≠ 0 := fun h => hi (congrFun h i)
  obtain ⟨b, u, l, h1, h2, -, -, h3⟩ := normalized_int ha hp
  refine ⟨b, u, h1, h2, fun ⟨hu, hpar⟩ => ?_⟩
  have hsq : ∀ k, u k ≠ 0 → u k * u k = 1 := by
    intro k hk
    by_cases hl : |p k| = l
    · rcases abs_choice (p k) with h | h
      · rw [(h3 k).1 (by rw [← hl, h])]; rfl
      · rw [(h3 k).2.1 (by rw [← hl, h, neg_neg])]; rfl
    · exact absurd ((h3 k).2.2 hl) hk
  have hne : u ≠ 0 := by
    rintro rfl
    simp at hu
  obtain ⟨k, hk⟩ := Function.ne_iff.1 hne
  have hzero : ∀ m, m ≠ k → u m = 0 := by
    intro m hm
    by_contra hum
    have h2' : u k * u k + u m * u m ≤ u ⬝ᵥ u := by
      have := Finset.sum_le_sum_of_subset_of_nonneg (f := fun i => u i * u i)
        (Finset.subset_univ ({k, m} : Finset (Fin n))) (fun i _ _ => mul_self_nonneg _)
      rwa [Finset.sum_pair (Ne.symm hm)] at this
    rw [hsq k hk, hsq m hum, hu] at h2'
    exact absurd h2' (by decide)
  have hall : ∀ m, m ≠ k → p m = 0 := by
    intro m hm
    have := hpar k m
    rw [hzero m hm, zero_mul] at this
    exact (mul_eq_zero.1 this).resolve_left hk
  rcases eq_or_ne i k with rfl | hik
  · exact hj (hall j (Ne.symm hij))
  · exact hi (hall i hik)

/-- C122, the part that holds of `normalize`: a multiple of a coordinate vector becomes that coordinate
vector or its opposite.  Missing: every other vector (`normalized_int_false`). -/
theorem normalized_int_partial {i : Fin n} {k : CInt} (ha : VIs s a n (Pi.single i k)) (hk : k ≠ 0) :
    ∃ b u, vNormalized s a = .ok b ∧ VIs s b n u ∧ u = Pi.single i (if 0 < k then 1 else -1) := by
  have hp : (Pi.single i k : Fin n → CInt) ≠ 0 := fun h => hk (by simpa using congrFun h i)
  have hn : 0 < n := lt_of_le_of_lt (Nat.zero_le _) i.2
  obtain ⟨b, u, l, h1, h2, h3, h4, h5⟩ := normalized_int ha hp
  refine ⟨b, u, h1, h2, ?_⟩
  obtain ⟨l', g1, g2, g3, g4⟩ := vlength_int ha hn
  rw [h3] at g1
  cases g1
  have hd : (Pi.single i k : Fin n → CInt) ⬝ᵥ Pi.single i k = |k| * |k| := by
    rw [single_dotProduct, Pi.single_eq_same, abs_mul_abs_self]
  rw [hd] at g3 g4
  have hl : |k| = l := by
    have e1 : l ≤ |k| := by nlinarith [abs_nonneg k]
    have e2 : |k| < l + 1 := by nlinarith [abs_nonneg k]
    exact le_antisymm (Int.lt_add_one_iff.1 e2) e1
  funext j
  rcases eq_or_ne j i with rfl | hj
  · rw [Pi.single_eq_same]
    have := h5 j
    rw [Pi.single_eq_same] at this
    split_ifs with hpos
    · exact this.1 (by rw [← hl, abs_of_pos hpos])
    · exact this.2.1 (by rw [← hl, abs_of_nonpos (not_lt.1 hpos), neg_neg])
  · rw [Pi.single_eq_of_ne hj]
    have := (h5 j).2.2
    rw [Pi.single_eq_of_ne hj, abs_zero] at this
    exact this h4.ne

end

section Examples

private theorem ex_is (s : State CInt) (x y : CInt) : VIs s (.temp true [x, y]) 2 ![x, y] :=
  ⟨⟨rfl, fun i => by fin_cases i <;> rfl⟩, _, .temp rfl⟩

/-- The length of (3, 4) is 5; its normalisation is (0, 0). -/
example (s : State CInt) := vlength_int (ex_is s 3 4) (by decide)
example (s : State CInt) := normalized_int_false (ex_is s 3 4) (i := 0) (j := 1) (by decide) (by decide) (by decide)
example (s : State CInt) := normalized_int (ex_is s 3 4) (fun h => absurd (congrFun h 0) (by decide))
example (s : State CInt) : VIs s (.temp true [0, -7]) 2 (Pi.single 1 (-7)) :=
  (show (![0, -7] : Fin 2 → CInt) = Pi.single 1 (-7) by funext i; fin_cases i <;> rfl) ▸ ex_is s 0 (-7)
example : (Mat.of !![(2 : CInt), 4; 1, 2]).Is 2 !![2, 4; 1, 2] ∧ (!![(2 : CInt), 4; 1, 2]).det = 0 :=
  ⟨Mat.of_is _, by rw [Matrix.det_fin_two]; rfl⟩

end Examples

end CML

#print axioms CML.determinant_int_partial
#print axioms CML.determinant_int_false
#print axioms CML.inverse_int_singular
#print axioms CML.inverse_int_iff
#print axioms CML.inverse_int_error
#print axioms CML.inverse_int_pivot_false
#print axioms CML.vlength_int
#print axioms CML.normalized_int
#print axioms CML.normalize_int
#print axioms CML.normalized_int_false
#print axioms CML.normalized_int_partial
