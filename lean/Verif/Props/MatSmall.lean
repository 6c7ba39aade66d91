import Verif.Spec.Mat
import Verif.Tactics
import Mathlib.LinearAlgebra.Matrix.NonsingularInverse

/-! C33, C35: determinant and inverse of 2×2, 3×3 and 4×4 matrices. -/

set_option linter.unusedSectionVars false

namespace CML

section
variable {K : Type} [CommRing K]

theorem det4_expand (A : Matrix (Fin 4) (Fin 4) K) : A.det =
    A 0 0 * (A 1 1 * (A 2 2 * A 3 3 - A 2 3 * A 3 2) + A 1 2 * (A 2 3 * A 3 1 - A 2 1 * A 3 3)
      + A 1 3 * (A 2 1 * A 3 2 - A 2 2 * A 3 1))
    - A 0 1 * (A 1 0 * (A 2 2 * A 3 3 - A 2 3 * A 3 2) + A 1 2 * (A 2 3 * A 3 0 - A 2 0 * A 3 3)
      + A 1 3 * (A 2 0 * A 3 2 - A 2 2 * A 3 0))
    + A 0 2 * (A 1 0 * -(A 2 3 * A 3 1 - A 2 1 * A 3 3) + A 1 1 * (A 2 3 * A 3 0 - A 2 0 * A 3 3)
      + A 1 3 * (A 2 0 * A 3 1 - A 2 1 * A 3 0))
    - A 0 3 * (A 1 0 * (A 2 1 * A 3 2 - A 2 2 * A 3 1) + A 1 1 * -(A 2 0 * A 3 2 - A 2 2 * A 3 0)
      + A 1 2 * (A 2 0 * A 3 1 - A 2 1 * A 3 0)) := by
  rw [Matrix.det_succ_row_zero]
  simp only [Fin.sum_univ_four, Matrix.det_fin_three, Matrix.submatrix_apply]
  simp [Fin.succAbove, Fin.lt_def]
  ring

/-- C33: the closed forms are the determinant (the Leibniz sum over permutations of Mathlib), over
any commutative ring. -/
theorem det_small_ring (M : Mat K) :
    (∀ A, M.Is 2 A → det2 M = .ok A.det) ∧ (∀ A, M.Is 3 A → det3 M = .ok A.det) ∧
    (∀ A, M.Is 4 A → det4 M = .ok A.det) := by
  refine ⟨?_, ?_, ?_⟩
  · rintro A ⟨hr, hc, rfl⟩
    simp only [hr, hc, det2, Mat.get]
    simp [Matrix.det_fin_two, Mat.toMatrix, mul_comm]
  · rintro A ⟨hr, hc, rfl⟩
    simp only [hr, hc, det3, Mat.get]
    simp [Matrix.det_fin_three, Mat.toMatrix]
    ring
  · rintro A ⟨hr, hc, rfl⟩
    simp only [hr, hc, det4, els4, Mat.get]
    simp [det4_expand, Mat.toMatrix]

end

section
variable {K : Type} [Field K] [LinearOrder K]

/-- C33: `determinant(M)` of a 2×2, 3×3 or 4×4 matrix, fixed-size or dynamic. -/
theorem determinant_small (fixed : Bool) (eps : K) (M : Mat K) (n : Nat)
    (hn : n = 2 ∨ n = 3 ∨ n = 4) (A : Matrix (Fin n) (Fin n) K) (h : M.Is n A) :
    determinant fixed eps M = .ok A.det := by
  have h' := det_small_ring M
  rcases hn with rfl | rfl | rfl
  · simpa [determinant, checkSquare, h.rows, h.cols, Res.require] using h'.1 A h
  · simpa [determinant, checkSquare, h.rows, h.cols, Res.require] using h'.2.1 A h
  · simpa [determinant, checkSquare, h.rows, h.cols, Res.require] using h'.2.2 A h

/-- Adjugate of a 2×2 matrix, written out. -/
private def adj2 (A : Matrix (Fin 2) (Fin 2) K) : Matrix (Fin 2) (Fin 2) K :=
  !![A 1 1, -A 0 1; -A 1 0, A 0 0]

/-- Adjugate of a 3×3 matrix, written out. -/
private def adj3 (A : Matrix (Fin 3) (Fin 3) K) : Matrix (Fin 3) (Fin 3) K :=
  !![A 1 1 * A 2 2 - A 1 2 * A 2 1, A 0 2 * A 2 1 - A 0 1 * A 2 2, A 0 1 * A 1 2 - A 0 2 * A 1 1;
     A 1 2 * A 2 0 - A 1 0 * A 2 2, A 0 0 * A 2 2 - A 0 2 * A 2 0, A 0 2 * A 1 0 - A 0 0 * A 1 2;
     A 1 0 * A 2 1 - A 1 1 * A 2 0, A 0 1 * A 2 0 - A 0 0 * A 2 1, A 0 0 * A 1 1 - A 0 1 * A 1 0]

/-- `p * (a × b)` for rows `p`, `q`, `r` and columns `x`, `y`, `z`. -/
private def minor3 (A : Matrix (Fin 4) (Fin 4) K) (p q r x y z : Fin 4) : K :=
  A p x * (A q y * A r z - A q z * A r y) - A p y * (A q x * A r z - A q z * A r x)
    + A p z * (A q x * A r y - A q y * A r x)

/-- Adjugate of a 4×4 matrix, written out. -/
private def adj4 (A : Matrix (Fin 4) (Fin 4) K) : Matrix (Fin 4) (Fin 4) K :=
  !![minor3 A 1 2 3 1 2 3, -minor3 A 0 2 3 1 2 3, minor3 A 0 1 3 1 2 3, -minor3 A 0 1 2 1 2 3;
     -minor3 A 1 2 3 0 2 3, minor3 A 0 2 3 0 2 3, -minor3 A 0 1 3 0 2 3, minor3 A 0 1 2 0 2 3;
     minor3 A 1 2 3 0 1 3, -minor3 A 0 2 3 0 1 3, minor3 A 0 1 3 0 1 3, -minor3 A 0 1 2 0 1 3;
     -minor3 A 1 2 3 0 1 2, minor3 A 0 2 3 0 1 2, -minor3 A 0 1 3 0 1 2, minor3 A 0 1 2 0 1 2]

private theorem adj2_mul (A : Matrix (Fin 2) (Fin 2) K) : adj2 A * A = A.det • 1 := by
  ext i j
  fin_cases i <;> fin_cases j <;>
    simp [adj2, Matrix.mul_apply, Fin.sum_univ_two, Matrix.det_fin_two] <;> ring

private theorem adj3_mul (A : Matrix (Fin 3) (Fin 3) K) : adj3 A * A = A.det • 1 := by
  ext i j
  fin_cases i <;> fin_cases j <;>
    simp [adj3, Matrix.mul_apply, Fin.sum_univ_three, Matrix.det_fin_three] <;> ring

private theorem adj4_mul (A : Matrix (Fin 4) (Fin 4) K) : adj4 A * A = A.det • 1 := by
  ext i j
  fin_cases i <;> fin_cases j <;>
    simp [adj4, minor3, Matrix.mul_apply, Fin.sum_univ_four, det4_expand] <;> ring

private theorem inv_of_adj {n : Nat} {A B : Matrix (Fin n) (Fin n) K} (h : B * A = A.det • 1)
    (h0 : A.det ≠ 0) : A⁻¹ = A.det⁻¹ • B := by
  apply Matrix.inv_eq_left_inv
  rw [Matrix.smul_mul, h, smul_smul, inv_mul_cancel₀ h0, one_smul]

/-- What the closed forms compute before the divisions: numerators over the determinant. -/
private theorem inverse_eval (fixed : Bool) (M : Mat K) (n : Nat)
    (hn : n = 2 ∨ n = 3 ∨ n = 4) (hr : M.rows = n) (hc : M.cols = n) :
    ((M.toMatrix n n).det = 0 → inverse fixed M = .ub .divZero) ∧
    ((M.toMatrix n n).det ≠ 0 → ∃ M', inverse fixed M = .ok M' ∧
      M'.Is n (M.toMatrix n n)⁻¹) := by
  rcases hn with rfl | rfl | rfl
  · have hD : (M.toMatrix 2 2).det = M.el 0 0 * M.el 1 1 - M.el 0 1 * M.el 1 0 := by
      simp [Matrix.det_fin_two, Mat.toMatrix]
    refine ⟨fun h0 => ?_, fun h0 => ?_⟩
    · rw [hD] at h0
      simp [inverse, checkSquare, hr, hc, Res.require, inverse2, Mat.get, divR, h0]
    · rw [inv_of_adj (adj2_mul _) h0]
      rw [hD] at h0 ⊢
      simp only [inverse, checkSquare, hr, hc, Res.require, inverse2, Mat.get, divR, h0,
        Mat.put, Mat.set, decide_true, if_true, if_false, Res.ok_bind, Nat.zero_lt_succ,
        and_self, Nat.lt_succ_self, show (0:Nat) < 2 from by decide, show (1:Nat) < 2 from by decide]
      refine ⟨_, rfl, rfl, rfl, ?_⟩
      ext i j
      fin_cases i <;> fin_cases j <;> simp [Mat.toMatrix, adj2] <;> ring
  · have hD : (M.toMatrix 3 3).det = M.el 0 0 * (M.el 1 1 * M.el 2 2 - M.el 1 2 * M.el 2 1)
        + M.el 0 1 * (M.el 1 2 * M.el 2 0 - M.el 1 0 * M.el 2 2)
        + M.el 0 2 * (M.el 1 0 * M.el 2 1 - M.el 1 1 * M.el 2 0) := by
      simp [Matrix.det_fin_three, Mat.toMatrix]; ring
    refine ⟨fun h0 => ?_, fun h0 => ?_⟩
    · rw [hD] at h0
      simp [inverse, checkSquare, hr, hc, Res.require, inverse3, Mat.get, divR, h0]
    · rw [inv_of_adj (adj3_mul _) h0]
      rw [hD] at h0 ⊢
      simp only [inverse, checkSquare, hr, hc, Res.require, inverse3, Mat.get, divR, h0,
        Mat.put, Mat.set, decide_true, if_true, if_false, Res.ok_bind,
        and_self, show (0:Nat) < 3 from by decide, show (1:Nat) < 3 from by decide,
        show (2:Nat) < 3 from by decide]
      refine ⟨_, rfl, rfl, rfl, ?_⟩
      ext i j
      fin_cases i <;> fin_cases j <;> simp [Mat.toMatrix, adj3] <;> ring
  · have hD := det4_expand (M.toMatrix 4 4)
    simp only [Mat.toMatrix, Fin.isValue, Fin.val_zero, Fin.val_one, Fin.val_two,
      show ((3 : Fin 4) : Nat) = 3 from rfl] at hD
    refine ⟨fun h0 => ?_, fun h0 => ?_⟩
    · have hD' : (M.toMatrix 4 4).det = _ := hD
      have h1 := h0
      rw [hD'] at h1
      simp only [inverse, checkSquare, hr, hc, Res.require, inverse4, els4, Mat.get, divR, h1,
        decide_true, if_true, Res.ok_bind, Res.pure_eq,
        and_self, show (0:Nat) < 4 from by decide, show (1:Nat) < 4 from by decide,
        show (2:Nat) < 4 from by decide, show (3:Nat) < 4 from by decide, Res.ub_bind]
    · rw [inv_of_adj (adj4_mul _) h0]
      have hD' : (M.toMatrix 4 4).det = _ := hD
      rw [hD'] at h0 ⊢
      simp only [inverse, checkSquare, hr, hc, Res.require, inverse4, els4, Mat.get, divR, h0,
        Mat.put, Mat.set, decide_true, if_true, if_false, Res.ok_bind, Res.pure_eq,
        and_self, show (0:Nat) < 4 from by decide, show (1:Nat) < 4 from by decide,
        show (2:Nat) < 4 from by decide, show (3:Nat) < 4 from by decide]
      refine ⟨_, rfl, rfl, rfl, ?_⟩
      ext i j
      fin_cases i <;> fin_cases j <;> simp [Mat.toMatrix, adj4, minor3] <;> ring

/-- C35: for a nonzero determinant the closed forms return the inverse matrix. -/
theorem inverse_small (fixed : Bool) (M : Mat K) (n : Nat)
    (hn : n = 2 ∨ n = 3 ∨ n = 4) (A : Matrix (Fin n) (Fin n) K) (h : M.Is n A) (h0 : A.det ≠ 0) :
    ∃ M' B, inverse fixed M = .ok M' ∧ M'.Is n B ∧ B * A = 1 ∧ A * B = 1 := by
  have hu : IsUnit A.det := isUnit_iff_ne_zero.mpr h0
  obtain ⟨hr, hc, rfl⟩ := h
  obtain ⟨M', h1, h2⟩ := (inverse_eval fixed M n hn hr hc).2 h0
  exact ⟨M', _, h1, h2, Matrix.nonsing_inv_mul _ hu, Matrix.mul_nonsing_inv _ hu⟩

/-- C35: for a singular matrix the division by the determinant is a division by zero (the only way in
which the closed forms fail). -/
theorem inverse_small_singular (fixed : Bool) (M : Mat K) (n : Nat)
    (hn : n = 2 ∨ n = 3 ∨ n = 4) (A : Matrix (Fin n) (Fin n) K) (h : M.Is n A) (h0 : A.det = 0) :
    inverse fixed M = .ub .divZero := by
  obtain ⟨hr, hc, rfl⟩ := h
  exact (inverse_eval fixed M n hn hr hc).1 h0

/-- C33, C35: a matrix that is not square is rejected before any element is read. -/
theorem square_required (fixed : Bool) (eps : K) (M : Mat K) (h : M.rows ≠ M.cols) :
    (∃ e, determinant fixed eps M = .throw e ∧ (e = .staticAssert ↔ fixed = true)) ∧
    (∃ e, inverse fixed M = .throw e ∧ (e = .staticAssert ↔ fixed = true)) := by
  cases fixed <;> simp [determinant, inverse, checkSquare, Res.require, h]

end

/-- Example for C33/C35: a 4×4 matrix with nonzero determinant, and a singular one. -/
example : (Mat.of (K := ℚ) !![1, 2, 0, 1; 0, 1, 3, 0; 2, 0, 1, 1; 0, 0, 1, 2]).Is 4
    !![1, 2, 0, 1; 0, 1, 3, 0; 2, 0, 1, 1; 0, 0, 1, 2] ∧
    (!![1, 2, 0, 1; 0, 1, 3, 0; 2, 0, 1, 1; 0, 0, 1, 2] : Matrix (Fin 4) (Fin 4) ℚ).det ≠ 0 ∧
    (!![1, 2; 2, 4] : Matrix (Fin 2) (Fin 2) ℚ).det = 0 := by
  refine ⟨Mat.of_is _, ?_, ?_⟩
  · rw [det4_expand]; simp; norm_num
  · rw [Matrix.det_fin_two]; simp; norm_num

end CML

#print axioms CML.det_small_ring
#print axioms CML.determinant_small
#print axioms CML.inverse_small
#print axioms CML.inverse_small_singular
#print axioms CML.square_required
