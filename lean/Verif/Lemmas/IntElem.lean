import Verif.Model.IntElem
import Verif.Props.MatSmall
import Verif.Props.VecRead

/-! Lemmas about integral element types. -/

set_option linter.unusedSectionVars false

namespace CML

section
variable {K : Type} [CommRing K] [LinearOrder K] [Div K]

/-- Adjugate of a 2×2 matrix, written out. -/
def cof2 (A : Matrix (Fin 2) (Fin 2) K) : Matrix (Fin 2) (Fin 2) K :=
  !![A 1 1, -A 0 1; -A 1 0, A 0 0]

/-- Adjugate of a 3×3 matrix, written out. -/
def cof3 (A : Matrix (Fin 3) (Fin 3) K) : Matrix (Fin 3) (Fin 3) K :=
  !![A 1 1 * A 2 2 - A 1 2 * A 2 1, A 0 2 * A 2 1 - A 0 1 * A 2 2, A 0 1 * A 1 2 - A 0 2 * A 1 1;
     A 1 2 * A 2 0 - A 1 0 * A 2 2, A 0 0 * A 2 2 - A 0 2 * A 2 0, A 0 2 * A 1 0 - A 0 0 * A 1 2;
     A 1 0 * A 2 1 - A 1 1 * A 2 0, A 0 1 * A 2 0 - A 0 0 * A 2 1, A 0 0 * A 1 1 - A 0 1 * A 1 0]

/-- The 3×3 minor of rows `p`, `q`, `r` and columns `x`, `y`, `z`. -/
def min3 (A : Matrix (Fin 4) (Fin 4) K) (p q r x y z : Fin 4) : K :=
  A p x * (A q y * A r z - A q z * A r y) - A p y * (A q x * A r z - A q z * A r x)
    + A p z * (A q x * A r y - A q y * A r x)

/-- Adjugate of a 4×4 matrix, written out. -/
def cof4 (A : Matrix (Fin 4) (Fin 4) K) : Matrix (Fin 4) (Fin 4) K :=
  !![min3 A 1 2 3 1 2 3, -min3 A 0 2 3 1 2 3, min3 A 0 1 3 1 2 3, -min3 A 0 1 2 1 2 3;
     -min3 A 1 2 3 0 2 3, min3 A 0 2 3 0 2 3, -min3 A 0 1 3 0 2 3, min3 A 0 1 2 0 2 3;
     min3 A 1 2 3 0 1 3, -min3 A 0 2 3 0 1 3, min3 A 0 1 3 0 1 3, -min3 A 0 1 2 0 1 3;
     -min3 A 1 2 3 0 1 2, min3 A 0 2 3 0 1 2, -min3 A 0 1 3 0 1 2, min3 A 0 1 2 0 1 2]

theorem cof2_mul (A : Matrix (Fin 2) (Fin 2) K) : cof2 A * A = A.det • (1 : Matrix (Fin 2) (Fin 2) K) := by
  ext i j
  fin_cases i <;> fin_cases j <;>
    simp [cof2, Matrix.mul_apply, Fin.sum_univ_two, Matrix.det_fin_two] <;> ring

theorem cof3_mul (A : Matrix (Fin 3) (Fin 3) K) : cof3 A * A = A.det • (1 : Matrix (Fin 3) (Fin 3) K) := by
  ext i j
  fin_cases i <;> fin_cases j <;>
    simp [cof3, Matrix.mul_apply, Fin.sum_univ_three, Matrix.det_fin_three] <;> ring

theorem cof4_mul (A : Matrix (Fin 4) (Fin 4) K) : cof4 A * A = A.det • (1 : Matrix (Fin 4) (Fin 4) K) := by
  ext i j
  fin_cases i <;> fin_cases j <;>
    simp [cof4, min3, Matrix.mul_apply, Fin.sum_univ_four, det4_expand] <;> ring

/-- A left quotient of the determinant is the adjugate. -/
theorem eq_adjugate [IsDomain K] {n : Nat} {A B : Matrix (Fin n) (Fin n) K}
    (h : B * A = A.det • (1 : Matrix (Fin n) (Fin n) K)) (h0 : A.det ≠ 0) : B = A.adjugate := by
  have h1 : A.det • B = A.det • A.adjugate := by
    calc A.det • B = B * (A.det • (1 : Matrix (Fin n) (Fin n) K)) := by simp
      _ = B * (A * A.adjugate) := by rw [Matrix.mul_adjugate]
      _ = A.det • A.adjugate := by rw [← Matrix.mul_assoc, h]; simp
  ext i j
  have := congrFun (congrFun h1 i) j
  simp only [Matrix.smul_apply, smul_eq_mul] at this
  exact mul_left_cancel₀ h0 this

/-- The closed forms divide each element of the adjugate by the determinant, whatever the division. -/
theorem inverse_quot [IsDomain K] (fixed : Bool) (M : Mat K) (n : Nat)
    (hn : n = 2 ∨ n = 3 ∨ n = 4) (hr : M.rows = n) (hc : M.cols = n) :
    ((M.toMatrix n n).det = 0 → inverse fixed M = .ub .divZero) ∧
    ((M.toMatrix n n).det ≠ 0 → ∃ M', inverse fixed M = .ok M' ∧
      M'.Is n (Matrix.of fun i j => (M.toMatrix n n).adjugate i j / (M.toMatrix n n).det)) := by
  rcases hn with rfl | rfl | rfl
  · have hD : (M.toMatrix 2 2).det = M.el 0 0 * M.el 1 1 - M.el 0 1 * M.el 1 0 := by
      simp [Matrix.det_fin_two, Mat.toMatrix]
    refine ⟨fun h0 => ?_, fun h0 => ?_⟩
    · rw [hD] at h0
      simp [inverse, checkSquare, hr, hc, Res.require, inverse2, Mat.get, divR, h0]
    · rw [← eq_adjugate (cof2_mul _) h0]
      rw [hD] at h0 ⊢
      simp only [inverse, checkSquare, hr, hc, Res.require, inverse2, Mat.get, divR, h0,
        Mat.put, Mat.set, decide_true, if_true, if_false, Res.ok_bind, Nat.zero_lt_succ,
        and_self, Nat.lt_succ_self, show (0:Nat) < 2 from by decide, show (1:Nat) < 2 from by decide]
      refine ⟨_, rfl, rfl, rfl, ?_⟩
      ext i j
      fin_cases i <;> fin_cases j <;> simp [Mat.toMatrix, cof2]
  · have hD : (M.toMatrix 3 3).det = M.el 0 0 * (M.el 1 1 * M.el 2 2 - M.el 1 2 * M.el 2 1)
        + M.el 0 1 * (M.el 1 2 * M.el 2 0 - M.el 1 0 * M.el 2 2)
        + M.el 0 2 * (M.el 1 0 * M.el 2 1 - M.el 1 1 * M.el 2 0) := by
      simp [Matrix.det_fin_three, Mat.toMatrix]; ring
    refine ⟨fun h0 => ?_, fun h0 => ?_⟩
    · rw [hD] at h0
      simp [inverse, checkSquare, hr, hc, Res.require, inverse3, Mat.get, divR, h0]
    · rw [← eq_adjugate (cof3_mul _) h0]
      rw [hD] at h0 ⊢
      simp only [inverse, checkSquare, hr, hc, Res.require, inverse3, Mat.get, divR, h0,
        Mat.put, Mat.set, decide_true, if_true, if_false, Res.ok_bind,
        and_self, show (0:Nat) < 3 from by decide, show (1:Nat) < 3 from by decide,
        show (2:Nat) < 3 from by decide]
      refine ⟨_, rfl, rfl, rfl, ?_⟩
      ext i j
      fin_cases i <;> fin_cases j <;> simp [Mat.toMatrix, cof3]
  · have hD := det4_expand (M.toMatrix 4 4)
    simp only [Mat.toMatrix, Fin.isValue, Fin.val_zero, Fin.val_one, Fin.val_two,
      show ((3 : Fin 4) : Nat) = 3 from rfl] at hD
    refine ⟨fun h0 => ?_, fun h0 => ?_⟩
    · have hD' : (M.toMatrix 4 4).det = _ := hD
      have h1 := h0
      rw [hD'] at h1
      simp only [inverse, checkSquare, hr, hc, Res.require, inverse4, els4, Mat.get, divR, h1,
        decide_true, if_true, Res.ok_bind, Res.pure_eq,
        and_self, show (0:Nat) < 4 from by decide, show (1:Nat) < 4 from by decide,
        show (2:Nat) < 4 from by decide, show (3:Nat) < 4 from by decide, Res.ub_bind]
    · rw [← eq_adjugate (cof4_mul _) h0]
      have hD' : (M.toMatrix 4 4).det = _ := hD
      rw [hD'] at h0 ⊢
      simp only [inverse, checkSquare, hr, hc, Res.require, inverse4, els4, Mat.get, divR, h0,
        Mat.put, Mat.set, decide_true, if_true, if_false, Res.ok_bind, Res.pure_eq,
        and_self, show (0:Nat) < 4 from by decide, show (1:Nat) < 4 from by decide,
        show (2:Nat) < 4 from by decide, show (3:Nat) < 4 from by decide]
      refine ⟨_, rfl, rfl, rfl, ?_⟩
      ext i j
      fin_cases i <;> fin_cases j <;> simp [Mat.toMatrix, cof4, min3] <;> congr 1 <;> ring

end

/-- Truncating division: the remainder is smaller than the divisor. -/
theorem cdiv_error {a d : CInt} (hd : d ≠ 0) : |a - a / d * d| < |d| ∧ |a / d * d| ≤ |a| := by
  have h1 : ∀ a d : ℤ, d ≠ 0 → |a - a.tdiv d * d| < |d| ∧ |a.tdiv d * d| ≤ |a| := by
    intro a d hd
    have h2 := Int.tmod_add_tdiv_mul a d
    constructor
    · have : a - a.tdiv d * d = a.tmod d := by linarith
      rw [this, Int.abs_eq_natAbs, Int.abs_eq_natAbs, Int.natAbs_tmod]
      exact_mod_cast Nat.mod_lt _ (Int.natAbs_pos.2 hd)
    · rw [Int.abs_eq_natAbs, Int.abs_eq_natAbs, Int.natAbs_mul, Int.natAbs_tdiv]
      exact_mod_cast Nat.div_mul_le_self _ _
  exact h1 a d hd

theorem cdiv_len {l x : CInt} (hl : 0 < l) (hx : |x| ≤ l) :
    (x = l → x / l = 1) ∧ (x = -l → x / l = -1) ∧ (|x| ≠ l → x / l = 0) := by
  have h1 : ∀ l x : ℤ, 0 < l → |x| ≤ l →
      (x = l → x.tdiv l = 1) ∧ (x = -l → x.tdiv l = -1) ∧ (|x| ≠ l → x.tdiv l = 0) := by
    intro l x hl hx
    refine ⟨?_, ?_, ?_⟩
    · rintro rfl; exact Int.tdiv_self hl.ne'
    · rintro rfl; rw [Int.neg_tdiv, Int.tdiv_self hl.ne']
    · intro h
      have h2 : |x| < l := lt_of_le_of_ne hx h
      rw [← Int.natAbs_eq_zero, Int.natAbs_tdiv]
      apply Nat.div_eq_of_lt
      rw [Int.abs_eq_natAbs] at h2
      omega
  exact h1 l x hl hx

theorem csqrt_spec {x : CInt} (hx : 0 ≤ x) :
    0 ≤ (Sqrt.sqrt x : CInt) ∧ (Sqrt.sqrt x : CInt) * Sqrt.sqrt x ≤ x ∧
      x < (Sqrt.sqrt x + 1) * (Sqrt.sqrt x + 1) := by
  have h1 : ∀ x : ℤ, 0 ≤ x → (0 : ℤ) ≤ (Nat.sqrt x.toNat : ℕ) ∧
      ((Nat.sqrt x.toNat : ℕ) : ℤ) * (Nat.sqrt x.toNat : ℕ) ≤ x ∧
      x < ((Nat.sqrt x.toNat : ℕ) + 1) * ((Nat.sqrt x.toNat : ℕ) + 1) := by
    intro x hx
    have h2 := Nat.sqrt_le x.toNat
    have h3 := Nat.lt_succ_sqrt x.toNat
    have h4 : ((x.toNat : ℕ) : ℤ) = x := Int.toNat_of_nonneg hx
    refine ⟨by positivity, ?_, ?_⟩
    · rw [← h4]; exact_mod_cast h2
    · rw [← h4]; exact_mod_cast h3
  exact h1 x hx

end CML
