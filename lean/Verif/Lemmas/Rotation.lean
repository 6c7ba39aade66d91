import Verif.Spec.Rotation
import Verif.Model.Rotation
import Verif.Lemmas.Lin
import Mathlib.LinearAlgebra.Matrix.Trace
import Mathlib.LinearAlgebra.Matrix.Determinant.Misc
import Mathlib.Tactic.LinearCombination

/-! Lemmas about rotations. -/

namespace CML
open Matrix BMat

theorem crossMat_eq (u : Fin 3 → ℝ) :
    crossMat u = !![0, -u 2, u 1; u 2, 0, -u 0; -u 1, u 0, 0] := by
  ext r c
  fin_cases r <;> fin_cases c <;> simp [crossMat, cross_apply]

theorem crossMat_mulVec (u v : Fin 3 → ℝ) : crossMat u *ᵥ v = crossProduct u v := by
  rw [crossMat_eq, cross_apply]
  funext i
  fin_cases i <;> simp [Matrix.mulVec, dotProduct, Fin.sum_univ_three] <;> ring

theorem rodrigues_eq (u : Fin 3 → ℝ) (θ : ℝ) : rodrigues u θ =
    !![u 0 * u 0 * (1 - Real.cos θ) + Real.cos θ, u 0 * u 1 * (1 - Real.cos θ) - u 2 * Real.sin θ,
        u 0 * u 2 * (1 - Real.cos θ) + u 1 * Real.sin θ;
      u 0 * u 1 * (1 - Real.cos θ) + u 2 * Real.sin θ, u 1 * u 1 * (1 - Real.cos θ) + Real.cos θ,
        u 1 * u 2 * (1 - Real.cos θ) - u 0 * Real.sin θ;
      u 0 * u 2 * (1 - Real.cos θ) - u 1 * Real.sin θ,
        u 1 * u 2 * (1 - Real.cos θ) + u 0 * Real.sin θ,
        u 2 * u 2 * (1 - Real.cos θ) + Real.cos θ] := by
  ext r c
  fin_cases r <;> fin_cases c <;>
    simp [rodrigues, crossMat_eq, Matrix.vecMulVec] <;> ring

/-- Rodrigues' formula applied to a vector. -/
theorem rodrigues_mulVec (u v : Fin 3 → ℝ) (θ : ℝ) : rodrigues u θ *ᵥ v =
    Real.cos θ • v + Real.sin θ • crossProduct u v + ((1 - Real.cos θ) * (u ⬝ᵥ v)) • u := by
  simp only [rodrigues, Matrix.add_mulVec, Matrix.smul_mulVec, Matrix.one_mulVec, crossMat_mulVec]
  congr 1
  funext i
  simp only [Matrix.mulVec, Matrix.vecMulVec, dotProduct, Fin.sum_univ_three, Pi.smul_apply,
    smul_eq_mul, Matrix.of_apply]
  ring

theorem isRotation_iff {M : Matrix (Fin 3) (Fin 3) ℝ} :
    IsRotation M ↔ M * M.transpose = 1 ∧ M.det = 1 := by
  unfold IsRotation
  rw [Matrix.mem_specialOrthogonalGroup_iff, Matrix.mem_orthogonalGroup_iff]

theorem isRotation_iff' {M : Matrix (Fin 3) (Fin 3) ℝ} :
    IsRotation M ↔ M.transpose * M = 1 ∧ M.det = 1 := by
  rw [isRotation_iff, mul_eq_one_comm]

theorem isRotation_iff2 {M : Matrix (Fin 2) (Fin 2) ℝ} :
    IsRotation M ↔ M * M.transpose = 1 ∧ M.det = 1 := by
  unfold IsRotation
  rw [Matrix.mem_specialOrthogonalGroup_iff, Matrix.mem_orthogonalGroup_iff]

theorem IsRotation.mul {n : Nat} {M N : Matrix (Fin n) (Fin n) ℝ} (hM : IsRotation M) (hN : IsRotation N) :
    IsRotation (M * N) := mul_mem hM hN

theorem IsRotation.transpose {M : Matrix (Fin 3) (Fin 3) ℝ} (hM : IsRotation M) :
    IsRotation M.transpose := by
  rw [isRotation_iff'] at hM
  rw [isRotation_iff, Matrix.transpose_transpose, Matrix.det_transpose]
  exact hM

theorem rodrigues_zero (u : Fin 3 → ℝ) : rodrigues u 0 = 1 := by simp [rodrigues]

/-- Rotations about one axis add their angles. -/
theorem rodrigues_mul {u : Fin 3 → ℝ} (hu : u ⬝ᵥ u = 1) (a b : ℝ) :
    rodrigues u a * rodrigues u b = rodrigues u (a + b) := by
  simp only [dotProduct, Fin.sum_univ_three] at hu
  rw [rodrigues_eq, rodrigues_eq, rodrigues_eq, Real.sin_add, Real.cos_add]
  generalize Real.sin a = s; generalize Real.cos a = c
  generalize Real.sin b = t; generalize Real.cos b = d
  generalize u 0 = x at *; generalize u 1 = y at *; generalize u 2 = z at *
  have hx : x * x = 1 - y * y - z * z := by linarith
  ext r k
  fin_cases r <;> fin_cases k <;> simp [Matrix.mul_apply, Fin.sum_univ_three]
  · linear_combination (x*x*(1-c)*(1-d) - s*t) * hu
  · linear_combination (x*y*(1-c)*(1-d)) * hu
  · linear_combination (x*z*(1-c)*(1-d)) * hu
  · linear_combination (x*y*(1-c)*(1-d)) * hu
  · linear_combination (y*y*(1-c)*(1-d) - s*t) * hu
  · linear_combination (y*z*(1-c)*(1-d)) * hu
  · linear_combination (x*z*(1-c)*(1-d)) * hu
  · linear_combination (y*z*(1-c)*(1-d)) * hu
  · linear_combination (z*z*(1-c)*(1-d) - s*t) * hu

theorem rodrigues_transpose (u : Fin 3 → ℝ) (a : ℝ) :
    (rodrigues u a).transpose = rodrigues u (-a) := by
  rw [rodrigues_eq, rodrigues_eq, Real.sin_neg, Real.cos_neg]
  ext r k
  fin_cases r <;> fin_cases k <;> simp [sub_eq_add_neg]

theorem rodrigues_det {u : Fin 3 → ℝ} (hu : u ⬝ᵥ u = 1) (a : ℝ) : (rodrigues u a).det = 1 := by
  simp only [dotProduct, Fin.sum_univ_three] at hu
  have h := Real.sin_sq_add_cos_sq a
  rw [rodrigues_eq, Matrix.det_fin_three]
  simp
  generalize Real.sin a = s at *; generalize Real.cos a = c at *
  generalize u 0 = x at *; generalize u 1 = y at *; generalize u 2 = z at *
  have h' : s * s = 1 - c * c := by linarith [h]
  linear_combination (c*c*(1-c) + s*s*(1-c)*(x*x+y*y+z*z+1) + c*s*s) * hu + h

theorem rodrigues_isRotation {u : Fin 3 → ℝ} (hu : u ⬝ᵥ u = 1) (a : ℝ) :
    IsRotation (rodrigues u a) := by
  rw [isRotation_iff, rodrigues_transpose, rodrigues_mul hu, add_neg_cancel, rodrigues_zero]
  exact ⟨rfl, rodrigues_det hu a⟩

theorem rodrigues_axis {u : Fin 3 → ℝ} (hu : u ⬝ᵥ u = 1) (a : ℝ) : rodrigues u a *ᵥ u = u := by
  rw [rodrigues_mulVec, cross_self, hu]
  simp [← add_smul]

theorem rodrigues_trace {u : Fin 3 → ℝ} (hu : u ⬝ᵥ u = 1) (a : ℝ) :
    (rodrigues u a).trace = 1 + 2 * Real.cos a := by
  simp only [dotProduct, Fin.sum_univ_three] at hu
  rw [rodrigues_eq, Matrix.trace_fin_three]
  simp
  linear_combination (1 - Real.cos a) * hu

theorem unitVec_unit (i : Fin 3) : unitVec i ⬝ᵥ unitVec i = 1 := by simp [unitVec]

theorem rodrigues_x (a : ℝ) : rodrigues (unitVec 0) a =
    !![1, 0, 0; 0, Real.cos a, -Real.sin a; 0, Real.sin a, Real.cos a] := by
  rw [rodrigues_eq]; simp [unitVec]

theorem rodrigues_y (a : ℝ) : rodrigues (unitVec 1) a =
    !![Real.cos a, 0, Real.sin a; 0, 1, 0; -Real.sin a, 0, Real.cos a] := by
  rw [rodrigues_eq]; simp [unitVec]

theorem rodrigues_z (a : ℝ) : rodrigues (unitVec 2) a =
    !![Real.cos a, -Real.sin a, 0; Real.sin a, Real.cos a, 0; 0, 0, 1] := by
  rw [rodrigues_eq]; simp [unitVec]

theorem eulerRot_isRotation (o : EulerOrder) (a0 a1 a2 : ℝ) : IsRotation (eulerRot o a0 a1 a2) :=
  ((rodrigues_isRotation (unitVec_unit _) _).mul (rodrigues_isRotation (unitVec_unit _) _)).mul
    (rodrigues_isRotation (unitVec_unit _) _)

theorem planeRot_mul (a b : ℝ) : planeRot a * planeRot b = planeRot (a + b) := by
  unfold planeRot
  rw [Real.sin_add, Real.cos_add]
  ext r k
  fin_cases r <;> fin_cases k <;> simp [Matrix.mul_apply, Fin.sum_univ_two] <;> ring

theorem planeRot_isRotation (a : ℝ) : IsRotation (planeRot a) := by
  have h := Real.sin_sq_add_cos_sq a
  rw [isRotation_iff2]
  constructor
  · ext r k
    fin_cases r <;> fin_cases k <;> simp [planeRot, Matrix.mul_apply, Fin.sum_univ_two] <;> linarith
  · rw [planeRot, Matrix.det_fin_two]
    simp
    linarith

/-- Matrices of the same basis with the same linear map have the same elements. -/
theorem el_eq_of_linOf {K : Type} {m m' : BMat K} {n : Nat} (hb : m.basis = m'.basis)
    (h : linOf m n = linOf m' n) : ∀ i j, i < n → j < n → m.el i j = m'.el i j := by
  intro i j hi hj
  have h1 := congrFun (congrFun h ⟨i, hi⟩) ⟨j, hj⟩
  have h2 := congrFun (congrFun h ⟨j, hj⟩) ⟨i, hi⟩
  rw [linOf_apply, linOf_apply] at h1 h2
  unfold bel at h1 h2
  rw [← hb] at h1 h2
  cases hm : m.basis <;> rw [hm] at h1 h2
  · exact h2
  · exact h1

theorem BMat.SameMatrix.of_lin {K : Type} [Zero K] [One K] {m m1 m2 : BMat K} {n : Nat}
    (s1 : m.SameShape m1) (s2 : m.SameShape m2) (o1 : m1.IdOutside n) (o2 : m2.IdOutside n)
    (h : linOf m1 n = linOf m2 n) : m1.SameMatrix m2 := by
  have s12 : m1.SameShape m2 := ⟨s2.rows.trans s1.rows.symm, s2.cols.trans s1.cols.symm,
    s2.basis.trans s1.basis.symm, s2.fixed.trans s1.fixed.symm⟩
  refine ⟨s12, fun i j hi hj => ?_⟩
  by_cases hij : i < n ∧ j < n
  · exact (el_eq_of_linOf s12.basis.symm h i j hij.1 hij.2).symm
  · rw [o1 i j hi hj hij, o2 i j (s12.rows ▸ hi) (s12.cols ▸ hj) hij]

/-- Nine elements of a `3 × 3` block written in any cyclic or anticyclic order. -/
theorem bput9_ok {K : Type} {m : BMat K} (h : m.HasLin 3) {i j k : Nat} (hi : i < 3) (hj : j < 3)
    (hk : k < 3) (hij : i ≠ j) (hik : i ≠ k) (hjk : j ≠ k) (ii ij ik ji jj jk ki kj kk : K) :
    ∃ m', m.bput9 i j k ii ij ik ji jj jk ki kj kk = .ok m' ∧ m.SameShape m' ∧
      (∀ a b, ¬(a < 3 ∧ b < 3) → m'.bel a b = m.bel a b) ∧
      m'.bel i i = ii ∧ m'.bel i j = ij ∧ m'.bel i k = ik ∧
      m'.bel j i = ji ∧ m'.bel j j = jj ∧ m'.bel j k = jk ∧
      m'.bel k i = ki ∧ m'.bel k j = kj ∧ m'.bel k k = kk := by
  have hb := (hasLin_iff m 3).1 h
  lin_run [BMat.bput9]
  refine ⟨by constructor <;> simp, ?_, ?_⟩
  · intro a b hab
    simp only [bel_bset]
    repeat rw [if_neg (by omega)]
  · simp [bel_bset, hij, hik, hjk, hij.symm, hik.symm, hjk.symm]

/-- The renaming of the coordinates of an Euler order: `0`, `1` become the first two axes of the order,
`2` the remaining one. -/
def EulerOrder.perm (o : EulerOrder) : Equiv.Perm (Fin 3) where
  toFun := ![o.axes.1, o.axes.2.1, 2 * (o.axes.1 + o.axes.2.1)]
  invFun := fun a => if a = o.axes.1 then 0 else if a = o.axes.2.1 then 1 else 2
  left_inv := by intro a; revert a; cases o <;> decide
  right_inv := by intro a; revert a; cases o <;> decide

/-- The sign an odd order gives the angles. -/
def EulerOrder.sgn (o : EulerOrder) : ℝ := if o.even then 1 else -1

theorem EulerOrder.perm_facts (o : EulerOrder) :
    o.axes.1 = o.perm 0 ∧ o.axes.2.1 = o.perm 1 ∧
    o.axes.2.2 = (if o.repeats then o.perm 0 else o.perm 2) ∧
    (unpackEulerOrder o.code).i = (o.perm 0).val ∧ (unpackEulerOrder o.code).j = (o.perm 1).val ∧
    (unpackEulerOrder o.code).k = (o.perm 2).val ∧ (unpackEulerOrder o.code).odd = !decide o.even ∧
    (unpackEulerOrder o.code).rep = decide o.repeats := by
  cases o <;> decide

theorem EulerOrder.sgn_mul (o : EulerOrder) (a : ℝ) :
    (if (unpackEulerOrder o.code).odd = true then -a else a) = o.sgn * a := by
  rw [o.perm_facts.2.2.2.2.2.2.1, sgn]
  by_cases h : o.even <;> simp [h]

theorem EulerOrder.perm_cases (o : EulerOrder) :
    (o.perm 0 = 0 ∧ o.perm 1 = 1 ∧ o.perm 2 = 2 ∧ o.sgn = 1) ∨
      (o.perm 0 = 0 ∧ o.perm 1 = 2 ∧ o.perm 2 = 1 ∧ o.sgn = -1) ∨
      (o.perm 0 = 1 ∧ o.perm 1 = 2 ∧ o.perm 2 = 0 ∧ o.sgn = 1) ∨
      (o.perm 0 = 1 ∧ o.perm 1 = 0 ∧ o.perm 2 = 2 ∧ o.sgn = -1) ∨
      (o.perm 0 = 2 ∧ o.perm 1 = 0 ∧ o.perm 2 = 1 ∧ o.sgn = 1) ∨
      (o.perm 0 = 2 ∧ o.perm 1 = 1 ∧ o.perm 2 = 0 ∧ o.sgn = -1) := by
  unfold EulerOrder.sgn
  cases o <;> simp [EulerOrder.perm, EulerOrder.axes, EulerOrder.even] <;> decide

/-- Renaming the coordinates turns a rotation about a coordinate axis into the rotation about the
renamed axis, in the opposite direction if the renaming is odd. -/
theorem rodrigues_perm (o : EulerOrder) (a : Fin 3) (θ : ℝ) :
    (rodrigues (unitVec (o.perm a)) θ).submatrix o.perm o.perm = rodrigues (unitVec a) (o.sgn * θ) := by
  have hx := rodrigues_x
  have hy := rodrigues_y
  have hz := rodrigues_z
  rcases o.perm_cases
    with ⟨h0, h1, h2, hs⟩ | ⟨h0, h1, h2, hs⟩ | ⟨h0, h1, h2, hs⟩ | ⟨h0, h1, h2, hs⟩ | ⟨h0, h1, h2, hs⟩ |
      ⟨h0, h1, h2, hs⟩ <;> rw [hs] <;>
    ext r c <;> fin_cases a <;> fin_cases r <;> fin_cases c <;>
    simp [h0, h1, h2, hx, hy, hz]

/-- The Euler rotation of order `xyz` or `xyx`. -/
noncomputable def eulerStd (rep : Prop) [Decidable rep] (a0 a1 a2 : ℝ) : Matrix (Fin 3) (Fin 3) ℝ :=
  rodrigues (unitVec (if rep then 0 else 2)) a2 * rodrigues (unitVec 1) a1 * rodrigues (unitVec 0) a0

theorem eulerRot_perm (o : EulerOrder) (a0 a1 a2 : ℝ) :
    (eulerRot o a0 a1 a2).submatrix o.perm o.perm =
      eulerStd o.repeats (o.sgn * a0) (o.sgn * a1) (o.sgn * a2) := by
  obtain ⟨h0, h1, h2, -⟩ := o.perm_facts
  unfold eulerRot eulerStd
  rw [← Matrix.submatrix_mul_equiv _ _ _ o.perm, ← Matrix.submatrix_mul_equiv _ _ _ o.perm, h0, h1, h2,
    rodrigues_perm, rodrigues_perm, ← rodrigues_perm o (if o.repeats then 0 else 2)]
  split_ifs <;> rfl

theorem eulerStd_eq (rep : Prop) [Decidable rep] (a0 a1 a2 : ℝ) : eulerStd rep a0 a1 a2 =
    if rep then
      !![Real.cos a1, Real.sin a0 * Real.sin a1, Real.cos a0 * Real.sin a1;
        Real.sin a1 * Real.sin a2,
        -Real.cos a1 * (Real.sin a0 * Real.sin a2) + Real.cos a0 * Real.cos a2,
        -Real.cos a1 * (Real.cos a0 * Real.sin a2) - Real.sin a0 * Real.cos a2;
        -Real.sin a1 * Real.cos a2,
        Real.cos a1 * (Real.sin a0 * Real.cos a2) + Real.cos a0 * Real.sin a2,
        Real.cos a1 * (Real.cos a0 * Real.cos a2) - Real.sin a0 * Real.sin a2]
    else
      !![Real.cos a1 * Real.cos a2, Real.sin a1 * (Real.sin a0 * Real.cos a2) - Real.cos a0 * Real.sin a2,
        Real.sin a1 * (Real.cos a0 * Real.cos a2) + Real.sin a0 * Real.sin a2;
        Real.cos a1 * Real.sin a2, Real.sin a1 * (Real.sin a0 * Real.sin a2) + Real.cos a0 * Real.cos a2,
        Real.sin a1 * (Real.cos a0 * Real.sin a2) - Real.sin a0 * Real.cos a2;
        -Real.sin a1, Real.sin a0 * Real.cos a1, Real.cos a0 * Real.cos a1] := by
  unfold eulerStd
  by_cases h : rep
  · simp only [h, if_true, rodrigues_x, rodrigues_y]
    ext r c
    fin_cases r <;> fin_cases c <;> simp [Matrix.mul_apply, Fin.sum_univ_three] <;> ring
  · simp only [h, if_false, rodrigues_x, rodrigues_y, rodrigues_z]
    ext r c
    fin_cases r <;> fin_cases c <;> simp [Matrix.mul_apply, Fin.sum_univ_three] <;> ring

theorem submatrix_perm_inj {M N : Matrix (Fin 3) (Fin 3) ℝ} (σ : Equiv.Perm (Fin 3))
    (h : M.submatrix σ σ = N.submatrix σ σ) : M = N := by
  ext r c
  have := congrFun (congrFun h (σ.symm r)) (σ.symm c)
  simpa using this

/-- Nine elements written with renamed coordinates to an identity matrix. -/
theorem bput9_perm {K : Type} [Zero K] [One K] {m : BMat K} (h : m.HasLin 3) (σ : Equiv.Perm (Fin 3))
    (ii ij ik ji jj jk ki kj kk : K) :
    ∃ m', m.identity.bput9 (σ 0) (σ 1) (σ 2) ii ij ik ji jj jk ki kj kk = .ok m' ∧ m.SameShape m' ∧
      m'.IdOutside 3 ∧
      (linOf m' 3).submatrix σ σ = !![ii, ji, ki; ij, jj, kj; ik, jk, kk] := by
  have hne : ∀ a b : Fin 3, a ≠ b → (σ a).val ≠ (σ b).val := by
    intro a b hab he
    exact hab (σ.injective (Fin.ext he))
  obtain ⟨m', e, s, oo, h00, h01, h02, h10, h11, h12, h20, h21, h22⟩ := bput9_ok
    (m := m.identity) h (σ 0).2 (σ 1).2 (σ 2).2 (hne 0 1 (by decide)) (hne 0 2 (by decide))
    (hne 1 2 (by decide)) ii ij ik ji jj jk ki kj kk
  refine ⟨m', e, (SameShape.identity m).trans s, ?_, ?_⟩
  · rw [idOutside_iff]
    intro p q _ _ hpq
    rw [oo p q hpq, bel_identity]
  · ext r c
    fin_cases r <;> fin_cases c <;>
      simp [linOf_apply, h00, h01, h02, h10, h11, h12, h20, h21, h22]

theorem trace3_ok {m : BMat ℝ} (h : m.HasLin 3) :
    trace3 m = .ok (linOf m 3 0 0 + linOf m 3 1 1 + linOf m 3 2 2) := by
  have e : ∀ i : Fin 3, m.toMat.get i i = .ok (linOf m 3 i i) := by
    intro i
    have : linOf m 3 i i = m.el i i := by
      unfold linOf
      cases m.basis <;> rfl
    rw [this]
    exact get_ok' (by have := h.1; omega) (by have := h.2; omega)
  have e0 := e 0; have e1 := e 1; have e2 := e 2
  simp only [Fin.isValue, Fin.val_zero, Fin.val_one, Fin.val_two] at e0 e1 e2
  simp only [trace3, checkLinear3D_ok h, e0, e1, e2, Res.ok_bind, Res.pure_eq]

theorem bget_lin {m : BMat ℝ} (h : m.HasLin 3) (i j : Fin 3) :
    m.bget i j = .ok (linOf m 3 j i) := by
  have hb := (hasLin_iff m 3).1 h
  rw [linOf_apply]
  exact bget_ok (by omega) (by omega)

theorem bget_lin9 {m : BMat ℝ} (h : m.HasLin 3) :
    (m.bget 0 0 = .ok (linOf m 3 0 0) ∧ m.bget 0 1 = .ok (linOf m 3 1 0) ∧
      m.bget 0 2 = .ok (linOf m 3 2 0)) ∧
    (m.bget 1 0 = .ok (linOf m 3 0 1) ∧ m.bget 1 1 = .ok (linOf m 3 1 1) ∧
      m.bget 1 2 = .ok (linOf m 3 2 1)) ∧
    (m.bget 2 0 = .ok (linOf m 3 0 2) ∧ m.bget 2 1 = .ok (linOf m 3 1 2) ∧
      m.bget 2 2 = .ok (linOf m 3 2 2)) :=
  ⟨⟨bget_lin h 0 0, bget_lin h 0 1, bget_lin h 0 2⟩, ⟨bget_lin h 1 0, bget_lin h 1 1, bget_lin h 1 2⟩,
    ⟨bget_lin h 2 0, bget_lin h 2 1, bget_lin h 2 2⟩⟩

theorem indexOfMax3_cases (a b c : ℝ) : (indexOfMax3 a b c = 0 ∧ b ≤ a ∧ c ≤ a) ∨
    (indexOfMax3 a b c = 1 ∧ a ≤ b ∧ c ≤ b) ∨ (indexOfMax3 a b c = 2 ∧ a ≤ c ∧ b ≤ c) := by
  unfold indexOfMax3
  split_ifs with h1 h2 h3
  · exact .inr (.inr ⟨rfl, by linarith, by linarith⟩)
  · exact .inl ⟨rfl, by linarith, by linarith⟩
  · exact .inr (.inl ⟨rfl, by linarith, by linarith⟩)
  · exact .inr (.inr ⟨rfl, by linarith, by linarith⟩)

end CML
