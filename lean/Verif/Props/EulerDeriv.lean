import Verif.Props.Rotation
import Mathlib.Analysis.SpecialFunctions.Trigonometric.Deriv

/-!
C52: `matrix_rotation_euler_derivatives`.  For the orders `xyz`, `yzx`, `zxy` the result is the partial
derivative of the Euler matrix; for `xzy`, `yxz`, `zyx` it is the negative of the partial derivative,
because the angles are negated without applying the chain rule.
-/

namespace CML
open Matrix BMat

/-- `D` is the partial derivative, element by element, of the Euler rotation with respect to angle
number `n` at the angles `a`. -/
def IsEulerDerivative (o : EulerOrder) (n : Fin 3) (a : Fin 3 → ℝ) (D : Matrix (Fin 3) (Fin 3) ℝ) :
    Prop :=
  ∀ r c, HasDerivAt (fun t => eulerRot o (Function.update a n t 0) (Function.update a n t 1)
    (Function.update a n t 2) r c) (D r c) (a n)

/-- The derivative of Rodrigues' formula with respect to the angle. -/
private noncomputable def rodD (u : Fin 3 → ℝ) (θ : ℝ) : Matrix (Fin 3) (Fin 3) ℝ :=
  (-Real.sin θ) • (1 - vecMulVec u u) + Real.cos θ • crossMat u

private theorem rodrigues_split (u : Fin 3 → ℝ) (θ : ℝ) :
    rodrigues u θ = Real.cos θ • (1 - vecMulVec u u) + Real.sin θ • crossMat u + vecMulVec u u := by
  unfold rodrigues
  ext r c
  simp only [Matrix.add_apply, Matrix.smul_apply, Matrix.sub_apply, smul_eq_mul]
  ring

private theorem rodD_deriv (P Q : Matrix (Fin 3) (Fin 3) ℝ) (u : Fin 3 → ℝ) (θ : ℝ) (r c : Fin 3) :
    HasDerivAt (fun t => (P * rodrigues u t * Q) r c) ((P * rodD u θ * Q) r c) θ := by
  have e : ∀ t, (P * rodrigues u t * Q) r c = Real.cos t * (P * (1 - vecMulVec u u) * Q) r c +
      Real.sin t * (P * crossMat u * Q) r c + (P * vecMulVec u u * Q) r c := by
    intro t
    rw [rodrigues_split]
    simp only [mul_add, add_mul, Matrix.mul_smul, Matrix.smul_mul, Matrix.add_apply, Matrix.smul_apply, smul_eq_mul]
  have e' : (P * rodD u θ * Q) r c = -Real.sin θ * (P * (1 - vecMulVec u u) * Q) r c +
      Real.cos θ * (P * crossMat u * Q) r c := by
    rw [rodD]
    simp only [mul_add, add_mul, Matrix.mul_smul, Matrix.smul_mul, Matrix.add_apply, Matrix.smul_apply, smul_eq_mul]
  simp only [e, e']
  exact (((Real.hasDerivAt_cos θ).mul_const _).add ((Real.hasDerivAt_sin θ).mul_const _)).add_const _

private theorem rodD_eq (u : Fin 3 → ℝ) (θ : ℝ) :
    rodD u θ = rodrigues u (θ + Real.pi / 2) - vecMulVec u u := by
  rw [rodD, rodrigues_split, Real.cos_add_pi_div_two, Real.sin_add_pi_div_two]
  abel

private theorem rodD_xyz (a : ℝ) :
    rodD (unitVec 0) a = !![0, 0, 0; 0, -Real.sin a, -Real.cos a; 0, Real.cos a, -Real.sin a] ∧
    rodD (unitVec 1) a = !![-Real.sin a, 0, Real.cos a; 0, 0, 0; -Real.cos a, 0, -Real.sin a] ∧
    rodD (unitVec 2) a = !![-Real.sin a, -Real.cos a, 0; Real.cos a, -Real.sin a, 0; 0, 0, 0] := by
  simp only [rodD_eq, rodrigues_x, rodrigues_y, rodrigues_z, Real.cos_add_pi_div_two,
    Real.sin_add_pi_div_two]
  refine ⟨?_, ?_, ?_⟩ <;> ext r c <;> fin_cases r <;> fin_cases c <;>
    simp [unitVec, vecMulVec_apply]

private theorem rodD_perm (o : EulerOrder) (a : Fin 3) (θ : ℝ) :
    (rodD (unitVec (o.perm a)) θ).submatrix o.perm o.perm =
      o.sgn • rodD (unitVec a) (o.sgn * θ) := by
  have hx := fun a => (rodD_xyz a).1
  have hy := fun a => (rodD_xyz a).2.1
  have hz := fun a => (rodD_xyz a).2.2
  rcases o.perm_cases with ⟨h0, h1, h2, hs⟩ | ⟨h0, h1, h2, hs⟩ | ⟨h0, h1, h2, hs⟩ |
      ⟨h0, h1, h2, hs⟩ | ⟨h0, h1, h2, hs⟩ | ⟨h0, h1, h2, hs⟩ <;> rw [hs] <;>
    ext r c <;> fin_cases a <;> fin_cases r <;> fin_cases c <;>
    simp [h0, h1, h2, hx, hy, hz]

/-- The derivative of the Euler rotation as a product. -/
private theorem eulerDerivative (o : EulerOrder) (a : Fin 3 → ℝ) :
    IsEulerDerivative o 0 a (rodrigues (unitVec o.axes.2.2) (a 2) *
      rodrigues (unitVec o.axes.2.1) (a 1) * rodD (unitVec o.axes.1) (a 0)) ∧
    IsEulerDerivative o 1 a (rodrigues (unitVec o.axes.2.2) (a 2) *
      rodD (unitVec o.axes.2.1) (a 1) * rodrigues (unitVec o.axes.1) (a 0)) ∧
    IsEulerDerivative o 2 a (rodD (unitVec o.axes.2.2) (a 2) *
      rodrigues (unitVec o.axes.2.1) (a 1) * rodrigues (unitVec o.axes.1) (a 0)) := by
  refine ⟨fun r c => ?_, fun r c => ?_, fun r c => ?_⟩ <;> simp [eulerRot]
  · have := rodD_deriv (rodrigues (unitVec o.axes.2.2) (a 2) * rodrigues (unitVec o.axes.2.1) (a 1)) 1
      (unitVec o.axes.1) (a 0) r c
    simpa using this
  · exact rodD_deriv _ _ _ _ r c
  · have := rodD_deriv 1 (rodrigues (unitVec o.axes.2.1) (a 1) * rodrigues (unitVec o.axes.1) (a 0))
      (unitVec o.axes.2.2) (a 2) r c
    simpa [Matrix.mul_assoc] using this

/-- A partial derivative is unique. -/
theorem IsEulerDerivative.unique {o : EulerOrder} {n : Fin 3} {a : Fin 3 → ℝ}
    {D D' : Matrix (Fin 3) (Fin 3) ℝ} (h : IsEulerDerivative o n a D) (h' : IsEulerDerivative o n a D') :
    D = D' := by
  ext r c
  exact (h r c).unique (h' r c)

private theorem sgn_sq (o : EulerOrder) : o.sgn * o.sgn = 1 := by
  unfold EulerOrder.sgn; split_ifs <;> norm_num

/-- C52: for every order without repetition, every angle number and all angles, the matrix returned is
the partial derivative of the Euler rotation (and so of `matrix_rotation_euler`, `rotationEuler_spec`)
if the order is even, and the negative of the partial derivative if it is odd. -/
theorem rotationEulerDerivatives_spec {m : BMat ℝ} (h : m.HasLin 3) (n : Fin 3) (a : Fin 3 → ℝ)
    {o : EulerOrder} (ho : ¬o.repeats) :
    ∃ m', rotationEulerDerivatives m n (a 0) (a 1) (a 2) o = .ok m' ∧ m.SameShape m' ∧
      m'.IdOutside 3 ∧
      IsEulerDerivative o n a (if o.even then linOf m' 3 else -linOf m' 3) := by
  suffices H : ∃ m', rotationEulerDerivatives m n (a 0) (a 1) (a 2) o = .ok m' ∧ m.SameShape m' ∧
      m'.IdOutside 3 ∧ IsEulerDerivative o n a (o.sgn • linOf m' 3) by
    obtain ⟨m', h1, h2, h3, h4⟩ := H
    refine ⟨m', h1, h2, h3, ?_⟩
    unfold EulerOrder.sgn at h4
    split_ifs at h4 ⊢ <;> simpa using h4
  obtain ⟨d0, d1, d2⟩ := eulerDerivative o a
  obtain ⟨p0, p1, p2, hi, hj, hk, -, hr⟩ := o.perm_facts
  rw [if_neg ho] at p2
  have key : ∀ D E : Matrix (Fin 3) (Fin 3) ℝ, ∀ m' : BMat ℝ, (linOf m' 3).submatrix o.perm o.perm = E →
      o.sgn • E = D.submatrix o.perm o.perm → o.sgn • linOf m' 3 = D := by
    intro D E m' h1 h2
    refine submatrix_perm_inj o.perm ?_
    rw [← h2, ← h1]
    rfl
  have sp : ∀ A B C : Matrix (Fin 3) (Fin 3) ℝ, (A * B * C).submatrix o.perm o.perm =
      A.submatrix o.perm o.perm * B.submatrix o.perm o.perm * C.submatrix o.perm o.perm := by
    intro A B C
    rw [← Matrix.submatrix_mul_equiv _ _ _ o.perm, ← Matrix.submatrix_mul_equiv _ _ _ o.perm]
  rw [rotationEulerDerivatives, checkLinear3D_ok h]
  simp only [hi, hj, hk, EulerOrder.sgn_mul, hr, ho, decide_false, Bool.not_false, Res.require,
    if_true, Res.ok_bind]
  generalize ht0 : o.sgn * a 0 = t0
  generalize ht1 : o.sgn * a 1 = t1
  generalize ht2 : o.sgn * a 2 = t2
  fin_cases n
  · simp only [Fin.zero_eta, Nat.cast_zero, if_true]
    rw [if_pos (by decide), Res.ok_bind]
    obtain ⟨m', e1, e2, e3, e4⟩ := bput9_perm h o.perm _ _ _ _ _ _ _ _ _
    refine ⟨m', e1, e2, e3, ?_⟩
    rw [key _ _ m' e4 (?_ : _ = _)]
    · exact d0
    · rw [sp, p0, p1, p2, rodrigues_perm, rodrigues_perm, rodD_perm, ht0, ht1, ht2, Matrix.mul_smul,
        (rodD_xyz _).1, rodrigues_y, rodrigues_z]
      congr 1
      ext r c
      fin_cases r <;> fin_cases c <;> simp [Matrix.mul_apply, Fin.sum_univ_three] <;> ring
  · simp only [Fin.mk_one, Fin.val_one, Nat.cast_one, if_true, one_ne_zero, if_false]
    rw [if_pos (by decide), Res.ok_bind]
    obtain ⟨m', e1, e2, e3, e4⟩ := bput9_perm h o.perm _ _ _ _ _ _ _ _ _
    refine ⟨m', e1, e2, e3, ?_⟩
    rw [key _ _ m' e4 (?_ : _ = _)]
    · exact d1
    · rw [sp, p0, p1, p2, rodrigues_perm, rodrigues_perm, rodD_perm, ht0, ht1, ht2, Matrix.mul_smul,
        Matrix.smul_mul, (rodD_xyz _).2.1, rodrigues_x, rodrigues_z]
      congr 1
      ext r c
      fin_cases r <;> fin_cases c <;> simp [Matrix.mul_apply, Fin.sum_univ_three] <;> ring
  · simp only [show (((⟨2, by decide⟩ : Fin 3).val : Nat) : Int) = 2 from rfl, if_true,
      show ¬((2 : Int) = 0) by decide, show ¬((2 : Int) = 1) by decide, if_false]
    rw [if_pos (by decide), Res.ok_bind]
    obtain ⟨m', e1, e2, e3, e4⟩ := bput9_perm h o.perm _ _ _ _ _ _ _ _ _
    refine ⟨m', e1, e2, e3, ?_⟩
    rw [key _ _ m' e4 (?_ : _ = _)]
    · exact d2
    · rw [sp, p0, p1, p2, rodrigues_perm, rodrigues_perm, rodD_perm, ht0, ht1, ht2,
        Matrix.smul_mul, Matrix.smul_mul, (rodD_xyz _).2.2, rodrigues_x, rodrigues_y]
      congr 1
      ext r c
      fin_cases r <;> fin_cases c <;> simp [Matrix.mul_apply, Fin.sum_univ_three] <;> ring

/-- The full claim of C52: the matrix returned is the partial derivative for every order without
repetition. -/
def EulerDerivativesCorrect (o : EulerOrder) : Prop :=
  ∀ m : BMat ℝ, m.HasLin 3 → ∀ (n : Fin 3) (a : Fin 3 → ℝ),
    ∃ m', rotationEulerDerivatives m n (a 0) (a 1) (a 2) o = .ok m' ∧ m.SameShape m' ∧
      m'.IdOutside 3 ∧ IsEulerDerivative o n a (linOf m' 3)

/-- C52, the part that holds: for the orders `xyz`, `yzx`, `zxy` the matrix returned is the partial
derivative.  Missing: the orders `xzy`, `yxz`, `zyx`, for which the claim is false
(`rotationEulerDerivatives_odd_wrong`). -/
theorem rotationEulerDerivatives_partial {o : EulerOrder} (ho : ¬o.repeats) (he : o.even) :
    EulerDerivativesCorrect o := by
  intro m h n a
  obtain ⟨m', h1, h2, h3, h4⟩ := rotationEulerDerivatives_spec h n a ho
  rw [if_pos he] at h4
  exact ⟨m', h1, h2, h3, h4⟩

example : ¬EulerOrder.repeats .yzx ∧ EulerOrder.even .yzx := by decide

/-- C52 is false for the other three orders: at the angles zero the derivative with respect to the first
angle is not zero, and the matrix returned is its negative. -/
theorem rotationEulerDerivatives_odd_wrong {o : EulerOrder} (ho : ¬o.repeats) (he : ¬o.even) :
    ¬EulerDerivativesCorrect o := by
  intro H
  let m : BMat ℝ := { rows := 3, cols := 3, el := fun _ _ => 0, basis := .row, fixed := true }
  have hm : m.HasLin 3 := ⟨le_refl 3, le_refl 3⟩
  obtain ⟨m', h1, -, -, h4⟩ := H m hm 0 (fun _ => 0)
  obtain ⟨m'', g1, -, -, g4⟩ := rotationEulerDerivatives_spec hm 0 (fun _ => 0) ho
  rw [h1] at g1
  obtain rfl : m' = m'' := by injection g1
  rw [if_neg he] at g4
  have e := h4.unique g4
  have e0 : linOf m' 3 = 0 := by
    ext r c
    have := congrFun (congrFun e r) c
    simp only [Matrix.neg_apply] at this
    simp only [Matrix.zero_apply]
    linarith
  have e1 := h4.unique (eulerDerivative o (fun _ => 0)).1
  have hz : ∀ u : Fin 3 → ℝ, rodrigues u 0 = 1 := rodrigues_zero
  rw [e0, hz, hz, one_mul, one_mul] at e1
  obtain ⟨p0, -⟩ := o.perm_facts
  have := congrArg (fun M => M.submatrix o.perm o.perm) e1
  simp only [p0, rodD_perm, mul_zero, (rodD_xyz _).1] at this
  have := congrFun (congrFun this 1) 2
  unfold EulerOrder.sgn at this
  rw [if_neg he] at this
  simp at this

example : ¬EulerOrder.repeats .zyx ∧ ¬EulerOrder.even .zyx := by decide

/-- C52: the error cases, in the order of the checks. -/
theorem rotationEulerDerivatives_throws (m : BMat ℝ) (axis : Int) (a0 a1 a2 : ℝ) (o : EulerOrder) :
    (¬(0 ≤ axis ∧ axis ≤ 2) → rotationEulerDerivatives m axis a0 a1 a2 o = .throw .invalidArgument) ∧
    (0 ≤ axis ∧ axis ≤ 2 → ¬m.HasLin 3 → rotationEulerDerivatives m axis a0 a1 a2 o =
      .throw (if m.fixed then .staticAssert else .matMinimum)) ∧
    (0 ≤ axis ∧ axis ≤ 2 → m.HasLin 3 → o.repeats →
      rotationEulerDerivatives m axis a0 a1 a2 o = .throw .invalidArgument) := by
  refine ⟨fun h => ?_, fun h hm => ?_, fun h hm ho => ?_⟩
  · rw [rotationEulerDerivatives, Res.require, if_neg (by simpa using h)]; rfl
  · rw [rotationEulerDerivatives, Res.require, if_pos (by simpa using h), Res.ok_bind,
      checkLinear3D_throw hm]; rfl
  · obtain ⟨-, -, -, -, -, -, -, hr⟩ := o.perm_facts
    rw [rotationEulerDerivatives, Res.require, if_pos (by simpa using h), Res.ok_bind,
      checkLinear3D_ok hm, Res.ok_bind]
    simp [hr, ho, Res.require, Res.throw_bind]

/-- C52: the overload that takes the angles from a vector. -/
theorem rotationEulerDerivativesV_spec {v : AVec ℝ} {x : Fin 3 → ℝ} (m : BMat ℝ) (axis : Int)
    (hv : v.Is 3 x) (o : EulerOrder) :
    rotationEulerDerivativesV m axis v o = rotationEulerDerivatives m axis (x 0) (x 1) (x 2) o := by
  obtain ⟨hs, rfl⟩ := hv
  lin_run [rotationEulerDerivativesV, AVec.checkSize_ok hs]
  rfl

end CML

#print axioms CML.rotationEulerDerivatives_spec
#print axioms CML.rotationEulerDerivatives_partial
#print axioms CML.rotationEulerDerivatives_odd_wrong
#print axioms CML.rotationEulerDerivatives_throws
#print axioms CML.rotationEulerDerivativesV_spec
