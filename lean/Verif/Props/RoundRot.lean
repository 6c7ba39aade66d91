import Verif.Spec.RoundRot
import Verif.Props.RoundQuat
import Verif.Props.QuatRot
import Verif.Props.Transform
import Mathlib.Analysis.Matrix.Normed

/-!
C119: rotations in rounded arithmetic.  The matrix of a quaternion is close to a rotation, transforming a
vector or point by a computed rotation is close to rotating it, and a product of any number of computed
rotations (matrices or quaternions) drifts away from the exact rotation by an explicitly bounded distance.
-/

set_option linter.unusedSectionVars false

namespace CML

open Quaternion Matrix BMat

variable {R : Rounding}

/-! ### Matrices of quaternions -/

private theorem track_as {x : Fl R} {X A : ℝ} {k : ℕ} {A₀ : Mag} {k₀ : Cnt} (h : Tracks x X A₀ k₀) (hA : A₀.val ≤ A)
    (hk : k₀.val ≤ k) (hu : (k : ℝ) * R.u < 1) : |x.val - X| ≤ gamma R.u k * A := by
  refine le_trans h.err ?_
  have h1 := phi_mono R.u_nonneg R.u_lt hk
  have h2 := phi_le_gamma R.u_nonneg R.u_lt hu
  have h3 := phi_nonneg R.u_nonneg R.u_lt k₀.val
  exact mul_le_mul (h1.trans h2) hA h.nonneg (h3.trans (h1.trans h2))

/-- `a * (b + b)`. -/
private theorem tr2 (a b : Fl R) : Tracks (a * (b + b)) (a.val * (b.val + b.val)) (⟨|a.val|⟩ * (⟨|b.val|⟩ + ⟨|b.val|⟩))
    (⟨0⟩ * (⟨0⟩ + ⟨0⟩)) :=
  (Tracks.exact a).mul ((Tracks.exact b).add (Tracks.exact b))

private theorem two_mul_le (a b c d : ℝ) :
    |a| * (|b| + |b|) + |c| * (|d| + |d|) ≤ a ^ 2 + b ^ 2 + c ^ 2 + d ^ 2 := by
  nlinarith [sq_nonneg (|a| - |b|), sq_nonneg (|c| - |d|), sq_abs a, sq_abs b, sq_abs c, sq_abs d]

private theorem diag_le (a b : ℝ) : |(1 : ℝ)| + |a| * (|a| + |a|) + |b| * (|b| + |b|) = 1 + 2 * (a ^ 2 + b ^ 2) := by
  rw [abs_one]
  nlinarith [sq_abs a, sq_abs b]

/-- The matrix the function computes without rounding, and the rounding error. -/
private theorem rotationQuaternion_round {s : QState (Fl R)} {m : BMat (Fl R)} {q : QNode (Fl R)} {h : ℍ[Fl R]}
    (hm : m.HasLin 3) (hq : QReads s q h) (hu : 4 * R.u < 1) :
    ∃ m', rotationQuaternion s m q = .ok m' ∧ m.SameShape m' ∧ m'.IdOutside 3 ∧
      ∀ i j, |(linOf m' 3 i j).val -
        (quatMat (realQ h) + (1 - normSq (realQ h)) • (1 : Matrix (Fin 3) (Fin 3) ℝ)) i j| ≤
          gamma R.u 4 * (1 + 2 * normSq (realQ h)) := by
  obtain ⟨hw, hx, hy, hz⟩ := qreads_iff.1 hq
  simp only [rotationQuaternion, checkLinear3D_ok hm, hw, hx, hy, hz, Res.ok_bind]
  obtain ⟨m', e1, e2, e3, e4⟩ := bput9_perm hm (Equiv.refl _) _ _ _ _ _ _ _ _ _
  refine ⟨m', e1, e2, e3, ?_⟩
  have e5 : linOf m' 3 = (linOf m' 3).submatrix (Equiv.refl _) (Equiv.refl _) := rfl
  rw [e5, e4, quatMat_eq, normSq_def']
  have u4 : ((4 : ℕ) : ℝ) * R.u < 1 := by push_cast; exact hu
  have one : Tracks (1 : Fl R) 1 ⟨|(1 : ℝ)|⟩ ⟨0⟩ := Tracks.exact (1 : Fl R)
  have dg : ∀ (a b : Fl R) (A : ℝ), 1 + 2 * (a.val ^ 2 + b.val ^ 2) ≤ A →
      |((1 : Fl R) - a * (a + a) - b * (b + b)).val -
        (1 - a.val * (a.val + a.val) - b.val * (b.val + b.val))| ≤ gamma R.u 4 * A := fun a b A hA => by
    refine track_as (k := 4) ((one.sub (tr2 a a)).sub (tr2 b b)) ?_ ?_ u4
    · exact le_trans (le_of_eq (diag_le a.val b.val)) hA
    · exact le_of_eq (by decide)
  have off1 : ∀ (a b c d : Fl R) (A : ℝ), a.val ^ 2 + b.val ^ 2 + c.val ^ 2 + d.val ^ 2 ≤ A →
      |(a * (b + b) + c * (d + d)).val - (a.val * (b.val + b.val) + c.val * (d.val + d.val))| ≤ gamma R.u 4 * A :=
    fun a b c d A hA => by
      refine track_as (k := 4) ((tr2 a b).add (tr2 c d)) ?_ ?_ u4
      · exact le_trans (two_mul_le a.val b.val c.val d.val) hA
      · exact (by decide : (3 : ℕ) ≤ 4)
  have off2 : ∀ (a b c d : Fl R) (A : ℝ), a.val ^ 2 + b.val ^ 2 + c.val ^ 2 + d.val ^ 2 ≤ A →
      |(a * (b + b) - c * (d + d)).val - (a.val * (b.val + b.val) - c.val * (d.val + d.val))| ≤ gamma R.u 4 * A :=
    fun a b c d A hA => by
      refine track_as (k := 4) ((tr2 a b).sub (tr2 c d)) ?_ ?_ u4
      · exact le_trans (two_mul_le a.val b.val c.val d.val) hA
      · exact (by decide : (3 : ℕ) ≤ 4)
  have n0 := sq_nonneg h.re.val
  have n1 := sq_nonneg h.imI.val
  have n2 := sq_nonneg h.imJ.val
  have n3 := sq_nonneg h.imK.val
  intro i j
  have fin : ∀ {x X Y B : ℝ}, |x - X| ≤ B → X = Y → |x - Y| ≤ B := by rintro x X Y B h rfl; exact h
  simp only [realQ]
  fin_cases i <;> fin_cases j <;> simp only [Matrix.add_apply, Matrix.smul_apply]
  · refine fin (dg h.imJ h.imK _ ?_) ?_ <;> [linarith; (simp; ring)]
  · refine fin (off2 h.imI h.imJ h.re h.imK _ ?_) ?_ <;> [linarith; (simp; ring)]
  · refine fin (off1 h.imK h.imI h.re h.imJ _ ?_) ?_ <;> [linarith; (simp; ring)]
  · refine fin (off1 h.imI h.imJ h.re h.imK _ ?_) ?_ <;> [linarith; (simp; ring)]
  · refine fin (dg h.imK h.imI _ ?_) ?_ <;> [linarith; (simp; ring)]
  · refine fin (off2 h.imJ h.imK h.re h.imI _ ?_) ?_ <;> [linarith; (simp; ring)]
  · refine fin (off2 h.imK h.imI h.re h.imJ _ ?_) ?_ <;> [linarith; (simp; ring)]
  · refine fin (off1 h.imJ h.imK h.re h.imI _ ?_) ?_ <;> [linarith; (simp; ring)]
  · refine fin (dg h.imI h.imJ _ ?_) ?_ <;> [linarith; (simp; ring)]

private theorem quatMat_smul (c : ℝ) (q : ℍ[ℝ]) : quatMat (c • q) = c ^ 2 • quatMat q := by
  rw [quatMat_eq, quatMat_eq]
  ext i j
  fin_cases i <;> fin_cases j <;> simp <;> ring

/-- The rotation of a quaternion that need not have length one. -/
private theorem exists_rotation {p : ℍ[ℝ]} (hp : p ≠ 0) :
    ∃ Q : Matrix (Fin 3) (Fin 3) ℝ, IsRotation Q ∧ (∀ v, Q *ᵥ v = imVec (p * pureQ v * p⁻¹)) ∧
      quatMat p = normSq p • Q := by
  have hN : 0 < normSq p := lt_of_le_of_ne normSq_nonneg (fun h => hp (normSq_eq_zero.1 h.symm))
  refine ⟨(normSq p)⁻¹ • quatMat p, ?_, fun v => ?_, ?_⟩
  · have h1 : (normSq p)⁻¹ • quatMat p = quatMat ((Real.sqrt (normSq p))⁻¹ • p) := by
      rw [quatMat_smul, inv_pow, Real.sq_sqrt hN.le]
    rw [h1]
    apply quatMat_isRotation
    rw [normSq_smul, inv_pow, Real.sq_sqrt hN.le, inv_mul_cancel₀ hN.ne']
  · rw [Matrix.smul_mulVec, quatMat_mulVec, qRotate, Quaternion.inv_def, mul_smul_comm]
    funext i
    fin_cases i <;> simp [imVec]
  · rw [smul_smul, mul_inv_cancel₀ hN.ne', one_smul]

private theorem rot_entry {n : Nat} {Q : Matrix (Fin n) (Fin n) ℝ} (hQ : Q * Q.transpose = 1) (i j : Fin n) :
    |Q i j| ≤ 1 := by
  have h1 := congrFun (congrFun hQ i) i
  rw [Matrix.mul_apply, Matrix.one_apply_eq] at h1
  have h2 : Q i j * Q i j ≤ 1 := by
    rw [← h1]
    exact Finset.single_le_sum (f := fun k => Q i k * Q.transpose k i) (fun k _ => mul_self_nonneg (Q i k))
      (Finset.mem_univ j)
  exact abs_le_one_iff_mul_self_le_one.2 h2

/-- C119: the computed matrix of a quaternion `q` other than zero is close to the rotation `v ↦ q v q⁻¹`, in each
element up to `γ_4 (1 + 2‖q‖²)` for the rounding errors and `2 |‖q‖² - 1|` for a length that is not one; outside
of the 3x3 block it is exactly the identity. -/
theorem rotationQuaternion_error {s : QState (Fl R)} {m : BMat (Fl R)} {q : QNode (Fl R)} {h : ℍ[Fl R]}
    (hm : m.HasLin 3) (hq : QReads s q h) (h0 : realQ h ≠ 0) (hu : 4 * R.u < 1) :
    ∃ m', rotationQuaternion s m q = .ok m' ∧ m.SameShape m' ∧ m'.IdOutside 3 ∧
      ∃ Q : Matrix (Fin 3) (Fin 3) ℝ, IsRotation Q ∧ (∀ v, Q *ᵥ v = imVec (realQ h * pureQ v * (realQ h)⁻¹)) ∧
        ∀ i j, |realM (linOf m' 3) i j - Q i j| ≤
          gamma R.u 4 * (1 + 2 * normSq (realQ h)) + 2 * |normSq (realQ h) - 1| := by
  obtain ⟨m', h1, h2, h3, h4⟩ := rotationQuaternion_round hm hq hu
  obtain ⟨Q, q1, q2, q3⟩ := exists_rotation h0
  refine ⟨m', h1, h2, h3, Q, q1, q2, fun i j => ?_⟩
  have h5 := h4 i j
  have e : (quatMat (realQ h) + (1 - normSq (realQ h)) • (1 : Matrix (Fin 3) (Fin 3) ℝ)) i j - Q i j =
      (normSq (realQ h) - 1) * (Q i j - (1 : Matrix (Fin 3) (Fin 3) ℝ) i j) := by
    rw [q3, Matrix.add_apply, Matrix.smul_apply, Matrix.smul_apply, smul_eq_mul, smul_eq_mul]; ring
  have h6 : |Q i j - (1 : Matrix (Fin 3) (Fin 3) ℝ) i j| ≤ 2 := by
    have g1 := rot_entry (isRotation_iff.1 q1).1 i j
    have g2 : |(1 : Matrix (Fin 3) (Fin 3) ℝ) i j| ≤ 1 := by
      rw [Matrix.one_apply]; split_ifs <;> norm_num
    exact (abs_sub _ _).trans (by linarith)
  have h7 : |(quatMat (realQ h) + (1 - normSq (realQ h)) • (1 : Matrix (Fin 3) (Fin 3) ℝ)) i j - Q i j| ≤
      2 * |normSq (realQ h) - 1| := by
    rw [e, abs_mul, mul_comm]
    exact mul_le_mul_of_nonneg_right h6 (abs_nonneg _)
  have h8 := abs_sub_le (realM (linOf m' 3) i j)
    ((quatMat (realQ h) + (1 - normSq (realQ h)) • (1 : Matrix (Fin 3) (Fin 3) ℝ)) i j) (Q i j)
  exact h8.trans (add_le_add h5 h7)

/-! ### Transforming vectors and points -/

/-- C119: `transform_vector(m, v)` has an error of at most `γ_3 |M||v|`. -/
theorem transformVector_error {m : BMat (Fl R)} {v : AVec (Fl R)} {x : Fin 3 → Fl R} (h : m.HasLin 3) (hv : v.Is 3 x)
    (hu : 3 * R.u < 1) :
    ∃ w y, transformVector m v = .ok w ∧ w.Is 3 y ∧
      ∀ i, |realV y i - (realM (linOf m 3) *ᵥ realV x) i| ≤
        gamma R.u 3 * (absM (realM (linOf m 3)) *ᵥ absV (realV x)) i := by
  obtain ⟨hs, rfl⟩ := hv
  have hb := (hasLin_iff m 3).1 h
  have u3 : ((3 : ℕ) : ℝ) * R.u < 1 := by push_cast; exact hu
  lin_run [transformVector, linComp, checkMin33_ok h, AVec.checkSize_ok hs]
  refine ⟨_, _, rfl, ⟨rfl, rfl⟩, fun i => ?_⟩
  have key : ∀ a b c x y z : Fl R, |(a * x + b * y + c * z).val - (a.val * x.val + b.val * y.val + c.val * z.val)| ≤
      gamma R.u 3 * (|a.val| * |x.val| + |b.val| * |y.val| + |c.val| * |z.val|) := fun a b c x y z =>
    track_as (k := 3) ((((Tracks.exact a).mul (Tracks.exact x)).add ((Tracks.exact b).mul (Tracks.exact y))).add
      ((Tracks.exact c).mul (Tracks.exact z))) le_rfl (by decide) u3
  fin_cases i <;>
    simpa [Matrix.mulVec, dotProduct, Fin.sum_univ_three, linOf_apply, AVec.vec, AVec.mk3, realM, realV, absM, absV]
      using key _ _ _ _ _ _

/-- C119: `transform_point(m, p)` has an error of at most `γ_4 (|M||p| + |t|)`. -/
theorem transformPoint_error {m : BMat (Fl R)} {v : AVec (Fl R)} {x : Fin 3 → Fl R} (h : m.HasAff 3) (hv : v.Is 3 x)
    (hu : 4 * R.u < 1) :
    ∃ w y, transformPoint m v = .ok w ∧ w.Is 3 y ∧
      ∀ i, |realV y i - ((realM (linOf m 3) *ᵥ realV x) i + realV (transOf m 3) i)| ≤
        gamma R.u 4 * ((absM (realM (linOf m 3)) *ᵥ absV (realV x)) i + |realV (transOf m 3) i|) := by
  obtain ⟨hs, rfl⟩ := hv
  have hb := (hasAff_iff m 3).1 h
  have u4 : ((4 : ℕ) : ℝ) * R.u < 1 := by push_cast; exact hu
  lin_run [transformPoint, linComp, affComp, checkAffine3D_ok h, AVec.checkSize_ok hs]
  refine ⟨_, _, rfl, ⟨rfl, rfl⟩, fun i => ?_⟩
  have key : ∀ a b c d x y z : Fl R,
      |(a * x + b * y + c * z + d).val - (a.val * x.val + b.val * y.val + c.val * z.val + d.val)| ≤
      gamma R.u 4 * (|a.val| * |x.val| + |b.val| * |y.val| + |c.val| * |z.val| + |d.val|) := fun a b c d x y z =>
    track_as (k := 4) (((((Tracks.exact a).mul (Tracks.exact x)).add ((Tracks.exact b).mul (Tracks.exact y))).add
      ((Tracks.exact c).mul (Tracks.exact z))).add (Tracks.exact d)) le_rfl (by decide) u4
  fin_cases i <;>
    simpa [Matrix.mulVec, dotProduct, Fin.sum_univ_three, linOf_apply, transOf_apply, AVec.vec, AVec.mk3, realM, realV,
      absM, absV] using key _ _ _ _ _ _ _

/-- C119: transforming a vector by the computed matrix of a quaternion rotates it as `v ↦ q v q⁻¹`, in each element up
to `δ + γ_3 (1 + δ)` times the sum of the absolute values of the elements of the vector, `δ` being the bound of
`rotationQuaternion_error`. -/
theorem rotate_by_quaternion_error {s : QState (Fl R)} {m : BMat (Fl R)} {q : QNode (Fl R)} {h : ℍ[Fl R]}
    {v : AVec (Fl R)} {x : Fin 3 → Fl R} (hm : m.HasLin 3) (hq : QReads s q h) (h0 : realQ h ≠ 0)
    (hv : v.Is 3 x) (hu : 4 * R.u < 1) {δ : ℝ}
    (hδ : δ = gamma R.u 4 * (1 + 2 * normSq (realQ h)) + 2 * |normSq (realQ h) - 1|) :
    ∃ m' w y, rotationQuaternion s m q = .ok m' ∧ transformVector m' v = .ok w ∧ w.Is 3 y ∧
      ∀ i, |realV y i - imVec (realQ h * pureQ (realV x) * (realQ h)⁻¹) i| ≤
        (δ + gamma R.u 3 * (1 + δ)) * ∑ j, |realV x j| := by
  obtain ⟨m', h1, h2, -, Q, q1, q2, q3⟩ := rotationQuaternion_error hm hq h0 hu
  have hu3 : 3 * R.u < 1 := by have := R.u_nonneg; linarith
  have hm' : m'.HasLin 3 := ⟨h2.rows ▸ hm.1, h2.cols ▸ hm.2⟩
  obtain ⟨w, y, w1, w2, w3⟩ := transformVector_error hm' hv hu3
  refine ⟨m', w, y, h1, w1, w2, fun i => ?_⟩
  rw [← q2]
  have hg : 0 ≤ gamma R.u 3 := (phi_nonneg R.u_nonneg R.u_lt 3).trans
    (phi_le_gamma R.u_nonneg R.u_lt (by push_cast; exact hu3))
  have a1 : |(realM (linOf m' 3) *ᵥ realV x) i - (Q *ᵥ realV x) i| ≤ δ * ∑ j, |realV x j| := by
    rw [Matrix.mulVec, Matrix.mulVec, dotProduct, dotProduct, ← Finset.sum_sub_distrib, Finset.mul_sum]
    refine (Finset.abs_sum_le_sum_abs _ _).trans (Finset.sum_le_sum fun j _ => ?_)
    rw [← sub_mul, abs_mul]
    exact mul_le_mul_of_nonneg_right (hδ ▸ q3 i j) (abs_nonneg _)
  have a2 : (absM (realM (linOf m' 3)) *ᵥ absV (realV x)) i ≤ (1 + δ) * ∑ j, |realV x j| := by
    rw [Matrix.mulVec, dotProduct, Finset.mul_sum]
    refine Finset.sum_le_sum fun j _ => mul_le_mul_of_nonneg_right ?_ (abs_nonneg _)
    have g1 := rot_entry (isRotation_iff.1 q1).1 i j
    have g2 := hδ ▸ q3 i j
    have g3 := abs_add_le (realM (linOf m' 3) i j - Q i j) (Q i j)
    rw [sub_add_cancel] at g3
    show |realM (linOf m' 3) i j| ≤ 1 + δ
    linarith
  have a3 := abs_sub_le (realV y i) ((realM (linOf m' 3) *ᵥ realV x) i) ((Q *ᵥ realV x) i)
  have a4 := w3 i
  have a5 := mul_le_mul_of_nonneg_left a2 hg
  calc _ ≤ _ := a3
    _ ≤ gamma R.u 3 * ((1 + δ) * ∑ j, |realV x j|) + δ * ∑ j, |realV x j| := add_le_add (a4.trans a5) a1
    _ = _ := by ring

/-! ### Products of many rotation matrices -/

section
open scoped Matrix.Norms.Frobenius

private theorem frob_eq {m n : Nat} (A : Matrix (Fin m) (Fin n) ℝ) : frob A = ‖A‖ := by
  rw [Matrix.frobenius_norm_def, frob, Real.sqrt_eq_rpow]
  simp

private theorem frob_nonneg {m n : Nat} (A : Matrix (Fin m) (Fin n) ℝ) : 0 ≤ frob A := Real.sqrt_nonneg _

private theorem frob_add {m n : Nat} (A B : Matrix (Fin m) (Fin n) ℝ) : frob (A + B) ≤ frob A + frob B := by
  simp only [frob_eq]; exact norm_add_le _ _

private theorem frob_mul {l m n : Nat} (A : Matrix (Fin l) (Fin m) ℝ) (B : Matrix (Fin m) (Fin n) ℝ) :
    frob (A * B) ≤ frob A * frob B := by
  simp only [frob_eq]; exact Matrix.frobenius_norm_mul _ _

end

private theorem frob_mono {m n : Nat} {A B : Matrix (Fin m) (Fin n) ℝ} (h : ∀ i j, |A i j| ≤ |B i j|) :
    frob A ≤ frob B :=
  Real.sqrt_le_sqrt (Finset.sum_le_sum fun i _ => Finset.sum_le_sum fun j _ => sq_le_sq.2 (h i j))

private theorem frob_abs {m n : Nat} (A : Matrix (Fin m) (Fin n) ℝ) : frob (absM A) = frob A := by
  simp [frob, absM]

private theorem frob_smul {m n : Nat} {c : ℝ} (hc : 0 ≤ c) (A : Matrix (Fin m) (Fin n) ℝ) :
    frob (c • A) = c * frob A := by
  simp only [frob, Matrix.smul_apply, smul_eq_mul, mul_pow, ← Finset.mul_sum]
  rw [Real.sqrt_mul (sq_nonneg c), Real.sqrt_sq hc]

private theorem frob_trace {m n : Nat} (A : Matrix (Fin m) (Fin n) ℝ) : frob A = Real.sqrt (A.transpose * A).trace := by
  rw [frob, Matrix.trace]
  simp only [Matrix.diag_apply, Matrix.mul_apply, Matrix.transpose_apply]
  rw [Finset.sum_comm]
  simp only [pow_two]

private theorem frob_trace' {m n : Nat} (A : Matrix (Fin m) (Fin n) ℝ) : frob A = Real.sqrt (A * A.transpose).trace := by
  rw [frob_trace, Matrix.trace_mul_comm]

private theorem frob_mul_orth {m n : Nat} (A : Matrix (Fin m) (Fin n) ℝ) {Q : Matrix (Fin n) (Fin n) ℝ}
    (hQ : Q * Q.transpose = 1) : frob (A * Q) = frob A := by
  rw [frob_trace', frob_trace', Matrix.transpose_mul, Matrix.mul_assoc, ← Matrix.mul_assoc Q, hQ, Matrix.one_mul]

private theorem frob_orth_mul {m n : Nat} (A : Matrix (Fin m) (Fin n) ℝ) {Q : Matrix (Fin m) (Fin m) ℝ}
    (hQ : Q * Q.transpose = 1) : frob (Q * A) = frob A := by
  rw [frob_trace, frob_trace, Matrix.transpose_mul, Matrix.mul_assoc, ← Matrix.mul_assoc Q.transpose,
    mul_eq_one_comm.1 hQ, Matrix.one_mul]

private theorem frob_orth {n : Nat} {Q : Matrix (Fin n) (Fin n) ℝ} (hQ : Q * Q.transpose = 1) :
    frob Q = Real.sqrt n := by
  rw [frob_trace', hQ, Matrix.trace_one]; simp

/-- A list of factors: the operands, the matrices of rounded numbers they hold, and exact orthogonal matrices
they approximate up to `η`. -/
def Factors {n : Nat} (s : State (Fl R)) (η : ℝ) :
    List (MNode (Fl R) × Matrix (Fin n) (Fin n) (Fl R) × Matrix (Fin n) (Fin n) ℝ) → Prop :=
  List.Forall fun f => MMat s f.1 f.2.1 ∧ f.1.Straight s ∧ f.2.2 * f.2.2.transpose = 1 ∧
    frob (realM f.2.1 - f.2.2) ≤ η

private theorem temp_straight {n : Nat} (hn : 0 < n) {s : State (Fl R)} {t : MTemp (Fl R)}
    {C : Matrix (Fin n) (Fin n) (Fl R)} (h : MMat s (.temp t) C) : (MNode.temp t).Straight s := by
  intro hf
  have h1 : (MNode.temp t).dims s = .ok ((n : Int), (n : Int)) := h.rep.1
  have h2 : t.fixed = true := by simpa [MNode.fixed] using hf
  have h3 : ((t.rows : Int), (t.cols : Int)) = ((n : Int), (n : Int)) := by
    simpa [MNode.dims] using h1
  refine ⟨_, h1, ?_, by simpa using hn, by simpa using hn⟩
  simp [MNode.sdims, h2, h3]

/-- One more factor. -/
private theorem drift_step {n : Nat} {e η g : ℝ} (he : 0 ≤ e) (hη : 0 ≤ η) (hg : 0 ≤ g) (hn : 1 ≤ Real.sqrt n)
    {A B C P Q : Matrix (Fin n) (Fin n) ℝ} (hP : P * P.transpose = 1) (hQ : Q * Q.transpose = 1)
    (hA : frob (A - P) ≤ e) (hB : frob (B - Q) ≤ η) (hC : ∀ i j, |C i j - (A * B) i j| ≤ g * (absM A * absM B) i j) :
    Real.sqrt n + frob (C - P * Q) ≤ (Real.sqrt n + e) * (1 + η + g * (Real.sqrt n + η)) := by
  have e1 : C - P * Q = (C - A * B) + ((A - P) * Q + ((A - P) * (B - Q) + P * (B - Q))) := by noncomm_ring
  have fA : frob A ≤ Real.sqrt n + e := by
    have := frob_add P (A - P)
    rw [add_sub_cancel, frob_orth hP] at this
    linarith
  have fB : frob B ≤ Real.sqrt n + η := by
    have := frob_add Q (B - Q)
    rw [add_sub_cancel, frob_orth hQ] at this
    linarith
  have h1 : frob (C - A * B) ≤ g * ((Real.sqrt n + e) * (Real.sqrt n + η)) := by
    have k1 : frob (C - A * B) ≤ frob (g • (absM A * absM B)) := by
      refine frob_mono fun i j => (hC i j).trans ?_
      rw [Matrix.smul_apply, smul_eq_mul]
      exact le_abs_self _
    have k2 := frob_mul (absM A) (absM B)
    rw [frob_abs, frob_abs] at k2
    rw [frob_smul hg] at k1
    exact k1.trans (mul_le_mul_of_nonneg_left (k2.trans (mul_le_mul fA fB (frob_nonneg _) (by linarith))) hg)
  have h2 : frob ((A - P) * Q) ≤ e := by rw [frob_mul_orth _ hQ]; exact hA
  have h3 : frob ((A - P) * (B - Q)) ≤ e * η := (frob_mul _ _).trans (mul_le_mul hA hB (frob_nonneg _) he)
  have h4 : frob (P * (B - Q)) ≤ η := by rw [frob_orth_mul _ hP]; exact hB
  have h5 := frob_add (C - A * B) ((A - P) * Q + ((A - P) * (B - Q) + P * (B - Q)))
  have h6 := frob_add ((A - P) * Q) ((A - P) * (B - Q) + P * (B - Q))
  have h7 := frob_add ((A - P) * (B - Q)) (P * (B - Q))
  rw [e1]
  nlinarith [mul_nonneg hη (sub_nonneg.2 hn)]

/-- C119: the product of any number of matrices that are orthogonal up to `η` (computed rotations, say), evaluated
from left to right in rounded arithmetic, drifts away from the product of the exact orthogonal matrices by at most
`(√n + e) (1 + η + γ_n (√n + η))^k - √n`, where `k` is the number of factors after the first one and `e` the error
of that one. -/
theorem mulChain_drift {n : Nat} (hn : 0 < n) (hu : n * R.u < 1) {s : State (Fl R)} {η : ℝ} (hη : 0 ≤ η) :
    ∀ (l : List (MNode (Fl R) × Matrix (Fin n) (Fin n) (Fl R) × Matrix (Fin n) (Fin n) ℝ)) (a : MNode (Fl R))
      (A : Matrix (Fin n) (Fin n) (Fl R)) (P : Matrix (Fin n) (Fin n) ℝ) (e : ℝ), Factors s η l → MMat s a A →
      a.Straight s → P * P.transpose = 1 → frob (realM A - P) ≤ e →
      ∃ r C, mulChain s a (l.map Prod.fst) = .ok r ∧ MMat s r C ∧
        (P * (l.map fun f => f.2.2).prod) * (P * (l.map fun f => f.2.2).prod).transpose = 1 ∧
        frob (realM C - P * (l.map fun f => f.2.2).prod) ≤
          (Real.sqrt n + e) * (1 + η + gamma R.u n * (Real.sqrt n + η)) ^ l.length - Real.sqrt n := by
  have hg : 0 ≤ gamma R.u n := (phi_nonneg R.u_nonneg R.u_lt n).trans (phi_le_gamma R.u_nonneg R.u_lt hu)
  have h1 : 1 ≤ Real.sqrt n := by rw [Real.one_le_sqrt]; exact_mod_cast hn
  intro l
  induction l with
  | nil =>
    intro a A P e _ ha _ hP hA
    exact ⟨a, A, rfl, ha, by simpa using hP, by simpa using hA⟩
  | cons f l ih =>
    intro a A P e hl ha sa hP hA
    obtain ⟨⟨f1, f2, f3, f4⟩, hl'⟩ := (List.forall_cons _ _ _).1 hl
    have he : 0 ≤ e := (frob_nonneg _).trans hA
    obtain ⟨t, C, t1, t2, t3⟩ := matMul_error hn ha f1 sa f2 hu
    have st := drift_step he hη hg h1 hP f3 hA f4 t3
    have hPQ : (P * f.2.2) * (P * f.2.2).transpose = 1 := by
      rw [Matrix.transpose_mul, Matrix.mul_assoc, ← Matrix.mul_assoc f.2.2, f3, Matrix.one_mul, hP]
    obtain ⟨r, D, r1, r2, r3, r4⟩ := ih (.temp t) C (P * f.2.2)
      ((Real.sqrt n + e) * (1 + η + gamma R.u n * (Real.sqrt n + η)) - Real.sqrt n) hl' t2 (temp_straight hn t2) hPQ
      (by linarith)
    refine ⟨r, D, ?_, r2, ?_, ?_⟩
    · rw [List.map_cons, mulChain, t1, Res.ok_bind]; exact r1
    · rw [List.map_cons, List.prod_cons, ← Matrix.mul_assoc]; exact r3
    · rw [List.map_cons, List.prod_cons, ← Matrix.mul_assoc, List.length_cons, pow_succ']
      refine r4.trans (le_of_eq ?_)
      ring

/-! ### Products of many quaternions -/

private theorem realQ_step (c : QCross) {p q : ℍ[Fl R]} {P Q : ℍ[ℝ]} {e η : ℝ} (hη : 0 ≤ η) (hP : ‖P‖ = 1)
    (hQ : ‖Q‖ = 1) (hp : ‖realQ p - P‖ ≤ e) (hq : ‖realQ q - Q‖ ≤ η) (hu : 8 * R.u < 1) :
    1 + ‖realQ (qMulEl c p q) - crossMul c P Q‖ ≤ (1 + e) * ((1 + η) * (1 + gamma R.u 8)) := by
  have u8 : ((8 : ℕ) : ℝ) * R.u < 1 := by push_cast; exact hu
  have hg : phi R.u 8 ≤ gamma R.u 8 := phi_le_gamma R.u_nonneg R.u_lt u8
  have he : 0 ≤ e := (norm_nonneg _).trans hp
  have h0 := phi_nonneg R.u_nonneg R.u_lt 8
  have np : ‖realQ p‖ ≤ 1 + e := by
    have := norm_add_le P (realQ p - P); rw [add_sub_cancel] at this; linarith
  have nq : ‖realQ q‖ ≤ 1 + η := by
    have := norm_add_le Q (realQ q - Q); rw [add_sub_cancel] at this; linarith
  have h1 : ‖realQ (qMulEl c p q) - crossMul c (realQ p) (realQ q)‖ ≤ gamma R.u 8 * ((1 + e) * (1 + η)) :=
    (qMulEl_norm c p q).trans (mul_le_mul hg (mul_le_mul np nq (norm_nonneg _) (by linarith)) (by positivity)
      (h0.trans hg))
  have h2 : ‖crossMul c (realQ p) (realQ q) - crossMul c P Q‖ ≤ e * (1 + η) + η := by
    have key : ∀ a b A B : ℍ[ℝ], ‖a - A‖ ≤ e → ‖b - B‖ ≤ η → ‖A‖ = 1 → ‖b‖ ≤ 1 + η → ‖a * b - A * B‖ ≤ e * (1 + η) + η := by
      intro a b A B ha hb hA nb
      have e1 : a * b - A * B = (a - A) * b + A * (b - B) := by noncomm_ring
      rw [e1]
      refine (norm_add_le _ _).trans ?_
      rw [norm_mul, norm_mul, hA, one_mul]
      exact add_le_add (mul_le_mul ha nb (norm_nonneg _) he) hb
    have key' : ∀ a b A B : ℍ[ℝ], ‖a - A‖ ≤ e → ‖b - B‖ ≤ η → ‖A‖ = 1 → ‖b‖ ≤ 1 + η → ‖b * a - B * A‖ ≤ e * (1 + η) + η := by
      intro a b A B ha hb hA nb
      have e1 : b * a - B * A = b * (a - A) + (b - B) * A := by noncomm_ring
      rw [e1]
      refine (norm_add_le _ _).trans ?_
      rw [norm_mul, norm_mul, hA, mul_one]
      refine add_le_add ?_ hb
      rw [mul_comm]
      exact mul_le_mul ha nb (norm_nonneg _) he
    cases c
    · exact key _ _ _ _ hp hq hP nq
    · exact key' _ _ _ _ hp hq hP nq
  have h3 := norm_sub_le_norm_sub_add_norm_sub (realQ (qMulEl c p q)) (crossMul c (realQ p) (realQ q)) (crossMul c P Q)
  nlinarith

/-- The exact product, in the order of the convention. -/
def crossProd (c : QCross) : ℍ[ℝ] → List ℍ[ℝ] → ℍ[ℝ] := List.foldl (crossMul c)

/-- A list of factors of a product of quaternions: operands, what they hold, and exact unit quaternions they
approximate up to `η`. -/
def QFactors (s : QState (Fl R)) (o : QOrder) (c : QCross) (η : ℝ) : List (QNode (Fl R) × ℍ[Fl R] × ℍ[ℝ]) → Prop :=
  List.Forall fun f => QReads s f.1 f.2.1 ∧ f.1.ty = .quat o c ∧ ‖f.2.2‖ = 1 ∧ ‖realQ f.2.1 - f.2.2‖ ≤ η

private theorem norm_crossMul (c : QCross) {P Q : ℍ[ℝ]} (hP : ‖P‖ = 1) (hQ : ‖Q‖ = 1) : ‖crossMul c P Q‖ = 1 := by
  cases c <;> simp [crossMul, hP, hQ]

/-- C119: the product of any number of quaternions that are unit quaternions up to `η`, evaluated from left to right in
rounded arithmetic, drifts away from the exact product, which is a unit quaternion, by at most
`(1 + e) ((1 + η) (1 + γ_8))^k - 1`. -/
theorem qMulChain_drift (hu : 8 * R.u < 1) {s : QState (Fl R)} {o : QOrder} {c : QCross} {η : ℝ} (hη : 0 ≤ η) :
    ∀ (l : List (QNode (Fl R) × ℍ[Fl R] × ℍ[ℝ])) (a : QNode (Fl R)) (p : ℍ[Fl R]) (P : ℍ[ℝ]) (e : ℝ),
      QFactors s o c η l → QReads s a p → a.ty = .quat o c → ‖P‖ = 1 → ‖realQ p - P‖ ≤ e →
      ∃ r h, qMulChain s a (l.map Prod.fst) = .ok r ∧ r.ty = .quat o c ∧ QReads s r h ∧
        ‖crossProd c P (l.map fun f => f.2.2)‖ = 1 ∧
        ‖realQ h - crossProd c P (l.map fun f => f.2.2)‖ ≤ (1 + e) * ((1 + η) * (1 + gamma R.u 8)) ^ l.length - 1 := by
  intro l
  induction l with
  | nil =>
    intro a p P e _ ha ta hP hp
    exact ⟨a, p, rfl, ta, ha, hP, by simpa [crossProd] using hp⟩
  | cons f l ih =>
    intro a p P e hl ha ta hP hp
    obtain ⟨⟨f1, f2, f3, f4⟩, hl'⟩ := (List.forall_cons _ _ _).1 hl
    obtain ⟨el, m1, m2⟩ := qMul_gen ha f1 (ta.trans f2.symm)
    have ho : a.order = o := by simp [QNode.order, ta, QTy.order]
    have hc : a.cross = c := by simp [QNode.cross, ta, QTy.cross]
    rw [ho, hc] at m1 m2
    have st := realQ_step c hη hP f3 hp f4 hu
    obtain ⟨r, h, r1, r2, r3, r4, r5⟩ := ih (.tmp o c el) _ (crossMul c P f.2.2)
      ((1 + e) * ((1 + η) * (1 + gamma R.u 8)) - 1) hl' (qreads_tmp m2) rfl (norm_crossMul c hP f3) (by linarith)
    refine ⟨r, h, ?_, r2, r3, r4, ?_⟩
    · rw [List.map_cons, qMulChain, m1, Res.ok_bind]; exact r1
    · rw [List.length_cons, pow_succ']
      refine r5.trans (le_of_eq ?_)
      ring

/-- C119: the same for the loop `q *= b1; q *= b2; …`, whose operands do not mention `q`; nothing but `q` changes. -/
theorem qMulAssignChain_drift (hu : 8 * R.u < 1) {v : QVar} {η : ℝ} (hη : 0 ≤ η) :
    ∀ (l : List (QVar × ℍ[Fl R] × ℍ[ℝ])) (s : QState (Fl R)) (p : ℍ[Fl R]) (P : ℍ[ℝ]) (e : ℝ),
      (l.Forall fun f => QIs s f.1 f.2.1 ∧ f.1.id ≠ v.id ∧ f.1.order = v.order ∧ f.1.cross = v.cross ∧ ‖f.2.2‖ = 1 ∧
        ‖realQ f.2.1 - f.2.2‖ ≤ η) → QIs s v p → ‖P‖ = 1 → ‖realQ p - P‖ ≤ e →
      ∃ s' h, qMulAssignChain v s (l.map fun f => .var f.1) = .ok s' ∧ QIs s' v h ∧ (∀ y, y ≠ v.id → s' y = s y) ∧
        ‖crossProd v.cross P (l.map fun f => f.2.2)‖ = 1 ∧
        ‖realQ h - crossProd v.cross P (l.map fun f => f.2.2)‖ ≤
          (1 + e) * ((1 + η) * (1 + gamma R.u 8)) ^ l.length - 1 := by
  intro l
  induction l with
  | nil =>
    intro s p P e _ ha hP hp
    exact ⟨s, p, rfl, ha, fun _ _ => rfl, hP, by simpa [crossProd] using hp⟩
  | cons f l ih =>
    intro s p P e hl ha hP hp
    obtain ⟨⟨f1, f2, f3, f4, f5, f6⟩, hl'⟩ := (List.forall_cons _ _ _).1 hl
    obtain ⟨el, m1, m2⟩ := qMul_gen (qreads_var ha) (qreads_var f1) (by simp [QNode.ty, f3, f4])
    have ho : (QNode.var v : QNode (Fl R)).order = v.order := rfl
    have hc : (QNode.var v : QNode (Fl R)).cross = v.cross := rfl
    rw [ho, hc] at m1 m2
    obtain ⟨s1, a1, a2, a3⟩ := qAssign_eq (v := v) (qreads_tmp (s := s) m2) rfl
    have st := realQ_step v.cross hη hP f5 hp f6 hu
    obtain ⟨s', h, r1, r2, r3, r4, r5⟩ := ih s1 _ (crossMul v.cross P f.2.2)
      ((1 + e) * ((1 + η) * (1 + gamma R.u 8)) - 1)
      (List.Forall.imp (fun g hg => ⟨by unfold QIs; rw [a3 _ hg.2.1]; exact hg.1, hg.2⟩) hl') a2
      (norm_crossMul _ hP f5) (by linarith)
    refine ⟨s', h, ?_, r2, fun y hy => (r3 y hy).trans (a3 y hy), r4, ?_⟩
    · rw [List.map_cons, qMulAssignChain, qMulAssign, m1]
      simp only [Out.withVal, Out.andThen]
      rw [a1]
      exact r1
    · rw [List.length_cons, pow_succ']
      refine r5.trans (le_of_eq ?_)
      ring

/-! ### Examples in double precision -/

private theorem ex_u {k : ℕ} (h : k ≤ 20) : (k : ℝ) * double.u < 1 := by
  have : (k : ℝ) ≤ 20 := by exact_mod_cast h
  rw [show double.u = (2 : ℝ)⁻¹ ^ 53 from rfl]
  nlinarith [show (2 : ℝ)⁻¹ ^ 53 ≤ 1 / 100 by norm_num, show (0 : ℝ) ≤ (2 : ℝ)⁻¹ ^ 53 by positivity]

/-- A quaternion close to the unit quaternion `3/5 + 4/5 i`. -/
private noncomputable def qNear : ℍ[Fl double] := ⟨⟨3 / 5⟩, ⟨4 / 5⟩, ⟨1 / 1000⟩, ⟨0⟩⟩

private noncomputable def qP : ℍ[ℝ] := ⟨3 / 5, 4 / 5, 0, 0⟩

private noncomputable def qSt : QState (Fl double) := fun _ => qMake .imagFirst qNear.re qNear.imI qNear.imJ qNear.imK

private theorem qSt_is (i : Nat) (c : QCross) : QIs qSt ⟨i, .imagFirst, c⟩ qNear := qholds_make _ _ _ _ _

private theorem norm_of_sq {q : ℍ[ℝ]} {e : ℝ} (he : 0 ≤ e) (h : normSq q = e ^ 2) : ‖q‖ = e := by
  rw [normSq_eq_norm_mul_self, ← pow_two] at h
  exact (pow_left_inj₀ (norm_nonneg _) he two_ne_zero).1 h

private theorem qP_unit : ‖qP‖ = 1 := norm_of_sq zero_le_one (by rw [normSq_def']; norm_num [qP])

private theorem qNear_near : ‖realQ qNear - qP‖ ≤ 1 / 1000 :=
  (norm_of_sq (by norm_num) (by
    rw [normSq_def', Quaternion.re_sub, Quaternion.imI_sub, Quaternion.imJ_sub, Quaternion.imK_sub]
    norm_num [qP, qNear, realQ])).le

private noncomputable def bm : BMat (Fl double) := BMat.of .col true 4 4 fun _ _ => ⟨7⟩

example : ∃ m' w y, rotationQuaternion qSt bm (.var ⟨0, .imagFirst, .negative⟩) = .ok m' ∧
    transformVector m' (AVec.of true ![⟨1⟩, ⟨2⟩, ⟨1 / 3⟩]) = .ok w ∧ w.Is 3 y := by
  obtain ⟨m', w, y, h1, h2, h3, -⟩ := rotate_by_quaternion_error (m := bm) (v := AVec.of true ![⟨1⟩, ⟨2⟩, ⟨1 / 3⟩])
    (x := ![⟨1⟩, ⟨2⟩, ⟨1 / 3⟩]) (by simp [BMat.HasLin, bm, BMat.of]) (qreads_var (qSt_is 0 .negative))
    (fun h => by
      have : (realQ qNear).imI = 4 / 5 := rfl
      rw [h] at this; norm_num at this)
    ⟨rfl, by funext i; fin_cases i <;> rfl⟩ (by have := ex_u (k := 4) (by norm_num); push_cast at this; exact this) rfl
  exact ⟨m', w, y, h1, h2, h3⟩

example := transformPoint_error (m := bm) (v := AVec.of true ![⟨1⟩, ⟨2⟩, ⟨1 / 3⟩]) (x := ![⟨1⟩, ⟨2⟩, ⟨1 / 3⟩])
  (by simp [BMat.HasAff, bm, BMat.of]) ⟨rfl, by funext i; fin_cases i <;> rfl⟩
  (by have := ex_u (k := 4) (by norm_num); push_cast at this; exact this)

/-- A product of `k + 1` quaternions in double precision. -/
example (k : Nat) (c : QCross) : ∃ r h, qMulChain qSt (.var ⟨0, .imagFirst, c⟩)
      (List.replicate k (.var ⟨1, .imagFirst, c⟩)) = .ok r ∧ QReads qSt r h ∧
    ‖realQ h - crossProd c qP (List.replicate k qP)‖ ≤
      (1 + 1 / 1000) * ((1 + 1 / 1000) * (1 + gamma double.u 8)) ^ k - 1 := by
  obtain ⟨r, h, h1, -, h2, -, h3⟩ := qMulChain_drift (s := qSt) (o := .imagFirst) (c := c) (η := 1 / 1000)
    (by have := ex_u (k := 8) (by norm_num); push_cast at this; exact this) (by norm_num)
    (List.replicate k (.var ⟨1, .imagFirst, c⟩, qNear, qP)) (.var ⟨0, .imagFirst, c⟩) qNear qP (1 / 1000)
    (List.forall_iff_forall_mem.2 fun f hf => by
      rw [List.eq_of_mem_replicate hf]; exact ⟨qreads_var (qSt_is 1 c), rfl, qP_unit, qNear_near⟩)
    (qreads_var (qSt_is 0 c)) rfl qP_unit qNear_near
  simp only [List.map_replicate, List.length_replicate] at h1 h3
  exact ⟨r, h, h1, h2, h3⟩

/-- `q *= p` executed `k` times. -/
example (k : Nat) (c : QCross) : ∃ s h, qMulAssignChain ⟨0, .imagFirst, c⟩ qSt
      (List.replicate k (.var ⟨1, .imagFirst, c⟩)) = .ok s ∧ QIs s ⟨0, .imagFirst, c⟩ h ∧
    ‖realQ h - crossProd c qP (List.replicate k qP)‖ ≤
      (1 + 1 / 1000) * ((1 + 1 / 1000) * (1 + gamma double.u 8)) ^ k - 1 := by
  obtain ⟨s, h, h1, h2, -, -, h3⟩ := qMulAssignChain_drift (v := ⟨0, .imagFirst, c⟩) (η := 1 / 1000)
    (by have := ex_u (k := 8) (by norm_num); push_cast at this; exact this) (by norm_num)
    (List.replicate k (⟨1, .imagFirst, c⟩, qNear, qP)) qSt qNear qP (1 / 1000)
    (List.forall_iff_forall_mem.2 fun f hf => by
      rw [List.eq_of_mem_replicate hf]; exact ⟨qSt_is 1 c, Nat.one_ne_zero, rfl, rfl, qP_unit, qNear_near⟩)
    (qSt_is 0 c) qP_unit qNear_near
  simp only [List.map_replicate, List.length_replicate] at h1 h3
  exact ⟨s, h, h1, h2, h3⟩

/-- A matrix close to a rotation of the plane. -/
private noncomputable def mA : Matrix (Fin 2) (Fin 2) (Fl double) := !![⟨3 / 5⟩, ⟨-4 / 5⟩; ⟨4 / 5 + 1 / 1000⟩, ⟨3 / 5⟩]

private noncomputable def mN : MNode (Fl double) :=
  .temp ⟨false, 2, 2, [⟨3 / 5⟩, ⟨-4 / 5⟩, ⟨4 / 5 + 1 / 1000⟩, ⟨3 / 5⟩]⟩

private noncomputable def mP : Matrix (Fin 2) (Fin 2) ℝ := !![3 / 5, -4 / 5; 4 / 5, 3 / 5]

private theorem mN_mat (s : State (Fl double)) : MMat s mN mA :=
  ⟨⟨rfl, fun i j => by fin_cases i <;> fin_cases j <;> rfl⟩, false, MNode.Typed.temp⟩

private theorem mP_orth : mP * mP.transpose = 1 := by
  ext i j; fin_cases i <;> fin_cases j <;> norm_num [mP, Matrix.mul_apply, Fin.sum_univ_two]

private theorem mA_near : frob (realM mA - mP) ≤ 1 / 1000 := by
  rw [frob, Real.sqrt_le_left (by norm_num)]
  simp only [Fin.sum_univ_two, Matrix.sub_apply]
  norm_num [mA, mP, realM]

/-- A product of `k + 1` matrices in double precision. -/
example (k : Nat) (s : State (Fl double)) : ∃ r C, mulChain s mN (List.replicate k mN) = .ok r ∧ MMat s r C ∧
    frob (realM C - mP * mP ^ k) ≤
      (Real.sqrt (2 : ℕ) + 1 / 1000) * (1 + 1 / 1000 + gamma double.u 2 * (Real.sqrt (2 : ℕ) + 1 / 1000)) ^ k -
        Real.sqrt (2 : ℕ) := by
  obtain ⟨r, C, h1, h2, -, h3⟩ := mulChain_drift (n := 2) (by norm_num) (s := s) (η := 1 / 1000)
    (ex_u (k := 2) (by norm_num)) (by norm_num) (List.replicate k (mN, mA, mP)) mN mA mP (1 / 1000)
    (List.forall_iff_forall_mem.2 fun f hf => by
      rw [List.eq_of_mem_replicate hf]; exact ⟨mN_mat s, by rintro ⟨⟩, mP_orth, mA_near⟩)
    (mN_mat s) (by rintro ⟨⟩) mP_orth mA_near
  simp only [List.map_replicate, List.length_replicate, List.prod_replicate] at h1 h3
  exact ⟨r, C, h1, h2, h3⟩

#print axioms rotationQuaternion_error
#print axioms transformVector_error
#print axioms transformPoint_error
#print axioms rotate_by_quaternion_error
#print axioms mulChain_drift
#print axioms qMulChain_drift
#print axioms qMulAssignChain_drift

end CML
