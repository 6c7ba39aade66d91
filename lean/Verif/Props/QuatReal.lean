import Verif.Props.Quat
import Verif.Model.QuatReal
import Mathlib.Analysis.Normed.Algebra.QuaternionExponential

/-!
Property theorems for quaternions over the reals: C47 (exp, log), C48 (normalize).
-/

namespace CML

open Quaternion

theorem qLength_eq {s : QState ℝ} {a : QNode ℝ} {h : ℍ[ℝ]} (ha : QReads s a h) :
    qLength s a = .ok ‖h‖ := by
  simp [qLength, qLengthSquared_eq ha, Quaternion.normSq_eq_norm_mul_self]

theorem norm_im (h : ℍ[ℝ]) :
    ‖h.im‖ = Real.sqrt (h.imI * h.imI + h.imJ * h.imJ + h.imK * h.imK) := by
  have : normSq h.im = h.imI * h.imI + h.imJ * h.imJ + h.imK * h.imK := by
    rw [normSq_def']; simp; ring
  rw [← this, Quaternion.normSq_eq_norm_mul_self, Real.sqrt_mul_self (norm_nonneg _)]

theorem qImagLength_eq {s : QState ℝ} {a : QNode ℝ} {h : ℍ[ℝ]} (ha : QReads s a h) :
    qImagLength s a = .ok ‖h.im‖ := by
  obtain ⟨h0, h1, h2⟩ := qImag_eq ha
  simp [qImagLength, Res.loop, Res.bind, h0, h1, h2, norm_im]

theorem QIs.congr {s : QState ℝ} {v : QVar} {g h : ℍ[ℝ]} (hv : QIs s v g) (e : g = h) : QIs s v h :=
  e ▸ hv

/-- Storing a multiple of the imaginary part that is read from the target itself. -/
theorem qassign_own_imag {s : QState ℝ} {v : QVar} {h : ℍ[ℝ]} (hv : QIs s v h) (k e0 : ℝ) :
    ∃ s', qAssignVec s v true 3 (fun s i => do pure (k * (← qImag s (.var v) i))) e0 = .ok s' ∧
      QIs s' v ((e0 : ℍ[ℝ]) + k • h.im) ∧ ∀ y, y ≠ v.id → s' y = s y := by
  obtain ⟨-, h1, h2, h3⟩ := qholds_iff.1 hv
  have ho : (QNode.var v : QNode ℝ).order = v.order := rfl
  unfold QIs
  simp only [qAssignVec, if_true, qPut, QOrder.W_lt, Out.ok_andThen, qPutRes, qImag, QNode.get, ho]
  revert h1 h2 h3
  cases v.order <;> simp only [QOrder.W, QOrder.X, QOrder.Y, QOrder.Z] <;> intro h1 h2 h3 <;>
    simp [QArr.get, h1, h2, h3, QHolds] <;>
    (intro y hy; funext j; simp [hy])

/-- C47, proved part: for every quaternion with non-zero imaginary part `exp()` stores the quaternion
exponential (the sum of the exponential series).  Missing: real quaternions (false, see
`qexp_real_false`). -/
theorem qexp_partial {s : QState ℝ} {v : QVar} {h : ℍ[ℝ]} (hv : QIs s v h) (him : h.im ≠ 0) :
    ∃ s', qExpo s v = .ok s' ∧ QIs s' v (NormedSpace.exp h) ∧ ∀ y, y ≠ v.id → s' y = s y := by
  have hr := qreads_var hv
  have hn : ‖h.im‖ ≠ 0 := norm_ne_zero_iff.2 him
  obtain ⟨s', e1, e2, e3⟩ := qassign_own_imag hv (Real.exp h.re * (Real.sin ‖h.im‖ / ‖h.im‖))
    (Real.exp h.re * Real.cos ‖h.im‖)
  refine ⟨s', ?_, ?_, e3⟩
  · have hre : qReal s (.var v) = .ok h.re := (qreads_iff.1 hr).1
    simp only [qExpo, qImagLength_eq hr, hre, divR, hn, if_false, Res.ok_bind, Res.pure_eq,
      Out.withVal_ok]
    exact e1
  · refine e2.congr ?_
    rw [Quaternion.exp_eq, ← Real.exp_eq_exp_ℝ]
    refine Quaternion.ext _ _ ?_ ?_ ?_ ?_ <;> simp <;> ring

/-- C47: the closed form `exp(q) = e^w (cos|v| + sin|v| v/|v|)` of the stored value. -/
theorem qexp_formula_partial {s : QState ℝ} {v : QVar} {h : ℍ[ℝ]} (hv : QIs s v h) (him : h.im ≠ 0) :
    ∃ s', qExpo s v = .ok s' ∧ QIs s' v
      (Real.exp h.re • ((Real.cos ‖h.im‖ : ℍ[ℝ]) + (Real.sin ‖h.im‖ / ‖h.im‖) • h.im)) := by
  obtain ⟨s', e1, e2, -⟩ := qexp_partial hv him
  refine ⟨s', e1, ?_⟩
  rw [Quaternion.exp_eq, ← Real.exp_eq_exp_ℝ] at e2
  exact e2

/-- C47 (negated): for a real quaternion both `exp()` and `log()` divide by the zero length of the
imaginary part. -/
theorem qexp_real_false {s : QState ℝ} {v : QVar} {h : ℍ[ℝ]} (hv : QIs s v h) (him : h.im = 0) :
    qExpo s v = .ub .divZero ∧ qLog s v = .ub .divZero := by
  have hr := qreads_var hv
  have hn : ‖h.im‖ = 0 := by simp [him]
  have hre : qReal s (.var v) = .ok h.re := (qreads_iff.1 hr).1
  constructor
  · simp [qExpo, qImagLength_eq hr, hre, divR, hn]
  · by_cases h0 : ‖h‖ = 0
    · simp [qLog, qLength_eq hr, qImagLength_eq hr, hre, divR, h0]
    · simp only [qLog, qLength_eq hr, qImagLength_eq hr, hre, divR, h0, hn, if_false, if_true,
        Res.ok_bind, Res.ub_bind, Out.withVal_ub]

theorem norm_sq_eq (h : ℍ[ℝ]) : ‖h‖ ^ 2 = h.re ^ 2 + ‖h.im‖ ^ 2 := by
  have h1 : normSq h = ‖h‖ * ‖h‖ := Quaternion.normSq_eq_norm_mul_self h
  have h2 : normSq h.im = ‖h.im‖ * ‖h.im‖ := Quaternion.normSq_eq_norm_mul_self h.im
  rw [normSq_def'] at h1 h2
  simp at h2
  nlinarith

/-- C47, proved part: for every quaternion with non-zero imaginary part `log()` stores a quaternion
`l` with `exp(l) = q`, real part `log|q|` and the length of the imaginary part in (0, π), and calling
`exp()` afterwards restores `q`. -/
theorem qlog_exp_partial {s : QState ℝ} {v : QVar} {h : ℍ[ℝ]} (hv : QIs s v h) (him : h.im ≠ 0) :
    ∃ s1 l s2, qLog s v = .ok s1 ∧ QIs s1 v l ∧ NormedSpace.exp l = h ∧ l.re = Real.log ‖h‖ ∧
      0 < ‖l.im‖ ∧ ‖l.im‖ < Real.pi ∧ qExpo s1 v = .ok s2 ∧ QIs s2 v h ∧
      (∀ y, y ≠ v.id → s1 y = s y) := by
  have hr := qreads_var hv
  have hre : qReal s (.var v) = .ok h.re := (qreads_iff.1 hr).1
  have hvpos : 0 < ‖h.im‖ := norm_pos_iff.2 him
  have hv0 : ‖h.im‖ ≠ 0 := hvpos.ne'
  have hsq := norm_sq_eq h
  have hh : 0 < ‖h‖ := by
    have : h ≠ 0 := by rintro rfl; simp at him
    exact norm_pos_iff.2 this
  have hw : |h.re| < ‖h‖ := by
    rw [← sq_lt_sq₀ (abs_nonneg _) hh.le, sq_abs]; nlinarith [sq_nonneg ‖h.im‖, pow_pos hvpos 2]
  have hlo : -1 < h.re / ‖h‖ := by rw [lt_div_iff₀ hh]; linarith [(abs_lt.1 hw).1]
  have hhi : h.re / ‖h‖ < 1 := by rw [div_lt_one hh]; exact (abs_lt.1 hw).2
  set θ := Real.arccos (h.re / ‖h‖) with hθ
  have hcos : Real.cos θ = h.re / ‖h‖ := Real.cos_arccos hlo.le hhi.le
  have hpos : 0 < θ := Real.arccos_pos.2 hhi
  have hltpi : θ < Real.pi := by
    rw [hθ]
    exact lt_of_le_of_ne (Real.arccos_le_pi _) (fun e => by
      rw [Real.arccos_eq_pi] at e; linarith)
  have hsin : Real.sin θ = ‖h.im‖ / ‖h‖ := by
    rw [hθ, Real.sin_arccos, Real.sqrt_eq_iff_mul_self_eq_of_pos (by positivity)]
    field_simp
    nlinarith
  obtain ⟨s1, e1, e2, e3⟩ := qassign_own_imag hv (θ / ‖h.im‖) (Real.log ‖h‖)
  set l : ℍ[ℝ] := (Real.log ‖h‖ : ℍ[ℝ]) + (θ / ‖h.im‖) • h.im with hl
  have hlre : l.re = Real.log ‖h‖ := by simp [hl]
  have hlim : l.im = (θ / ‖h.im‖) • h.im := by
    refine Quaternion.ext _ _ ?_ ?_ ?_ ?_ <;> simp [hl]
  have hln : ‖l.im‖ = θ := by
    rw [hlim, norm_smul, Real.norm_eq_abs, abs_of_pos (by positivity)]
    field_simp
  have hexp : NormedSpace.exp l = h := by
    rw [Quaternion.exp_eq, ← Real.exp_eq_exp_ℝ, hln, hlim, hlre, Real.exp_log hh]
    have hθ0 : θ ≠ 0 := hpos.ne'
    have hh0 : ‖h‖ ≠ 0 := hh.ne'
    refine Quaternion.ext _ _ ?_ ?_ ?_ ?_ <;>
      simp only [re_smul, imI_smul, imJ_smul, imK_smul, re_add, imI_add, imJ_add, imK_add, re_coe,
        imI_coe, imJ_coe, imK_coe, re_im, imI_im, imJ_im, imK_im, smul_eq_mul, hsin, hcos] <;>
      field_simp <;> simp
  have hlne : l.im ≠ 0 := by
    rw [← norm_pos_iff, hln]; exact hpos
  obtain ⟨s2, f1, f2, -⟩ := qexp_partial e2 hlne
  rw [hexp] at f2
  refine ⟨s1, l, s2, ?_, e2, hexp, hlre, by rw [hln]; exact hpos, by rw [hln]; exact hltpi, f1, f2,
    e3⟩
  simp only [qLog, qLength_eq hr, qImagLength_eq hr, hre, divR, hh.ne', hv0, if_false,
    Res.ok_bind, Res.pure_eq, Out.withVal_ok]
  exact e1

/-- C47, proved part: `exp()` followed by `log()` restores every quaternion whose imaginary part has a
length strictly between 0 and π. -/
theorem qexp_log_partial {s : QState ℝ} {v : QVar} {h : ℍ[ℝ]} (hv : QIs s v h) (h0 : 0 < ‖h.im‖)
    (hpi : ‖h.im‖ < Real.pi) :
    ∃ s1 s2, qExpo s v = .ok s1 ∧ qLog s1 v = .ok s2 ∧ QIs s2 v h := by
  have him : h.im ≠ 0 := norm_pos_iff.1 h0
  obtain ⟨s1, e1, e2⟩ := qexp_formula_partial hv him
  have hsin : 0 < Real.sin ‖h.im‖ := Real.sin_pos_of_pos_of_lt_pi h0 hpi
  have hn0 : ‖h.im‖ ≠ 0 := h0.ne'
  set g : ℍ[ℝ] := Real.exp h.re • ((Real.cos ‖h.im‖ : ℍ[ℝ]) + (Real.sin ‖h.im‖ / ‖h.im‖) • h.im)
    with hg
  have hgre : g.re = Real.exp h.re * Real.cos ‖h.im‖ := by simp [hg]
  have hgim : g.im = (Real.exp h.re * (Real.sin ‖h.im‖ / ‖h.im‖)) • h.im := by
    refine Quaternion.ext _ _ ?_ ?_ ?_ ?_ <;> simp [hg] <;> ring
  have hgin : ‖g.im‖ = Real.exp h.re * Real.sin ‖h.im‖ := by
    rw [hgim, norm_smul, Real.norm_eq_abs, abs_of_pos (by positivity)]
    field_simp
  have hgn : ‖g‖ = Real.exp h.re := by
    have h1 := norm_sq_eq g
    rw [hgre, hgin] at h1
    have h2 : ‖g‖ ^ 2 = Real.exp h.re ^ 2 := by
      rw [h1]; nlinarith [Real.sin_sq_add_cos_sq ‖h.im‖]
    exact (sq_eq_sq₀ (norm_nonneg _) (Real.exp_pos _).le).1 h2
  have hr := qreads_var e2
  have hre : qReal s1 (.var v) = .ok g.re := (qreads_iff.1 hr).1
  have hgi0 : ‖g.im‖ ≠ 0 := by rw [hgin]; positivity
  have hgn0 : ‖g‖ ≠ 0 := by rw [hgn]; positivity
  have hac : Real.arccos (g.re / ‖g‖) = ‖h.im‖ := by
    rw [hgre, hgn, mul_div_assoc, mul_div_cancel₀ _ (Real.exp_pos _).ne',
      Real.arccos_cos h0.le hpi.le]
  obtain ⟨s2, f1, f2, -⟩ := qassign_own_imag e2 (Real.arccos (g.re / ‖g‖) / ‖g.im‖) (Real.log ‖g‖)
  refine ⟨s1, s2, e1, ?_, ?_⟩
  · simp only [qLog, qLength_eq hr, qImagLength_eq hr, hre, divR, hgn0, hgi0, if_false,
      Res.ok_bind, Res.pure_eq, Out.withVal_ok]
    exact f1
  · refine f2.congr ?_
    rw [hac, hgin, hgn]
    have hs0 : Real.sin ‖h.im‖ ≠ 0 := hsin.ne'
    have he0 : Real.exp h.re ≠ 0 := (Real.exp_pos _).ne'
    refine Quaternion.ext _ _ ?_ ?_ ?_ ?_ <;> simp [hg] <;> field_simp

/-- C48: `normalize()` of a non-zero quaternion stores `q / |q|`, which has norm one; the expression
form denotes the same quaternion; a zero quaternion divides by zero. -/
theorem qnormalize_unit {s : QState ℝ} {v : QVar} {h : ℍ[ℝ]} (hv : QIs s v h) :
    (h ≠ 0 → ∃ s' a, qNormalize s v = .ok s' ∧ QIs s' v (‖h‖⁻¹ • h) ∧
      qNorm s' (.var v) = .ok 1 ∧ qLength s' (.var v) = .ok 1 ∧ (∀ y, y ≠ v.id → s' y = s y) ∧
      qNormalized s (.var v) = .ok a ∧ QReads s a (‖h‖⁻¹ • h)) ∧
    (h = 0 → qNormalize s v = .ub .divZero) := by
  have hr := qreads_var hv
  have hl := qLength_eq hr
  constructor
  · intro h0
    have hn : ‖h‖ ≠ 0 := norm_ne_zero_iff.2 h0
    obtain ⟨s', e1, e2, e3⟩ := (qscal_assign_partial hv ‖h‖ (.val ‖h‖) rfl).2.1 hn
    have h1 : ‖‖h‖⁻¹ • h‖ = 1 := by
      rw [norm_smul, norm_inv, norm_norm, inv_mul_cancel₀ hn]
    refine ⟨s', _, by simp [qNormalize, hl, e1], e2, ?_, ?_, e3, by simp [qNormalized, hl],
      (qreads_scal hr _).2 hn⟩
    · rw [qNorm, qLengthSquared_eq (qreads_var e2), Quaternion.normSq_eq_norm_mul_self, h1, one_mul]
    · rw [qLength_eq (qreads_var e2), h1]
  · rintro rfl
    have := (qscal_assign_partial hv 0 (.val 0) rfl).2.2 rfl
    simp only [qNormalize, hl, norm_zero, Out.withVal_ok]
    exact this

theorem im_ne_zero {h : ℍ[ℝ]} (hi : h.imI ≠ 0) : h.im ≠ 0 := fun e => hi (by
  have := congrArg (fun q : ℍ[ℝ] => q.imI) e
  simpa using this)

theorem im_eq_zero {h : ℍ[ℝ]} (h1 : h.imI = 0) (h2 : h.imJ = 0) (h3 : h.imK = 0) : h.im = 0 := by
  refine Quaternion.ext _ _ ?_ ?_ ?_ ?_ <;> simp [h1, h2, h3]

/-- Example for C47: the hypotheses of `qexp_partial`, `qlog_exp_partial` hold for 1 + 2i in a
quaternion stored imaginary part first. -/
example : ∃ s1 s2, qLog (fun _ i => ([2, 0, 0, 1] : List ℝ)[i]?) ⟨0, .imagFirst, .positive⟩ = .ok s1 ∧
    qExpo s1 ⟨0, .imagFirst, .positive⟩ = .ok s2 ∧
    QIs s2 ⟨0, .imagFirst, .positive⟩ (⟨1, 2, 0, 0⟩ : ℍ[ℝ]) := by
  obtain ⟨s1, l, s2, h1, -, -, -, -, -, h2, h3, -⟩ := qlog_exp_partial
    (s := fun _ i => ([2, 0, 0, 1] : List ℝ)[i]?) (v := ⟨0, .imagFirst, .positive⟩)
    (h := ⟨1, 2, 0, 0⟩) (by simp [QIs, QHolds])
    (im_ne_zero (h := ⟨1, 2, 0, 0⟩) (by simp))
  exact ⟨s1, s2, h1, h2, h3⟩

/-- Example for `qexp_log_partial`: i has an imaginary part of length one. -/
example : ∃ s1 s2, qExpo (fun _ i => ([0, 1, 0, 0] : List ℝ)[i]?) ⟨0, .realFirst, .positive⟩ = .ok s1 ∧
    qLog s1 ⟨0, .realFirst, .positive⟩ = .ok s2 ∧
    QIs s2 ⟨0, .realFirst, .positive⟩ (⟨0, 1, 0, 0⟩ : ℍ[ℝ]) := by
  have hn : ∀ h : ℍ[ℝ], h.imI = 1 → h.imJ = 0 → h.imK = 0 → ‖h.im‖ = 1 := by
    intro h h1 h2 h3; rw [norm_im]; simp [h1, h2, h3]
  exact qexp_log_partial (by simp [QIs, QHolds]) ((hn ⟨0, 1, 0, 0⟩ rfl rfl rfl).symm ▸ one_pos)
    ((hn ⟨0, 1, 0, 0⟩ rfl rfl rfl).symm ▸ by linarith [Real.two_le_pi])

/-- Example for C47 (negated): the quaternion 1 is real. -/
example : qExpo (fun _ i => ([1, 0, 0, 0] : List ℝ)[i]?) ⟨0, .realFirst, .positive⟩ = .ub .divZero :=
  (qexp_real_false (h := ⟨1, 0, 0, 0⟩) (by simp [QIs, QHolds])
    (im_eq_zero (h := ⟨1, 0, 0, 0⟩) rfl rfl rfl)).1

/-- Example for C48: 3 + 4k is normalised. -/
example : ∃ s', qNormalize (fun _ i => ([3, 0, 0, 4] : List ℝ)[i]?) ⟨0, .realFirst, .positive⟩ = .ok s' ∧
    qNorm s' (.var ⟨0, .realFirst, .positive⟩) = .ok 1 := by
  obtain ⟨s', a, h1, -, h3, -⟩ := (qnormalize_unit (s := fun _ i => ([3, 0, 0, 4] : List ℝ)[i]?)
    (v := ⟨0, .realFirst, .positive⟩) (h := ⟨3, 0, 0, 4⟩) (by simp [QIs, QHolds])).1
    (by intro h; have := congrArg QuaternionAlgebra.re h; simp at this)
  exact ⟨s', h1, h3⟩

end CML

#print axioms CML.qexp_partial
#print axioms CML.qexp_formula_partial
#print axioms CML.qexp_real_false
#print axioms CML.qlog_exp_partial
#print axioms CML.qexp_log_partial
#print axioms CML.qnormalize_unit
