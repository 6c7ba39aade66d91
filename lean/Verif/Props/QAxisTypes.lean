import Verif.Props.AxisTypes
import Mathlib.Analysis.Real.Pi.Bounds

/-!
C137: the types of the axis and the angle `quaternion_to_axis_angle` returns.
-/

namespace CML

open Matrix Quaternion

/-- C137: with real numbers for the angle and the axis, it is the function of C56. -/
theorem qToAxisAngleAs_real (s : QState ℝ) (q : QNode ℝ) (tol : ℝ) :
    qToAxisAngleAs id id s q tol = qToAxisAngle s q tol := rfl

private theorem toInt_in {x : ℝ} (h : |x| < 1) : toInt x = 0 := by simp [toInt, truncR_inside h]

private theorem toInt_floor {x : ℝ} (h : 0 ≤ x) : toInt x = ⌊x⌋ := by rw [toInt, truncR, if_pos h]

private theorem toInt_of {x : ℝ} {n : ℕ} (h1 : (n : ℝ) ≤ x) (h2 : x < n + 1) : toInt x = n := by
  rw [toInt_floor (le_trans (Nat.cast_nonneg n) h1),
    Int.floor_eq_iff.2 ⟨by exact_mod_cast h1, by exact_mod_cast h2⟩]
  exact Int.cast_natCast n

private theorem atan2_zero : atan2 0 0 = 0 := by
  rw [atan2, show (⟨0, 0⟩ : ℂ) = 0 from rfl, Complex.arg_zero]

private theorem atan2_up : atan2 1 0 = Real.pi / 2 := by
  have h := atan2_polar one_pos (θ := Real.pi / 2) (by linarith [Real.pi_pos]) (by linarith [Real.pi_pos])
  rwa [Real.sin_pi_div_two, Real.cos_pi_div_two, mul_one, mul_zero] at h

private theorem im_sqrt {h : ℍ[ℝ]} (hh : normSq h = 1) :
    Real.sqrt (imVec h ⬝ᵥ imVec h) * Real.sqrt (imVec h ⬝ᵥ imVec h) + h.re * h.re = 1 := by
  rw [Real.mul_self_sqrt (by rw [dotProduct]; exact Finset.sum_nonneg fun i _ => mul_self_nonneg _)]
  rw [normSq_def'] at hh
  simp [imVec, dotProduct, Fin.sum_univ_three]
  linarith

/-- C137, the part that holds: an axis of the element type of the quaternion, and an angle of a type that contains
the real part and the length of the imaginary part (the same or a wider one) and in which doubling is exact.  Missing:
narrower types of the angle, `qToAxisAngleAs_int`, and other types of the axis, `qToAxisAngleAs_axis`. -/
theorem qToAxisAngleAs_partial {ce : ℝ → ℝ} {s : QState ℝ} {q : QNode ℝ} {h : ℍ[ℝ]} (hq : QReads s q h)
    (hre : ce h.re = h.re) (him : ce (Real.sqrt (imVec h ⬝ᵥ imVec h)) = Real.sqrt (imVec h ⬝ᵥ imVec h))
    (h2 : ∀ x, ce 2 * ce x = ce (2 * x)) {tol : ℝ} (ht : 0 ≤ tol) :
    ∃ v θ, qToAxisAngle s q tol = .ok (v, θ) ∧ qToAxisAngleAs id ce s q tol = .ok (v, ce θ) := by
  obtain ⟨i0, i1, i2⟩ := qImag_eq hq
  have hr : qReal s q = .ok h.re := (qreads_iff.1 hq).1
  have hax := AVec.mk3_is true h.imI h.imJ h.imK
  have hlen := AVec.length_is hax (by decide)
  rw [show (![h.imI, h.imJ, h.imK] : Fin 3 → ℝ) = imVec h from rfl] at hax hlen
  simp only [qToAxisAngle, qToAxisAngleAs, i0, i1, i2, hr, Res.ok_bind, id, hlen]
  by_cases hgt : Real.sqrt (imVec h ⬝ᵥ imVec h) > tol
  · obtain ⟨w, e1, -, -⟩ := AVec.sdiv_is hax (lt_of_le_of_lt ht hgt).ne'
    rw [if_pos hgt, if_pos hgt, e1]
    refine ⟨w, _, rfl, ?_⟩
    show Res.ok _ = Res.ok _
    rw [him, hre, h2]
    rfl
  · rw [if_neg hgt, if_neg hgt]
    exact ⟨_, _, rfl, rfl⟩

/-- C137: an integral angle.  The axis is right; the angle of any unit quaternion is returned as zero, but for half
turns, whose angle is returned as two. -/
theorem qToAxisAngleAs_int {s : QState ℝ} {q : QNode ℝ} {h : ℍ[ℝ]} (hq : QReads s q h) (hh : normSq h = 1) {tol : ℝ}
    (ht0 : 0 ≤ tol) (ht1 : tol < 1) :
    ∃ v θ, qToAxisAngle s q tol = .ok (v, θ) ∧
      qToAxisAngleAs id toInt s q tol = .ok (v, if h.re = 0 then 2 else 0) := by
  obtain ⟨i0, i1, i2⟩ := qImag_eq hq
  have hr : qReal s q = .ok h.re := (qreads_iff.1 hq).1
  have hax := AVec.mk3_is true h.imI h.imJ h.imK
  have hlen := AVec.length_is hax (by decide)
  rw [show (![h.imI, h.imJ, h.imK] : Fin 3 → ℝ) = imVec h from rfl] at hax hlen
  have hn := im_sqrt hh
  have hp := Real.sqrt_nonneg (imVec h ⬝ᵥ imVec h)
  have t0 : toInt 0 = 0 := toInt_in (by simp)
  simp only [qToAxisAngle, qToAxisAngleAs, i0, i1, i2, hr, Res.ok_bind, id, hlen]
  generalize Real.sqrt (imVec h ⬝ᵥ imVec h) = l at *
  by_cases hgt : l > tol
  · have hpos : 0 < l := lt_of_le_of_lt ht0 hgt
    obtain ⟨w, e1, -, -⟩ := AVec.sdiv_is hax hpos.ne'
    rw [if_pos hgt, if_pos hgt, e1]
    refine ⟨w, _, rfl, ?_⟩
    have t2 : toInt 2 = 2 := by exact_mod_cast toInt_of (x := 2) (n := 2) (by norm_num) (by norm_num)
    show Res.ok _ = Res.ok _
    congr 2
    rw [t2]
    by_cases h0 : h.re = 0
    · have hl : l = 1 := by rw [h0] at hn; nlinarith only [hn, hp]
      have t1 : toInt 1 = 1 := by exact_mod_cast toInt_of (x := 1) (n := 1) (by norm_num) (by norm_num)
      have tp : toInt (Real.pi / 2) = 1 := by
        exact_mod_cast toInt_of (x := Real.pi / 2) (n := 1) (by norm_num; linarith [Real.two_le_pi])
          (by norm_num; linarith [Real.pi_lt_four])
      rw [if_pos h0, h0, hl, t1, t0, atan2_up, tp, mul_one]
    · have hr2 : 0 < h.re * h.re := mul_self_pos.2 h0
      have a1 : toInt l = 0 := toInt_in (by rw [abs_of_pos hpos]; nlinarith only [hn, hr2, hpos])
      have a2 : toInt h.re = 0 := toInt_in (by
        rw [← sq_lt_one_iff_abs_lt_one, pow_two]; nlinarith only [hn, hpos])
      rw [if_neg h0, a1, a2, atan2_zero, t0, mul_zero]
  · rw [if_neg hgt, if_neg hgt]
    refine ⟨_, _, rfl, ?_⟩
    have h0 : h.re ≠ 0 := by
      intro h0
      rw [h0] at hn
      have : l = 1 := by nlinarith only [hn, hp]
      linarith
    rw [if_neg h0, t0]
    rfl

/-- C137: so an integral angle is the converted angle of the rotation exactly if that is less than one radian, when
the conversion is zero. -/
theorem qToAxisAngleAs_iff {s : QState ℝ} {q : QNode ℝ} {h : ℍ[ℝ]} (hq : QReads s q h) (hh : normSq h = 1) {tol : ℝ}
    (ht : OutsideQuatBand h tol) (ht1 : tol < 1) :
    ∃ v θ, qToAxisAngle s q tol = .ok (v, θ) ∧
      (qToAxisAngleAs id toInt s q tol = .ok (v, toInt θ) ↔ θ < 1) := by
  obtain ⟨v, u, θ, e1, -, p0, p1, p2, -⟩ := qToAxisAngle_spec hq hh ht
  obtain ⟨v', θ', f1, f2⟩ := qToAxisAngleAs_int hq hh ht.1 ht1
  rw [e1] at f1
  obtain ⟨rfl, rfl⟩ := Prod.mk.inj (Res.ok.inj f1)
  refine ⟨v, θ, e1, ?_⟩
  rw [f2]
  have hinj : ((Res.ok (v, if h.re = 0 then (2 : ℝ) else 0) : Res (AVec ℝ × ℝ)) = .ok (v, toInt θ)) ↔
      (if h.re = 0 then (2 : ℝ) else 0) = toInt θ :=
    ⟨fun e => (Prod.mk.inj (Res.ok.inj e)).2, fun e => by rw [e]⟩
  rw [hinj, toInt_floor p0]
  by_cases h0 : h.re = 0
  · have hθ : θ = Real.pi := by
      rcases p2 with ⟨-, hc, -⟩ | ⟨-, -, hi⟩
      · have hc' : Real.cos (θ / 2) = Real.cos (Real.pi / 2) := by rw [← hc, h0, Real.cos_pi_div_two]
        have := Real.injOn_cos ⟨by linarith, by linarith⟩ ⟨by linarith [Real.pi_pos], by linarith [Real.pi_pos]⟩ hc'
        linarith
      · have a := im_sqrt hh
        rw [hi, h0] at a
        simp at a
    have h3 := Real.pi_gt_three
    rw [if_pos h0, hθ, (Int.floor_eq_iff (z := 3)).2 ⟨by norm_num; exact h3.le, by norm_num; exact Real.pi_lt_four⟩]
    constructor
    · intro e; norm_num at e
    · intro e; linarith
  · rw [if_neg h0]
    have hz : (0 : ℝ) = (⌊θ⌋ : ℝ) ↔ ⌊θ⌋ = 0 := by
      rw [eq_comm]; exact_mod_cast Iff.rfl
    rw [hz, Int.floor_eq_zero_iff]
    exact ⟨fun e => e.2, fun e => ⟨p0, e⟩⟩

/-- C137: an axis of integral elements.  Every unit quaternion but `±i`, `±j` and `±k` is returned as no rotation,
although the angle has its own type. -/
theorem qToAxisAngleAs_axis (ce : ℝ → ℝ) {s : QState ℝ} {q : QNode ℝ} {h : ℍ[ℝ]} (hq : QReads s q h)
    (hi : ∀ i, |imVec h i| < 1) {tol : ℝ} (ht : 0 ≤ tol) :
    ∃ v, qToAxisAngleAs toInt ce s q tol = .ok (v, ce 0) ∧ v.Is 3 0 := by
  obtain ⟨i0, i1, i2⟩ := qImag_eq hq
  have t0 : toInt 0 = 0 := toInt_in (by simp)
  have hl : (AVec.mk3 true (0 : ℝ) 0 0).length = .ok 0 := by
    rw [AVec.length_is (AVec.mk3_is true 0 0 0) (by decide)]
    simp [dotProduct, Fin.sum_univ_three]
  have a0 : toInt h.imI = 0 := toInt_in (hi 0)
  have a1 : toInt h.imJ = 0 := toInt_in (hi 1)
  have a2 : toInt h.imK = 0 := toInt_in (hi 2)
  simp only [qToAxisAngleAs, i0, i1, i2, Res.ok_bind, a0, a1, a2, hl, t0]
  rw [if_neg (not_lt.2 ht)]
  refine ⟨_, rfl, rfl, ?_⟩
  funext i
  fin_cases i <;> rfl

/-! ### The hypotheses are met -/

/-- `int angle; quaternion_to_axis_angle(q, axis, angle)` for a rotation by two radians about the third axis: zero. -/
example (s : QState ℝ) (v : QVar) : ∃ s' w, qRotationAxisAngle s v (AVec.mk3 true 0 0 1) 2 = .ok s' ∧
    qToAxisAngle s' (.var v) 0 = .ok (w, 2) ∧ qToAxisAngleAs id toInt s' (.var v) 0 = .ok (w, 0) := by
  have hpi := Real.pi_gt_three
  have hu : (![0, 0, 1] : Fin 3 → ℝ) ⬝ᵥ ![0, 0, 1] = 1 := by simp [dotProduct, Fin.sum_univ_three]
  obtain ⟨s', e1, -, e3⟩ := qRotationAxisAngle_ok s v (AVec.mk3_is true 0 0 1) 2
  obtain ⟨s'', w, f1, f2, -⟩ := qRotationAxisAngle_extract s v (AVec.mk3_is true 0 0 1) hu (θ := 2) (tol := 0)
    two_pos (by linarith) le_rfl (Real.sin_pos_of_pos_of_lt_pi (by norm_num) (by linarith))
  obtain rfl : s'' = s' := by rw [e1] at f1; injection f1 with f; exact f.symm
  obtain ⟨w', θ, g1, g2⟩ := qToAxisAngleAs_int (qreads_var e3) (axisQuat_unit hu 2) (tol := 0) le_rfl one_pos
  rw [f2] at g1
  obtain ⟨rfl, rfl⟩ := Prod.mk.inj (Res.ok.inj g1)
  refine ⟨s'', w, e1, f2, ?_⟩
  rw [g2, if_neg]
  show Real.cos (2 / 2) ≠ 0
  rw [div_self two_ne_zero]
  exact (Real.cos_pos_of_mem_Ioo ⟨by linarith, by linarith⟩).ne'

/-- Two types with the same values. -/
example {s : QState ℝ} {q : QNode ℝ} {h : ℍ[ℝ]} (hq : QReads s q h) :
    ∃ v θ, qToAxisAngle s q 0 = .ok (v, θ) ∧ qToAxisAngleAs id id s q 0 = .ok (v, θ) :=
  qToAxisAngleAs_partial (ce := id) hq rfl rfl (fun _ => rfl) le_rfl

/-- `(1 + i + j + k) / 2`, a third of a turn, with an axis of integral elements: no rotation. -/
example {s : QState ℝ} {q : QNode ℝ} (hq : QReads s q ⟨1 / 2, 1 / 2, 1 / 2, 1 / 2⟩) :
    ∃ v, qToAxisAngleAs toInt id s q (1 / 1000) = .ok (v, 0) ∧ v.Is 3 0 := by
  refine qToAxisAngleAs_axis id hq (fun i => ?_) (by norm_num)
  fin_cases i <;> norm_num [imVec, abs_of_pos]

#print axioms qToAxisAngleAs_real
#print axioms qToAxisAngleAs_partial
#print axioms qToAxisAngleAs_int
#print axioms qToAxisAngleAs_iff
#print axioms qToAxisAngleAs_axis

end CML
