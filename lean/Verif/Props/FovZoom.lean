import Verif.Model.FovZoom
import Verif.Props.IntProj

/-!
C132: the conversions between horizontal and vertical fields of view and zoom factors are consistent with each
other and with the projections.
-/

namespace CML
open Real

private theorem tanR_ok {x : ℝ} (h : Real.cos x ≠ 0) : tanR x = .ok (Real.tan x) := by
  unfold tanR
  rw [if_neg h]

private theorem cos_half {x : ℝ} (h1 : -π < x) (h2 : x < π) : Real.cos (x / 2) ≠ 0 :=
  (Real.cos_pos_of_mem_Ioo ⟨by linarith, by linarith⟩).ne'

private theorem cos_arctan (x : ℝ) : Real.cos (2 * Real.arctan x / 2) ≠ 0 := by
  rw [mul_div_cancel_left₀ _ two_ne_zero]
  exact (Real.cos_arctan_pos x).ne'

private theorem tan_two_arctan (x : ℝ) : Real.tan (2 * Real.arctan x / 2) = x := by
  rw [mul_div_cancel_left₀ _ two_ne_zero, Real.tan_arctan]

private theorem two_arctan_tan {x : ℝ} (h1 : -π < x) (h2 : x < π) : 2 * Real.arctan (Real.tan (x / 2)) = x := by
  rw [Real.arctan_tan (by linarith) (by linarith)]
  ring

private theorem arctan_range (x : ℝ) : -π < 2 * Real.arctan x ∧ 2 * Real.arctan x < π :=
  ⟨by linarith [Real.neg_pi_div_two_lt_arctan x], by linarith [Real.arctan_lt_pi_div_two x]⟩

private theorem tan_half_ne {x : ℝ} (h1 : -π < x) (h2 : x < π) (h0 : x ≠ 0) : Real.tan (x / 2) ≠ 0 := by
  intro h
  have := two_arctan_tan h1 h2
  rw [h, Real.arctan_zero, mul_zero] at this
  exact h0 this.symm

/-! ### Round trips -/

/-- C132: for fields of view between -π and π the conversions between horizontal and vertical are inverse to each
other and stay in this range. -/
theorem fov_roundtrip {x aspect : ℝ} (h1 : -π < x) (h2 : x < π) (ha : aspect ≠ 0) :
    (∃ y, xfovToYfov x aspect = .ok y ∧ -π < y ∧ y < π ∧ yfovToXfov y aspect = .ok x) ∧
    (∃ y, yfovToXfov x aspect = .ok y ∧ -π < y ∧ y < π ∧ xfovToYfov y aspect = .ok x) := by
  have hc := cos_half h1 h2
  constructor
  · refine ⟨2 * Real.arctan (Real.tan (x / 2) / aspect), ?_, (arctan_range _).1, (arctan_range _).2, ?_⟩
    · simp [xfovToYfov, tanR_ok hc, divR, ha]
    · simp only [yfovToXfov, tanR_ok (cos_arctan _), tan_two_arctan, Res.ok_bind, Res.pure_eq]
      rw [div_mul_cancel₀ _ ha, two_arctan_tan h1 h2]
  · refine ⟨2 * Real.arctan (Real.tan (x / 2) * aspect), ?_, (arctan_range _).1, (arctan_range _).2, ?_⟩
    · simp [yfovToXfov, tanR_ok hc]
    · simp only [xfovToYfov, tanR_ok (cos_arctan _), tan_two_arctan, Res.ok_bind, Res.pure_eq, divR, ha, if_false]
      rw [mul_div_cancel_right₀ _ ha, two_arctan_tan h1 h2]

/-- C132: for other fields of view the round trip returns the equivalent angle between -π and π, so it is the
identity exactly in this range. -/
theorem fov_roundtrip_iff {x aspect : ℝ} (hc : Real.cos (x / 2) ≠ 0) (ha : aspect ≠ 0) :
    ∃ y z, xfovToYfov x aspect = .ok y ∧ yfovToXfov y aspect = .ok z ∧ (∃ k : ℤ, z = x - k * (2 * π)) ∧
      -π < z ∧ z < π ∧ (z = x ↔ -π < x ∧ x < π) := by
  refine ⟨2 * Real.arctan (Real.tan (x / 2) / aspect), 2 * Real.arctan (Real.tan (x / 2)), ?_, ?_, ?_,
    (arctan_range _).1, (arctan_range _).2, ?_⟩
  · simp [xfovToYfov, tanR_ok hc, divR, ha]
  · simp only [yfovToXfov, tanR_ok (cos_arctan _), tan_two_arctan, Res.ok_bind, Res.pure_eq]
    rw [div_mul_cancel₀ _ ha]
  · have hp := Real.pi_pos
    obtain ⟨k, hk⟩ : ∃ k : ℤ, k = ⌊x / (2 * π) + 1 / 2⌋ := ⟨_, rfl⟩
    have f1 := Int.floor_le (x / (2 * π) + 1 / 2)
    have f2 := Int.lt_floor_add_one (x / (2 * π) + 1 / 2)
    rw [← hk] at f1 f2
    have e : x / (2 * π) * (2 * π) = x := div_mul_cancel₀ _ (by positivity)
    have g1 : -(π / 2) ≤ x / 2 - k * π := by nlinarith
    have g2 : x / 2 - k * π < π / 2 := by nlinarith
    have g3 : -(π / 2) ≠ x / 2 - k * π := by
      intro h
      apply hc
      have : x / 2 = -(π / 2) + k * π := by linarith
      rw [this, Real.cos_add_int_mul_pi, Real.cos_neg, Real.cos_pi_div_two, mul_zero]
    refine ⟨k, ?_⟩
    rw [← Real.tan_sub_int_mul_pi (x / 2) k, Real.arctan_tan (lt_of_le_of_ne g1 g3) g2]
    ring
  · constructor
    · intro h
      rw [← h]
      exact arctan_range _
    · exact fun h => two_arctan_tan h.1 h.2

/-- C132: zoom factors and fields of view: every nonzero zoom factor is recovered, the field of view it belongs to
has the same sign; and every field of view between -π and π other than zero is recovered. -/
theorem zoom_roundtrip :
    (∀ z : ℝ, z ≠ 0 → ∃ f, zoomToFov z = .ok f ∧ -π < f ∧ f < π ∧ (0 < f ↔ 0 < z) ∧ fovToZoom f = .ok z) ∧
    (∀ f : ℝ, -π < f → f < π → f ≠ 0 → ∃ z, fovToZoom f = .ok z ∧ z ≠ 0 ∧ zoomToFov z = .ok f) := by
  constructor
  · intro z hz
    refine ⟨2 * Real.arctan (1 / z), by simp [zoomToFov, divR, hz], (arctan_range _).1, (arctan_range _).2, ?_, ?_⟩
    · constructor
      · intro h
        have : 0 < Real.arctan (1 / z) := by linarith
        rw [← Real.arctan_zero] at this
        exact one_div_pos.1 (Real.arctan_strictMono.lt_iff_lt.1 this)
      · intro h
        have : Real.arctan 0 < Real.arctan (1 / z) := Real.arctan_strictMono (one_div_pos.2 h)
        rw [Real.arctan_zero] at this
        linarith
    · simp only [fovToZoom, tanR_ok (cos_arctan _), tan_two_arctan, Res.ok_bind, divR, one_div, inv_eq_zero, hz,
        if_false, inv_inv]
  · intro f h1 h2 h0
    have ht := tan_half_ne h1 h2 h0
    refine ⟨1 / Real.tan (f / 2), ?_, one_div_ne_zero ht, ?_⟩
    · simp [fovToZoom, tanR_ok (cos_half h1 h2), divR, ht]
    · simp only [zoomToFov, divR, one_div, inv_eq_zero, ht, if_false, inv_inv, Res.ok_bind, Res.pure_eq,
        two_arctan_tan h1 h2]

/-- C132: the conversions of zoom factors are those of the fields of view they belong to. -/
theorem zoom_fov_commute {x aspect : ℝ} (h1 : -π < x) (h2 : x < π) (h0 : x ≠ 0) (ha : aspect ≠ 0) :
    ∃ y zx zy, xfovToYfov x aspect = .ok y ∧ fovToZoom x = .ok zx ∧ fovToZoom y = .ok zy ∧
      xzoomToYzoom zx aspect = .ok zy ∧ yzoomToXzoom zy aspect = .ok zx := by
  have hc := cos_half h1 h2
  have ht := tan_half_ne h1 h2 h0
  refine ⟨2 * Real.arctan (Real.tan (x / 2) / aspect), 1 / Real.tan (x / 2), 1 / Real.tan (x / 2) * aspect,
    by simp [xfovToYfov, tanR_ok hc, divR, ha], by simp [fovToZoom, tanR_ok hc, divR, ht], ?_, rfl, ?_⟩
  · simp only [fovToZoom, tanR_ok (cos_arctan _), tan_two_arctan, Res.ok_bind, divR, div_ne_zero ht ha, if_false]
    congr 1
    field_simp
  · simp [yzoomToXzoom, divR, ha]

/-- C132: a larger zoom factor gives a smaller field of view, and the field of view of the shorter side is the
smaller one. -/
theorem zoom_monotone :
    (∀ z w : ℝ, 0 < z → z < w → ∃ f g, zoomToFov z = .ok f ∧ zoomToFov w = .ok g ∧ 0 < g ∧ g < f) ∧
    (∀ x aspect : ℝ, 0 < x → x < π → 1 < aspect → ∃ y, xfovToYfov x aspect = .ok y ∧ 0 < y ∧ y < x) := by
  constructor
  · intro z w hz hw
    have hw0 : 0 < w := hz.trans hw
    refine ⟨2 * Real.arctan (1 / z), 2 * Real.arctan (1 / w), by simp [zoomToFov, divR, hz.ne'],
      by simp [zoomToFov, divR, hw0.ne'], ?_, ?_⟩
    · have : Real.arctan 0 < Real.arctan (1 / w) := Real.arctan_strictMono (one_div_pos.2 hw0)
      rw [Real.arctan_zero] at this
      linarith
    · have := Real.arctan_strictMono (one_div_lt_one_div_of_lt hz hw)
      linarith
  · intro x a h0 h1 ha
    have hneg : -π < x := by linarith [Real.pi_pos]
    have ha0 : 0 < a := by linarith
    have ht : 0 < Real.tan (x / 2) := Real.tan_pos_of_pos_of_lt_pi_div_two (by linarith) (by linarith)
    refine ⟨2 * Real.arctan (Real.tan (x / 2) / a), by simp [xfovToYfov, tanR_ok (cos_half hneg h1), divR, ha0.ne'], ?_, ?_⟩
    · have : Real.arctan 0 < Real.arctan (Real.tan (x / 2) / a) := Real.arctan_strictMono (by positivity)
      rw [Real.arctan_zero] at this
      linarith
    · have := Real.arctan_strictMono (div_lt_self ht ha)
      linarith [two_arctan_tan hneg h1]

/-- C132: what is undefined: the aspect ratio zero, the zoom factor zero and the field of view zero. -/
theorem fov_undefined {x : ℝ} (h1 : -π < x) (h2 : x < π) :
    xfovToYfov x 0 = .ub .divZero ∧ yzoomToXzoom x 0 = .ub .divZero ∧ zoomToFov 0 = .ub .divZero ∧
    fovToZoom 0 = .ub .divZero := by
  refine ⟨?_, ?_, ?_, ?_⟩
  · simp [xfovToYfov, tanR_ok (cos_half h1 h2), divR]
  · simp [yzoomToXzoom, divR]
  · simp [zoomToFov, divR]
  · simp [fovToZoom, tanR, divR]

/-! ### Agreement with the projections -/

/-- C132: `matrix_perspective_xfov` with `xfov` is `matrix_perspective_yfov` with `xfov_to_yfov(xfov, aspect)`, and
`matrix_perspective_yfov` with `yfov` is `matrix_perspective_xfov` with `yfov_to_xfov(yfov, aspect)`. -/
theorem fov_perspective {m : BMat ℝ} (hm : m.HasLin 4) {fov aspect n f : ℝ} (h1 : -π < fov) (h2 : fov < π)
    (h0 : fov ≠ 0) (ha : aspect ≠ 0) (hn : n ≠ 0) (hd : f ≠ n) (h : Handed) (zc : ZClip) :
    (∃ y, xfovToYfov fov aspect = .ok y ∧
      perspectiveXfov m fov aspect n f h zc = perspectiveYfov m y aspect n f h zc) ∧
    (∃ x, yfovToXfov fov aspect = .ok x ∧
      perspectiveXfov m x aspect n f h zc = perspectiveYfov m fov aspect n f h zc) := by
  have hc := cos_half h1 h2
  have ht := tan_half_ne h1 h2 h0
  constructor
  · refine ⟨2 * Real.arctan (Real.tan (fov / 2) / aspect), by simp [xfovToYfov, tanR_ok hc, divR, ha], ?_⟩
    refine (perspectiveFov_agree hm ht ?_ ha hn hd h zc).2 ?_
    · rw [tan_two_arctan]; exact div_ne_zero ht ha
    · rw [tan_two_arctan]; field_simp
  · refine ⟨2 * Real.arctan (Real.tan (fov / 2) * aspect), by simp [yfovToXfov, tanR_ok hc], ?_⟩
    refine (perspectiveFov_agree hm ?_ ht ha hn hd h zc).2 ?_
    · rw [tan_two_arctan]; exact mul_ne_zero ht ha
    · rw [tan_two_arctan]; ring

/-- C132: the zoom factors are the factors by which `matrix_perspective_xfov` and `matrix_perspective_yfov` scale the
two coordinates (before the division by the depth). -/
theorem zoom_perspective {m : BMat ℝ} (hm : m.HasLin 4) {fov aspect n f : ℝ} (h1 : -π < fov) (h2 : fov < π)
    (h0 : fov ≠ 0) (ha : aspect ≠ 0) (hn : n ≠ 0) (hd : f ≠ n) (h : Handed) (zc : ZClip) :
    (∃ m' zx zy, perspectiveXfov m fov aspect n f h zc = .ok m' ∧ fovToZoom fov = .ok zx ∧
      xzoomToYzoom zx aspect = .ok zy ∧
      ∀ p, homImage m' p 0 = zx * p 0 ∧ homImage m' p 1 = zy * p 1 ∧ homImage m' p 3 = viewDepth h (p 2)) ∧
    (∃ m' zx zy, perspectiveYfov m fov aspect n f h zc = .ok m' ∧ fovToZoom fov = .ok zy ∧
      yzoomToXzoom zy aspect = .ok zx ∧
      ∀ p, homImage m' p 0 = zx * p 0 ∧ homImage m' p 1 = zy * p 1 ∧ homImage m' p 3 = viewDepth h (p 2)) := by
  have hc := cos_half h1 h2
  have ht := tan_half_ne h1 h2 h0
  have k : 2 * n ≠ 0 := mul_ne_zero two_ne_zero hn
  have core : ∀ w v : ℝ, w ≠ 0 → v ≠ 0 → ∃ m', perspectiveWH m w v n f h zc = .ok m' ∧
      ∀ p, homImage m' p 0 = 2 * n / w * p 0 ∧ homImage m' p 1 = 2 * n / v * p 1 ∧
        homImage m' p 3 = viewDepth h (p 2) := by
    intro w v hw hv
    obtain ⟨m', e1, -, -, e2⟩ := perspective_spec hm (left := -(w / 2)) (right := w / 2) (bottom := -(v / 2))
      (top := v / 2) (n := n) (f := f) (fun e => hw (by linarith)) (fun e => hv (by linarith)) hd h zc
    refine ⟨m', by rw [perspectiveWH_eq, e1], fun p => ?_⟩
    rw [e2 p]
    refine ⟨?_, ?_, rfl⟩
    · simp only [Matrix.cons_val_zero]
      rw [show w / 2 - -(w / 2) = w by ring]
      ring
    · simp only [Matrix.cons_val_one, Matrix.cons_val_zero]
      rw [show v / 2 - -(v / 2) = v by ring]
      ring
  constructor
  · obtain ⟨m', e1, e2⟩ := core (2 * n * Real.tan (fov / 2)) (2 * n * Real.tan (fov / 2) / aspect)
      (mul_ne_zero k ht) (div_ne_zero (mul_ne_zero k ht) ha)
    refine ⟨m', 1 / Real.tan (fov / 2), 1 / Real.tan (fov / 2) * aspect, ?_, ?_, rfl, fun p => ?_⟩
    · simp [perspectiveXfov, divR, ha, e1]
    · simp [fovToZoom, tanR_ok hc, divR, ht]
    · obtain ⟨g1, g2, g3⟩ := e2 p
      refine ⟨?_, ?_, g3⟩
      · rw [g1]; field_simp
      · rw [g2]; field_simp
  · obtain ⟨m', e1, e2⟩ := core (2 * n * Real.tan (fov / 2) * aspect) (2 * n * Real.tan (fov / 2))
      (mul_ne_zero (mul_ne_zero k ht) ha) (mul_ne_zero k ht)
    refine ⟨m', 1 / Real.tan (fov / 2) / aspect, 1 / Real.tan (fov / 2), e1, ?_, ?_, fun p => ?_⟩
    · simp [fovToZoom, tanR_ok hc, divR, ht]
    · simp [yzoomToXzoom, divR, ha]
    · obtain ⟨g1, g2, g3⟩ := e2 p
      refine ⟨?_, ?_, g3⟩
      · rw [g1]; field_simp
      · rw [g2]; field_simp

/-! ### The hypotheses are met -/

/-- A right angle belongs to the zoom factor one. -/
example : fovToZoom (π / 2) = .ok 1 ∧ zoomToFov 1 = .ok (π / 2) ∧ yfovToXfov (π / 2) 1 = .ok (π / 2) := by
  have ht : Real.tan (π / 2 / 2) = 1 := by rw [show π / 2 / 2 = π / 4 by ring, Real.tan_pi_div_four]
  have hc : Real.cos (π / 2 / 2) ≠ 0 := cos_half (by linarith [Real.pi_pos]) (by linarith [Real.pi_pos])
  refine ⟨?_, ?_, ?_⟩
  · simp [fovToZoom, tanR_ok hc, ht, divR]
  · simp only [zoomToFov, divR, one_ne_zero, if_false, div_one, Res.ok_bind, Res.pure_eq, Real.arctan_one]
    congr 1; ring
  · simp only [yfovToXfov, tanR_ok hc, ht, Res.ok_bind, Res.pure_eq, mul_one, Real.arctan_one]
    congr 1; ring

example : ∃ x aspect : ℝ, -π < x ∧ x < π ∧ x ≠ 0 ∧ aspect ≠ 0 ∧ 1 < aspect :=
  ⟨π / 2, 16 / 9, by linarith [Real.pi_pos], by linarith [Real.pi_pos], by positivity, by norm_num, by norm_num⟩

/-- 3π/2 is outside of the range of the round trip: the result is -π/2. -/
example : ∃ y z, xfovToYfov (3 * π / 2) 2 = .ok y ∧ yfovToXfov y 2 = .ok z ∧ z ≠ 3 * π / 2 := by
  have hc : Real.cos (3 * π / 2 / 2) ≠ 0 := by
    rw [show 3 * π / 2 / 2 = π - π / 4 by ring, Real.cos_pi_sub, Real.cos_pi_div_four]
    exact neg_ne_zero.2 (by positivity)
  obtain ⟨y, z, h1, h2, -, -, -, h3⟩ := fov_roundtrip_iff hc (two_ne_zero (α := ℝ))
  exact ⟨y, z, h1, h2, fun h => absurd (h3.1 h).2 (by linarith [Real.pi_pos])⟩

#print axioms fov_roundtrip
#print axioms fov_roundtrip_iff
#print axioms zoom_roundtrip
#print axioms zoom_fov_commute
#print axioms zoom_monotone
#print axioms fov_undefined
#print axioms fov_perspective
#print axioms zoom_perspective

end CML
