import Verif.Model.Geometry
import Verif.Lemmas.Geom
import Verif.Lemmas.Rotation
import Verif.Props.Align

/-!
C68: angles between vectors.
-/

namespace CML
open Matrix

/-- The Euclidean length. -/
noncomputable def eucl {n : Nat} (x : Fin n → ℝ) : ℝ := Real.sqrt (x ⬝ᵥ x)

theorem eucl_pos {n : Nat} {x : Fin n → ℝ} (hx : x ≠ 0) : 0 < eucl x := Real.sqrt_pos.2 (dot_self_pos hx)

theorem dot_self_nonneg {n : Nat} (x : Fin n → ℝ) : 0 ≤ x ⬝ᵥ x :=
  Finset.sum_nonneg fun i _ => mul_self_nonneg (x i)

theorem eucl_sq {n : Nat} (x : Fin n → ℝ) : eucl x * eucl x = x ⬝ᵥ x :=
  Real.mul_self_sqrt (dot_self_nonneg x)

theorem eucl_smul {n : Nat} {k : ℝ} (hk : 0 ≤ k) (x : Fin n → ℝ) : eucl (k • x) = k * eucl x := by
  rw [eucl, smul_dotProduct, dotProduct_smul, smul_eq_mul, smul_eq_mul, ← mul_assoc,
    Real.sqrt_mul (mul_nonneg hk hk), Real.sqrt_mul_self hk, eucl]

theorem eucl_eq_zero {n : Nat} {x : Fin n → ℝ} : eucl x = 0 ↔ x = 0 := by
  constructor
  · intro h
    by_contra hx
    exact (eucl_pos hx).ne' h
  · rintro rfl
    simp [eucl]

/-! ### The plane -/

/-- The product of the lengths, the dot product and the perp-dot product. -/
private theorem plane_lagrange (x y : Fin 2 → ℝ) :
    (eucl x * eucl y) * (eucl x * eucl y) =
      (x ⬝ᵥ y) * (x ⬝ᵥ y) + (x 0 * y 1 - x 1 * y 0) * (x 0 * y 1 - x 1 * y 0) := by
  rw [mul_mul_mul_comm, eucl_sq, eucl_sq]
  simp only [dotProduct, Fin.sum_univ_two]
  ring

private theorem signed2D_run {v1 v2 : AVec ℝ} {x y : Fin 2 → ℝ} (h1 : v1.Is 2 x) (h2 : v2.Is 2 y) :
    signedAngle2D v1 v2 = .ok (atan2 (x 0 * y 1 - x 1 * y 0) (x ⬝ᵥ y)) := by
  have hp : v1.perpDot v2 = .ok (x 0 * y 1 - x 1 * y 0) := by
    have e0 : v1.el 0 = x 0 := h1.el 0
    have e1 : v1.el 1 = x 1 := h1.el 1
    have f0 : v2.el 0 = y 0 := h2.el 0
    have f1 : v2.el 1 = y 1 := h2.el 1
    simp [AVec.perpDot, AVec.checkSize_ok h1.1, AVec.checkSize_ok h2.1, AVec.get, h1.1, h2.1, e0, e1, f0, f1]
  rw [signedAngle2D, hp, Res.ok_bind, AVec.dot_is h1 h2 (by norm_num), Res.ok_bind, Res.pure_eq]

/-- C68: `signed_angle_2D` is the angle in `(-π, π]` by which the direction of the first vector has to be
turned counterclockwise to give the direction of the second. -/
theorem signedAngle2D_spec {v1 v2 : AVec ℝ} {x y : Fin 2 → ℝ} (h1 : v1.Is 2 x) (h2 : v2.Is 2 y)
    (hx : x ≠ 0) (hy : y ≠ 0) :
    ∃ θ, signedAngle2D v1 v2 = .ok θ ∧ -Real.pi < θ ∧ θ ≤ Real.pi ∧
      planeRot θ *ᵥ ((eucl x)⁻¹ • x) = (eucl y)⁻¹ • y ∧
      x ⬝ᵥ y = eucl x * eucl y * Real.cos θ := by
  refine ⟨_, signed2D_run h1 h2, (atan2_range _ _).1, (atan2_range _ _).2, ?_, ?_⟩
  · have hr := mul_pos (eucl_pos hx) (eucl_pos hy)
    have hl := plane_lagrange x y
    have hX := eucl_sq x
    have px := (eucl_pos hx).ne'
    have py := (eucl_pos hy).ne'
    simp only [dotProduct, Fin.sum_univ_two] at hl hX ⊢
    rw [planeRot, cos_atan2 hr hl, sin_atan2 hr hl]
    generalize eucl x = A at *
    generalize eucl y = B at *
    funext i
    fin_cases i
    · simp [Matrix.mulVec, dotProduct, Fin.sum_univ_two]
      field_simp
      linear_combination (-(y 0)) * hX
    · simp [Matrix.mulVec, dotProduct, Fin.sum_univ_two]
      field_simp
      linear_combination (-(y 1)) * hX
  · have hr := mul_pos (eucl_pos hx) (eucl_pos hy)
    rw [cos_atan2 hr (plane_lagrange x y), mul_div_cancel₀ _ hr.ne']

/-- The angle is determined by its range and its effect. -/
theorem planeRot_injective {a b : ℝ} (ha : -Real.pi < a ∧ a ≤ Real.pi) (hb : -Real.pi < b ∧ b ≤ Real.pi)
    {u : Fin 2 → ℝ} (hu : u ⬝ᵥ u = 1) (h : planeRot a *ᵥ u = planeRot b *ᵥ u) : a = b := by
  simp only [dotProduct, Fin.sum_univ_two] at hu
  have h0 := congrFun h 0
  have h1 := congrFun h 1
  simp [planeRot, Matrix.mulVec, dotProduct, Fin.sum_univ_two] at h0 h1
  have hc : Real.cos a = Real.cos b := by
    linear_combination u 0 * h0 + u 1 * h1 - (Real.cos a - Real.cos b) * hu
  have hs : Real.sin a = Real.sin b := by
    linear_combination u 0 * h1 - u 1 * h0 - (Real.sin a - Real.sin b) * hu
  have ea := atan2_polar (r := 1) one_pos ha.1 ha.2
  have eb := atan2_polar (r := 1) one_pos hb.1 hb.2
  rw [← ea, ← eb, hc, hs]

/-- C68: exchanging the vectors negates the signed angle, except on the branch cut, where both are `π`. -/
theorem signedAngle2D_antisymm {v1 v2 : AVec ℝ} {x y : Fin 2 → ℝ} (h1 : v1.Is 2 x) (h2 : v2.Is 2 y) :
    ∃ θ, signedAngle2D v1 v2 = .ok θ ∧
      signedAngle2D v2 v1 = .ok (if θ = Real.pi then Real.pi else -θ) := by
  refine ⟨_, signed2D_run h1 h2, ?_⟩
  rw [signed2D_run h2 h1, dotProduct_comm y x]
  have e : y 0 * x 1 - y 1 * x 0 = -(x 0 * y 1 - x 1 * y 0) := by ring
  rw [e]
  generalize x 0 * y 1 - x 1 * y 0 = p
  generalize x ⬝ᵥ y = d
  have h : atan2 (-p) d = Complex.arg ((starRingEnd ℂ) ⟨d, p⟩) := rfl
  rw [h, Complex.arg_conj]
  rfl

/-- C68: `unsigned_angle_2D` is the absolute value: in `[0, π]`, symmetric, and the angle of the dot
product. -/
theorem unsignedAngle2D_spec {v1 v2 : AVec ℝ} {x y : Fin 2 → ℝ} (h1 : v1.Is 2 x) (h2 : v2.Is 2 y)
    (hx : x ≠ 0) (hy : y ≠ 0) :
    ∃ θ, unsignedAngle2D v1 v2 = .ok θ ∧ unsignedAngle2D v2 v1 = .ok θ ∧ 0 ≤ θ ∧ θ ≤ Real.pi ∧
      x ⬝ᵥ y = eucl x * eucl y * Real.cos θ := by
  obtain ⟨a, a1, a2, a3, -, a5⟩ := signedAngle2D_spec h1 h2 hx hy
  obtain ⟨b, b1, b2⟩ := signedAngle2D_antisymm h1 h2
  have : b = a := by rw [a1] at b1; exact (Res.ok.inj b1).symm
  subst this
  refine ⟨|b|, by rw [unsignedAngle2D, a1]; rfl, ?_, abs_nonneg _, abs_le.2 ⟨a2.le, a3⟩, ?_⟩
  · rw [unsignedAngle2D, b2, Res.ok_bind, Res.pure_eq]
    split
    · next h => rw [h]
    · rw [abs_neg]
  · rw [Real.cos_abs, a5]

/-- C68: the two-dimensional angles do not depend on the lengths. -/
theorem signedAngle2D_scale {v1 v2 w1 w2 : AVec ℝ} {x y : Fin 2 → ℝ} {k l : ℝ} (h1 : v1.Is 2 x)
    (h2 : v2.Is 2 y) (g1 : w1.Is 2 (k • x)) (g2 : w2.Is 2 (l • y)) (hx : x ≠ 0) (hy : y ≠ 0) (hk : 0 < k)
    (hl : 0 < l) : signedAngle2D w1 w2 = signedAngle2D v1 v2 := by
  obtain ⟨a, a1, a2, a3, a4, -⟩ := signedAngle2D_spec h1 h2 hx hy
  obtain ⟨b, b1, b2, b3, b4, -⟩ := signedAngle2D_spec g1 g2 (smul_ne_zero hk.ne' hx) (smul_ne_zero hl.ne' hy)
  rw [eucl_smul hk.le, eucl_smul hl.le, smul_smul, smul_smul, mul_inv, mul_inv, mul_right_comm,
    inv_mul_cancel₀ hk.ne', one_mul, mul_right_comm, inv_mul_cancel₀ hl.ne', one_mul, ← a4] at b4
  rw [a1, b1, planeRot_injective ⟨b2, b3⟩ ⟨a2, a3⟩ (normalize_unit hx) b4]

/-! ### Space -/

private theorem space_lagrange (x y : Fin 3 → ℝ) :
    (eucl x * eucl y) * (eucl x * eucl y) = (x ⬝ᵥ y) * (x ⬝ᵥ y) +
      eucl (crossProduct x y) * eucl (crossProduct x y) := by
  rw [mul_mul_mul_comm, eucl_sq, eucl_sq, eucl_sq, cross_dot_cross, dotProduct_comm y x]
  ring

private theorem unsigned_run {v1 v2 : AVec ℝ} {x y : Fin 3 → ℝ} (h1 : v1.Is 3 x) (h2 : v2.Is 3 y) :
    unsignedAngle v1 v2 = .ok (atan2 (eucl (crossProduct x y)) (x ⬝ᵥ y)) := by
  obtain ⟨c, c1, c2, -⟩ := AVec.cross_is h1 h2
  rw [unsignedAngle, c1, Res.ok_bind, AVec.length_is c2 (by norm_num), Res.ok_bind,
    AVec.dot_is h1 h2 (by norm_num), Res.ok_bind, Res.pure_eq]
  rfl

/-- C68: `unsigned_angle` is the angle in `[0, π]` with `dot(a, b) = |a||b|cos θ`, and
`|cross(a, b)| = |a||b|sin θ`. -/
theorem unsignedAngle_spec {v1 v2 : AVec ℝ} {x y : Fin 3 → ℝ} (h1 : v1.Is 3 x) (h2 : v2.Is 3 y)
    (hx : x ≠ 0) (hy : y ≠ 0) :
    ∃ θ, unsignedAngle v1 v2 = .ok θ ∧ 0 ≤ θ ∧ θ ≤ Real.pi ∧
      x ⬝ᵥ y = eucl x * eucl y * Real.cos θ ∧
      eucl (crossProduct x y) = eucl x * eucl y * Real.sin θ := by
  have hr := mul_pos (eucl_pos hx) (eucl_pos hy)
  refine ⟨_, unsigned_run h1 h2, atan2_nonneg.2 (Real.sqrt_nonneg _), (atan2_range _ _).2, ?_, ?_⟩
  · rw [cos_atan2 hr (space_lagrange x y), mul_div_cancel₀ _ hr.ne']
  · rw [sin_atan2 hr (space_lagrange x y), mul_div_cancel₀ _ hr.ne']

/-- C68: `unsigned_angle` is symmetric, also for zero vectors. -/
theorem unsignedAngle_symm {v1 v2 : AVec ℝ} {x y : Fin 3 → ℝ} (h1 : v1.Is 3 x) (h2 : v2.Is 3 y) :
    unsignedAngle v2 v1 = unsignedAngle v1 v2 := by
  rw [unsigned_run h1 h2, unsigned_run h2 h1, dotProduct_comm, ← cross_anticomm x y, eucl, eucl,
    neg_dotProduct, dotProduct_neg, neg_neg]

/-- C68: `unsigned_angle` does not depend on the lengths. -/
theorem unsignedAngle_scale {v1 v2 w1 w2 : AVec ℝ} {x y : Fin 3 → ℝ} {k l : ℝ} (h1 : v1.Is 3 x)
    (h2 : v2.Is 3 y) (g1 : w1.Is 3 (k • x)) (g2 : w2.Is 3 (l • y)) (hx : x ≠ 0) (hy : y ≠ 0) (hk : 0 < k)
    (hl : 0 < l) : unsignedAngle w1 w2 = unsignedAngle v1 v2 := by
  obtain ⟨a, a1, a2, a3, a4, -⟩ := unsignedAngle_spec h1 h2 hx hy
  obtain ⟨b, b1, b2, b3, b4, -⟩ := unsignedAngle_spec g1 g2 (smul_ne_zero hk.ne' hx) (smul_ne_zero hl.ne' hy)
  have hr := mul_pos (eucl_pos hx) (eucl_pos hy)
  rw [eucl_smul hk.le, eucl_smul hl.le, smul_dotProduct, dotProduct_smul, smul_eq_mul, smul_eq_mul, a4] at b4
  have hc : Real.cos a = Real.cos b := by
    have : (k * l * (eucl x * eucl y)) * (Real.cos a - Real.cos b) = 0 := by linear_combination b4
    rcases mul_eq_zero.1 this with h | h
    · exact absurd h (mul_pos (mul_pos hk hl) hr).ne'
    · linarith
  rw [a1, b1, Real.injOn_cos ⟨a2, a3⟩ ⟨b2, b3⟩ hc]

private theorem signed_run {v1 v2 ref : AVec ℝ} {x y r : Fin 3 → ℝ} (h1 : v1.Is 3 x) (h2 : v2.Is 3 y)
    (hr : ref.Is 3 r) : signedAngle v1 v2 ref = .ok (if crossProduct x y ⬝ᵥ r < 0 then
      -atan2 (eucl (crossProduct x y)) (x ⬝ᵥ y) else atan2 (eucl (crossProduct x y)) (x ⬝ᵥ y)) := by
  obtain ⟨c, c1, c2, -⟩ := AVec.cross_is h1 h2
  rw [signedAngle, c1, Res.ok_bind, AVec.length_is c2 (by norm_num), Res.ok_bind,
    AVec.dot_is h1 h2 (by norm_num), Res.ok_bind, AVec.dot_is c2 hr (by norm_num), Res.ok_bind, Res.pure_eq]
  rfl

/-- C68: `signed_angle` is the unsigned angle, with a minus sign exactly if the vectors and the reference
form a left-handed system. -/
theorem signedAngle_spec {v1 v2 ref : AVec ℝ} {x y r : Fin 3 → ℝ} (h1 : v1.Is 3 x) (h2 : v2.Is 3 y)
    (hr : ref.Is 3 r) :
    ∃ θ, unsignedAngle v1 v2 = .ok θ ∧ signedAngle v1 v2 ref = .ok
      (if crossProduct x y ⬝ᵥ r < 0 then -θ else θ) := by
  exact ⟨_, unsigned_run h1 h2, signed_run h1 h2 hr⟩

/-- C68: if the reference is a unit vector perpendicular to both vectors, turning the direction of the
first vector by the signed angle about it gives the direction of the second. -/
theorem signedAngle_rotates {v1 v2 ref : AVec ℝ} {x y u : Fin 3 → ℝ} (h1 : v1.Is 3 x) (h2 : v2.Is 3 y)
    (hr : ref.Is 3 u) (hx : x ≠ 0) (hy : y ≠ 0) (hu : u ⬝ᵥ u = 1) (hux : u ⬝ᵥ x = 0) (huy : u ⬝ᵥ y = 0) :
    ∃ θ, signedAngle v1 v2 ref = .ok θ ∧ -Real.pi ≤ θ ∧ θ ≤ Real.pi ∧
      rodrigues u θ *ᵥ ((eucl x)⁻¹ • x) = (eucl y)⁻¹ • y := by
  have hp := mul_pos (eucl_pos hx) (eucl_pos hy)
  have hlag := space_lagrange x y
  set s := crossProduct x y ⬝ᵥ u with hs
  -- the cross product is a multiple of the reference
  have hc : crossProduct x y = s • u := by
    simp only [dotProduct, Fin.sum_univ_three, cross_apply] at hs hu hux huy ⊢
    simp at hs
    funext i
    fin_cases i <;> simp <;> rw [hs]
    · linear_combination (-(x 1 * y 2 - x 2 * y 1)) * hu + (u 1 * y 2 - u 2 * y 1) * hux + (u 2 * x 1 - u 1 * x 2) * huy
    · linear_combination (-(x 2 * y 0 - x 0 * y 2)) * hu + (u 2 * y 0 - u 0 * y 2) * hux + (u 0 * x 2 - u 2 * x 0) * huy
    · linear_combination (-(x 0 * y 1 - x 1 * y 0)) * hu + (u 0 * y 1 - u 1 * y 0) * hux + (u 1 * x 0 - u 0 * x 1) * huy
  have hl : eucl (crossProduct x y) = |s| := by
    rw [hc, eucl, smul_dotProduct, dotProduct_smul, hu, smul_eq_mul, smul_eq_mul, mul_one, Real.sqrt_mul_self_eq_abs]
  have hcx : s • crossProduct u x = (x ⬝ᵥ x) • y - (x ⬝ᵥ y) • x := by
    have : s • crossProduct u x = crossProduct (crossProduct x y) x := by
      rw [hc, map_smul, LinearMap.smul_apply]
    rw [this]
    funext i
    simp only [dotProduct, Fin.sum_univ_three, cross_apply]
    fin_cases i <;> simp <;> ring
  have key : ∀ θ, eucl x * eucl y * Real.cos θ = x ⬝ᵥ y → eucl x * eucl y * Real.sin θ = s →
      rodrigues u θ *ᵥ ((eucl x)⁻¹ • x) = (eucl y)⁻¹ • y := by
    intro θ hcos hsin
    have px := (eucl_pos hx).ne'
    have py := (eucl_pos hy).ne'
    have hsq := eucl_sq x
    rw [Matrix.mulVec_smul, rodrigues_mulVec, hux, mul_zero, zero_smul, add_zero]
    have h3 : (eucl x * eucl y) • (Real.cos θ • x + Real.sin θ • crossProduct u x) = (eucl x * eucl x) • y := by
      rw [smul_add, smul_smul, smul_smul, hcos, hsin, hcx, hsq]
      abel
    have h4 : Real.cos θ • x + Real.sin θ • crossProduct u x = (eucl x * eucl y)⁻¹ • (eucl x * eucl x) • y := by
      rw [← h3, smul_smul, inv_mul_cancel₀ hp.ne', one_smul]
    rw [h4, smul_smul, smul_smul]
    congr 1
    field_simp
  refine ⟨_, signed_run h1 h2 hr, ?_⟩
  rw [hl] at hlag
  rw [← hs, hl]
  have hC := cos_atan2 hp hlag
  have hS := sin_atan2 hp hlag
  obtain ⟨r1, r2⟩ := atan2_range |s| (x ⬝ᵥ y)
  by_cases h : s < 0
  · rw [if_pos h]
    refine ⟨by linarith, by linarith, key _ ?_ ?_⟩
    · rw [Real.cos_neg, hC, mul_div_cancel₀ _ hp.ne']
    · rw [Real.sin_neg, hS, abs_of_neg h, neg_div, neg_neg, mul_div_cancel₀ _ hp.ne']
  · rw [if_neg h]
    refine ⟨by linarith, by linarith, key _ ?_ ?_⟩
    · rw [hC, mul_div_cancel₀ _ hp.ne']
    · rw [hS, abs_of_nonneg (not_lt.1 h), mul_div_cancel₀ _ hp.ne']

/-! ### Errors -/

/-- C68: vectors of the wrong size are rejected. -/
theorem angle_throws (v1 v2 ref : AVec ℝ) :
    (v1.size ≠ 2 → signedAngle2D v1 v2 = .throw v1.sizeErr ∧ unsignedAngle2D v1 v2 = .throw v1.sizeErr) ∧
    (v1.size = 2 → v2.size ≠ 2 →
      signedAngle2D v1 v2 = .throw v2.sizeErr ∧ unsignedAngle2D v1 v2 = .throw v2.sizeErr) ∧
    (v1.size ≠ 3 → unsignedAngle v1 v2 = .throw v1.sizeErr ∧ signedAngle v1 v2 ref = .throw v1.sizeErr) ∧
    (v1.size = 3 → v2.size ≠ 3 →
      unsignedAngle v1 v2 = .throw v2.sizeErr ∧ signedAngle v1 v2 ref = .throw v2.sizeErr) := by
  refine ⟨fun h => ?_, fun h h' => ?_, fun h => ?_, fun h h' => ?_⟩
  · simp [unsignedAngle2D, signedAngle2D, AVec.perpDot, AVec.checkSize_throw h]
  · simp [unsignedAngle2D, signedAngle2D, AVec.perpDot, AVec.checkSize_ok h, AVec.checkSize_throw h']
  · simp [unsignedAngle, signedAngle, AVec.cross, AVec.checkSize_throw h]
  · simp [unsignedAngle, signedAngle, AVec.cross, AVec.checkSize_ok h, AVec.checkSize_throw h']

/-! ### Examples -/

/-- The angle from `x` to `y` is a right angle, and back the opposite one. -/
example : signedAngle2D (.mk2 true 2 0) (.mk2 false 0 3) = .ok (Real.pi / 2) ∧
    signedAngle2D (.mk2 true 0 3) (.mk2 false 2 0) = .ok (-(Real.pi / 2)) := by
  rw [signed2D_run (AVec.mk2_is _ _ _) (AVec.mk2_is _ _ _), signed2D_run (AVec.mk2_is _ _ _) (AVec.mk2_is _ _ _)]
  have hp := Real.pi_pos
  have h1 := atan2_polar (r := 6) (θ := Real.pi / 2) (by norm_num) (by linarith) (by linarith)
  have h2 := atan2_polar (r := 6) (θ := -(Real.pi / 2)) (by norm_num) (by linarith) (by linarith)
  simp at h1 h2
  constructor
  · simp [dotProduct, Fin.sum_univ_two]; norm_num; exact h1
  · simp [dotProduct, Fin.sum_univ_two]; norm_num; exact h2

/-- The hypotheses of `signedAngle_rotates` are met by two vectors of the plane of `x` and `y`. -/
example : (![3, 1, 0] : Fin 3 → ℝ) ≠ 0 ∧ (![-1, 2, 0] : Fin 3 → ℝ) ≠ 0 ∧
    ![0, 0, 1] ⬝ᵥ ![0, 0, (1 : ℝ)] = 1 ∧ ![0, 0, 1] ⬝ᵥ ![3, 1, (0 : ℝ)] = 0 ∧
    ![0, 0, 1] ⬝ᵥ ![-1, 2, (0 : ℝ)] = 0 := by
  refine ⟨fun h => ?_, fun h => ?_, ?_, ?_, ?_⟩
  · have := congrFun h 1; simp at this
  · have := congrFun h 1; simp at this
  all_goals simp [dotProduct, Fin.sum_univ_three]

end CML

#print axioms CML.signedAngle2D_spec
#print axioms CML.planeRot_injective
#print axioms CML.signedAngle2D_antisymm
#print axioms CML.unsignedAngle2D_spec
#print axioms CML.signedAngle2D_scale
#print axioms CML.unsignedAngle_spec
#print axioms CML.unsignedAngle_symm
#print axioms CML.unsignedAngle_scale
#print axioms CML.signedAngle_spec
#print axioms CML.signedAngle_rotates
#print axioms CML.angle_throws
