import Verif.Lemmas.Geom
import Verif.Props.QuatRot

/-!
C56 (axis and angle of a rotation), C57 (Euler angles of a rotation).
-/

namespace CML
open Matrix BMat Quaternion

/-! ### C56 -/

/-- The length of the antisymmetric part of a matrix, `2 sin θ` for a rotation by `θ`. -/
noncomputable def skewLen (M : Matrix (Fin 3) (Fin 3) ℝ) : ℝ :=
  Real.sqrt ((M 2 1 - M 1 2) ^ 2 + (M 0 2 - M 2 0) ^ 2 + (M 1 0 - M 0 1) ^ 2)

/-- Not in the tolerance band: the matrix is symmetric (no rotation or a half turn) or far enough from
symmetric. -/
def OutsideAxisBand (M : Matrix (Fin 3) (Fin 3) ℝ) (tol : ℝ) : Prop :=
  0 ≤ tol ∧ (M.transpose = M ∨ tol < skewLen M)

theorem outsideAxisBand_zero (M : Matrix (Fin 3) (Fin 3) ℝ) : OutsideAxisBand M 0 := by
  refine ⟨le_refl _, ?_⟩
  by_cases h : skewLen M = 0
  · left
    rw [skewLen, Real.sqrt_eq_zero (by positivity)] at h
    obtain ⟨h0, h1, h2, -⟩ := four_sq (d := 0) (by simpa using h)
    ext i j
    fin_cases i <;> fin_cases j <;> simp <;> linarith
  · right
    exact lt_of_le_of_ne (Real.sqrt_nonneg _) (Ne.symm h)

private theorem rod_skew (u : Fin 3 → ℝ) (θ : ℝ) :
    rodrigues u θ 2 1 - rodrigues u θ 1 2 = 2 * Real.sin θ * u 0 ∧
    rodrigues u θ 0 2 - rodrigues u θ 2 0 = 2 * Real.sin θ * u 1 ∧
    rodrigues u θ 1 0 - rodrigues u θ 0 1 = 2 * Real.sin θ * u 2 := by
  rw [rodrigues_eq]
  refine ⟨?_, ?_, ?_⟩ <;> simp <;> ring

private theorem rod_skewLen {u : Fin 3 → ℝ} (hu : u ⬝ᵥ u = 1) {θ : ℝ} (h0 : 0 ≤ Real.sin θ) :
    skewLen (rodrigues u θ) = 2 * Real.sin θ := by
  obtain ⟨a, b, c⟩ := rod_skew u θ
  have hn : 0 ≤ 2 * Real.sin θ := by linarith
  rw [skewLen, a, b, c, Real.sqrt_eq_iff_mul_self_eq (by positivity) hn]
  simp only [dotProduct, Fin.sum_univ_three] at hu
  linear_combination (2 * Real.sin θ) ^ 2 * hu

private theorem half_turn {u : Fin 3 → ℝ} {v : AVec ℝ} (hv : v.size = 3) (i j k : Fin 3)
    (hij : i ≠ j) (hik : i ≠ k) (hjk : j ≠ k) (hu : u i * u i + u j * u j + u k * u k = 1)
    (hj : u j * u j ≤ u i * u i) (hk : u k * u k ≤ u i * u i) :
    ∃ w t, (do
      let axis ← v.put i (Real.sqrt (2 * (u i * u i) - 1 - (2 * (u j * u j) - 1) -
        (2 * (u k * u k) - 1) + 1) / 2)
      let ai ← axis.get i
      let s ← divR 1 (2 * ai)
      let axis ← axis.put j (2 * (u i * u j) * s)
      let axis ← axis.put k (2 * (u i * u k) * s)
      (pure (axis, Real.pi) : Res (AVec ℝ × ℝ))) = .ok (w, Real.pi) ∧ w.Is 3 t ∧
      ∀ a b, t a * t b = u a * u b := by
  have hi : 0 < u i * u i := by linarith
  have ha := abs_mul_abs_self (u i)
  have h0 : u i ≠ 0 := by rintro e; simp [e] at hi
  have hp : 0 < |u i| := abs_pos.2 h0
  have hs : Real.sqrt (2 * (u i * u i) - 1 - (2 * (u j * u j) - 1) - (2 * (u k * u k) - 1) + 1) / 2 =
      |u i| := by
    rw [show 2 * (u i * u i) - 1 - (2 * (u j * u j) - 1) - (2 * (u k * u k) - 1) + 1 =
      (2 * |u i|) * (2 * |u i|) by linear_combination -2 * hu - 4 * ha,
      Real.sqrt_mul_self (by positivity)]
    ring
  have n1 : (j : Nat) ≠ i := fun h => hij (Fin.ext h.symm)
  have n2 : (k : Nat) ≠ i := fun h => hik (Fin.ext h.symm)
  have n3 : (k : Nat) ≠ j := fun h => hjk (Fin.ext h.symm)
  rw [hs]
  simp only [AVec.put, AVec.get, hv, i.isLt, j.isLt, k.isLt, if_true, Res.ok_bind, divR,
    if_neg (mul_pos two_pos hp).ne', Res.pure_eq]
  refine ⟨_, fun a => u i / |u i| * u a, rfl, ⟨rfl, ?_⟩, ?_⟩
  · funext a
    have : a = i ∨ a = j ∨ a = k := by
      revert hij hik hjk; clear * -; revert i j k a; decide
    simp only [AVec.vec]
    rcases this with rfl | rfl | rfl
    · rw [if_neg n2.symm, if_neg n1.symm, if_pos rfl]
      field_simp
      linarith
    · rw [if_neg n3.symm, if_pos rfl]
      field_simp
    · rw [if_pos rfl]
      field_simp
  · intro a b
    field_simp
    rw [sq, sq, ha]

/-- C56: for a rotation matrix outside of the tolerance band, `matrix_to_axis_angle` returns an axis and
an angle in `[0, π]` that describe the rotation; the axis is a unit vector, or zero if the angle is
zero.  All branches are covered, and none divides by zero. -/
theorem toAxisAngle_spec {m : BMat ℝ} (hm : m.HasLin 3) (hr : IsRotation (linOf m 3)) {tol : ℝ}
    (ht : OutsideAxisBand (linOf m 3) tol) :
    ∃ v u θ, toAxisAngle m tol = .ok (v, θ) ∧ v.Is 3 u ∧ 0 ≤ θ ∧ θ ≤ Real.pi ∧
      (u ⬝ᵥ u = 1 ∨ (θ = 0 ∧ u = 0)) ∧ rodrigues u θ = linOf m 3 := by
  obtain ⟨⟨b00, b01, b02⟩, ⟨b10, b11, b12⟩, ⟨b20, b21, b22⟩⟩ := bget_lin9 hm
  have htr := trace3_ok hm
  obtain ⟨u, θ, hu, hθ0, hθ1, hM⟩ := hr.exists_axis
  rw [hM] at ht
  rw [hM] at b00 b01 b02 b10 b11 b12 b20 b21 b22 htr
  rw [hM]
  have hs0 := Real.sin_nonneg_of_nonneg_of_le_pi hθ0 hθ1
  obtain ⟨sk0, sk1, sk2⟩ := rod_skew u θ
  have hl := rod_skewLen hu hs0
  have htrace : rodrigues u θ 0 0 + rodrigues u θ 1 1 + rodrigues u θ 2 2 - 1 = 2 * Real.cos θ := by
    have := rodrigues_trace hu θ
    rw [Matrix.trace_fin_three] at this
    linarith
  have hax := AVec.mk3_is true (2 * Real.sin θ * u 0) (2 * Real.sin θ * u 1) (2 * Real.sin θ * u 2)
  have hlen : (AVec.mk3 true (2 * Real.sin θ * u 0) (2 * Real.sin θ * u 1)
      (2 * Real.sin θ * u 2)).length = .ok (2 * Real.sin θ) := by
    have hn : 0 ≤ 2 * Real.sin θ := by linarith
    rw [AVec.length_is hax (by decide)]
    congr 1
    rw [Real.sqrt_eq_iff_mul_self_eq (by rw [dotProduct]; exact Finset.sum_nonneg fun i _ => mul_self_nonneg _) hn]
    simp only [dotProduct, Fin.sum_univ_three] at hu ⊢
    simp
    linear_combination (2 * Real.sin θ) ^ 2 * hu
  simp only [toAxisAngle, checkLinear3D_ok hm, Res.ok_bind, b12, b21, b20, b02, b01, b10, sk0, sk1, sk2,
    hlen, htr, htrace]
  by_cases hgt : 2 * Real.sin θ > tol
  · rw [if_pos hgt]
    have hpos : 0 < 2 * Real.sin θ := lt_of_le_of_lt ht.1 hgt
    obtain ⟨w, e1, e2, -⟩ := AVec.sdiv_is hax hpos.ne'
    rw [e1, Res.ok_bind, Res.pure_eq, atan2_polar two_pos (by linarith [Real.pi_pos]) hθ1]
    refine ⟨w, _, θ, rfl, e2, hθ0, hθ1, ?_, ?_⟩ <;>
      rw [show ((2 * Real.sin θ)⁻¹ • ![2 * Real.sin θ * u 0, 2 * Real.sin θ * u 1, 2 * Real.sin θ * u 2]) = u
        by
          have hne : Real.sin θ ≠ 0 := by rintro e; simp [e] at hpos
          funext i; fin_cases i <;> simp <;> field_simp]
    exact .inl hu
  · rw [if_neg hgt]
    have hsin : Real.sin θ = 0 := by
      rcases ht.2 with hsym | hlt
      · have e := fun i j => congrFun (congrFun hsym i) j
        have e0 := e 1 2; have e1 := e 2 0; have e2 := e 0 1
        simp only [transpose_apply] at e0 e1 e2
        by_contra hne
        have u0 : u 0 = 0 := by
          have : 2 * Real.sin θ * u 0 = 0 := by linarith
          simpa [hne] using this
        have u1 : u 1 = 0 := by
          have : 2 * Real.sin θ * u 1 = 0 := by linarith
          simpa [hne] using this
        have u2 : u 2 = 0 := by
          have : 2 * Real.sin θ * u 2 = 0 := by linarith
          simpa [hne] using this
        simp [dotProduct, Fin.sum_univ_three, u0, u1, u2] at hu
      · rw [hl] at hlt; exact absurd hlt hgt
    have hcc : Real.cos θ = 1 ∨ Real.cos θ = -1 := by
      have := Real.sin_sq_add_cos_sq θ
      rw [hsin] at this
      exact sq_eq_sq_iff_eq_or_eq_neg.1 (by linarith)
    rcases hcc with hc | hc
    · have h1 : rodrigues u θ = 1 := by simp [rodrigues, hsin, hc]
      rw [if_pos (by rw [hc]; norm_num), h1]
      refine ⟨_, 0, 0, rfl, ⟨rfl, ?_⟩, le_refl _, Real.pi_pos.le, .inr ⟨rfl, rfl⟩, rodrigues_zero _⟩
      funext i
      fin_cases i <;> simp [AVec.vec, AVec.mk3]
    · rw [if_neg (by rw [hc]; norm_num)]
      have hR : ∀ i j, rodrigues u θ i j = 2 * (u i * u j) - if i = j then 1 else 0 := by
        intro i j
        simp only [rodrigues, hc, hsin, zero_smul, add_zero, Matrix.add_apply, Matrix.smul_apply,
          Matrix.one_apply, vecMulVec_apply, smul_eq_mul]
        split_ifs <;> ring
      have hpi : ∀ w : Fin 3 → ℝ, (∀ i j, w i * w j = u i * u j) →
          rodrigues w Real.pi = rodrigues u θ ∧ w ⬝ᵥ w = 1 := by
        intro w hw
        constructor
        · ext i j
          rw [hR]
          simp only [rodrigues, Real.cos_pi, Real.sin_pi, zero_smul, add_zero, Matrix.add_apply,
            Matrix.smul_apply, Matrix.one_apply, vecMulVec_apply, smul_eq_mul, hw]
          split_ifs <;> ring
        · simp only [dotProduct, hw]
          exact hu
      simp only [dotProduct, Fin.sum_univ_three] at hu
      have r00 : rodrigues u θ 0 0 = 2 * (u 0 * u 0) - 1 := by rw [hR]; simp
      have r11 : rodrigues u θ 1 1 = 2 * (u 1 * u 1) - 1 := by rw [hR]; simp
      have r22 : rodrigues u θ 2 2 = 2 * (u 2 * u 2) - 1 := by rw [hR]; simp
      have r01 : rodrigues u θ 0 1 = 2 * (u 0 * u 1) := by rw [hR]; simp
      have r02 : rodrigues u θ 0 2 = 2 * (u 0 * u 2) := by rw [hR]; simp
      have r10 : rodrigues u θ 1 0 = 2 * (u 1 * u 0) := by rw [hR]; simp
      have r12 : rodrigues u θ 1 2 = 2 * (u 1 * u 2) := by rw [hR]; simp
      have r20 : rodrigues u θ 2 0 = 2 * (u 2 * u 0) := by rw [hR]; simp
      have r21 : rodrigues u θ 2 1 = 2 * (u 2 * u 1) := by rw [hR]; simp
      simp only [b00, b11, b22, Res.ok_bind]
      have hsz : (AVec.mk3 true (2 * Real.sin θ * u 0) (2 * Real.sin θ * u 1)
        (2 * Real.sin θ * u 2)).size = 3 := rfl
      rcases indexOfMax3_cases (rodrigues u θ 0 0) (rodrigues u θ 1 1) (rodrigues u θ 2 2) with
        ⟨hx, g1, g2⟩ | ⟨hx, g1, g2⟩ | ⟨hx, g1, g2⟩ <;> rw [hx] <;> simp only [r00, r11, r22] at g1 g2
      · obtain ⟨w, t, e1, e2, e3⟩ := half_turn (u := u) hsz 0 1 2 (by decide) (by decide) (by decide) hu
          (by linarith) (by linarith)
        simp only [show cyclicPermutation3 0 = (0, 1, 2) from rfl, b00, b11, b22, b01, b02, Res.ok_bind,
          r00, r11, r22, r10, r20, mul_comm (u 1) (u 0), mul_comm (u 2) (u 0)]
        exact ⟨w, t, Real.pi, e1, e2, Real.pi_pos.le, le_refl _, .inl (hpi t e3).2, (hpi t e3).1⟩
      · obtain ⟨w, t, e1, e2, e3⟩ := half_turn (u := u) hsz 1 2 0 (by decide) (by decide) (by decide)
          (by linarith) (by linarith) (by linarith)
        simp only [show cyclicPermutation3 1 = (1, 2, 0) from rfl, b00, b11, b22, b10, b12, Res.ok_bind,
          r00, r11, r22, r01, r21, mul_comm (u 2) (u 1), mul_comm (u 0) (u 1)]
        exact ⟨w, t, Real.pi, e1, e2, Real.pi_pos.le, le_refl _, .inl (hpi t e3).2, (hpi t e3).1⟩
      · obtain ⟨w, t, e1, e2, e3⟩ := half_turn (u := u) hsz 2 0 1 (by decide) (by decide) (by decide)
          (by linarith) (by linarith) (by linarith)
        simp only [show cyclicPermutation3 2 = (2, 0, 1) from rfl, b00, b11, b22, b20, b21, Res.ok_bind,
          r00, r11, r22, r02, r12, mul_comm (u 0) (u 2), mul_comm (u 1) (u 2)]
        exact ⟨w, t, Real.pi, e1, e2, Real.pi_pos.le, le_refl _, .inl (hpi t e3).2, (hpi t e3).1⟩

/-- C56: with tolerance zero every rotation matrix is covered. -/
theorem toAxisAngle_zero {m : BMat ℝ} (hm : m.HasLin 3) (hr : IsRotation (linOf m 3)) :
    ∃ v u θ, toAxisAngle m 0 = .ok (v, θ) ∧ v.Is 3 u ∧ 0 ≤ θ ∧ θ ≤ Real.pi ∧
      (u ⬝ᵥ u = 1 ∨ (θ = 0 ∧ u = 0)) ∧ rodrigues u θ = linOf m 3 :=
  toAxisAngle_spec hm hr (outsideAxisBand_zero _)

/-- C56: `matrix_rotation_axis_angle` applied to the extracted axis and angle gives the matrix back. -/
theorem toAxisAngle_roundtrip {m m0 : BMat ℝ} (hm : m.HasLin 3) (hr : IsRotation (linOf m 3)) {tol : ℝ}
    (ht : OutsideAxisBand (linOf m 3) tol) (h0 : m0.HasLin 3) :
    ∃ v θ m', toAxisAngle m tol = .ok (v, θ) ∧ rotationAxisAngle m0 v θ = .ok m' ∧ m0.SameShape m' ∧
      m'.IdOutside 3 ∧ linOf m' 3 = linOf m 3 := by
  obtain ⟨v, u, θ, e1, e2, -, -, -, e3⟩ := toAxisAngle_spec hm hr ht
  obtain ⟨m', f1, f2, f3, f4⟩ := rotationAxisAngle_spec h0 e2 θ
  exact ⟨v, θ, m', e1, f1, f2, f3, f4.trans e3⟩

/-- C56: extraction gives back the axis and angle a matrix was built with, for an angle strictly
between no turn and a half turn and outside of the tolerance band. -/
theorem rotationAxisAngle_extract {m : BMat ℝ} (hm : m.HasLin 3) {n : AVec ℝ} {u : Fin 3 → ℝ}
    (hn : n.Is 3 u) (hu : u ⬝ᵥ u = 1) {θ tol : ℝ} (h0 : 0 < θ) (h1 : θ < Real.pi) (ht0 : 0 ≤ tol)
    (ht : tol < 2 * Real.sin θ) :
    ∃ m' v, rotationAxisAngle m n θ = .ok m' ∧ toAxisAngle m' tol = .ok (v, θ) ∧ v.Is 3 u := by
  obtain ⟨m', f1, f2, f3, f4⟩ := rotationAxisAngle_spec hm hn θ
  have hs : 0 < Real.sin θ := Real.sin_pos_of_pos_of_lt_pi h0 h1
  have hl := rod_skewLen hu hs.le
  have hR : IsRotation (linOf m' 3) := by rw [f4]; exact rodrigues_isRotation hu θ
  obtain ⟨v, w, φ, e1, e2, p0, p1, p2, p3⟩ := toAxisAngle_spec (f2.hasLin hm) hR (tol := tol)
    ⟨ht0, .inr (by rw [f4, hl]; exact ht)⟩
  rw [f4] at p3
  have hw : w ⬝ᵥ w = 1 := by
    rcases p2 with p2 | ⟨a, b⟩
    · exact p2
    · have := rodrigues_trace hu θ
      rw [← p3, a, rodrigues_zero, Matrix.trace_one] at this
      have h2 : Real.cos θ = 1 := by simp at this; linarith
      have h3 := Real.sin_sq_add_cos_sq θ
      rw [h2] at h3
      nlinarith
  have hc : Real.cos φ = Real.cos θ := by
    have a := rodrigues_trace hu θ
    rw [← p3, rodrigues_trace hw] at a
    linarith
  have hφ : φ = θ := Real.injOn_cos ⟨p0, p1⟩ ⟨h0.le, h1.le⟩ hc
  subst hφ
  have hwu : w = u := by
    obtain ⟨a0, a1, a2⟩ := rod_skew w φ
    obtain ⟨b0, b1, b2⟩ := rod_skew u φ
    rw [p3] at a0 a1 a2
    have h2 : 2 * Real.sin φ ≠ 0 := by positivity
    funext i
    fin_cases i
    · exact mul_left_cancel₀ h2 (a0.symm.trans b0)
    · exact mul_left_cancel₀ h2 (a1.symm.trans b1)
    · exact mul_left_cancel₀ h2 (a2.symm.trans b2)
  exact ⟨m', v, f1, e1, hwu ▸ e2⟩

/-- C56: a matrix that is too small for a linear part is rejected. -/
theorem toAxisAngle_throws {m : BMat ℝ} (hm : ¬m.HasLin 3) (tol : ℝ) :
    toAxisAngle m tol = .throw (if m.fixed then .staticAssert else .matMinimum) := by
  rw [toAxisAngle, checkLinear3D_throw hm]; rfl

/-- Not in the tolerance band: the quaternion is real or its imaginary part is long enough. -/
def OutsideQuatBand (h : ℍ[ℝ]) (tol : ℝ) : Prop :=
  0 ≤ tol ∧ (imVec h = 0 ∨ tol < Real.sqrt (imVec h ⬝ᵥ imVec h))

theorem outsideQuatBand_zero (h : ℍ[ℝ]) : OutsideQuatBand h 0 := by
  refine ⟨le_refl _, ?_⟩
  by_cases e : imVec h = 0
  · exact .inl e
  · exact .inr (Real.sqrt_pos.2 (dot_self_pos e))

/-- C56: for a unit quaternion outside of the tolerance band, `quaternion_to_axis_angle` returns an axis
and an angle in `[0, 2π]` that describe its rotation; if the quaternion is not real, the axis is a unit
vector `u` and the quaternion is `cos (θ/2) + sin (θ/2) u`. -/
theorem qToAxisAngle_spec {s : QState ℝ} {q : QNode ℝ} {h : ℍ[ℝ]} (hq : QReads s q h)
    (hh : normSq h = 1) {tol : ℝ} (ht : OutsideQuatBand h tol) :
    ∃ v u θ, qToAxisAngle s q tol = .ok (v, θ) ∧ v.Is 3 u ∧ 0 ≤ θ ∧ θ ≤ 2 * Real.pi ∧
      (u ⬝ᵥ u = 1 ∧ h.re = Real.cos (θ / 2) ∧ imVec h = Real.sin (θ / 2) • u ∨
        (θ = 0 ∧ u = 0 ∧ imVec h = 0)) ∧
      ∀ x, rodrigues u θ *ᵥ x = qRotate h x := by
  obtain ⟨i0, i1, i2⟩ := qImag_eq hq
  have hr : qReal s q = .ok h.re := (qreads_iff.1 hq).1
  have hax := AVec.mk3_is true h.imI h.imJ h.imK
  have hlen := AVec.length_is hax (by decide)
  rw [show (![h.imI, h.imJ, h.imK] : Fin 3 → ℝ) = imVec h from rfl] at hax hlen
  have hn : Real.sqrt (imVec h ⬝ᵥ imVec h) * Real.sqrt (imVec h ⬝ᵥ imVec h) + h.re * h.re = 1 := by
    rw [Real.mul_self_sqrt (by rw [dotProduct]; exact Finset.sum_nonneg fun i _ => mul_self_nonneg _)]
    rw [normSq_def'] at hh
    simp [imVec, dotProduct, Fin.sum_univ_three]
    linarith
  simp only [qToAxisAngle, i0, i1, i2, hr, Res.ok_bind, hlen]
  generalize hl : Real.sqrt (imVec h ⬝ᵥ imVec h) = l at *
  by_cases hgt : l > tol
  · have hpos : 0 < l := lt_of_le_of_lt ht.1 hgt
    obtain ⟨w, e1, e2, -⟩ := AVec.sdiv_is hax hpos.ne'
    have hs : Real.sin (atan2 l h.re) = l := by
      rw [sin_atan2 one_pos (by linarith), div_one]
    have hc : Real.cos (atan2 l h.re) = h.re := by
      rw [cos_atan2 one_pos (by linarith), div_one]
    have hu : (l⁻¹ • imVec h) ⬝ᵥ (l⁻¹ • imVec h) = 1 := by
      have h2 : imVec h ⬝ᵥ imVec h = l * l := by
        rw [← hl, Real.mul_self_sqrt (by rw [dotProduct]; exact Finset.sum_nonneg fun i _ => mul_self_nonneg _)]
      rw [dotProduct_smul, smul_dotProduct, h2]
      simp only [smul_eq_mul]
      field_simp
    have him : imVec h = l • (l⁻¹ • imVec h) := by
      rw [smul_smul, mul_inv_cancel₀ hpos.ne', one_smul]
    have h2 : 2 * atan2 l h.re / 2 = atan2 l h.re := by ring
    rw [if_pos hgt, e1, Res.ok_bind, Res.pure_eq]
    refine ⟨w, _, _, rfl, e2, by linarith [(atan2_nonneg (x := h.re)).2 hpos.le],
      by linarith [(atan2_range l h.re).2], .inl ⟨hu, ?_, ?_⟩, ?_⟩
    · rw [h2, hc]
    · rw [h2, hs]; exact him
    · intro x
      have hq : axisQuat (l⁻¹ • imVec h) (2 * atan2 l h.re) = h := by
        have a0 := congrFun him 0
        have a1 := congrFun him 1
        have a2 := congrFun him 2
        simp only [axisQuat, h2, hs, hc]
        refine Quaternion.ext _ _ rfl ?_ ?_ ?_
        · exact a0.symm
        · exact a1.symm
        · exact a2.symm
      rw [← quatMat_axisQuat hu, hq, quatMat_mulVec]
  · rw [if_neg hgt]
    have h0 : imVec h = 0 := by
      rcases ht.2 with h0 | h0
      · exact h0
      · exact absurd (hl ▸ h0) hgt
    refine ⟨_, 0, 0, rfl, ⟨rfl, ?_⟩, le_refl _, by linarith [Real.pi_pos], .inr ⟨rfl, rfl, h0⟩, ?_⟩
    · funext i
      fin_cases i <;> simp [AVec.vec, AVec.mk3]
    · intro x
      rw [rodrigues_zero, one_mulVec, ← quatMat_mulVec, quatMat_eq]
      have a0 : h.imI = 0 := congrFun h0 0
      have a1 : h.imJ = 0 := congrFun h0 1
      have a2 : h.imK = 0 := congrFun h0 2
      rw [normSq_def', a0, a1, a2] at hh
      rw [a0, a1, a2]
      have : h.re ^ 2 = 1 := by linarith
      funext i
      fin_cases i <;> simp [mulVec, dotProduct, Fin.sum_univ_three, this]

/-- C56: extraction gives back the axis and angle a quaternion was built with, for an angle strictly
between no turn and a full turn and outside of the tolerance band. -/
theorem qRotationAxisAngle_extract (s : QState ℝ) (v : QVar) {n : AVec ℝ} {u : Fin 3 → ℝ}
    (hn : n.Is 3 u) (hu : u ⬝ᵥ u = 1) {θ tol : ℝ} (h0 : 0 < θ) (h1 : θ < 2 * Real.pi) (ht0 : 0 ≤ tol)
    (ht : tol < Real.sin (θ / 2)) :
    ∃ s' w, qRotationAxisAngle s v n θ = .ok s' ∧ qToAxisAngle s' (.var v) tol = .ok (w, θ) ∧
      w.Is 3 u := by
  obtain ⟨s', e1, -, e3⟩ := qRotationAxisAngle_ok s v hn θ
  have hs : 0 < Real.sin (θ / 2) := lt_of_le_of_lt ht0 ht
  have him : imVec (axisQuat u θ) = Real.sin (θ / 2) • u := by
    funext i
    fin_cases i <;> simp [imVec, axisQuat]
  obtain ⟨w, x, φ, f1, f2, p0, p1, p2, -⟩ := qToAxisAngle_spec (qreads_var e3) (axisQuat_unit hu θ)
    (tol := tol) ⟨ht0, .inr (by
      rw [him, smul_dotProduct, dotProduct_smul, hu, smul_eq_mul, smul_eq_mul, mul_one,
        Real.sqrt_mul_self hs.le]
      exact ht)⟩
  rw [him] at p2
  rcases p2 with ⟨hx, hc, hi⟩ | ⟨-, -, hi⟩
  · have hφ : φ / 2 = θ / 2 :=
      Real.injOn_cos ⟨by linarith, by linarith⟩ ⟨by linarith, by linarith⟩ hc.symm
    have hφ' : φ = θ := by linarith
    subst hφ'
    have : u = x := by
      have := congrArg ((Real.sin (φ / 2))⁻¹ • ·) hi
      simpa [smul_smul, inv_mul_cancel₀ hs.ne'] using this
    exact ⟨s', w, e1, f1, this ▸ f2⟩
  · have : u = 0 := by
      have := congrArg ((Real.sin (θ / 2))⁻¹ • ·) hi
      simpa [smul_smul, inv_mul_cancel₀ hs.ne'] using this
    simp [this] at hu

/-- A matrix whose linear part is `M` (for the examples). -/
def matOf (M : Matrix (Fin 3) (Fin 3) ℝ) : BMat ℝ := ⟨Mat.of M, .col, true⟩

theorem matOf_lin (M : Matrix (Fin 3) (Fin 3) ℝ) : (matOf M).HasLin 3 ∧ linOf (matOf M) 3 = M := by
  refine ⟨⟨le_refl 3, le_refl 3⟩, ?_⟩
  ext i j
  rw [linOf_apply]
  simp [matOf, bel, Mat.of]

/- The three branches: a quarter turn (far from symmetric), a half turn and no turn (symmetric). -/
example : IsRotation (linOf (matOf (rodrigues (unitVec 1) (Real.pi / 2))) 3) ∧
    OutsideAxisBand (linOf (matOf (rodrigues (unitVec 1) (Real.pi / 2))) 3) 1 := by
  rw [(matOf_lin _).2]
  refine ⟨rodrigues_isRotation (unitVec_unit 1) _, by norm_num, .inr ?_⟩
  rw [rod_skewLen (unitVec_unit 1) (by norm_num)]
  norm_num
example : IsRotation (linOf (matOf (rodrigues (unitVec 1) Real.pi)) 3) ∧
    OutsideAxisBand (linOf (matOf (rodrigues (unitVec 1) Real.pi)) 3) 1 ∧
    linOf (matOf (rodrigues (unitVec 1) Real.pi)) 3 ≠ 1 := by
  rw [(matOf_lin _).2]
  refine ⟨rodrigues_isRotation (unitVec_unit 1) _, ⟨by norm_num, .inl ?_⟩, fun h => ?_⟩
  · rw [rodrigues_transpose]
    simp [rodrigues]
  · have := congrFun (congrFun h 0) 0
    rw [rodrigues_y] at this
    norm_num at this
private noncomputable def q5 : ℍ[ℝ] := ⟨3/5, 0, 4/5, 0⟩
example : normSq q5 = 1 ∧ OutsideQuatBand q5 (1/2) := by
  refine ⟨by rw [normSq_def']; norm_num [q5], by norm_num, .inr ?_⟩
  rw [Real.lt_sqrt (by norm_num)]
  simp [imVec, dotProduct, Fin.sum_univ_three, q5]
  norm_num
example : (0 : ℝ) < Real.pi / 2 ∧ Real.pi / 2 < Real.pi ∧ (1 : ℝ) < 2 * Real.sin (Real.pi / 2) ∧
    (1 / 2 : ℝ) < Real.sin (Real.pi / 2) := by
  have := Real.pi_pos
  refine ⟨by linarith, by linarith, by norm_num, by norm_num⟩

/-! ### C57 -/

/-- Not in the gimbal lock band: the middle angle is exactly at, or far enough from, the singularity
(`c` is the length that decides: `|sin|` of the middle angle for the orders that repeat the first axis,
`|cos|` otherwise). -/
def OutsideEulerBand (o : EulerOrder) (M : Matrix (Fin 3) (Fin 3) ℝ) (tol : ℝ) : Prop :=
  let c := if o.repeats then 1 - M o.axes.1 o.axes.1 ^ 2 else 1 - M o.axes.2.2 o.axes.1 ^ 2
  0 ≤ tol ∧ (c = 0 ∨ tol < Real.sqrt c)

theorem outsideEulerBand_zero (o : EulerOrder) {M : Matrix (Fin 3) (Fin 3) ℝ} (hM : IsRotation M) :
    OutsideEulerBand o M 0 := by
  have hc : ∀ a b : Fin 3, 0 ≤ 1 - M a b ^ 2 := by
    obtain ⟨h0, h1, h2, -⟩ := hM.norms
    intro a b
    fin_cases a <;> fin_cases b <;> simp only [Fin.isValue, Fin.zero_eta, Fin.mk_one, Fin.reduceFinMk] <;>
      nlinarith
  refine ⟨le_refl _, ?_⟩
  split_ifs
  all_goals
    rcases (hc _ _).eq_or_lt with h | h
    · exact .inl h.symm
    · exact .inr (Real.sqrt_pos.2 h)

theorem IsRotation.submatrix {M : Matrix (Fin 3) (Fin 3) ℝ} (h : IsRotation M) (σ : Equiv.Perm (Fin 3)) :
    IsRotation (M.submatrix σ σ) := by
  obtain ⟨h1, h2⟩ := isRotation_iff.1 h
  rw [isRotation_iff]
  refine ⟨?_, by rw [det_submatrix_equiv_self, h2]⟩
  rw [transpose_submatrix, submatrix_mul_equiv, h1, submatrix_one_equiv]

private theorem sign_unit {c : ℝ} (h : c ^ 2 = 1) : sign c = c := by
  rcases sq_eq_one_iff.1 h with rfl | rfl <;> norm_num [sign]

private theorem std_rep {S : Matrix (Fin 3) (Fin 3) ℝ} (h : IsRotation S) {tol : ℝ} (ht : 0 ≤ tol)
    (hb : 1 - S 0 0 ^ 2 = 0 ∨ tol < Real.sqrt (1 - S 0 0 ^ 2)) (rep : Prop) [Decidable rep] (hrep : rep) :
    (len2 (S 0 1) (S 0 2) > tol →
      eulerStd rep (atan2 (S 0 1) (S 0 2)) (atan2 (len2 (S 0 1) (S 0 2)) (S 0 0))
        (atan2 (S 1 0) (-S 2 0)) = S) ∧
    (¬len2 (S 0 1) (S 0 2) > tol →
      eulerStd rep 0 (atan2 (len2 (S 0 1) (S 0 2)) (S 0 0)) (sign (S 0 0) * atan2 (-S 1 2) (S 1 1)) = S) := by
  obtain ⟨n1, n2, n3, n4, n5, n6⟩ := h.norms
  obtain ⟨d1, d2, d3, d4, d5, d6⟩ := h.dots
  obtain ⟨c1, c2, c3, c4, c5, c6, c7, c8, c9⟩ := h.cof
  have hq := len2_sq (S 0 1) (S 0 2)
  have hl := len2_nonneg (S 0 1) (S 0 2)
  have hsq : Real.sqrt (1 - S 0 0 ^ 2) = len2 (S 0 1) (S 0 2) := by
    rw [Real.sqrt_eq_iff_mul_self_eq (by have := mul_self_nonneg (len2 (S 0 1) (S 0 2)); linarith) hl]; linarith
  rw [hsq] at hb
  generalize len2 (S 0 1) (S 0 2) = l at *
  have s1 : Real.sin (atan2 l (S 0 0)) = l := by rw [sin_atan2 one_pos (by linarith), div_one]
  have k1 : Real.cos (atan2 l (S 0 0)) = S 0 0 := by rw [cos_atan2 one_pos (by linarith), div_one]
  constructor
  · intro hg
    have hp : 0 < l := lt_of_le_of_lt ht hg
    rw [eulerStd_eq, if_pos hrep, s1, k1, sin_atan2 hp (by linarith), cos_atan2 hp (by linarith),
      sin_atan2 (y := S 1 0) hp (by linarith), cos_atan2 (y := S 1 0) hp (by linarith)]
    ext r c
    fin_cases r <;> fin_cases c <;> simp <;> field_simp <;> grind
  · intro hg
    have h0 : l = 0 := by
      rcases hb with hb | hb
      · exact mul_self_eq_zero.1 (by linarith)
      · exact absurd hb hg
    subst h0
    obtain ⟨z1, z2⟩ := mul_self_add_mul_self_eq_zero.1 (show S 0 1 * S 0 1 + S 0 2 * S 0 2 = 0 by linarith)
    have hu : S 0 0 ^ 2 = 1 := by linarith
    obtain ⟨z3, z4⟩ := mul_self_add_mul_self_eq_zero.1 (show S 1 0 * S 1 0 + S 2 0 * S 2 0 = 0 by linarith)
    rw [z3] at n2
    have s2 : Real.sin (atan2 (-S 1 2) (S 1 1)) = -S 1 2 := by
      rw [sin_atan2 one_pos (by linarith), div_one]
    have k2 : Real.cos (atan2 (-S 1 2) (S 1 1)) = S 1 1 := by
      rw [cos_atan2 one_pos (by linarith), div_one]
    have s3 : Real.sin (S 0 0 * atan2 (-S 1 2) (S 1 1)) = S 0 0 * -S 1 2 := by
      rcases sq_eq_one_iff.1 hu with e | e <;> rw [e] <;> simp [s2]
    have k3 : Real.cos (S 0 0 * atan2 (-S 1 2) (S 1 1)) = S 1 1 := by
      rcases sq_eq_one_iff.1 hu with e | e <;> rw [e] <;> simp [k2]
    rw [eulerStd_eq, if_pos hrep, s1, k1, sign_unit hu, s3, k3, Real.sin_zero, Real.cos_zero]
    ext r c
    fin_cases r <;> fin_cases c <;> simp <;> grind

private theorem std_nonrep {S : Matrix (Fin 3) (Fin 3) ℝ} (h : IsRotation S) {tol : ℝ} (ht : 0 ≤ tol)
    (hb : 1 - S 2 0 ^ 2 = 0 ∨ tol < Real.sqrt (1 - S 2 0 ^ 2)) (rep : Prop) [Decidable rep]
    (hrep : ¬rep) :
    (len2 (S 0 0) (S 1 0) > tol →
      eulerStd rep (atan2 (S 2 1) (S 2 2)) (atan2 (-S 2 0) (len2 (S 0 0) (S 1 0)))
        (atan2 (S 1 0) (S 0 0)) = S) ∧
    (¬len2 (S 0 0) (S 1 0) > tol →
      eulerStd rep 0 (atan2 (-S 2 0) (len2 (S 0 0) (S 1 0)))
        (-(sign (-S 2 0) * atan2 (-S 1 2) (S 1 1))) = S) := by
  obtain ⟨n1, n2, n3, n4, n5, n6⟩ := h.norms
  obtain ⟨d1, d2, d3, d4, d5, d6⟩ := h.dots
  obtain ⟨c1, c2, c3, c4, c5, c6, c7, c8, c9⟩ := h.cof
  have hq := len2_sq (S 0 0) (S 1 0)
  have hl := len2_nonneg (S 0 0) (S 1 0)
  have hsq : Real.sqrt (1 - S 2 0 ^ 2) = len2 (S 0 0) (S 1 0) := by
    rw [Real.sqrt_eq_iff_mul_self_eq (by have := mul_self_nonneg (len2 (S 0 0) (S 1 0)); linarith) hl]; linarith
  rw [hsq] at hb
  generalize len2 (S 0 0) (S 1 0) = l at *
  have s1 : Real.sin (atan2 (-S 2 0) l) = -S 2 0 := by rw [sin_atan2 one_pos (by linarith), div_one]
  have k1 : Real.cos (atan2 (-S 2 0) l) = l := by rw [cos_atan2 one_pos (by linarith), div_one]
  constructor
  · intro hg
    have hp : 0 < l := lt_of_le_of_lt ht hg
    rw [eulerStd_eq, if_neg hrep, s1, k1, sin_atan2 (y := S 2 1) hp (by linarith),
      cos_atan2 (y := S 2 1) hp (by linarith), sin_atan2 (y := S 1 0) hp (by linarith),
      cos_atan2 (y := S 1 0) hp (by linarith)]
    ext r c
    fin_cases r <;> fin_cases c <;> simp <;> field_simp <;> grind
  · intro hg
    have h0 : l = 0 := by
      rcases hb with hb | hb
      · exact mul_self_eq_zero.1 (by linarith)
      · exact absurd hb hg
    subst h0
    obtain ⟨z1, z2⟩ := mul_self_add_mul_self_eq_zero.1 (show S 0 0 * S 0 0 + S 1 0 * S 1 0 = 0 by linarith)
    have hu : S 2 0 ^ 2 = 1 := by linarith
    obtain ⟨z3, z4⟩ := mul_self_add_mul_self_eq_zero.1 (show S 2 1 * S 2 1 + S 2 2 * S 2 2 = 0 by linarith)
    rw [z2] at n2
    have s2 : Real.sin (atan2 (-S 1 2) (S 1 1)) = -S 1 2 := by
      rw [sin_atan2 one_pos (by linarith), div_one]
    have k2 : Real.cos (atan2 (-S 1 2) (S 1 1)) = S 1 1 := by
      rw [cos_atan2 one_pos (by linarith), div_one]
    have s3 : Real.sin (-(-S 2 0 * atan2 (-S 1 2) (S 1 1))) = S 2 0 * -S 1 2 := by
      rcases sq_eq_one_iff.1 hu with e | e <;> rw [e] <;> simp [s2]
    have k3 : Real.cos (-(-S 2 0 * atan2 (-S 1 2) (S 1 1))) = S 1 1 := by
      rcases sq_eq_one_iff.1 hu with e | e <;> rw [e] <;> simp [k2]
    rw [eulerStd_eq, if_neg hrep, s1, k1, sign_unit (by rw [neg_sq]; exact hu), s3, k3, Real.sin_zero,
      Real.cos_zero]
    ext r c
    fin_cases r <;> fin_cases c <;> simp <;> grind

private theorem sgn_self (o : EulerOrder) (a : ℝ) : o.sgn * (o.sgn * a) = a := by
  unfold EulerOrder.sgn
  split_ifs <;> ring

/-- C57: for a rotation matrix outside of the gimbal lock band, `matrix_to_euler` returns three angles
whose Euler rotation is the matrix, for all twelve orders, gimbal lock included. -/
theorem toEuler_spec {m : BMat ℝ} (hm : m.HasLin 3) (hr : IsRotation (linOf m 3)) (o : EulerOrder)
    {tol : ℝ} (ht : OutsideEulerBand o (linOf m 3) tol) :
    ∃ v x, toEuler m o tol = .ok v ∧ v.Is 3 x ∧ eulerRot o (x 0) (x 1) (x 2) = linOf m 3 := by
  obtain ⟨f0, f1, f2, fi, fj, fk, fo, fr⟩ := o.perm_facts
  have hS := hr.submatrix o.perm
  have hg : ∀ a b : Fin 3, m.bget (o.perm a) (o.perm b) =
      .ok ((linOf m 3).submatrix o.perm o.perm b a) := fun a b => bget_lin hm _ _
  have hfin : ∀ r0 r1 r2 : ℝ,
      eulerStd o.repeats r0 r1 r2 = (linOf m 3).submatrix o.perm o.perm →
      ∃ v x, (if (unpackEulerOrder o.code).odd then
          (pure (.mk3 true (-r0) (-r1) (-r2)) : Res (AVec ℝ))
        else pure (.mk3 true r0 r1 r2)) = .ok v ∧ v.Is 3 x ∧
        eulerRot o (x 0) (x 1) (x 2) = linOf m 3 := by
    intro r0 r1 r2 h
    refine ⟨.mk3 true (o.sgn * r0) (o.sgn * r1) (o.sgn * r2), _, ?_, AVec.mk3_is _ _ _ _, ?_⟩
    · rw [← o.sgn_mul, ← o.sgn_mul, ← o.sgn_mul]
      split_ifs <;> rfl
    · refine submatrix_perm_inj o.perm ?_
      rw [eulerRot_perm]
      simp only [cons_val_zero, cons_val_one, cons_val, sgn_self]
      exact h
  simp only [toEuler, checkLinear3D_ok hm, Res.ok_bind, fi, fj, fk, fr, hg]
  by_cases hrep : o.repeats
  · have hb : 1 - (linOf m 3).submatrix o.perm o.perm 0 0 ^ 2 = 0 ∨
        tol < Real.sqrt (1 - (linOf m 3).submatrix o.perm o.perm 0 0 ^ 2) := by
      have := ht.2
      rw [if_pos hrep, f0] at this
      exact this
    obtain ⟨g1, g2⟩ := std_rep hS ht.1 hb o.repeats hrep
    simp only [hrep, decide_true, if_true]
    by_cases hgt : len2 ((linOf m 3).submatrix o.perm o.perm 0 1)
        ((linOf m 3).submatrix o.perm o.perm 0 2) > tol
    · rw [if_pos hgt]
      exact hfin _ _ _ (g1 hgt)
    · rw [if_neg hgt]
      exact hfin _ _ _ (g2 hgt)
  · have hb : 1 - (linOf m 3).submatrix o.perm o.perm 2 0 ^ 2 = 0 ∨
        tol < Real.sqrt (1 - (linOf m 3).submatrix o.perm o.perm 2 0 ^ 2) := by
      have := ht.2
      rw [if_neg hrep, f0, f2, if_neg hrep] at this
      exact this
    obtain ⟨g1, g2⟩ := std_nonrep hS ht.1 hb o.repeats hrep
    simp only [hrep, decide_false, Bool.false_eq_true, if_false]
    by_cases hgt : len2 ((linOf m 3).submatrix o.perm o.perm 0 0)
        ((linOf m 3).submatrix o.perm o.perm 1 0) > tol
    · rw [if_pos hgt]
      exact hfin _ _ _ (g1 hgt)
    · rw [if_neg hgt]
      exact hfin _ _ _ (g2 hgt)

/-- C57: with tolerance zero every rotation matrix is covered. -/
theorem toEuler_zero {m : BMat ℝ} (hm : m.HasLin 3) (hr : IsRotation (linOf m 3)) (o : EulerOrder) :
    ∃ v x, toEuler m o 0 = .ok v ∧ v.Is 3 x ∧ eulerRot o (x 0) (x 1) (x 2) = linOf m 3 :=
  toEuler_spec hm hr o (outsideEulerBand_zero o hr)

/-- C57: `matrix_rotation_euler` applied to the extracted angles gives the matrix back. -/
theorem toEuler_roundtrip {m m0 : BMat ℝ} (hm : m.HasLin 3) (hr : IsRotation (linOf m 3))
    (o : EulerOrder) {tol : ℝ} (ht : OutsideEulerBand o (linOf m 3) tol) (h0 : m0.HasLin 3) :
    ∃ v m', toEuler m o tol = .ok v ∧ rotationEulerV m0 v o = .ok m' ∧ m0.SameShape m' ∧
      m'.IdOutside 3 ∧ linOf m' 3 = linOf m 3 := by
  obtain ⟨v, x, e1, e2, e3⟩ := toEuler_spec hm hr o ht
  obtain ⟨m', f1, f2, f3, f4⟩ := rotationEuler_spec h0 (x 0) (x 1) (x 2) o
  exact ⟨v, m', e1, (rotationEulerV_spec m0 e2 o).trans f1, f2, f3, f4.trans e3⟩

/-- C57: extraction gives back the angles a matrix was built with, if the middle angle is away from the
singularity and the angles are in the ranges of the result: for even orders the outer angles in
`(-π, π]` and the middle one in `(0, π)` (repeated axis) or `(-π/2, π/2)`; for odd orders the negated
angles. -/
theorem rotationEuler_extract {m : BMat ℝ} (hm : m.HasLin 3) (o : EulerOrder) {a0 a1 a2 tol : ℝ}
    (ht : 0 ≤ tol)
    (h0 : -Real.pi < o.sgn * a0 ∧ o.sgn * a0 ≤ Real.pi) (h2 : -Real.pi < o.sgn * a2 ∧ o.sgn * a2 ≤ Real.pi)
    (h1 : if o.repeats then 0 < o.sgn * a1 ∧ o.sgn * a1 < Real.pi ∧ tol < Real.sin (o.sgn * a1)
      else -(Real.pi / 2) < a1 ∧ a1 < Real.pi / 2 ∧ tol < Real.cos a1) :
    ∃ m' v, rotationEuler m a0 a1 a2 o = .ok m' ∧ toEuler m' o tol = .ok v ∧ v.Is 3 ![a0, a1, a2] := by
  obtain ⟨m', e1, e2, e3, e4⟩ := rotationEuler_spec hm a0 a1 a2 o
  obtain ⟨f0, f1, f2, fi, fj, fk, fo, fr⟩ := o.perm_facts
  have hm' := e2.hasLin hm
  have hg : ∀ a b : Fin 3, m'.bget (o.perm a) (o.perm b) =
      .ok (eulerStd o.repeats (o.sgn * a0) (o.sgn * a1) (o.sgn * a2) b a) := by
    intro a b
    rw [← eulerRot_perm, ← e4]
    exact bget_lin hm' _ _
  refine ⟨m', .mk3 true a0 a1 a2, e1, ?_, AVec.mk3_is _ _ _ _⟩
  have hfin : (if (unpackEulerOrder o.code).odd then
        (pure (.mk3 true (-(o.sgn * a0)) (-(o.sgn * a1)) (-(o.sgn * a2))) : Res (AVec ℝ))
      else pure (.mk3 true (o.sgn * a0) (o.sgn * a1) (o.sgn * a2))) = .ok (.mk3 true a0 a1 a2) := by
    have e := fun a => o.sgn_mul (o.sgn * a)
    simp only [sgn_self] at e
    split_ifs with hodd <;> simp only [hodd, if_true] at e
    · simp [e, Res.pure_eq]
    · simp at e
      simp [e, Res.pure_eq]
  simp only [toEuler, checkLinear3D_ok hm', Res.ok_bind, fi, fj, fk, fr, hg]
  rw [eulerStd_eq]
  generalize o.sgn * a0 = A0 at *
  generalize o.sgn * a2 = A2 at *
  by_cases hrep : o.repeats
  · simp only [hrep, if_true] at h1
    generalize o.sgn * a1 = A1 at *
    obtain ⟨p0, p1, p2⟩ := h1
    have hp : 0 < Real.sin A1 := lt_of_le_of_lt ht p2
    have hl : len2 (Real.sin A0 * Real.sin A1) (Real.cos A0 * Real.sin A1) = Real.sin A1 := by
      rw [len2, Real.sqrt_eq_iff_mul_self_eq (add_nonneg (mul_self_nonneg _) (mul_self_nonneg _)) hp.le]
      linear_combination (Real.sin A1 ^ 2) * Real.sin_sq_add_cos_sq A0
    have t1 : atan2 (Real.sin A1) (Real.cos A1) = A1 := by
      have := atan2_polar (r := 1) (θ := A1) one_pos (by linarith [Real.pi_pos]) p1.le
      simpa using this
    have t0 : atan2 (Real.sin A0 * Real.sin A1) (Real.cos A0 * Real.sin A1) = A0 := by
      rw [mul_comm, mul_comm (Real.cos A0)]
      exact atan2_polar hp h0.1 h0.2
    have t2 : atan2 (Real.sin A1 * Real.sin A2) (Real.sin A1 * Real.cos A2) = A2 :=
      atan2_polar hp h2.1 h2.2
    simp [hrep, hl, t1, t0, t2, p2] at hfin ⊢
    exact hfin
  · simp only [hrep, if_false] at h1
    obtain ⟨p0, p1, p2⟩ : -(Real.pi / 2) < o.sgn * a1 ∧ o.sgn * a1 < Real.pi / 2 ∧
        tol < Real.cos (o.sgn * a1) := by
      unfold EulerOrder.sgn
      obtain ⟨p0, p1, p2⟩ := h1
      split_ifs
      · rw [one_mul]; exact ⟨p0, p1, p2⟩
      · rw [neg_one_mul, Real.cos_neg]; exact ⟨by linarith, by linarith, p2⟩
    generalize o.sgn * a1 = A1 at *
    have hp : 0 < Real.cos A1 := lt_of_le_of_lt ht p2
    have hl : len2 (Real.cos A1 * Real.cos A2) (Real.cos A1 * Real.sin A2) = Real.cos A1 := by
      rw [len2, Real.sqrt_eq_iff_mul_self_eq (add_nonneg (mul_self_nonneg _) (mul_self_nonneg _)) hp.le]
      linear_combination (Real.cos A1 ^ 2) * Real.sin_sq_add_cos_sq A2
    have t1 : atan2 (Real.sin A1) (Real.cos A1) = A1 := by
      have := atan2_polar (r := 1) (θ := A1) one_pos (by linarith [Real.pi_pos]) (by linarith [Real.pi_pos])
      simpa using this
    have t0 : atan2 (Real.sin A0 * Real.cos A1) (Real.cos A0 * Real.cos A1) = A0 := by
      rw [mul_comm, mul_comm (Real.cos A0)]
      exact atan2_polar hp h0.1 h0.2
    have t2 : atan2 (Real.cos A1 * Real.sin A2) (Real.cos A1 * Real.cos A2) = A2 :=
      atan2_polar hp h2.1 h2.2
    simp [hrep, hl, t1, t0, t2, p2] at hfin ⊢
    exact hfin

/-- C57: a matrix that is too small for a linear part is rejected. -/
theorem toEuler_throws {m : BMat ℝ} (hm : ¬m.HasLin 3) (o : EulerOrder) (tol : ℝ) :
    toEuler m o tol = .throw (if m.fixed then .staticAssert else .matMinimum) := by
  rw [toEuler, checkLinear3D_throw hm]; rfl

/-- C57: for a unit quaternion, `quaternion_to_euler` returns three angles whose Euler rotation is the
rotation of the quaternion. -/
theorem qToEuler_spec {s : QState ℝ} {q : QNode ℝ} {h : ℍ[ℝ]} (hq : QReads s q h)
    (hh : normSq h = 1) (o : EulerOrder) {tol : ℝ} (ht : OutsideEulerBand o (quatMat h) tol) :
    ∃ v x, qToEuler s q o tol = .ok v ∧ v.Is 3 x ∧
      ∀ y, eulerRot o (x 0) (x 1) (x 2) *ᵥ y = qRotate h y := by
  have h33 : (tmp33 : BMat ℝ).HasLin 3 := ⟨by decide, by decide⟩
  obtain ⟨m, e1, e2, -, e4⟩ := rotationQuaternion_ok h33 hq
  rw [hh, sub_self, zero_smul, add_zero] at e4
  obtain ⟨v, x, f1, f2, f3⟩ := toEuler_spec (e2.hasLin h33) (by rw [e4]; exact quatMat_isRotation hh) o
    (by rw [e4]; exact ht)
  refine ⟨v, x, ?_, f2, fun y => ?_⟩
  · rw [qToEuler, e1, Res.ok_bind, f1]
  · rw [f3, e4, quatMat_mulVec]

/- Gimbal lock and a generic rotation, for an order without and one with a repeated axis. -/
example : IsRotation (rodrigues (unitVec 1) (Real.pi / 2)) ∧
    OutsideEulerBand .xyz (rodrigues (unitVec 1) (Real.pi / 2)) (1/2) ∧
    OutsideEulerBand .xyx (rodrigues (unitVec 1) (Real.pi / 2)) (1/2) := by
  refine ⟨rodrigues_isRotation (unitVec_unit 1) _, ⟨by norm_num, .inl ?_⟩, ⟨by norm_num, .inr ?_⟩⟩
  · rw [if_neg (by decide), rodrigues_y]
    simp [EulerOrder.axes]
  · rw [if_pos (by decide), rodrigues_y, Real.lt_sqrt (by norm_num)]
    norm_num [EulerOrder.axes]
example : (if EulerOrder.xyx.repeats then
      0 < EulerOrder.xyx.sgn * (Real.pi / 2) ∧ EulerOrder.xyx.sgn * (Real.pi / 2) < Real.pi ∧
        1 / 2 < Real.sin (EulerOrder.xyx.sgn * (Real.pi / 2))
      else -(Real.pi / 2) < Real.pi / 2 ∧ Real.pi / 2 < Real.pi / 2 ∧ 1 / 2 < Real.cos (Real.pi / 2)) := by
  have := Real.pi_pos
  rw [if_pos (by decide), EulerOrder.sgn, if_pos (by decide), one_mul]
  refine ⟨by linarith, by linarith, by norm_num⟩

end CML

#print axioms CML.outsideAxisBand_zero
#print axioms CML.toAxisAngle_spec
#print axioms CML.toAxisAngle_zero
#print axioms CML.toAxisAngle_roundtrip
#print axioms CML.rotationAxisAngle_extract
#print axioms CML.toAxisAngle_throws
#print axioms CML.outsideQuatBand_zero
#print axioms CML.qToAxisAngle_spec
#print axioms CML.qRotationAxisAngle_extract
#print axioms CML.outsideEulerBand_zero
#print axioms CML.toEuler_spec
#print axioms CML.toEuler_zero
#print axioms CML.toEuler_roundtrip
#print axioms CML.rotationEuler_extract
#print axioms CML.toEuler_throws
#print axioms CML.qToEuler_spec
