import Mathlib.Analysis.SpecialFunctions.Trigonometric.Arctan
import Verif.Model.Geometry
import Verif.Lemmas.Geom
import Verif.Lemmas.Lin
import Verif.Props.Projection

/-!
C65: the projections given by a field of view.  C66: normalised frustum planes.
-/

namespace CML
open Matrix

/-! ### C65 -/

private theorem fov_bound {s φ : ℝ} (h0 : 0 < φ) (h1 : φ < Real.pi / 2) :
    |Real.arctan s| ≤ φ ↔ -Real.tan φ ≤ s ∧ s ≤ Real.tan φ := by
  have e : Real.arctan (Real.tan φ) = φ := Real.arctan_tan (by linarith) h1
  have e' : Real.arctan (-Real.tan φ) = -φ := by rw [Real.arctan_neg, e]
  rw [abs_le, ← Real.arctan_strictMono.le_iff_le (a := -Real.tan φ),
    ← Real.arctan_strictMono.le_iff_le (b := Real.tan φ), e, e']

private theorem fov_edge {s φ : ℝ} (h0 : 0 < φ) (h1 : φ < Real.pi / 2) :
    (Real.arctan s = φ ↔ s = Real.tan φ) ∧ (Real.arctan s = -φ ↔ s = -Real.tan φ) := by
  have e : Real.arctan (Real.tan φ) = φ := Real.arctan_tan (by linarith) h1
  constructor
  · rw [← Real.arctan_injective.eq_iff (b := Real.tan φ), e]
  · rw [← Real.arctan_injective.eq_iff (b := -Real.tan φ), Real.arctan_neg, e]

/-- C65: `matrix_perspective_xfov`: a point in front of the eye is in the clip box exactly if its horizontal
angle from the viewing direction is at most half the field of view, its slope in the vertical direction is
within that bound divided by the aspect ratio, and its depth is between the near and far planes.  The
points at half the field of view go to the sides of the box. -/
theorem perspectiveXfov_spec {m : BMat ℝ} (hr : m.rows = 4) (hc : m.cols = 4) {xfov aspect n f : ℝ}
    (hx0 : 0 < xfov) (hx1 : xfov < Real.pi) (ha : 0 < aspect) (hn : 0 < n) (hd : n < f) (h : Handed)
    (zc : ZClip) :
    ∃ m', perspectiveXfov m xfov aspect n f h zc = .ok m' ∧
      ∀ (p : AVec ℝ) (x : Fin 3 → ℝ), p.Is 3 x → 0 < viewDepth h (x 2) →
        ∃ q y, transformPoint4D m' p = .ok q ∧ q.Is 3 y ∧
          (InClipBox zc y ↔ |Real.arctan (x 0 / viewDepth h (x 2))| ≤ xfov / 2 ∧
            |x 1| * aspect ≤ Real.tan (xfov / 2) * viewDepth h (x 2) ∧
            n ≤ viewDepth h (x 2) ∧ viewDepth h (x 2) ≤ f) ∧
          (y 0 = 1 ↔ Real.arctan (x 0 / viewDepth h (x 2)) = xfov / 2) ∧
          (y 0 = -1 ↔ Real.arctan (x 0 / viewDepth h (x 2)) = -(xfov / 2)) := by
  have ht : 0 < Real.tan (xfov / 2) := Real.tan_pos_of_pos_of_lt_pi_div_two (by linarith) (by linarith)
  have hw : 0 < 2 * n * Real.tan (xfov / 2) := by positivity
  have hh : 0 < 2 * n * Real.tan (xfov / 2) / aspect := by positivity
  obtain ⟨m', e1, e2⟩ := perspective_frustum hr hc (left := -(2 * n * Real.tan (xfov / 2) / 2))
    (right := 2 * n * Real.tan (xfov / 2) / 2) (bottom := -(2 * n * Real.tan (xfov / 2) / aspect / 2))
    (top := 2 * n * Real.tan (xfov / 2) / aspect / 2) (by linarith) (by linarith) hn hd h zc
  refine ⟨m', ?_, fun p x hp hz => ?_⟩
  · rw [perspectiveXfov, divR, if_neg ha.ne']
    simp only [Res.ok_bind, perspectiveWH_eq]
    exact e1
  · obtain ⟨q, y, f1, f2, f3, -, -, f4, f5, -, -⟩ := e2 p x hp hz
    generalize viewDepth h (x 2) = z at *
    have hf0 : 0 < xfov / 2 := by linarith
    have hf1 : xfov / 2 < Real.pi / 2 := by linarith
    generalize xfov / 2 = φ at *
    refine ⟨q, y, f1, f2, ?_, ?_, ?_⟩
    · rw [f3, fov_bound hf0 hf1, le_div_iff₀ hz, div_le_iff₀ hz]
      refine and_congr (and_congr ?_ ?_) (and_congr ?_ Iff.rfl)
      · rw [← mul_le_mul_iff_right₀ (b := -Real.tan φ * z) hn]
        constructor <;> intro h <;> linarith
      · rw [← mul_le_mul_iff_right₀ (b := x 0) hn]
        constructor <;> intro h <;> linarith
      · have hna : 0 < n / aspect := by positivity
        rw [← abs_of_pos ha, ← abs_mul, abs_le, abs_of_pos ha,
          ← mul_le_mul_iff_right₀ (b := -(Real.tan φ * z)) hna, ← mul_le_mul_iff_right₀ (b := x 1 * aspect) hna]
        have e3 : n / aspect * (x 1 * aspect) = n * x 1 := by field_simp
        have e4 : n / aspect * (Real.tan φ * z) = 2 * n * Real.tan φ / aspect / 2 * z := by field_simp
        have e5 : n / aspect * -(Real.tan φ * z) = -(2 * n * Real.tan φ / aspect / 2) * z := by
          rw [mul_neg, e4]; ring
        rw [e3, e4, e5]
    · rw [f5, (fov_edge hf0 hf1).1, div_eq_iff hz.ne']
      constructor <;> intro h
      · exact mul_left_cancel₀ hn.ne' (by linarith)
      · rw [h]; ring
    · rw [f4, (fov_edge hf0 hf1).2, div_eq_iff hz.ne']
      constructor <;> intro h
      · exact mul_left_cancel₀ hn.ne' (by linarith)
      · rw [h]; ring

/-- C65: `matrix_perspective_yfov`, likewise for the vertical field of view. -/
theorem perspectiveYfov_spec {m : BMat ℝ} (hr : m.rows = 4) (hc : m.cols = 4) {yfov aspect n f : ℝ}
    (hx0 : 0 < yfov) (hx1 : yfov < Real.pi) (ha : 0 < aspect) (hn : 0 < n) (hd : n < f) (h : Handed)
    (zc : ZClip) :
    ∃ m', perspectiveYfov m yfov aspect n f h zc = .ok m' ∧
      ∀ (p : AVec ℝ) (x : Fin 3 → ℝ), p.Is 3 x → 0 < viewDepth h (x 2) →
        ∃ q y, transformPoint4D m' p = .ok q ∧ q.Is 3 y ∧
          (InClipBox zc y ↔ |x 0| ≤ aspect * Real.tan (yfov / 2) * viewDepth h (x 2) ∧
            |Real.arctan (x 1 / viewDepth h (x 2))| ≤ yfov / 2 ∧
            n ≤ viewDepth h (x 2) ∧ viewDepth h (x 2) ≤ f) ∧
          (y 1 = 1 ↔ Real.arctan (x 1 / viewDepth h (x 2)) = yfov / 2) ∧
          (y 1 = -1 ↔ Real.arctan (x 1 / viewDepth h (x 2)) = -(yfov / 2)) := by
  have ht : 0 < Real.tan (yfov / 2) := Real.tan_pos_of_pos_of_lt_pi_div_two (by linarith) (by linarith)
  have hw : 0 < 2 * n * Real.tan (yfov / 2) := by positivity
  have hh : 0 < 2 * n * Real.tan (yfov / 2) * aspect := by positivity
  obtain ⟨m', e1, e2⟩ := perspective_frustum hr hc (left := -(2 * n * Real.tan (yfov / 2) * aspect / 2))
    (right := 2 * n * Real.tan (yfov / 2) * aspect / 2) (bottom := -(2 * n * Real.tan (yfov / 2) / 2))
    (top := 2 * n * Real.tan (yfov / 2) / 2) (by linarith) (by linarith) hn hd h zc
  refine ⟨m', ?_, fun p x hp hz => ?_⟩
  · simp only [perspectiveYfov, perspectiveWH_eq]
    exact e1
  · obtain ⟨q, y, f1, f2, f3, -, -, -, -, f4, f5⟩ := e2 p x hp hz
    generalize viewDepth h (x 2) = z at *
    have hf0 : 0 < yfov / 2 := by linarith
    have hf1 : yfov / 2 < Real.pi / 2 := by linarith
    generalize yfov / 2 = φ at *
    refine ⟨q, y, f1, f2, ?_, ?_, ?_⟩
    · rw [f3, fov_bound hf0 hf1, le_div_iff₀ hz, div_le_iff₀ hz, abs_le]
      refine and_congr (and_congr ?_ ?_) (and_congr (and_congr ?_ ?_) Iff.rfl)
      · rw [← mul_le_mul_iff_right₀ (b := -(aspect * Real.tan φ * z)) hn]
        constructor <;> intro h <;> linarith
      · rw [← mul_le_mul_iff_right₀ (b := x 0) hn]
        constructor <;> intro h <;> linarith
      · rw [← mul_le_mul_iff_right₀ (b := -Real.tan φ * z) hn]
        constructor <;> intro h <;> linarith
      · rw [← mul_le_mul_iff_right₀ (b := x 1) hn]
        constructor <;> intro h <;> linarith
    · rw [f5, (fov_edge hf0 hf1).1, div_eq_iff hz.ne']
      constructor <;> intro h
      · exact mul_left_cancel₀ hn.ne' (by linarith)
      · rw [h]; ring
    · rw [f4, (fov_edge hf0 hf1).2, div_eq_iff hz.ne']
      constructor <;> intro h
      · exact mul_left_cancel₀ hn.ne' (by linarith)
      · rw [h]; ring

/-- C65: an aspect ratio of zero divides by zero: in `xfov` directly, in `yfov` because the width is
zero. -/
theorem perspectiveFov_fails {m : BMat ℝ} (hm : m.HasLin 4) (fov n f : ℝ) (h : Handed) (zc : ZClip) :
    perspectiveXfov m fov 0 n f h zc = .ub .divZero ∧ perspectiveYfov m fov 0 n f h zc = .ub .divZero := by
  constructor
  · simp [perspectiveXfov, divR]
  · simp only [perspectiveYfov, perspectiveWH_eq]
    exact (perspective_fails _ _ _ _ _ _ _ _).2 hm (Or.inl (by simp))

/-! ### C66 -/

/-- A plane with a normal that is not zero. -/
def Plane.Proper (p : Plane ℝ) : Prop := p.a ≠ 0 ∨ p.b ≠ 0 ∨ p.c ≠ 0

private theorem len3_pos {p : Plane ℝ} (h : p.Proper) : 0 < len3 p.a p.b p.c := by
  refine Real.sqrt_pos.2 ?_
  rcases h with h | h | h
  · nlinarith [mul_self_pos.2 h, mul_self_nonneg p.b, mul_self_nonneg p.c]
  · nlinarith [mul_self_pos.2 h, mul_self_nonneg p.a, mul_self_nonneg p.c]
  · nlinarith [mul_self_pos.2 h, mul_self_nonneg p.a, mul_self_nonneg p.b]

/-- C66: normalising a plane scales it by a positive factor to a unit normal; a plane with a zero normal is
divided by zero. -/
theorem Plane.normalized_spec (p : Plane ℝ) :
    (p.Proper → ∃ q : Plane ℝ, ∃ k : ℝ, 0 < k ∧ p.normalized = .ok q ∧
      q.a * q.a + q.b * q.b + q.c * q.c = 1 ∧ ∀ x, p.at x = k * q.at x) ∧
    (¬p.Proper → p.normalized = .ub .divZero) := by
  constructor
  · intro h
    have hl := len3_pos h
    have hsq : len3 p.a p.b p.c * len3 p.a p.b p.c = p.a * p.a + p.b * p.b + p.c * p.c :=
      Real.mul_self_sqrt (by nlinarith [mul_self_nonneg p.a, mul_self_nonneg p.b, mul_self_nonneg p.c])
    refine ⟨⟨p.a / len3 p.a p.b p.c, p.b / len3 p.a p.b p.c, p.c / len3 p.a p.b p.c,
      p.d / len3 p.a p.b p.c⟩, len3 p.a p.b p.c, hl, ?_, ?_, fun x => ?_⟩
    · simp [Plane.normalized, divR, hl.ne']
    · generalize len3 p.a p.b p.c = l at *
      simp only
      field_simp
      linarith
    · generalize len3 p.a p.b p.c = l at *
      simp only [Plane.at]
      field_simp
  · intro h
    simp only [Plane.Proper, not_or, not_not] at h
    simp [Plane.normalized, divR, len3, h]

private theorem normalizePlanes_ok : ∀ ps : List (Plane ℝ), (∀ p ∈ ps, p.Proper) →
    ∃ qs, normalizePlanes ps = .ok qs ∧ List.Forall₂ (fun p q : Plane ℝ =>
      q.a * q.a + q.b * q.b + q.c * q.c = 1 ∧ ∃ k : ℝ, 0 < k ∧ ∀ x, p.at x = k * q.at x) ps qs
  | [], _ => ⟨[], rfl, .nil⟩
  | p :: ps, h => by
    obtain ⟨qs, e1, e2⟩ := normalizePlanes_ok ps fun p hp => h p (List.mem_cons_of_mem _ hp)
    obtain ⟨q, k, f1, f2, f3, f4⟩ := (Plane.normalized_spec p).1 (h p List.mem_cons_self)
    exact ⟨q :: qs, by simp [normalizePlanes, e1, f2], .cons ⟨f3, k, f1, f4⟩ e2⟩

private theorem normalizePlanes_ub : ∀ ps : List (Plane ℝ), (∃ p ∈ ps, ¬p.Proper) →
    normalizePlanes ps = .ub .divZero
  | [], h => by simp at h
  | p :: ps, h => by
    by_cases hp : p.Proper
    · obtain ⟨q, k, f1, f2, f3, f4⟩ := (Plane.normalized_spec p).1 hp
      have : ∃ p ∈ ps, ¬p.Proper := by
        obtain ⟨r, hr, hn⟩ := h
        rcases List.mem_cons.1 hr with rfl | hr
        · exact absurd hp hn
        · exact ⟨r, hr, hn⟩
      simp only [normalizePlanes, f2, Res.ok_bind, normalizePlanes_ub ps this]
      rfl
    · simp only [normalizePlanes, (Plane.normalized_spec p).2 hp]
      rfl

/-- C66: `extract_frustum_planes` with `normalize`: the six planes have unit normals, each is a positive
multiple of the one extracted without normalisation, so the visible set is the same. -/
theorem extractFrustumPlanes_normalized {m : BMat ℝ} (hm : m.HasLin 4) (zc : ZClip) :
    ∃ ps, extractFrustumPlanes m zc false = .ok ps ∧ ps.length = 6 ∧
      ((∀ p ∈ ps, p.Proper) → ∃ qs, extractFrustumPlanes m zc true = .ok qs ∧
        List.Forall₂ (fun p q : Plane ℝ => q.a * q.a + q.b * q.b + q.c * q.c = 1 ∧
          ∃ k : ℝ, 0 < k ∧ ∀ x, p.at x = k * q.at x) ps qs ∧
        ∀ x, (∀ q ∈ qs, 0 ≤ q.at x) ↔ InClip zc (homImage m x)) ∧
      ((∃ p ∈ ps, ¬p.Proper) → extractFrustumPlanes m zc true = .ub .divZero) := by
  obtain ⟨ps, e1, e2, e3⟩ := frustumPlanes_clip hm zc
  refine ⟨ps, by simp [extractFrustumPlanes, e1], e2, fun h => ?_, fun h => ?_⟩
  · obtain ⟨qs, f1, f2⟩ := normalizePlanes_ok ps h
    refine ⟨qs, by simp [extractFrustumPlanes, e1, f1], f2, fun x => ?_⟩
    rw [← e3 x]
    clear e1 e2 e3 f1 h
    induction f2 with
    | nil => simp
    | cons h _ ih =>
      obtain ⟨-, k, hk, hx⟩ := h
      simp only [List.mem_cons, forall_eq_or_imp, ih, hx x, mul_nonneg_iff_of_pos_left hk]
  · simp [extractFrustumPlanes, e1, normalizePlanes_ub ps h]

/-- C66: a matrix that is too small is rejected, whether or not the planes are to be normalised. -/
theorem extractFrustumPlanes_throws {m : BMat ℝ} (hm : ¬m.HasLin 4) (zc : ZClip) (nz : Bool) :
    extractFrustumPlanes m zc nz = .throw m.minErr := by
  simp [extractFrustumPlanes, frustumPlanes_throws hm]

/-- C66: the overload that takes the model-view and projection matrices extracts the planes of their
concatenation. -/
theorem extractFrustumPlanes2_normalized {mv pr : BMat ℝ} (hr1 : mv.rows = 4) (hc1 : mv.cols = 4)
    (hr2 : pr.rows = 4) (hc2 : pr.cols = 4) (hb : mv.basis = pr.basis) (zc : ZClip) :
    ∃ ps, extractFrustumPlanes2 mv pr zc false = .ok ps ∧
      ((∀ p ∈ ps, p.Proper) → ∃ qs, extractFrustumPlanes2 mv pr zc true = .ok qs ∧ qs.length = 6 ∧
        (∀ q ∈ qs, q.a * q.a + q.b * q.b + q.c * q.c = 1) ∧
        ∀ x, (∀ q ∈ qs, 0 ≤ q.at x) ↔ InClip zc ((linOf pr 4).mulVec (homImage mv x))) := by
  obtain ⟨m, e1, e2, e3, -, e5⟩ := concat_linOf hr1 hc1 hr2 hc2 hb
  obtain ⟨ps, h1, h2, h3, -⟩ := extractFrustumPlanes_normalized (m := m) ⟨e2.ge, e3.ge⟩ zc
  refine ⟨ps, by simp [extractFrustumPlanes2, e1, h1], fun h => ?_⟩
  obtain ⟨qs, f1, f2, f3⟩ := h3 h
  refine ⟨qs, by simp [extractFrustumPlanes2, e1, f1], by rw [← f2.length_eq, h2], ?_, fun x => ?_⟩
  · clear h1 h2 h3 f1 f3 h
    induction f2 with
    | nil => simp
    | cons h _ ih => simpa using ⟨h.1, ih⟩
  · rw [f3 x, homImage, homImage, e5, Matrix.mulVec_mulVec]

/-- The near plane of the example in `Projection`, which is not normalised. -/
example : (⟨0, 0, 3/2, -3/2⟩ : Plane ℝ).Proper ∧
    (⟨0, 0, 3/2, -3/2⟩ : Plane ℝ).normalized = .ok ⟨0, 0, 1, -1⟩ := by
  refine ⟨Or.inr (Or.inr (by norm_num)), ?_⟩
  have e : len3 0 0 (3/2) = 3/2 := by
    rw [len3, show (0 : ℝ) * 0 + 0 * 0 + 3/2 * (3/2) = 3/2 * (3/2) by norm_num,
      Real.sqrt_mul_self (by norm_num)]
  simp only [Plane.normalized, e]
  norm_num [divR]

/-- A right angle as the field of view, at depth one: the edge of the visible region is at one. -/
example : Real.arctan ((1 : ℝ) / viewDepth Handed.left 1) = (Real.pi / 2) / 2 := by
  simp only [viewDepth, div_one, Real.arctan_one]
  ring

end CML

#print axioms CML.perspectiveXfov_spec
#print axioms CML.perspectiveYfov_spec
#print axioms CML.perspectiveFov_fails
#print axioms CML.Plane.normalized_spec
#print axioms CML.extractFrustumPlanes_normalized
#print axioms CML.extractFrustumPlanes_throws
#print axioms CML.extractFrustumPlanes2_normalized
