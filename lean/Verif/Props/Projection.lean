import Verif.Props.Transform
import Mathlib.Algebra.Order.Field.Basic
import Mathlib.Tactic.Linarith
import Mathlib.Tactic.LinearCombination
import Mathlib.Tactic.FieldSimp
import Mathlib.Tactic.Positivity

/-!
C64, C65, C66: orthographic and perspective projections, frustum planes.

`viewDepth h z` is the distance in front of the eye: `z` for left-handed, `-z` for right-handed views.
-/

namespace CML
open BMat

section
variable {K : Type} [Field K]

/-- Distance in front of the eye. -/
def viewDepth (h : Handed) (z : K) : K :=
  match h with
  | .left => z
  | .right => -z

/-- The lower clip bound for `z`. -/
def clipLo (zc : ZClip) : K :=
  match zc with
  | .negOne => -1
  | .zero => 0

theorem handed_mul (h : Handed) (z : K) : (h.s : K) * z = viewDepth h z := by
  cases h <;> simp [Handed.s, viewDepth]

theorem handed_sq (h : Handed) : (h.s : K) * h.s = 1 := by
  cases h <;> simp [Handed.s]

/-- Homogeneous image of a point. -/
def homImage (m : BMat K) (x : Fin 3 → K) : Fin 4 → K := (linOf m 4).mulVec ![x 0, x 1, x 2, 1]

theorem homImage_apply (m : BMat K) (x : Fin 3 → K) (j : Fin 4) :
    homImage m x j = m.bel 0 j * x 0 + m.bel 1 j * x 1 + m.bel 2 j * x 2 + m.bel 3 j := by
  simp [homImage, Matrix.mulVec, dotProduct, Fin.sum_univ_four, linOf_apply]

variable [DecidableEq K]

/-! ### C64 -/

/-- C64: `matrix_orthographic` maps every point affinely: `[left, right]` to `[-1, 1]`,
`[bottom, top]` to `[-1, 1]`, and depth `[n, f]` to `[-1, 1]` or `[0, 1]`; outside of the 4×4 block it is
the identity. -/
theorem orthographic_spec {m : BMat K} (hm : m.HasLin 4) {left right bottom top n f : K}
    (hw : right ≠ left) (hh : top ≠ bottom) (hd : f ≠ n) (h : Handed) (zc : ZClip) :
    ∃ m', orthographic m left right bottom top n f h zc = .ok m' ∧ m.SameShape m' ∧ m'.IdOutside 4 ∧
      ∀ x, homImage m' x =
        ![(2 * x 0 - (right + left)) / (right - left), (2 * x 1 - (top + bottom)) / (top - bottom),
          (match zc with
            | .negOne => (2 * viewDepth h (x 2) - (f + n)) / (f - n)
            | .zero => (viewDepth h (x 2) - n) / (f - n)), 1] := by
  have hb := (hasLin_iff m 4).1 hm
  have w0 : right - left ≠ 0 := sub_ne_zero.2 hw
  have h0 : top - bottom ≠ 0 := sub_ne_zero.2 hh
  have d0 : f - n ≠ 0 := sub_ne_zero.2 hd
  have e1 : divR 1 (right - left) = .ok (1 / (right - left)) := by simp [divR, w0]
  have e2 : divR 1 (top - bottom) = .ok (1 / (top - bottom)) := by simp [divR, h0]
  have e3 : divR 1 (f - n) = .ok (1 / (f - n)) := by simp [divR, d0]
  cases zc
  all_goals
    lin_run [orthographic, checkMin44_ok hm, e1, e2, e3]
    refine ⟨⟨by simp, by simp, by simp, by simp⟩, ?_, fun x => ?_⟩
    · rw [idOutside_iff]
      intro i j _ _ hn
      simp only [bel_bset, bel_identity]
      repeat rw [if_neg (show ¬(i = _ ∧ j = _) by omega)]
    · funext j
      rw [homImage_apply]
      fin_cases j <;> simp [bel_bset, bel_identity, ← handed_mul] <;> field_simp <;> ring

/-- C64: a degenerate box divides by zero; a too small matrix is rejected. -/
theorem orthographic_fails {m : BMat K} (left right bottom top n f : K) (h : Handed) (zc : ZClip) :
    (¬m.HasLin 4 → orthographic m left right bottom top n f h zc = .throw m.minErr) ∧
    (m.HasLin 4 → right = left ∨ top = bottom ∨ f = n →
      orthographic m left right bottom top n f h zc = .ub .divZero) := by
  constructor
  · intro hm
    simp only [orthographic, checkMin44_throw hm, Res.throw_bind]
  · intro hm hz
    simp only [orthographic, checkMin44_ok hm, Res.ok_bind, divR, sub_eq_zero]
    by_cases a : right = left
    · simp [a]
    · by_cases b : top = bottom
      · simp [a, b]
      · have c : f = n := by tauto
        simp [a, b, c]

end

section
variable {K : Type} [Field K] [LinearOrder K] [IsStrictOrderedRing K]

/-- The clip inequalities for homogeneous coordinates. -/
def InClip (zc : ZClip) (c : Fin 4 → K) : Prop :=
  (-c 3 ≤ c 0 ∧ c 0 ≤ c 3) ∧ (-c 3 ≤ c 1 ∧ c 1 ≤ c 3) ∧
    ((match zc with | .negOne => -c 3 | .zero => 0) ≤ c 2 ∧ c 2 ≤ c 3)

/-- The clip box for points. -/
def InClipBox (zc : ZClip) (y : Fin 3 → K) : Prop :=
  (-1 ≤ y 0 ∧ y 0 ≤ 1) ∧ (-1 ≤ y 1 ∧ y 1 ≤ 1) ∧ (clipLo zc ≤ y 2 ∧ y 2 ≤ 1)

/-- C64: a point is in the view box iff its image is in the clip box. -/
theorem orthographic_box {m : BMat K} (hm : m.HasLin 4) {left right bottom top n f : K}
    (hw : left < right) (hh : bottom < top) (hd : n < f) (h : Handed) (zc : ZClip) :
    ∃ m', orthographic m left right bottom top n f h zc = .ok m' ∧
      ∀ (p : AVec K) (x : Fin 3 → K), p.Is 3 x → ∃ q y, transformPoint m' p = .ok q ∧ q.Is 3 y ∧
        (InClipBox zc y ↔ (left ≤ x 0 ∧ x 0 ≤ right) ∧ (bottom ≤ x 1 ∧ x 1 ≤ top) ∧
          (n ≤ viewDepth h (x 2) ∧ viewDepth h (x 2) ≤ f)) := by
  obtain ⟨m', h1, h2, h3, h4⟩ := orthographic_spec hm hw.ne' hh.ne' hd.ne' h zc
  have ha : m'.HasAff 3 := by
    have := (hasLin_iff m' 4).1 (h2.hasLin hm)
    rw [hasAff_iff]; omega
  refine ⟨m', h1, fun p x hp => ?_⟩
  obtain ⟨q, q1, q2⟩ := transformPoint_spec ha hp
  refine ⟨q, _, q1, q2, ?_⟩
  have e : ∀ i : Fin 3, affOf m' 3 x i = homImage m' x i.castSucc := by
    intro i
    rw [homImage_apply]
    simp [affOf, Matrix.mulVec, dotProduct, Fin.sum_univ_three, linOf_apply, transOf_apply]
  have w0 : 0 < right - left := sub_pos.2 hw
  have h0 : 0 < top - bottom := sub_pos.2 hh
  have d0 : 0 < f - n := sub_pos.2 hd
  unfold InClipBox
  rw [e, e, e, h4]
  cases zc
  all_goals
    simp only [Fin.castSucc_zero, Matrix.cons_val_zero, clipLo]
    simp only [show (Fin.castSucc (1 : Fin 3)) = 1 from rfl, show (Fin.castSucc (2 : Fin 3)) = 2 from rfl,
      Matrix.cons_val_one, Matrix.cons_val]
    rw [le_div_iff₀ w0, div_le_iff₀ w0, le_div_iff₀ h0, div_le_iff₀ h0, le_div_iff₀ d0, div_le_iff₀ d0]
    constructor
    · rintro ⟨⟨a, b⟩, ⟨c, d⟩, i, j⟩
      refine ⟨⟨?_, ?_⟩, ⟨?_, ?_⟩, ?_, ?_⟩ <;> linarith
    · rintro ⟨⟨a, b⟩, ⟨c, d⟩, i, j⟩
      refine ⟨⟨?_, ?_⟩, ⟨?_, ?_⟩, ?_, ?_⟩ <;> linarith

/-- C64: the symmetric form is the general form with `±width/2`, `±height/2`. -/
theorem orthographicWH_eq (m : BMat K) (width height n f : K) (h : Handed) (zc : ZClip) :
    orthographicWH m width height n f h zc =
      orthographic m (-(width / 2)) (width / 2) (-(height / 2)) (height / 2) n f h zc := by
  simp [orthographicWH, divR]

/-! ### C65 -/

/-- C65: the homogeneous image under `matrix_perspective`; outside of the 4×4 block the matrix is the
identity. -/
theorem perspective_spec {m : BMat K} (hm : m.HasLin 4) {left right bottom top n f : K}
    (hw : right ≠ left) (hh : top ≠ bottom) (hd : f ≠ n) (h : Handed) (zc : ZClip) :
    ∃ m', perspective m left right bottom top n f h zc = .ok m' ∧ m.SameShape m' ∧ m'.IdOutside 4 ∧
      ∀ x, homImage m' x =
        ![(2 * n * x 0 - (right + left) * viewDepth h (x 2)) / (right - left),
          (2 * n * x 1 - (top + bottom) * viewDepth h (x 2)) / (top - bottom),
          (match zc with
            | .negOne => ((f + n) * viewDepth h (x 2) - 2 * f * n) / (f - n)
            | .zero => (f * viewDepth h (x 2) - f * n) / (f - n)), viewDepth h (x 2)] := by
  have hb := (hasLin_iff m 4).1 hm
  have w0 : right - left ≠ 0 := sub_ne_zero.2 hw
  have h0 : top - bottom ≠ 0 := sub_ne_zero.2 hh
  have d0 : f - n ≠ 0 := sub_ne_zero.2 hd
  have e1 : divR 1 (right - left) = .ok (1 / (right - left)) := by simp [divR, w0]
  have e2 : divR 1 (top - bottom) = .ok (1 / (top - bottom)) := by simp [divR, h0]
  have e3 : divR 1 (f - n) = .ok (1 / (f - n)) := by simp [divR, d0]
  cases zc
  all_goals
    lin_run [perspective, checkMin44_ok hm, e1, e2, e3]
    refine ⟨⟨by simp, by simp, by simp, by simp⟩, ?_, fun x => ?_⟩
    · rw [idOutside_iff]
      intro i j _ _ hn
      simp only [bel_bset, bel_identity]
      repeat rw [if_neg (show ¬(i = _ ∧ j = _) by omega)]
    · funext j
      rw [homImage_apply]
      cases h
      all_goals
        fin_cases j <;> simp [bel_bset, bel_identity, viewDepth, Handed.s]
        all_goals first | done | (field_simp <;> ring)

/-- C65: degenerate frusta divide by zero; a too small matrix is rejected. -/
theorem perspective_fails {m : BMat K} (left right bottom top n f : K) (h : Handed) (zc : ZClip) :
    (¬m.HasLin 4 → perspective m left right bottom top n f h zc = .throw m.minErr) ∧
    (m.HasLin 4 → right = left ∨ top = bottom ∨ f = n →
      perspective m left right bottom top n f h zc = .ub .divZero) := by
  constructor
  · intro hm
    simp only [perspective, checkMin44_throw hm, Res.throw_bind]
  · intro hm hz
    simp only [perspective, checkMin44_ok hm, Res.ok_bind, divR, sub_eq_zero]
    by_cases a : right = left
    · simp [a]
    · by_cases b : top = bottom
      · simp [a, b]
      · have c : f = n := by tauto
        simp [a, b, c]

/-- C65: for a point in front of the eye, the perspective divide succeeds, and the point is in the view
frustum iff its image is in the clip box; the near and far planes go to the clip bounds. -/
theorem perspective_frustum {m : BMat K} (hr : m.rows = 4) (hc : m.cols = 4)
    {left right bottom top n f : K} (hw : left < right) (hh : bottom < top) (hn : 0 < n) (hd : n < f)
    (h : Handed) (zc : ZClip) :
    ∃ m', perspective m left right bottom top n f h zc = .ok m' ∧
      ∀ (p : AVec K) (x : Fin 3 → K), p.Is 3 x → 0 < viewDepth h (x 2) →
        ∃ q y, transformPoint4D m' p = .ok q ∧ q.Is 3 y ∧
          (InClipBox zc y ↔
            (left * viewDepth h (x 2) ≤ n * x 0 ∧ n * x 0 ≤ right * viewDepth h (x 2)) ∧
            (bottom * viewDepth h (x 2) ≤ n * x 1 ∧ n * x 1 ≤ top * viewDepth h (x 2)) ∧
            (n ≤ viewDepth h (x 2) ∧ viewDepth h (x 2) ≤ f)) ∧
          (y 2 = clipLo zc ↔ viewDepth h (x 2) = n) ∧ (y 2 = 1 ↔ viewDepth h (x 2) = f) ∧
          (y 0 = -1 ↔ n * x 0 = left * viewDepth h (x 2)) ∧
          (y 0 = 1 ↔ n * x 0 = right * viewDepth h (x 2)) ∧
          (y 1 = -1 ↔ n * x 1 = bottom * viewDepth h (x 2)) ∧
          (y 1 = 1 ↔ n * x 1 = top * viewDepth h (x 2)) := by
  obtain ⟨m', h1, h2, h3, h4⟩ := perspective_spec (m := m) ⟨hr.ge, hc.ge⟩ hw.ne' hh.ne' hd.ne' h zc
  refine ⟨m', h1, fun p x hp hz => ?_⟩
  have hx := h4 x
  unfold homImage at hx
  obtain ⟨q, q1, q2⟩ := transformPoint4D_spec (h2.rows.trans hr) (h2.cols.trans hc) hp
    (by rw [hx]; simpa using hz.ne')
  refine ⟨q, _, q1, q2, ?_⟩
  have w0 : 0 < right - left := sub_pos.2 hw
  have h0 : 0 < top - bottom := sub_pos.2 hh
  have d0 : 0 < f - n := sub_pos.2 hd
  unfold InClipBox
  rw [hx]
  generalize viewDepth h (x 2) = d at hz
  cases zc
  all_goals
    simp only [Fin.castSucc_zero, Matrix.cons_val_zero, clipLo]
    simp only [show (Fin.castSucc (1 : Fin 3)) = 1 from rfl, show (Fin.castSucc (2 : Fin 3)) = 2 from rfl,
      Matrix.cons_val_one, Matrix.cons_val, div_div]
    have p1 : 0 < (right - left) * d := mul_pos w0 hz
    have p2 : 0 < (top - bottom) * d := mul_pos h0 hz
    have p3 : 0 < (f - n) * d := mul_pos d0 hz
    rw [le_div_iff₀ p1, div_le_iff₀ p1, le_div_iff₀ p2, div_le_iff₀ p2, le_div_iff₀ p3, div_le_iff₀ p3,
      div_eq_iff p1.ne', div_eq_iff p1.ne', div_eq_iff p2.ne', div_eq_iff p2.ne', div_eq_iff p3.ne',
      div_eq_iff p3.ne']
    have hf : 0 < f := hn.trans hd
    refine ⟨?_, ?_, ?_, ⟨fun e => by linarith, fun e => by linarith⟩,
      ⟨fun e => by linarith, fun e => by linarith⟩,
      ⟨fun e => by linarith, fun e => by linarith⟩, ⟨fun e => by linarith, fun e => by linarith⟩⟩
    · constructor
      · rintro ⟨⟨a, b⟩, ⟨c, d'⟩, i, j⟩
        refine ⟨⟨by linarith, by linarith⟩, ⟨by linarith, by linarith⟩, ?_, ?_⟩
        · have : f * n ≤ f * d := by linarith
          exact le_of_mul_le_mul_left this hf
        · have : n * d ≤ n * f := by linarith
          exact le_of_mul_le_mul_left this hn
      · rintro ⟨⟨a, b⟩, ⟨c, d'⟩, i, j⟩
        have i' := mul_le_mul_of_nonneg_left i hf.le
        have j' := mul_le_mul_of_nonneg_left j hn.le
        refine ⟨⟨by linarith, by linarith⟩, ⟨by linarith, by linarith⟩, by linarith, by linarith⟩
    · constructor
      · intro e
        have : f * d = f * n := by linarith
        exact mul_left_cancel₀ hf.ne' this
      · rintro rfl; ring
    · constructor
      · intro e
        have : n * d = n * f := by linarith
        exact mul_left_cancel₀ hn.ne' this
      · rintro rfl; ring

/-- C65: of two points in front of the eye, the nearer one gets the smaller clip `z`. -/
theorem perspective_depth {m : BMat K} (hr : m.rows = 4) (hc : m.cols = 4)
    {left right bottom top n f : K} (hw : left < right) (hh : bottom < top) (hn : 0 < n) (hd : n < f)
    (h : Handed) (zc : ZClip) :
    ∃ m', perspective m left right bottom top n f h zc = .ok m' ∧
      ∀ (p p' : AVec K) (x x' : Fin 3 → K), p.Is 3 x → p'.Is 3 x' → 0 < viewDepth h (x 2) →
        viewDepth h (x 2) < viewDepth h (x' 2) →
        ∃ q q' y y', transformPoint4D m' p = .ok q ∧ transformPoint4D m' p' = .ok q' ∧ q.Is 3 y ∧
          q'.Is 3 y' ∧ y 2 < y' 2 := by
  obtain ⟨m', h1, h2, h3, h4⟩ := perspective_spec (m := m) ⟨hr.ge, hc.ge⟩ hw.ne' hh.ne' hd.ne' h zc
  refine ⟨m', h1, fun p p' x x' hp hp' hz hz' => ?_⟩
  have hx := h4 x
  have hx' := h4 x'
  unfold homImage at hx hx'
  obtain ⟨q, q1, q2⟩ := transformPoint4D_spec (h2.rows.trans hr) (h2.cols.trans hc) hp
    (by rw [hx]; simpa using hz.ne')
  obtain ⟨q', q1', q2'⟩ := transformPoint4D_spec (h2.rows.trans hr) (h2.cols.trans hc) hp'
    (by rw [hx']; simpa using (hz.trans hz').ne')
  refine ⟨q, q', _, _, q1, q1', q2, q2', ?_⟩
  have d0 : 0 < f - n := sub_pos.2 hd
  rw [hx, hx']
  generalize viewDepth h (x 2) = d at hz hz'
  generalize viewDepth h (x' 2) = d' at hz'
  have hz2 : 0 < d' := hz.trans hz'
  have hf : 0 < f := hn.trans hd
  cases zc
  all_goals
    simp only [show (Fin.castSucc (2 : Fin 3)) = 2 from rfl, Matrix.cons_val, div_div]
    rw [div_lt_div_iff₀ (mul_pos d0 hz) (mul_pos d0 hz2)]
    have := mul_pos (mul_pos (mul_pos hf hn) d0) (sub_pos.2 hz')
    nlinarith [this]

/-- C65: the symmetric form is the general form with `±width/2`, `±height/2`. -/
theorem perspectiveWH_eq (m : BMat K) (width height n f : K) (h : Handed) (zc : ZClip) :
    perspectiveWH m width height n f h zc =
      perspective m (-(width / 2)) (width / 2) (-(height / 2)) (height / 2) n f h zc := by
  simp [perspectiveWH, divR]

/-- Concrete projections: hypotheses of C64 and C65 are met and points go where they should. -/
example : AVec.list (do
      let m ← perspective (BMat.of .row true 4 4 fun _ _ => (0 : ℚ)) (-1) 3 (-2) 2 1 5 .right .negOne
      transformPoint4D m (AVec.of true ![6, -4, -2])) = .ok [1, -1, 1/4] ∧
    AVec.list (do
      let m ← orthographic (BMat.of .col true 4 4 fun _ _ => (0 : ℚ)) (-1) 3 (-2) 2 1 5 .right .zero
      transformPoint m (AVec.of true ![3, -2, -2])) = .ok [1, -1, 1/4] := by
  refine ⟨by decide +kernel, by decide +kernel⟩

/-! ### C66 -/

/-- Signed value of a plane at a point. -/
def Plane.at (p : Plane K) (x : Fin 3 → K) : K := p.a * x 0 + p.b * x 1 + p.c * x 2 + p.d

theorem planeOf_ok {m : BMat K} (hm : m.HasLin 4) (op : K → K → K) (j : Nat) (hj : j < 4) :
    planeOf m op j = .ok ⟨op (m.bel 0 3) (m.bel 0 j), op (m.bel 1 3) (m.bel 1 j),
      op (m.bel 2 3) (m.bel 2 j), op (m.bel 3 3) (m.bel 3 j)⟩ := by
  have hb := (hasLin_iff m 4).1 hm
  lin_run [planeOf]

/-- C66: the values of the six extracted planes at a point are the six differences of its homogeneous
image from the clip bounds, in the order left, right, bottom, top, near, far. -/
theorem frustumPlanes_spec {m : BMat K} (hm : m.HasLin 4) (zc : ZClip) :
    ∃ l r b t n f, frustumPlanes m zc = .ok [l, r, b, t, n, f] ∧ ∀ x,
      l.at x = homImage m x 3 + homImage m x 0 ∧ r.at x = homImage m x 3 - homImage m x 0 ∧
      b.at x = homImage m x 3 + homImage m x 1 ∧ t.at x = homImage m x 3 - homImage m x 1 ∧
      n.at x = (match zc with
        | .negOne => homImage m x 3 + homImage m x 2
        | .zero => homImage m x 2) ∧
      f.at x = homImage m x 3 - homImage m x 2 := by
  have hb := (hasLin_iff m 4).1 hm
  cases zc
  all_goals
    lin_run [frustumPlanes, nearPlane, checkMin44_ok hm, planeOf_ok hm]
    refine ⟨_, _, _, _, _, _, rfl, fun x => ?_⟩
    simp only [Plane.at, homImage_apply]
    refine ⟨?_, ?_, ?_, ?_, ?_, ?_⟩ <;>
      · simp only [show ((3 : Fin 4) : Nat) = 3 from rfl, show ((0 : Fin 4) : Nat) = 0 from rfl,
          show ((1 : Fin 4) : Nat) = 1 from rfl, show ((2 : Fin 4) : Nat) = 2 from rfl]
        try ring

/-- C66: a point is on the non-negative side of all six planes iff its homogeneous image satisfies the
clip inequalities. -/
theorem frustumPlanes_clip {m : BMat K} (hm : m.HasLin 4) (zc : ZClip) :
    ∃ ps, frustumPlanes m zc = .ok ps ∧ ps.length = 6 ∧
      ∀ x, (∀ p ∈ ps, 0 ≤ p.at x) ↔ InClip zc (homImage m x) := by
  obtain ⟨l, r, b, t, n, f, h1, h2⟩ := frustumPlanes_spec hm zc
  refine ⟨_, h1, rfl, fun x => ?_⟩
  obtain ⟨e1, e2, e3, e4, e5, e6⟩ := h2 x
  simp only [List.mem_cons, List.not_mem_nil, or_false, forall_eq_or_imp, forall_eq, e1, e2, e3, e4, e5,
    e6, InClip]
  cases zc
  all_goals
    constructor
    · rintro ⟨a, b, c, d, i, j⟩
      refine ⟨⟨?_, ?_⟩, ⟨?_, ?_⟩, ?_, ?_⟩ <;> linarith
    · rintro ⟨⟨a, b⟩, ⟨c, d⟩, i, j⟩
      refine ⟨?_, ?_, ?_, ?_, ?_, ?_⟩ <;> linarith

/-- C66: with separate model-view and projection matrices, the planes are those of the concatenation:
a point is inside iff the projected image of its view-space image satisfies the clip inequalities. -/
theorem frustumPlanes2_clip {mv pr : BMat K} (hr1 : mv.rows = 4) (hc1 : mv.cols = 4)
    (hr2 : pr.rows = 4) (hc2 : pr.cols = 4) (hb : mv.basis = pr.basis) (zc : ZClip) :
    ∃ ps, frustumPlanes2 mv pr zc = .ok ps ∧ ps.length = 6 ∧
      ∀ x, (∀ p ∈ ps, 0 ≤ p.at x) ↔ InClip zc ((linOf pr 4).mulVec (homImage mv x)) := by
  obtain ⟨m, e1, e2, e3, -, e5⟩ := concat_linOf hr1 hc1 hr2 hc2 hb
  obtain ⟨ps, h1, h2, h3⟩ := frustumPlanes_clip (m := m) ⟨e2.ge, e3.ge⟩ zc
  refine ⟨ps, ?_, h2, fun x => ?_⟩
  · simp only [frustumPlanes2, e1, Res.ok_bind, h1]
  · rw [h3 x, homImage, homImage, e5, Matrix.mulVec_mulVec]

/-- C66: the planes of a perspective projection bound the view frustum. -/
theorem frustumPlanes_perspective {m : BMat K} (hr : m.rows = 4) (hc : m.cols = 4)
    {left right bottom top n f : K} (hw : left < right) (hh : bottom < top) (hn : 0 < n) (hd : n < f)
    (h : Handed) (zc : ZClip) :
    ∃ m' ps, perspective m left right bottom top n f h zc = .ok m' ∧ frustumPlanes m' zc = .ok ps ∧
      ∀ x, (∀ p ∈ ps, 0 ≤ p.at x) ↔
        (left * viewDepth h (x 2) ≤ n * x 0 ∧ n * x 0 ≤ right * viewDepth h (x 2)) ∧
        (bottom * viewDepth h (x 2) ≤ n * x 1 ∧ n * x 1 ≤ top * viewDepth h (x 2)) ∧
        (n ≤ viewDepth h (x 2) ∧ viewDepth h (x 2) ≤ f) := by
  obtain ⟨m', h1, h2, h3, h4⟩ := perspective_spec (m := m) ⟨hr.ge, hc.ge⟩ hw.ne' hh.ne' hd.ne' h zc
  obtain ⟨ps, g1, g2, g3⟩ := frustumPlanes_clip (m := m') ⟨(h2.rows.trans hr).ge, (h2.cols.trans hc).ge⟩ zc
  refine ⟨m', ps, h1, g1, fun x => ?_⟩
  rw [g3 x, h4 x]
  have w0 : 0 < right - left := sub_pos.2 hw
  have h0 : 0 < top - bottom := sub_pos.2 hh
  have d0 : 0 < f - n := sub_pos.2 hd
  have hf : 0 < f := hn.trans hd
  unfold InClip
  generalize viewDepth h (x 2) = d
  cases zc
  all_goals
    simp only [Matrix.cons_val_zero, Matrix.cons_val_one, Matrix.cons_val]
    rw [le_div_iff₀ w0, div_le_iff₀ w0, le_div_iff₀ h0, div_le_iff₀ h0, le_div_iff₀ d0, div_le_iff₀ d0]
    constructor
    · rintro ⟨⟨a, b⟩, ⟨c, d'⟩, i, j⟩
      refine ⟨⟨by linarith, by linarith⟩, ⟨by linarith, by linarith⟩, ?_, ?_⟩
      · have : f * n ≤ f * d := by linarith
        exact le_of_mul_le_mul_left this hf
      · have : n * d ≤ n * f := by linarith
        exact le_of_mul_le_mul_left this hn
    · rintro ⟨⟨a, b⟩, ⟨c, d'⟩, i, j⟩
      have i' := mul_le_mul_of_nonneg_left i hf.le
      have j' := mul_le_mul_of_nonneg_left j hn.le
      refine ⟨⟨by linarith, by linarith⟩, ⟨by linarith, by linarith⟩, by linarith, by linarith⟩

omit [LinearOrder K] [IsStrictOrderedRing K] in
/-- C66: a too small matrix is rejected. -/
theorem frustumPlanes_throws {m : BMat K} (hm : ¬m.HasLin 4) (zc : ZClip) :
    frustumPlanes m zc = .throw m.minErr := by
  simp only [frustumPlanes, nearPlane, checkMin44_throw hm, Res.throw_bind]

/-- Concrete planes of a perspective projection. -/
example : (do
      let m ← perspective (BMat.of .row true 4 4 fun _ _ => (0 : ℚ)) (-1) 1 (-1) 1 1 3 .left .zero
      frustumPlanes m .zero) =
    .ok [⟨1, 0, 1, 0⟩, ⟨-1, 0, 1, 0⟩, ⟨0, 1, 1, 0⟩, ⟨0, -1, 1, 0⟩, ⟨0, 0, 3/2, -3/2⟩,
      ⟨0, 0, -1/2, 3/2⟩] := by decide +kernel

end
end CML

#print axioms CML.orthographic_spec
#print axioms CML.orthographic_fails
#print axioms CML.orthographic_box
#print axioms CML.orthographicWH_eq
#print axioms CML.perspective_spec
#print axioms CML.perspective_fails
#print axioms CML.perspective_frustum
#print axioms CML.perspective_depth
#print axioms CML.perspectiveWH_eq
#print axioms CML.frustumPlanes_spec
#print axioms CML.frustumPlanes_clip
#print axioms CML.frustumPlanes2_clip
#print axioms CML.frustumPlanes_perspective
#print axioms CML.frustumPlanes_throws
