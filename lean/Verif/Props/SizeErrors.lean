import Verif.Props.Builders
import Verif.Props.Align
import Verif.Props.Basis
import Verif.Props.Projection

/-!
C105: functions of the mathlib reject matrices that are too small and vectors of the wrong size.  The errors of
the functions not listed here are next to their other theorems (`…_throws`).
-/

namespace CML
open BMat

section
variable {K : Type}

theorem BMat.HasAff.lin {m : BMat K} {n : Nat} (h : m.HasAff n) : m.HasLin n := by
  unfold HasAff at h
  unfold HasLin
  cases hb : m.basis <;> simp only [hb] at h <;> omega

theorem BMat.minErr_identity [Zero K] [One K] (m : BMat K) : m.identity.minErr = m.minErr := rfl

theorem hasAff_identity_iff [Zero K] [One K] (m : BMat K) (n : Nat) : m.identity.HasAff n ↔ m.HasAff n := Iff.rfl

/-- C105: 2D translations. -/
theorem translation2D_throws [Zero K] [One K] (m : BMat K) :
    (¬m.HasAff 2 → (∀ e0 e1, setTranslation2D m e0 e1 = .throw m.minErr ∧
        translation2D m e0 e1 = .throw m.minErr) ∧ getTranslation2D m = .throw m.minErr) ∧
    (∀ v : AVec K, v.size ≠ 2 → setTranslation2DV m v = .throw v.sizeErr ∧
      translation2DV m v = .throw v.sizeErr) ∧
    (¬m.HasAff 2 → ∀ v : AVec K, v.size = 2 → setTranslation2DV m v = .throw m.minErr ∧
      translation2DV m v = .throw m.minErr) := by
  have hi : ∀ h : ¬m.HasAff 2, m.identity.checkAffine2D = .throw m.minErr := fun h =>
    checkAffine2D_throw (m := m.identity) h
  refine ⟨fun h => ⟨fun e0 e1 => ?_, ?_⟩, fun v hv => ?_, fun h v hv => ?_⟩
  · simp only [translation2D, setTranslation2D, checkAffine2D_throw h, hi h, Res.throw_bind, and_self]
  · simp only [getTranslation2D, checkAffine2D_throw h, Res.throw_bind]
  · simp only [translation2DV, setTranslation2DV, AVec.checkSize_throw hv, Res.throw_bind, and_self]
  · simp only [translation2DV, setTranslation2DV, AVec.checkSize_ok hv, checkAffine2D_throw h, hi h, Res.ok_bind,
      Res.throw_bind, and_self]

/-- C105: 3D translations (`setTranslation_throws` has the setters). -/
theorem translation_throws [Zero K] [One K] (m : BMat K) :
    (¬m.HasAff 3 → ∀ e0 e1 e2, translation m e0 e1 e2 = .throw m.minErr ∧
      translationXY m e0 e1 = .throw m.minErr ∧ setTranslationXY m e0 e1 = .throw m.minErr) ∧
    (∀ v : AVec K, (v.size < 2 ∨ 3 < v.size) →
      translationV m v = .throw (if v.fixed then .staticAssert else .vecRange)) ∧
    (¬m.HasAff 3 → ∀ v : AVec K, 2 ≤ v.size ∧ v.size ≤ 3 → translationV m v = .throw m.minErr) := by
  have hi : ∀ h : ¬m.HasAff 3, m.identity.checkAffine3D = .throw m.minErr := fun h =>
    checkAffine3D_throw (m := m.identity) h
  refine ⟨fun h e0 e1 e2 => ?_, fun v hv => ?_, fun h v hv => ?_⟩
  · simp only [translation, translationXY, setTranslationXY, setTranslation, checkAffine3D_throw h, hi h,
      Res.throw_bind, and_self]
  · have : ¬(2 ≤ v.size ∧ v.size ≤ 3) := by omega
    simp [translationV, setTranslationV, AVec.checkSizeRange, Res.require, this]
  · simp [translationV, setTranslationV, AVec.checkSizeRange, Res.require, hv, hi h]

/-- C105: scaling.  The reciprocals of `matrix_inverse_scale` are taken before the matrix is looked at. -/
theorem scale_all_throws [Field K] [DecidableEq K] (m : BMat K) :
    (¬m.HasAff 2 → (∀ a, uniformScale2D m a = .throw m.minErr) ∧
      (∀ v : AVec K, v.size = 2 → scale2DV m v = .throw m.minErr) ∧
      (∀ a b, a ≠ 0 → b ≠ 0 → inverseScale2D m a b = .throw m.minErr)) ∧
    (¬m.HasAff 3 → (∀ a, uniformScale3D m a = .throw m.minErr) ∧
      (∀ v : AVec K, v.size = 3 → scale3DV m v = .throw m.minErr) ∧
      (∀ a b c, a ≠ 0 → b ≠ 0 → c ≠ 0 → inverseScale3D m a b c = .throw m.minErr)) ∧
    (∀ v : AVec K, v.size ≠ 2 → inverseScale2DV m v = .throw v.sizeErr) ∧
    (∀ v : AVec K, v.size ≠ 3 → inverseScale3DV m v = .throw v.sizeErr) := by
  refine ⟨fun h => ⟨fun a => ?_, fun v hv => ?_, fun a b ha hb => ?_⟩,
    fun h => ⟨fun a => ?_, fun v hv => ?_, fun a b c ha hb hc => ?_⟩, fun v hv => ?_, fun v hv => ?_⟩
  · exact (scale_throws m).2.1 h a a
  · simp only [scale2DV, AVec.checkSize_ok hv, AVec.get_ok (v := v) (i := 0) (by omega),
      AVec.get_ok (v := v) (i := 1) (by omega), Res.ok_bind, (scale_throws m).2.1 h]
  · simp only [inverseScale2D, divR, ha, hb, if_false, Res.ok_bind, (scale_throws m).2.1 h]
  · exact (scale_throws m).1 h a a a
  · simp only [scale3DV, AVec.checkSize_ok hv, AVec.get_ok (v := v) (i := 0) (by omega),
      AVec.get_ok (v := v) (i := 1) (by omega), AVec.get_ok (v := v) (i := 2) (by omega), Res.ok_bind,
      (scale_throws m).1 h]
  · simp only [inverseScale3D, divR, ha, hb, hc, if_false, Res.ok_bind, (scale_throws m).1 h]
  · simp only [inverseScale2DV, AVec.checkSize_throw hv, Res.throw_bind]
  · simp only [inverseScale3DV, AVec.checkSize_throw hv, Res.throw_bind]

/-- C105: traces of the linear part. -/
theorem trace_throws [Add K] (m : BMat K) :
    (¬m.HasLin 2 → trace2 m = .throw m.minErr) ∧ (¬m.HasLin 3 → trace3 m = .throw m.minErr) := by
  refine ⟨fun h => ?_, fun h => ?_⟩
  · simp only [trace2, checkLinear2D_throw h, Res.throw_bind]
  · simp only [trace3, checkLinear3D_throw h, Res.throw_bind]

/-- C105: linear and affine transforms from another matrix and a translation. -/
theorem linearTransform_throws [Zero K] [One K] (m l : BMat K) (t : AVec K) :
    (¬m.HasLin 3 → linearTransform m (.other l) = .throw m.minErr) ∧
    (m.HasLin 3 → ¬l.HasLin 3 → linearTransform m (.other l) = .throw l.minErr) ∧
    (¬m.HasAff 3 → affineTransform m (.other l) t = .throw m.minErr) ∧
    (m.HasAff 3 → ¬l.HasLin 3 → affineTransform m (.other l) t = .throw l.minErr) := by
  have e2 : m.HasLin 3 → ¬l.HasLin 3 → linearTransform m (.other l) = .throw l.minErr := fun h hl => by
    simp only [linearTransform, LinSrc.mat, checkLinear3D_ok h, checkLinear3D_throw hl, Res.throw_bind,
      Res.ok_bind]
  refine ⟨fun h => ?_, e2, fun h => ?_, fun h hl => ?_⟩
  · simp only [linearTransform, checkLinear3D_throw h, Res.throw_bind]
  · simp only [affineTransform, checkAffine3D_throw h, Res.throw_bind]
  · simp only [affineTransform, checkAffine3D_ok h, Res.ok_bind, e2 h.lin hl, Res.throw_bind]

/-- C105: the translation of an affine transform must have two or three elements. -/
theorem affineTransform_throws [CommRing K] {m l : BMat K} (hm : m.HasAff 3) (hl : l.HasLin 3) {t : AVec K}
    (ht : t.size < 2 ∨ 3 < t.size) :
    affineTransform m (.other l) t = .throw (if t.fixed then .staticAssert else .vecRange) := by
  obtain ⟨m', h1, -⟩ := linearTransform_partial hm.lin hl
  have : ¬(2 ≤ t.size ∧ t.size ≤ 3) := by omega
  simp [affineTransform, checkAffine3D_ok hm, h1, setTranslationV, AVec.checkSizeRange, Res.require, this]

/-- C105: projections. -/
theorem projection_throws [Field K] [DecidableEq K] {m : BMat K} (hm : ¬m.HasLin 4) (l r b t n f : K) (h : Handed)
    (zc : ZClip) :
    orthographic m l r b t n f h zc = .throw m.minErr ∧ perspective m l r b t n f h zc = .throw m.minErr ∧
      ((2 : K) ≠ 0 → orthographicWH m l r n f h zc = .throw m.minErr ∧
        perspectiveWH m l r n f h zc = .throw m.minErr) := by
  refine ⟨?_, ?_, fun h2 => ⟨?_, ?_⟩⟩ <;>
    simp only [orthographicWH, perspectiveWH, orthographic, perspective, divR, checkMin44_throw hm,
      Res.throw_bind, Res.ok_bind, *, if_false]

/-- C105: several basis vectors at once; vectors are checked one after the other. -/
theorem basisVectors_throws (m : BMat K) (x y z : AVec K) :
    (¬m.HasLin 2 → setBasisVectors2D m x y = .throw m.minErr ∧
      setTransposedBasisVectors2D m x y = .throw m.minErr ∧ getBasisVectors2D m = .throw m.minErr ∧
      getTransposedBasisVectors2D m = .throw m.minErr) ∧
    (¬m.HasLin 3 → setBasisVectors m x y z = .throw m.minErr ∧
      setTransposedBasisVectors m x y z = .throw m.minErr ∧ getBasisVectors m = .throw m.minErr ∧
      getTransposedBasisVectors m = .throw m.minErr) ∧
    (m.HasLin 2 → x.size ≠ 2 → setBasisVectors2D m x y = .throw x.sizeErr ∧
      setTransposedBasisVectors2D m x y = .throw x.sizeErr) ∧
    (m.HasLin 3 → x.size ≠ 3 → setBasisVectors m x y z = .throw x.sizeErr ∧
      setTransposedBasisVectors m x y z = .throw x.sizeErr) := by
  refine ⟨fun h => ?_, fun h => ?_, fun h hx => ?_, fun h hx => ?_⟩
  · obtain ⟨h1, h2, -, -⟩ := (basisVector2D_throws m 0 x).1 h
    obtain ⟨-, -, h3, h4⟩ := (basisVector2D_throws m 0 x).1 h
    simp only [setBasisVectors2D, setTransposedBasisVectors2D, getBasisVectors2D, getTransposedBasisVectors2D,
      h1, h2, h3, h4, Res.throw_bind, and_self]
  · obtain ⟨h1, h2, h3, h4⟩ := (basisVector_throws m 0 x).1 h
    simp only [setBasisVectors, setTransposedBasisVectors, getBasisVectors, getTransposedBasisVectors,
      h1, h2, h3, h4, Res.throw_bind, and_self]
  · obtain ⟨h1, h2⟩ := (basisVector2D_throws m 0 x).2.1 h hx
    simp only [setBasisVectors2D, setTransposedBasisVectors2D, h1, h2, Res.throw_bind, and_self]
  · obtain ⟨h1, h2⟩ := (basisVector_throws m 0 x).2.1 h hx
    simp only [setBasisVectors, setTransposedBasisVectors, h1, h2, Res.throw_bind, and_self]

end

/-- C105: alignment, and affine transforms from axis and angle. -/
theorem alignment_throws (m : BMat ℝ) (align axis t : AVec ℝ) (angle : ℝ) (nz : Bool) (o : AxisOrder2D) :
    (¬m.HasLin 2 → rotationAlign2D m align nz o = .throw m.minErr) ∧
    (¬m.HasAff 3 → affineAxisAngle m axis angle t nz = .throw m.minErr) ∧
    (m.HasAff 3 → axis.size ≠ 3 → affineAxisAngle m axis angle t false = .throw axis.sizeErr) := by
  refine ⟨fun h => ?_, fun h => ?_, fun h ha => ?_⟩
  · simp only [rotationAlign2D, checkLinear2D_throw h, Res.throw_bind]
  · simp only [affineAxisAngle, checkAffine3D_throw h, Res.throw_bind]
  · simp [affineAxisAngle, checkAffine3D_ok h, rotationAxisAngle, checkLinear3D_ok h.lin,
      AVec.checkSize_throw ha]

/-- C105: perspective projections from a field of view. -/
theorem fov_throws {m : BMat ℝ} (hm : ¬m.HasLin 4) (a aspect n f : ℝ) (h : Handed) (zc : ZClip) :
    (aspect ≠ 0 → perspectiveXfov m a aspect n f h zc = .throw m.minErr) ∧
      perspectiveYfov m a aspect n f h zc = .throw m.minErr := by
  refine ⟨fun ha => ?_, ?_⟩
  · simp only [perspectiveXfov, divR, ha, if_false, Res.ok_bind]
    exact ((projection_throws hm _ _ 0 0 n f h zc).2.2 two_ne_zero).2
  · simp only [perspectiveYfov]
    exact ((projection_throws hm _ _ 0 0 n f h zc).2.2 two_ne_zero).2

section Examples

/-- A dynamic 2 × 2 matrix has no place for a 2D translation, a 3 × 3 matrix none for a 3D translation. -/
def small (n : Nat) : BMat ℚ := ⟨⟨n, n, fun i j => i + j⟩, .col, false⟩

theorem small_lin {n k : Nat} (h : n < k) : ¬(small n).HasLin k := by simp [small, HasLin]; omega
theorem small_aff {n : Nat} : ¬(small n).HasAff n := by simp [small, HasAff]
theorem small_has {n k : Nat} (h : k < n) : (small n).HasAff k := by simp [small, HasAff]; omega

example := (translation2D_throws (small 2)).1 small_aff
example : translation2D (small 2) 1 1 = .throw .matMinimum :=
  (((translation2D_throws (small 2)).1 small_aff).1 1 1).2
example : translation2DV (small 3) (.mk3 false 1 2 3) = .throw .vecSize := rfl
example := (translation_throws (small 3)).1 small_aff
example := (scale_all_throws (small 3)).2.1 small_aff
example := (trace_throws (small 1)).1 (small_lin (by decide))
example := (linearTransform_throws (small 3) (small 2) (.mk2 true 1 2)).2.1 ⟨le_refl 3, le_refl 3⟩ (small_lin (by decide))
example := affineTransform_throws (small_has (n := 4) (k := 3) (by decide)) (l := small 3) ⟨le_refl 3, le_refl 3⟩
  (t := ⟨false, 4, fun _ => 0⟩) (.inr (by decide))
example := projection_throws (small_lin (n := 3) (k := 4) (by decide)) 0 1 0 1 1 2 .left .zero
example := (basisVectors_throws (small 2) (.mk2 false 1 2) (.mk2 false 1 2) (.mk2 false 1 2)).2.1 (small_lin (by decide))
example := (alignment_throws ⟨⟨3, 3, fun _ _ => 0⟩, .row, false⟩ (.mk2 false 1 2) (.mk2 false 1 2) (.mk2 false 1 2) 1
  true .xy).2.1 (by simp [HasAff])
example := fov_throws (m := ⟨⟨3, 3, fun _ _ => 0⟩, .row, false⟩) (by simp [HasLin]) 1 2 1 2 .left .zero

end Examples

end CML

#print axioms CML.translation2D_throws
#print axioms CML.translation_throws
#print axioms CML.scale_all_throws
#print axioms CML.trace_throws
#print axioms CML.linearTransform_throws
#print axioms CML.affineTransform_throws
#print axioms CML.projection_throws
#print axioms CML.basisVectors_throws
#print axioms CML.alignment_throws
#print axioms CML.fov_throws
