import Verif.Lemmas.Act
import Verif.Props.SizeErrors
import Verif.Props.InvertRT

/-!
C106: what is left in a matrix when a function of the mathlib throws.
-/

set_option linter.unusedSectionVars false
set_option linter.unusedSimpArgs false

namespace CML
open Act BMat

/-! ### The procedures are the functions of `Model/Lin` and `Model/Rotation` -/

section
variable {K : Type}

theorem aSetBasisVector2D_final (i : Int) (v : AVec K) (m : BMat K) :
    final (aSetBasisVector2D i v) m = setBasisVector2D m i v ∧
      final (aSetTransposedBasisVector2D i v) m = setTransposedBasisVector2D m i v := by
  simp only [aSetBasisVector2D, aSetTransposedBasisVector2D, setBasisVector2D, setTransposedBasisVector2D,
    final_read, final_eval, final_aPut_bind, final_aPut, and_self]

theorem aSetBasisVector_final (i : Int) (v : AVec K) (m : BMat K) :
    final (aSetBasisVector i v) m = setBasisVector m i v ∧
      final (aSetTransposedBasisVector i v) m = setTransposedBasisVector m i v := by
  simp only [aSetBasisVector, aSetTransposedBasisVector, setBasisVector, setTransposedBasisVector,
    final_read, final_eval, final_aPut_bind, final_aPut, and_self]

theorem aSetBasisVectors2D_final (x y : AVec K) (m : BMat K) :
    final (aSetBasisVectors2D x y) m = setBasisVectors2D m x y ∧
      final (aSetTransposedBasisVectors2D x y) m = setTransposedBasisVectors2D m x y := by
  simp only [aSetBasisVectors2D, aSetTransposedBasisVectors2D, setBasisVectors2D, setTransposedBasisVectors2D,
    final_seq, (aSetBasisVector2D_final _ _ _).1, (aSetBasisVector2D_final _ _ _).2, and_self]

theorem aSetBasisVectors_final (x y z : AVec K) (m : BMat K) :
    final (aSetBasisVectors x y z) m = setBasisVectors m x y z ∧
      final (aSetTransposedBasisVectors x y z) m = setTransposedBasisVectors m x y z := by
  simp only [aSetBasisVectors, aSetTransposedBasisVectors, setBasisVectors, setTransposedBasisVectors,
    final_seq, (aSetBasisVector_final _ _ _).1, (aSetBasisVector_final _ _ _).2, and_self]

theorem aSetTranslation_final [Zero K] (e0 e1 e2 : K) (v : AVec K) (m : BMat K) :
    final (aSetTranslation2D e0 e1) m = setTranslation2D m e0 e1 ∧
      final (aSetTranslation2DV v) m = setTranslation2DV m v ∧
      final (aSetTranslation e0 e1 e2) m = setTranslation m e0 e1 e2 ∧
      final (aSetTranslationV v) m = setTranslationV m v := by
  simp only [aSetTranslation2D, aSetTranslation2DV, aSetTranslation, aSetTranslationV, setTranslation2D,
    setTranslation2DV, setTranslation, setTranslationV, final_read, final_eval, final_aPut_bind, final_aPut,
    and_self]

theorem aTranslation_final [Zero K] [One K] (e0 e1 e2 : K) (v : AVec K) (m : BMat K) :
    final (aTranslation2D e0 e1) m = translation2D m e0 e1 ∧
      final (aTranslation2DV v) m = translation2DV m v ∧
      final (aTranslation e0 e1 e2) m = translation m e0 e1 e2 ∧
      final (aTranslationV v) m = translationV m v := by
  obtain ⟨h1, h2, h3, h4⟩ := aSetTranslation_final e0 e1 e2 v m.identity
  exact ⟨h1, h2, h3, h4⟩

theorem aScale_final [Zero K] [One K] (e0 e1 e2 : K) (v : AVec K) (m : BMat K) :
    final (aScale2D e0 e1) m = scale2D m e0 e1 ∧ final (aScale2DV v) m = scale2DV m v ∧
      final (aScale3D e0 e1 e2) m = scale3D m e0 e1 e2 ∧ final (aScale3DV v) m = scale3DV m v := by
  simp only [aScale2D, aScale2DV, aScale3D, aScale3DV, scale2D, scale2DV, scale3D, scale3DV, final_read,
    final_eval, final_modify, final_aPut_bind, final_aPut, and_self]

theorem aInverseScale_final [Field K] [DecidableEq K] (e0 e1 e2 : K) (v : AVec K) (m : BMat K) :
    final (aInverseScale2D e0 e1) m = inverseScale2D m e0 e1 ∧
      final (aInverseScale2DV v) m = inverseScale2DV m v ∧
      final (aInverseScale3D e0 e1 e2) m = inverseScale3D m e0 e1 e2 ∧
      final (aInverseScale3DV v) m = inverseScale3DV m v := by
  simp only [aInverseScale2D, aInverseScale2DV, aInverseScale3D, aInverseScale3DV, inverseScale2D,
    inverseScale2DV, inverseScale3D, inverseScale3DV, final_eval, fun a b m => (aScale_final (K := K) a b 0 ⟨true, 0, fun _ => 0⟩ m).1,
    fun a b c m => (aScale_final (K := K) a b c ⟨true, 0, fun _ => 0⟩ m).2.2.1, and_self]

theorem aSkewSymmetric_final [Zero K] [Neg K] (v : AVec K) (s : K) (m : BMat K) :
    final (aSkewSymmetric v) m = skewSymmetric m v ∧ final (aSkewSymmetric2D s) m = skewSymmetric2D m s := by
  simp only [aSkewSymmetric, aSkewSymmetric2D, skewSymmetric, skewSymmetric2D, final_read, final_eval,
    final_modify, final_aPut_bind, final_aPut, and_self]

theorem aLinearTransform_final [Zero K] [One K] (l : LinSrc K) (m : BMat K) :
    final (aLinearTransform l) m = linearTransform m l := by
  simp only [aLinearTransform, linearTransform, final_read, final_modify, final_loop, final_aPut]

theorem aAffineTransform_final [Zero K] [One K] (l : LinSrc K) (t : AVec K) (m : BMat K) :
    final (aAffineTransform l t) m = affineTransform m l t := by
  simp only [aAffineTransform, affineTransform, final_read, final_seq, aLinearTransform_final,
    fun m => (aSetTranslation_final (K := K) 0 0 0 t m).2.2.2]

theorem aInvertRTOnly_final [Zero K] [Add K] [Mul K] [Neg K] (m : BMat K) :
    final aInvertRTOnly2D m = invertRTOnly2D m ∧ final aInvertRTOnly m = invertRTOnly m := by
  have e : AVec K := ⟨true, 0, fun _ => 0⟩
  simp only [aInvertRTOnly2D, aInvertRTOnly, invertRTOnly2D, invertRTOnly, final_read, final_eval, final_seq,
    (aSetBasisVectors2D_final _ _ _).2, (aSetBasisVectors_final _ _ _ _).2,
    fun a b m => (aSetTranslation_final (K := K) a b 0 e m).1,
    fun a b c m => (aSetTranslation_final (K := K) a b c e m).2.2.1, and_self]

theorem aInvertRT_final [Add K] [Mul K] [Neg K] (m : BMat K) : final aInvertRT m = invertRT m := by
  simp only [aInvertRT, invertRT, final_read, final_eval, final_seq, final_loop, final_aPut_bind, final_aPut,
    Res.ok_bind]

theorem aProjection_final [Field K] [DecidableEq K] (l r b t n f : K) (h : Handed) (zc : ZClip) (m : BMat K) :
    final (aOrthographic l r b t n f h zc) m = orthographic m l r b t n f h zc ∧
      final (aPerspective l r b t n f h zc) m = perspective m l r b t n f h zc := by
  cases zc <;>
    simp only [aOrthographic, aPerspective, orthographic, perspective, final_read, final_eval, final_modify,
      final_aPut_bind, final_aPut, Res.bind_assoc, and_self]


theorem aRotationQuaternion_final [CommRing K] [Div K] [DecidableEq K] (s : QState K) (q : QNode K) (m : BMat K) :
    final (aRotationQuaternion s q) m = rotationQuaternion s m q := by
  simp only [aRotationQuaternion, rotationQuaternion, final_read, final_eval, final_modify, final_aPut9]

end

theorem aRotation_final (axis : Int) (a : ℝ) (v : AVec ℝ) (m : BMat ℝ) :
    final (aRotation2D a) m = rotation2D m a ∧ final (aRotationWorldAxis axis a) m = rotationWorldAxis m axis a ∧
      final (aRotationAxisAngle v a) m = rotationAxisAngle m v a := by
  simp only [aRotation2D, aRotationWorldAxis, aRotationAxisAngle, rotation2D, rotationWorldAxis,
    rotationAxisAngle, final_read, final_eval, final_modify, final_aPut_bind, final_aPut, final_aPut9, and_self]

theorem aRotationEuler_final (a0 a1 a2 : ℝ) (o : EulerOrder) (v : AVec ℝ) (m : BMat ℝ) :
    final (aRotationEuler a0 a1 a2 o) m = rotationEuler m a0 a1 a2 o ∧
      final (aRotationEulerV v o) m = rotationEulerV m v o := by
  have h : ∀ a0 a1 a2, final (aRotationEuler a0 a1 a2 o) m = rotationEuler m a0 a1 a2 o := by
    intro a0 a1 a2
    simp only [aRotationEuler, rotationEuler, final_read, final_modify]
    congr 1
    funext _
    split <;> simp only [final_aPut9]
  exact ⟨h a0 a1 a2, by simp only [aRotationEulerV, rotationEulerV, final_eval, h]⟩

theorem aRotationEulerDerivatives_final (axis : Int) (a0 a1 a2 : ℝ) (o : EulerOrder) (m : BMat ℝ) :
    final (aRotationEulerDerivatives axis a0 a1 a2 o) m = rotationEulerDerivatives m axis a0 a1 a2 o := by
  simp only [aRotationEulerDerivatives, rotationEulerDerivatives, final_read, final_eval, final_modify]
  congr 1; funext _
  congr 1; funext _
  congr 1; funext _
  split
  · simp only [final_aPut9]
  · split
    · simp only [final_aPut9]
    · split
      · simp only [final_aPut9]
      · rfl

theorem aAlign_final (align reference pos target up : AVec ℝ) (nz : Bool) (o : AxisOrder) (o2 : AxisOrder2D)
    (h : Handed) (m : BMat ℝ) :
    final (aRotationAlign2D align nz o2) m = rotationAlign2D m align nz o2 ∧
      final (aRotationAlign align reference nz o) m = rotationAlign m align reference nz o ∧
      final (aRotationAimAt pos target reference o) m = rotationAimAt m pos target reference o ∧
      final (aLookAt pos target up h) m = lookAt m pos target up h := by
  simp only [aRotationAlign2D, aRotationAlign, aRotationAimAt, aLookAt, rotationAlign2D, rotationAlign,
    rotationAimAt, lookAt, final_read, final_eval, final_modify, final_seq, (aSetBasisVectors2D_final _ _ _).1,
    (aSetBasisVectors_final _ _ _ _).1, (aSetBasisVectors_final _ _ _ _).2, Res.bind_assoc, final_modify_end,
    Res.ok_bind,
    fun a b c m => (aSetTranslation_final (K := ℝ) a b c up m).2.2.1, and_self]

theorem aAffineAxisAngle_final (axis : AVec ℝ) (angle : ℝ) (t : AVec ℝ) (nz : Bool) (m : BMat ℝ) :
    final (aAffineAxisAngle axis angle t nz) m = affineAxisAngle m axis angle t nz := by
  cases nz <;>
    simp only [aAffineAxisAngle, affineAxisAngle, final_read, final_eval, final_seq, Res.bind_assoc,
      fun v m => (aRotation_final 0 angle v m).2.2, Bool.false_eq_true, if_true, if_false,
      fun m => (aSetTranslation_final (K := ℝ) 0 0 0 t m).2.2.2]

/-! ### Functions with the strong guarantee -/

section
variable {K : Type}

/-- C106: setting one basis vector or the translation of a matrix: an exception leaves the matrix as it was. -/
theorem set_strong [Zero K] (i : Int) (v : AVec K) (e0 e1 e2 : K) :
    Strong (aSetBasisVector2D i v) ∧ Strong (aSetTransposedBasisVector2D i v) ∧ Strong (aSetBasisVector i v) ∧
      Strong (aSetTransposedBasisVector i v) ∧ Strong (aSetTranslation2D e0 e1) ∧ Strong (aSetTranslation2DV v) ∧
      Strong (aSetTranslation e0 e1 e2) ∧ Strong (aSetTranslationV v) := by
  refine ⟨?_, ?_, ?_, ?_, ?_, ?_, ?_, ?_⟩
  · unfold aSetBasisVector2D; strong_tac
  · unfold aSetTransposedBasisVector2D; strong_tac
  · unfold aSetBasisVector; strong_tac
  · unfold aSetTransposedBasisVector; strong_tac
  · unfold aSetTranslation2D; strong_tac
  · unfold aSetTranslation2DV; strong_tac
  · unfold aSetTranslation; strong_tac
  · unfold aSetTranslationV; strong_tac

/-- C106: scaling and skew-symmetric matrices. -/
theorem scale_strong [Field K] [DecidableEq K] (v : AVec K) (e0 e1 e2 : K) :
    Strong (aScale2D e0 e1) ∧ Strong (aScale2DV v) ∧ Strong (aInverseScale2D e0 e1) ∧
      Strong (aInverseScale2DV v) ∧ Strong (aScale3D e0 e1 e2) ∧ Strong (aScale3DV v) ∧
      Strong (aInverseScale3D e0 e1 e2) ∧ Strong (aInverseScale3DV v) ∧ Strong (aSkewSymmetric v) ∧
      Strong (aSkewSymmetric2D e0) := by
  refine ⟨?_, ?_, ?_, ?_, ?_, ?_, ?_, ?_, ?_, ?_⟩
  · unfold aScale2D; strong_tac
  · unfold aScale2DV aScale2D; strong_tac
  · unfold aInverseScale2D aScale2D; strong_tac
  · unfold aInverseScale2DV aInverseScale2D aScale2D; strong_tac
  · unfold aScale3D; strong_tac
  · unfold aScale3DV aScale3D; strong_tac
  · unfold aInverseScale3D aScale3D; strong_tac
  · unfold aInverseScale3DV aInverseScale3D aScale3D; strong_tac
  · unfold aSkewSymmetric; strong_tac
  · unfold aSkewSymmetric2D; strong_tac

/-- C106: linear transform and projections. -/
theorem linearTransform_strong [Field K] [DecidableEq K] (src : LinSrc K) (l r b t n f : K) (h : Handed)
    (zc : ZClip) :
    Strong (aLinearTransform src) ∧ Strong (aOrthographic l r b t n f h zc) ∧
      Strong (aPerspective l r b t n f h zc) := by
  refine ⟨?_, ?_, ?_⟩
  · unfold aLinearTransform
    strong_tac
  · cases zc <;> unfold aOrthographic <;> dsimp only <;> strong_tac
  · cases zc <;> unfold aPerspective <;> dsimp only <;> strong_tac

/-- C106: rigid inversion. -/
theorem invertRTOnly_strong [CommRing K] :
    Strong (aInvertRTOnly2D : Act (BMat K) Unit) ∧ Strong (aInvertRTOnly : Act (BMat K) Unit) := by
  constructor
  · intro m e m' hm
    by_cases h : m.HasAff 2
    · obtain ⟨m1, h1, -⟩ := invertRTOnly2D_spec h
      rw [← (aInvertRTOnly_final m).1] at h1
      rw [not_throw_of_final h1] at hm
      cases hm
    · unfold aInvertRTOnly2D at hm
      rw [read_bind, checkAffine2D_throw h] at hm
      cases hm; rfl
  · intro m e m' hm
    by_cases h : m.HasAff 3
    · obtain ⟨m1, h1, -⟩ := invertRTOnly_spec h
      rw [← (aInvertRTOnly_final m).2] at h1
      rw [not_throw_of_final h1] at hm
      cases hm
    · unfold aInvertRTOnly at hm
      rw [read_bind, checkAffine3D_throw h] at hm
      cases hm; rfl

/-- C106: inversion of a rigid transform of any dimension. -/
theorem invertRT_strong [Add K] [Mul K] [Neg K] : Strong (aInvertRT : Act (BMat K) Unit) := by
  unfold aInvertRT
  refine Strong.read _ fun _ => Strong.read _ fun M => NoThrow.strong ?_
  refine NoThrow.bind (NoThrow.loop (fun i => NoThrow.loop (fun j => ?_) _ _) _ _) fun _ => ?_
  · strong_tac
  · refine NoThrow.bind (NoThrow.read fun m e => ?_) fun T => NoThrow.loop (fun i => ?_) _ _
    · unfold getBasisVectorND
      cases m.basis <;> dsimp only <;> split <;> simp
    · refine NoThrow.bind (NoThrow.read fun _ _ => BMat.bget_noThrow _ _ _ _) fun b => ?_
      refine NoThrow.bind (NoThrow.eval fun _ => AVec.get_noThrow _ _ _) fun t => ?_
      refine NoThrow.bind (NoThrow.read fun m e => ?_) fun e => aPut_noThrow _ _ _
      refine Res.loop_noThrow (fun j a e => ?_) _ _ _ _
      cases h1 : m.bget j i with
      | ok x =>
        rw [Res.ok_bind]
        cases h2 : T.get j with
        | ok y => simp
        | throw e' => exact absurd h2 (AVec.get_noThrow _ _ _)
        | ub u => simp
      | throw e' => exact absurd h1 (BMat.bget_noThrow _ _ _ _)
      | ub u => simp

/-- C106: rotations. -/
theorem rotation_strong (axis : Int) (a a0 a1 a2 : ℝ) (v : AVec ℝ) (o : EulerOrder) :
    Strong (aRotation2D a) ∧ Strong (aRotationWorldAxis axis a) ∧ Strong (aRotationAxisAngle v a) ∧
      Strong (aRotationEuler a0 a1 a2 o) ∧ Strong (aRotationEulerV v o) := by
  have h : ∀ a0 a1 a2, Strong (aRotationEuler a0 a1 a2 o) := by
    intro a0 a1 a2
    unfold aRotationEuler
    strong_tac
    dsimp only
    split <;> exact aPut9_noThrow _ _ _ _ _ _ _ _ _ _ _ _
  refine ⟨?_, ?_, ?_, h _ _ _, ?_⟩
  · unfold aRotation2D; strong_tac
  · unfold aRotationWorldAxis; strong_tac
  · unfold aRotationAxisAngle; strong_tac
  · unfold aRotationEulerV
    exact .eval _ fun _ => .eval _ fun _ => .eval _ fun _ => .eval _ fun _ => h _ _ _

/-- C106: rotation from a quaternion. -/
theorem rotationQuaternion_strong [CommRing K] [Div K] [DecidableEq K] (s : QState K) (q : QNode K) :
    Strong (aRotationQuaternion s q) := by
  unfold aRotationQuaternion
  strong_tac

/-! ### Functions without it -/

/-- C106 fails for the translation builders: they write the identity before they check the sizes. -/
theorem translation_weak [Zero K] [One K] (m : BMat K) :
    (¬m.HasAff 2 → ∀ e0 e1, aTranslation2D e0 e1 m = .throw m.minErr m.identity) ∧
    (∀ v : AVec K, v.size ≠ 2 → aTranslation2DV v m = .throw v.sizeErr m.identity) ∧
    (¬m.HasAff 3 → ∀ e0 e1 e2, aTranslation e0 e1 e2 m = .throw m.minErr m.identity) ∧
    (∀ v : AVec K, (v.size < 2 ∨ 3 < v.size) →
      aTranslationV v m = .throw (if v.fixed then .staticAssert else .vecRange) m.identity) := by
  refine ⟨fun h e0 e1 => ?_, fun v hv => ?_, fun h e0 e1 e2 => ?_, fun v hv => ?_⟩
  · show aSetTranslation2D e0 e1 m.identity = _
    unfold aSetTranslation2D
    rw [read_bind, checkAffine2D_throw (m := m.identity) h]
    rfl
  · show aSetTranslation2DV v m.identity = _
    unfold aSetTranslation2DV Act.eval
    rw [read_bind, AVec.checkSize_throw hv]
  · show aSetTranslation e0 e1 e2 m.identity = _
    unfold aSetTranslation
    rw [read_bind, checkAffine3D_throw (m := m.identity) h]
    rfl
  · show aSetTranslationV v m.identity = _
    have : ¬(2 ≤ v.size ∧ v.size ≤ 3) := by omega
    unfold aSetTranslationV Act.eval
    rw [read_bind]
    simp [AVec.checkSizeRange, Res.require, this]

/-- C106 fails for several basis vectors: a wrong second (third) vector is found after the first (and second)
one has been stored. -/
theorem basisVectors_weak {m m1 m2 : BMat K} (x y z : AVec K) :
    (setBasisVector2D m 0 x = .ok m1 → m1.HasLin 2 → y.size ≠ 2 →
      aSetBasisVectors2D x y m = .throw y.sizeErr m1) ∧
    (setBasisVector m 0 x = .ok m1 → m1.HasLin 3 → y.size ≠ 3 → aSetBasisVectors x y z m = .throw y.sizeErr m1) ∧
    (setBasisVector m 0 x = .ok m1 → setBasisVector m1 1 y = .ok m2 → m2.HasLin 3 → z.size ≠ 3 →
      aSetBasisVectors x y z m = .throw z.sizeErr m2) := by
  have t2 : ∀ {m : BMat K} {i v}, m.HasLin 2 → v.size ≠ 2 → aSetBasisVector2D i v m = .throw v.sizeErr m := by
    intro m i v h hv
    unfold aSetBasisVector2D Act.eval
    rw [read_bind, checkLinear2D_ok h]
    dsimp only
    rw [read_bind, AVec.checkSize_throw hv]
  have t3 : ∀ {m : BMat K} {i v}, m.HasLin 3 → v.size ≠ 3 → aSetBasisVector i v m = .throw v.sizeErr m := by
    intro m i v h hv
    unfold aSetBasisVector Act.eval
    rw [read_bind, checkLinear3D_ok h]
    dsimp only
    rw [read_bind, AVec.checkSize_throw hv]
  refine ⟨fun h1 h hy => ?_, fun h1 h hy => ?_, fun h1 h2 h hz => ?_⟩
  · rw [← (aSetBasisVector2D_final 0 x m).1] at h1
    unfold aSetBasisVectors2D
    rw [bind_eq, not_throw_of_final h1]
    exact t2 h hy
  · rw [← (aSetBasisVector_final 0 x m).1] at h1
    unfold aSetBasisVectors
    rw [bind_eq, not_throw_of_final h1]
    dsimp only
    rw [bind_eq, t3 h hy]
  · rw [← (aSetBasisVector_final 0 x m).1] at h1
    rw [← (aSetBasisVector_final 1 y m1).1] at h2
    unfold aSetBasisVectors
    rw [bind_eq, not_throw_of_final h1]
    dsimp only
    rw [bind_eq, not_throw_of_final h2]
    exact t3 h hz

/-- C106 fails for affine transforms: a wrong translation is found after the linear part has been stored. -/
theorem affineTransform_weak [Zero K] [One K] {m l : BMat K} (hm : m.HasAff 3) (hl : l.HasLin 3) {t : AVec K}
    (ht : t.size < 2 ∨ 3 < t.size) :
    ∃ m', linearTransform m (.other l) = .ok m' ∧ linOf m' 3 = linOf l 3 ∧
      aAffineTransform (.other l) t m = .throw (if t.fixed then .staticAssert else .vecRange) m' := by
  obtain ⟨m', h1, -, -, h2⟩ := linearTransform_partial hm.lin hl
  refine ⟨m', h1, h2, ?_⟩
  rw [← aLinearTransform_final] at h1
  have : ¬(2 ≤ t.size ∧ t.size ≤ 3) := by omega
  unfold aAffineTransform
  rw [read_bind, checkAffine3D_ok hm]
  dsimp only
  rw [bind_eq, not_throw_of_final h1]
  unfold aSetTranslationV Act.eval
  dsimp only
  rw [read_bind]
  simp [AVec.checkSizeRange, Res.require, this]

end

/-- C106 fails for Euler angle derivatives of a repeating order and for alignment: the identity is written
first. -/
theorem rotation_weak {m : BMat ℝ} :
    (m.HasLin 3 → ∀ (axis : Int) (a0 a1 a2 : ℝ) (o : EulerOrder), 0 ≤ axis → axis ≤ 2 →
      (unpackEulerOrder o.code).rep = true →
      aRotationEulerDerivatives axis a0 a1 a2 o m = .throw .invalidArgument m.identity) ∧
    (∀ (align reference : AVec ℝ) nz o e, orthonormalBasis align reference nz o = .throw e →
      aRotationAlign align reference nz o m = .throw e m.identity) ∧
    (m.HasLin 2 → ∀ (align : AVec ℝ) nz o e, orthonormalBasis2D align nz o = .throw e →
      aRotationAlign2D align nz o m = .throw e m.identity) ∧
    (m.HasAff 3 → ∀ (position target up : AVec ℝ) h, target.size ≠ position.size →
      aLookAt position target up h m =
        .throw (if target.fixed && position.fixed then .staticAssert else .vecIncompatible) m.identity) := by
  refine ⟨fun hm axis a0 a1 a2 o h0 h2 hr => ?_, fun align reference nz o e he => ?_,
    fun hm align nz o e he => ?_, fun hm position target up h hs => ?_⟩
  · unfold aRotationEulerDerivatives Act.eval
    rw [read_bind]
    simp only [Res.require, decide_eq_true (show 0 ≤ axis ∧ axis ≤ 2 from ⟨h0, h2⟩), if_true]
    rw [read_bind, checkLinear3D_ok hm]
    dsimp only
    rw [bind_eq]
    simp only [Act.modify]
    rw [read_bind]
    simp [hr]
  · show (Act.eval (orthonormalBasis align reference nz o) >>= _) m.identity = _
    unfold Act.eval
    rw [read_bind, he]
  · unfold aRotationAlign2D Act.eval
    rw [read_bind, checkLinear2D_ok hm]
    dsimp only
    rw [bind_eq]
    simp only [Act.modify]
    rw [read_bind, he]
  · unfold aLookAt Act.eval
    rw [read_bind, checkAffine3D_ok hm]
    dsimp only
    rw [bind_eq]
    simp only [Act.modify]
    rw [read_bind]
    simp [AVec.sub, AVec.checkSameSize, Res.require, hs]

/-- C106 is false: `matrix_translation_2D` with a matrix that is too small throws and has overwritten it. -/
theorem strong_guarantee_false :
    ¬ ∀ (e0 e1 : ℚ) (m m' : BMat ℚ) (e : Err), aTranslation2D e0 e1 m = .throw e m' → m' = m := by
  intro h
  have := h 1 1 (small 2) _ _ ((translation_weak (small 2)).1 small_aff 1 1)
  have := congrArg (fun m : BMat ℚ => m.el 1 1) this
  norm_num [small, identity] at this

/-- C106, the part that is true: the functions that check all arguments before they write.  Missing: translation
builders, several basis vectors, affine transforms, alignment, look-at and Euler angle derivatives
(`translation_weak`, `basisVectors_weak`, `affineTransform_weak`, `rotation_weak`). -/
theorem strong_guarantee_partial {K : Type} [Field K] [DecidableEq K] (i : Int) (v : AVec K) (e0 e1 e2 : K)
    (m m' : BMat K) (e : Err) :
    (aSetBasisVector i v m = .throw e m' → m' = m) ∧ (aSetTranslation e0 e1 e2 m = .throw e m' → m' = m) ∧
    (aScale3D e0 e1 e2 m = .throw e m' → m' = m) ∧ (aInvertRTOnly m = .throw e m' → m' = m) ∧
    (aSkewSymmetric v m = .throw e m' → m' = m) :=
  ⟨(set_strong i v e0 e1 e2).2.2.1 m e m', (set_strong i v e0 e1 e2).2.2.2.2.2.2.1 m e m',
    (scale_strong v e0 e1 e2).2.2.2.2.1 m e m', invertRTOnly_strong.2 m e m',
    (scale_strong v e0 e1 e2).2.2.2.2.2.2.2.2.1 m e m'⟩

section Examples

example : aSetTranslation 1 2 3 (small 3) = .throw .matMinimum (small 3) := rfl
example : aScale2DV (AVec.mk3 false 1 2 3) (small 3) = .throw .vecSize (small 3) := rfl
example : aTranslation 1 2 3 (small 3) = .throw .matMinimum (small 3).identity :=
  (translation_weak (small 3)).2.2.1 small_aff 1 2 3
example : ∃ m1, setBasisVector (small 3) 0 (.mk3 false 1 2 3) = .ok m1 ∧ m1.HasLin 3 ∧ m1.el 1 0 = 2 :=
  ⟨_, rfl, ⟨le_refl 3, le_refl 3⟩, rfl⟩
example := affineTransform_weak (small_has (n := 4) (k := 3) (by decide)) (l := small 3) ⟨le_refl 3, le_refl 3⟩
  (t := ⟨false, 4, fun _ => 0⟩) (.inr (by decide))
example : (unpackEulerOrder EulerOrder.xyx.code).rep = true := by decide
example := (rotation_weak (m := ⟨⟨3, 3, fun _ _ => 5⟩, .row, false⟩)).1 ⟨le_refl 3, le_refl 3⟩ 1 0 0 0 .xyx (by decide)
  (by decide) (by decide)

end Examples

end CML

#print axioms CML.set_strong
#print axioms CML.scale_strong
#print axioms CML.linearTransform_strong
#print axioms CML.invertRTOnly_strong
#print axioms CML.invertRT_strong
#print axioms CML.aInvertRT_final
#print axioms CML.rotation_strong
#print axioms CML.rotationQuaternion_strong
#print axioms CML.translation_weak
#print axioms CML.basisVectors_weak
#print axioms CML.affineTransform_weak
#print axioms CML.rotation_weak
#print axioms CML.strong_guarantee_false
#print axioms CML.strong_guarantee_partial
#print axioms CML.aAffineTransform_final
#print axioms CML.aInvertRTOnly_final
#print axioms CML.aAlign_final
#print axioms CML.aAffineAxisAngle_final
#print axioms CML.aRotationEulerDerivatives_final
