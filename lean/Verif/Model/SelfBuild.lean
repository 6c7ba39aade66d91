import Verif.Model.Rotation

/-!
The functions of `/repo/cml/mathlib/matrix/` that build a transform from scalars or vectors, for arguments that refer
to the matrix being written: `M(i,j)` is a reference to an element (`/repo/cml/scalar/traits.h:33-34`) and the scalars
are taken by reference; `row(M, i)` and `col(M, j)` are views (`/repo/cml/matrix/row_node.tpp:38-50`,
`/repo/cml/matrix/col_node.tpp:38-50`) and the vectors are read element by element.  Each definition reads its
arguments at the place where the function does; `Model/Lin.lean` and `Model/Rotation.lean` have the same functions for
arguments that do not refer to the target.

Simplifications: those of `Model/Lin.lean`; the scalars that do not refer to the target have the type of the elements.
`matrix_look_at`, whose axes are lazy expressions, is in `Model/SelfLook.lean`.
-/

namespace CML

/-- A scalar argument of type `const E&`: a value, or element `(i, j)` of the target. -/
inductive SArg (K : Type)
  | val (x : K)
  | own (i j : Nat)

/-- The value of the argument at the moment. -/
def SArg.read {K : Type} (m : BMat K) : SArg K → Res K
  | .val x => .ok x
  | .own i j => m.toMat.get i j

/-- A vector argument: a vector elsewhere, or row `i` or column `j` of the target. -/
inductive VArg (K : Type)
  | other (v : AVec K)
  | row (i : Nat)
  | col (j : Nat)

/-- The vector the argument is at the moment: its size, and its elements (which exist if the row or column does),
`/repo/cml/matrix/row_node.tpp:38-50`, `/repo/cml/matrix/col_node.tpp:38-50`. -/
def VArg.now {K : Type} (m : BMat K) : VArg K → AVec K
  | .other v => v
  | .row i => ⟨m.fixed, m.cols, fun k => m.el i k⟩
  | .col j => ⟨m.fixed, m.rows, fun k => m.el k j⟩

/-- `v[k]`, `/repo/cml/vector/readable_vector.tpp:33-54`. -/
def VArg.get {K : Type} (m : BMat K) (v : VArg K) (k : Nat) : Res K :=
  match v with
  | .other v => v.get k
  | .row i => m.toMat.get i k
  | .col j => m.toMat.get k j

/-- All elements of the argument at the moment. -/
def VArg.view {K : Type} (m : BMat K) (v : VArg K) : Res (AVec K) :=
  match v with
  | .other v => .ok v
  | .row i => if i < m.rows then .ok (v.now m) else .ub .oob
  | .col j => if j < m.cols then .ok (v.now m) else .ub .oob

namespace SelfBuild

section Basic
variable {K : Type}

/-- `matrix_set_basis_vector(m, i, v)`, `/repo/cml/mathlib/matrix/basis.tpp:167-179`. -/
def setBasisVector (m : BMat K) (i : Int) (v : VArg K) : Res (BMat K) := do
  m.checkLinear3D
  (v.now m).checkSize 3
  Res.require (decide (0 ≤ i ∧ i ≤ 2)) .invalidArgument
  let a ← v.get m 0
  let m ← m.bput i.toNat 0 a
  let a ← v.get m 1
  let m ← m.bput i.toNat 1 a
  let a ← v.get m 2
  m.bput i.toNat 2 a

/-- `matrix_set_basis_vectors(m, x, y, z)`, `/repo/cml/mathlib/matrix/basis.tpp:181-214`. -/
def setBasisVectors (m : BMat K) (x y z : VArg K) : Res (BMat K) := do
  let m ← setBasisVector m 0 x
  let m ← setBasisVector m 1 y
  setBasisVector m 2 z

/-- `matrix_set_transposed_basis_vector(m, i, v)`, `/repo/cml/mathlib/matrix/basis.tpp:216-228`. -/
def setTransposedBasisVector (m : BMat K) (i : Int) (v : VArg K) : Res (BMat K) := do
  m.checkLinear3D
  (v.now m).checkSize 3
  Res.require (decide (0 ≤ i ∧ i ≤ 2)) .invalidArgument
  let a ← v.get m 0
  let m ← m.bput 0 i.toNat a
  let a ← v.get m 1
  let m ← m.bput 1 i.toNat a
  let a ← v.get m 2
  m.bput 2 i.toNat a

/-- `matrix_set_translation_2D(m, e0, e1)`, `/repo/cml/mathlib/matrix/translation.tpp:14-57`. -/
def setTranslation2D (m : BMat K) (e0 e1 : SArg K) : Res (BMat K) := do
  m.checkAffine2D
  let x ← e0.read m
  let m ← m.bput 2 0 x
  let x ← e1.read m
  m.bput 2 1 x

/-- `matrix_set_translation(m, e0, e1, e2)`, `/repo/cml/mathlib/matrix/translation.tpp:113-120`. -/
def setTranslation (m : BMat K) (e0 e1 e2 : SArg K) : Res (BMat K) := do
  m.checkAffine3D
  let x ← e0.read m
  let m ← m.bput 3 0 x
  let x ← e1.read m
  let m ← m.bput 3 1 x
  let x ← e2.read m
  m.bput 3 2 x

/-- `matrix_set_translation(m, v)`, `/repo/cml/mathlib/matrix/translation.tpp:131-140`: `v[2]` is converted to a
temporary before the first element is stored, `v[0]` and `v[1]` are references. -/
def setTranslationV [Zero K] (m : BMat K) (v : VArg K) : Res (BMat K) := do
  (v.now m).checkSizeRange 2 3
  m.checkAffine3D
  let e2 ← (if (v.now m).size = 3 then v.get m 2 else .ok 0)
  let x ← v.get m 0
  let m ← m.bput 3 0 x
  let x ← v.get m 1
  let m ← m.bput 3 1 x
  m.bput 3 2 e2

/-- `matrix_translation_2D(m, e0, e1)`, `/repo/cml/mathlib/matrix/translation.tpp:95-101`. -/
def translation2D [Zero K] [One K] (m : BMat K) (e0 e1 : SArg K) : Res (BMat K) :=
  setTranslation2D m.identity e0 e1

/-- `matrix_translation(m, e0, e1, e2)`, `/repo/cml/mathlib/matrix/translation.tpp:170-177`. -/
def translation [Zero K] [One K] (m : BMat K) (e0 e1 e2 : SArg K) : Res (BMat K) :=
  setTranslation m.identity e0 e1 e2

/-- `matrix_translation(m, v)`, `/repo/cml/mathlib/matrix/translation.tpp:179-185`. -/
def translationV [Zero K] [One K] (m : BMat K) (v : VArg K) : Res (BMat K) :=
  setTranslationV m.identity v

/-- `matrix_scale_2D(m, e0, e1)`, `/repo/cml/mathlib/matrix/scale.tpp:17-28`. -/
def scale2D [Zero K] [One K] (m : BMat K) (e0 e1 : SArg K) : Res (BMat K) := do
  m.checkAffine2D
  let m := m.identity
  let x ← e0.read m
  let m ← m.bput 0 0 x
  let x ← e1.read m
  m.bput 1 1 x

/-- `matrix_uniform_scale_2D(m, e0)`, `/repo/cml/mathlib/matrix/scale.tpp:38-43`. -/
def uniformScale2D [Zero K] [One K] (m : BMat K) (e0 : SArg K) : Res (BMat K) := scale2D m e0 e0

/-- `matrix_inverse_scale_2D(m, e0, e1)`, `/repo/cml/mathlib/matrix/scale.tpp:45-50`: the quotients are
temporaries. -/
def inverseScale2D [Field K] [DecidableEq K] (m : BMat K) (e0 e1 : SArg K) : Res (BMat K) := do
  let x ← e0.read m
  let a ← divR 1 x
  let x ← e1.read m
  let b ← divR 1 x
  scale2D m (.val a) (.val b)

/-- `matrix_scale(m, e0, e1, e2)`, `/repo/cml/mathlib/matrix/scale.tpp:63-76`. -/
def scale3D [Zero K] [One K] (m : BMat K) (e0 e1 e2 : SArg K) : Res (BMat K) := do
  m.checkAffine3D
  let m := m.identity
  let x ← e0.read m
  let m ← m.bput 0 0 x
  let x ← e1.read m
  let m ← m.bput 1 1 x
  let x ← e2.read m
  m.bput 2 2 x

/-- `v[k]` as an argument of type `const E&`: a reference into the target if `v` is a row or a column of it
(`/repo/cml/matrix/row_node.tpp:45-50`).  An element that does not exist is undefined. -/
def elemRef (m : BMat K) (v : VArg K) (k : Nat) : Res (SArg K) :=
  match v with
  | .other v => do let x ← v.get k; pure (.val x)
  | .row i => do let _ ← m.toMat.get i k; pure (.own i k)
  | .col j => do let _ ← m.toMat.get k j; pure (.own k j)

/-- `matrix_scale(m, v)`, `/repo/cml/mathlib/matrix/scale.tpp:78-84`. -/
def scale3DV [Zero K] [One K] (m : BMat K) (v : VArg K) : Res (BMat K) := do
  (v.now m).checkSize 3
  let a ← elemRef m v 0
  let b ← elemRef m v 1
  let c ← elemRef m v 2
  scale3D m a b c

/-- `matrix_uniform_scale(m, e0)`, `/repo/cml/mathlib/matrix/scale.tpp:86-91`. -/
def uniformScale3D [Zero K] [One K] (m : BMat K) (e0 : SArg K) : Res (BMat K) := scale3D m e0 e0 e0

/-- `matrix_inverse_scale(m, e0, e1, e2)`, `/repo/cml/mathlib/matrix/scale.tpp:93-99`: the quotients are
temporaries. -/
def inverseScale3D [Field K] [DecidableEq K] (m : BMat K) (e0 e1 e2 : SArg K) : Res (BMat K) := do
  let x ← e0.read m
  let a ← divR 1 x
  let x ← e1.read m
  let b ← divR 1 x
  let x ← e2.read m
  let c ← divR 1 x
  scale3D m (.val a) (.val b) (.val c)

/-- `matrix_skew_symmetric(m, v)`, `/repo/cml/mathlib/matrix/misc.tpp:31-46`. -/
def skewSymmetric [Zero K] [Neg K] (m : BMat K) (v : VArg K) : Res (BMat K) := do
  m.checkLinear3D
  (v.now m).checkSize 3
  let m := m.zero
  let a ← v.get m 0
  let m ← m.bput 1 2 a
  let a ← v.get m 0
  let m ← m.bput 2 1 (-a)
  let a ← v.get m 1
  let m ← m.bput 2 0 a
  let a ← v.get m 1
  let m ← m.bput 0 2 (-a)
  let a ← v.get m 2
  let m ← m.bput 0 1 a
  let a ← v.get m 2
  m.bput 1 0 (-a)

/-- `matrix_skew_symmetric_2D(m, s)`, `/repo/cml/mathlib/matrix/misc.tpp:48-57`. -/
def skewSymmetric2D [Zero K] [Neg K] (m : BMat K) (s : SArg K) : Res (BMat K) := do
  m.checkLinear2D
  let m := m.zero
  let x ← s.read m
  let m ← m.bput 0 1 x
  let x ← s.read m
  m.bput 1 0 (-x)

end Basic

/-- `matrix_rotation_world_axis(m, axis, angle)`, `/repo/cml/mathlib/matrix/rotation.tpp:70-96`: the sine and the
cosine are computed before the matrix is written. -/
noncomputable def rotationWorldAxis (m : BMat ℝ) (axis : Int) (angle : SArg ℝ) : Res (BMat ℝ) := do
  m.checkLinear3D
  Res.require (decide (0 ≤ axis ∧ axis ≤ 2)) .invalidArgument
  let p := cyclicPermutation3 axis.toNat
  let j := p.2.1
  let k := p.2.2
  let x ← angle.read m
  let s := Real.sin x
  let x ← angle.read m
  let c := Real.cos x
  let m := m.identity
  let m ← m.bput j j c
  let m ← m.bput j k s
  let m ← m.bput k j (-s)
  m.bput k k c

/-- `matrix_rotation_axis_angle(m, axis, angle)`, `/repo/cml/mathlib/matrix/rotation.tpp:119-166`: the matrix is set to
the identity before the angle and the axis are read; between those reads nothing is written, so each is read once
here. -/
noncomputable def rotationAxisAngle (m : BMat ℝ) (axis : VArg ℝ) (angle : SArg ℝ) : Res (BMat ℝ) := do
  m.checkLinear3D
  (axis.now m).checkSize 3
  let m := m.identity
  let t ← angle.read m
  let s := Real.sin t
  let c := Real.cos t
  let omc := 1 - c
  let x ← axis.get m 0
  let y ← axis.get m 1
  let z ← axis.get m 2
  let xomc := x * omc
  let yomc := y * omc
  let zomc := z * omc
  let xxomc := x * xomc
  let yyomc := y * yomc
  let zzomc := z * zomc
  let xyomc := x * yomc
  let yzomc := y * zomc
  let zxomc := z * xomc
  let xs := x * s
  let ys := y * s
  let zs := z * s
  m.bput9 0 1 2
    (xxomc + c) (xyomc + zs) (zxomc - ys)
    (xyomc - zs) (yyomc + c) (yzomc + xs)
    (zxomc + ys) (yzomc - xs) (zzomc + c)

/-- `matrix_rotation_align(m, align, reference, normalize, order)`,
`/repo/cml/mathlib/matrix/rotation.tpp:378-396`. -/
noncomputable def rotationAlign (m : BMat ℝ) (align reference : VArg ℝ) (normalize : Bool)
    (order : AxisOrder) : Res (BMat ℝ) := do
  let m := m.identity
  let a ← align.view m
  let r ← reference.view m
  let b ← orthonormalBasis a r normalize order
  CML.setBasisVectors m b.1 b.2.1 b.2.2

/-- `matrix_affine_transform(m, axis, angle, translation, normalize)`,
`/repo/cml/mathlib/matrix/transform.tpp:86-99`: the translation is read after the rotation has been stored. -/
noncomputable def affineAxisAngle (m : BMat ℝ) (axis : VArg ℝ) (angle : SArg ℝ) (translation : VArg ℝ)
    (normalize : Bool) : Res (BMat ℝ) := do
  m.checkAffine3D
  let m ← if normalize then do
      let a ← axis.view m
      rotationAxisAngle m (.other (← a.normalized)) angle
    else rotationAxisAngle m axis angle
  setTranslationV m translation

end SelfBuild

end CML
