import Verif.Model.Rotation
import Verif.Model.Float

/-!
The builders of rotations again, for elements and angles of any type with a sine and a cosine, so that they can be
evaluated in rounded arithmetic.  For real numbers they are the functions of `Model/Rotation` (`builders_real`).
-/

namespace CML

/-- `scalar_traits<E>::sin` and `cos`, `/repo/cml/scalar/traits.h:131-133`. -/
structure Trig (K : Type) where
  sin : K → K
  cos : K → K

/-- Sine and cosine of real numbers. -/
noncomputable def Trig.real : Trig ℝ := ⟨Real.sin, Real.cos⟩

/-- Sine and cosine, correctly rounded. -/
noncomputable def Trig.rounded (R : Rounding) : Trig (Fl R) :=
  ⟨fun x => ⟨R.fl (Real.sin x.val)⟩, fun x => ⟨R.fl (Real.cos x.val)⟩⟩

section
variable {K : Type} [Zero K] [One K] [Add K] [Sub K] [Mul K] [Neg K] [Div K] [IntCast K] (T : Trig K)

/-- `matrix_rotation_2D(m, angle)`, `/repo/cml/mathlib/matrix/rotation.tpp:22-43`. -/
def rotation2DG (m : BMat K) (angle : K) : Res (BMat K) := do
  m.checkLinear2D
  let m := m.identity
  let s := T.sin angle
  let c := T.cos angle
  let m ← m.bput 0 0 c
  let m ← m.bput 0 1 s
  let m ← m.bput 1 0 (-s)
  m.bput 1 1 c

/-- `matrix_rotation_world_axis(m, axis, angle)`, `/repo/cml/mathlib/matrix/rotation.tpp:70-96`. -/
def rotationWorldAxisG (m : BMat K) (axis : Int) (angle : K) : Res (BMat K) := do
  m.checkLinear3D
  Res.require (decide (0 ≤ axis ∧ axis ≤ 2)) .invalidArgument
  let p := cyclicPermutation3 axis.toNat
  let j := p.2.1
  let k := p.2.2
  let s := T.sin angle
  let c := T.cos angle
  let m := m.identity
  let m ← m.bput j j c
  let m ← m.bput j k s
  let m ← m.bput k j (-s)
  m.bput k k c

/-- `matrix_rotation_axis_angle(m, axis, angle)`, `/repo/cml/mathlib/matrix/rotation.tpp:119-166`. -/
def rotationAxisAngleG (m : BMat K) (axis : AVec K) (angle : K) : Res (BMat K) := do
  m.checkLinear3D
  axis.checkSize 3
  let m := m.identity
  let s := T.sin angle
  let c := T.cos angle
  let omc := 1 - c
  let x ← axis.get 0
  let y ← axis.get 1
  let z ← axis.get 2
  let xomc := x * omc
  let yomc := y * omc
  let zomc := z * omc
  let xxomc := x * xomc
  let yyomc := y * yomc
  let zzomc := z * zomc
  let xyomc := x * yomc
  let yzomc := y * zomc
  let zxomc := z * xomc
  let xs := x * s
  let ys := y * s
  let zs := z * s
  m.bput9 0 1 2
    (xxomc + c) (xyomc + zs) (zxomc - ys)
    (xyomc - zs) (yyomc + c) (yzomc + xs)
    (zxomc + ys) (yzomc - xs) (zzomc + c)

/-- `matrix_rotation_euler(m, angle_0, angle_1, angle_2, order)`,
`/repo/cml/mathlib/matrix/rotation.tpp:168-229`. -/
def rotationEulerG (m : BMat K) (angle0 angle1 angle2 : K) (order : EulerOrder) : Res (BMat K) := do
  m.checkLinear3D
  let m := m.identity
  let u := unpackEulerOrder order.code
  let a0 := if u.odd then -angle0 else angle0
  let a1 := if u.odd then -angle1 else angle1
  let a2 := if u.odd then -angle2 else angle2
  let s0 := T.sin a0
  let c0 := T.cos a0
  let s1 := T.sin a1
  let c1 := T.cos a1
  let s2 := T.sin a2
  let c2 := T.cos a2
  let s0s2 := s0 * s2
  let s0c2 := s0 * c2
  let c0s2 := c0 * s2
  let c0c2 := c0 * c2
  if u.rep then
    m.bput9 u.i u.j u.k
      c1 (s1 * s2) (-s1 * c2)
      (s0 * s1) (-c1 * s0s2 + c0c2) (c1 * s0c2 + c0s2)
      (c0 * s1) (-c1 * c0s2 - s0c2) (c1 * c0c2 - s0s2)
  else
    m.bput9 u.i u.j u.k
      (c1 * c2) (c1 * s2) (-s1)
      (s1 * s0c2 - c0s2) (s1 * s0s2 + c0c2) (s0 * c1)
      (s1 * c0c2 + s0s2) (s1 * c0s2 - s0c2) (c0 * c1)

/-- `quaternion_rotation_axis_angle(q, axis, angle)`, `/repo/cml/mathlib/quaternion/rotation.tpp:58-73`. -/
def qRotationAxisAngleG (s : QState K) (v : QVar) (axis : AVec K) (angle : K) : Out (QState K) :=
  .withVal (axis.checkSize 3) s fun _ =>
  let a := axis.smul (T.sin (angle / ((2 : ℤ) : K)))
  qAssignVec s v a.fixed a.size (fun _ i => a.get i) (T.cos (angle / ((2 : ℤ) : K)))

end

end CML
