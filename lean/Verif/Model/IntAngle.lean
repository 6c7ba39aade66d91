import Verif.Model.Rotation
import Verif.Model.Misc

/-!
Angles of any scalar type: the builders of rotations, `rotate_vector` and the conversions to Cartesian
coordinates take the angle as a template parameter `E` that only has to be convertible to the element
type, and compute with `scalar_traits<E>`.  For an integral `E` these traits evaluate the function in
`double` and convert the result back to `E` (`/repo/cml/scalar/traits.h:26-98`).

The functions below are those of `Model/Rotation.lean` and `Model/Geometry.lean` with the traits of the
angle as a parameter; the property file shows that they are the same functions for real angles.

Simplifications: elements are real numbers; integers are unbounded (the overflow of `-INT_MIN` is not
represented); all angles of a call have the same type.
-/

namespace CML

/-- What the functions use of the type of an angle: `scalar_traits<E>::cos` and `sin` (as elements of the
result), `angle / E(2)`, `-angle`, and `constants<E>::pi_over_2() - angle`. -/
structure AngleTraits (A : Type) where
  cos : A → ℝ
  sin : A → ℝ
  half : A → A
  neg : A → A
  coLat : A → A

/-- Floating point angles, `default_floating_point_traits`, `/repo/cml/scalar/traits.h:100-188`, as real
numbers. -/
noncomputable def realAngle : AngleTraits ℝ where
  cos := Real.cos
  sin := Real.sin
  half a := a / 2
  neg a := -a
  coLat a := Real.pi / 2 - a

/-- The conversion of a `double` to an integral type: the fractional part is discarded. -/
noncomputable def truncR (x : ℝ) : ℤ := if 0 ≤ x then ⌊x⌋ else ⌈x⌉

/-- `std::cos` and `std::sin` on `double` arguments that are integers.  No accuracy is assumed. -/
structure Libm where
  cos : ℤ → ℝ
  sin : ℤ → ℝ

/-- The library functions without rounding errors. -/
noncomputable def Libm.exact : Libm where
  cos n := Real.cos n
  sin n := Real.sin n

/-- `cos` and `sin` of `default_integral_traits` (`/repo/cml/scalar/traits.h:55-63`), the division and
negation of `int`, and `constants<int>::pi_over_2()`, which is `M_PI / 2` converted to `int`, that is 1
(`/repo/cml/scalar/constants.h:37`). -/
noncomputable def intAngle (L : Libm) : AngleTraits ℤ where
  cos n := (truncR (L.cos n) : ℝ)
  sin n := (truncR (L.sin n) : ℝ)
  half n := n.tdiv 2
  neg n := -n
  coLat n := 1 - n

section
variable {A : Type} (T : AngleTraits A)

/-- `matrix_rotation_2D(m, angle)`, `/repo/cml/mathlib/matrix/rotation.tpp:22-43`. -/
noncomputable def rotation2DT (m : BMat ℝ) (angle : A) : Res (BMat ℝ) := do
  m.checkLinear2D
  let m := m.identity
  let s := T.sin angle
  let c := T.cos angle
  let m ← m.bput 0 0 c
  let m ← m.bput 0 1 s
  let m ← m.bput 1 0 (-s)
  m.bput 1 1 c

/-- `matrix_rotation_world_axis(m, axis, angle)`, `/repo/cml/mathlib/matrix/rotation.tpp:70-96`. -/
noncomputable def rotationWorldAxisT (m : BMat ℝ) (axis : Int) (angle : A) : Res (BMat ℝ) := do
  m.checkLinear3D
  Res.require (decide (0 ≤ axis ∧ axis ≤ 2)) .invalidArgument
  let p := cyclicPermutation3 axis.toNat
  let j := p.2.1
  let k := p.2.2
  let s := T.sin angle
  let c := T.cos angle
  let m := m.identity
  let m ← m.bput j j c
  let m ← m.bput j k s
  let m ← m.bput k j (-s)
  m.bput k k c

/-- `matrix_rotation_axis_angle(m, axis, angle)`, `/repo/cml/mathlib/matrix/rotation.tpp:119-166`. -/
noncomputable def rotationAxisAngleT (m : BMat ℝ) (axis : AVec ℝ) (angle : A) : Res (BMat ℝ) := do
  m.checkLinear3D
  axis.checkSize 3
  let m := m.identity
  let s := T.sin angle
  let c := T.cos angle
  let omc := 1 - c
  let x ← axis.get 0
  let y ← axis.get 1
  let z ← axis.get 2
  let xomc := x * omc
  let yomc := y * omc
  let zomc := z * omc
  let xxomc := x * xomc
  let yyomc := y * yomc
  let zzomc := z * zomc
  let xyomc := x * yomc
  let yzomc := y * zomc
  let zxomc := z * xomc
  let xs := x * s
  let ys := y * s
  let zs := z * s
  m.bput9 0 1 2
    (xxomc + c) (xyomc + zs) (zxomc - ys)
    (xyomc - zs) (yyomc + c) (yzomc + xs)
    (zxomc + ys) (yzomc - xs) (zzomc + c)

/-- `matrix_rotation_euler(m, angle_0, angle_1, angle_2, order)`,
`/repo/cml/mathlib/matrix/rotation.tpp:168-229`. -/
noncomputable def rotationEulerT (m : BMat ℝ) (angle0 angle1 angle2 : A) (order : EulerOrder) :
    Res (BMat ℝ) := do
  m.checkLinear3D
  let m := m.identity
  let u := unpackEulerOrder order.code
  let a0 := if u.odd then T.neg angle0 else angle0
  let a1 := if u.odd then T.neg angle1 else angle1
  let a2 := if u.odd then T.neg angle2 else angle2
  let s0 := T.sin a0
  let c0 := T.cos a0
  let s1 := T.sin a1
  let c1 := T.cos a1
  let s2 := T.sin a2
  let c2 := T.cos a2
  let s0s2 := s0 * s2
  let s0c2 := s0 * c2
  let c0s2 := c0 * s2
  let c0c2 := c0 * c2
  if u.rep then
    m.bput9 u.i u.j u.k
      c1 (s1 * s2) (-s1 * c2)
      (s0 * s1) (-c1 * s0s2 + c0c2) (c1 * s0c2 + c0s2)
      (c0 * s1) (-c1 * c0s2 - s0c2) (c1 * c0c2 - s0s2)
  else
    m.bput9 u.i u.j u.k
      (c1 * c2) (c1 * s2) (-s1)
      (s1 * s0c2 - c0s2) (s1 * s0s2 + c0c2) (s0 * c1)
      (s1 * c0c2 + s0s2) (s1 * c0s2 - s0c2) (c0 * c1)

/-- `rotate_vector(v, n, angle)`, `/repo/cml/mathlib/vector/rotation.tpp:15-34`. -/
noncomputable def rotateVectorT (v n : AVec ℝ) (angle : A) : Res (AVec ℝ) := do
  v.checkSize 3
  n.checkSize 3
  let d ← v.dot n
  let parallel := n.smul d
  let sinAngle := T.sin angle
  let cosAngle := T.cos angle
  let p ← v.sub parallel
  let c ← n.cross v
  let r ← (p.smul cosAngle).add (c.smul sinAngle)
  r.add parallel

/-- `quaternion_rotation_world_axis(q, axis, angle)`,
`/repo/cml/mathlib/quaternion/rotation.tpp:20-35`. -/
noncomputable def qRotationWorldAxisT (s : QState ℝ) (v : QVar) (axis : Int) (angle : A) :
    Out (QState ℝ) :=
  .withVal (Res.require (decide (0 ≤ axis ∧ axis ≤ 2)) .invalidArgument) s fun _ =>
  (qIdentity s v).andThen fun s =>
  (qPut s v.id v.order.W (T.cos (T.half angle))).andThen fun s =>
  qPut s v.id (v.order.X + axis.toNat) (T.sin (T.half angle))

/-- `quaternion_rotation_axis_angle(q, axis, angle)`,
`/repo/cml/mathlib/quaternion/rotation.tpp:58-73`. -/
noncomputable def qRotationAxisAngleT (s : QState ℝ) (v : QVar) (axis : AVec ℝ) (angle : A) :
    Out (QState ℝ) :=
  .withVal (axis.checkSize 3) s fun _ =>
  let a := axis.smul (T.sin (T.half angle))
  qAssignVec s v a.fixed a.size (fun _ i => a.get i) (T.cos (T.half angle))

/-- `quaternion_rotation_euler(q, angle_0, angle_1, angle_2, order)`,
`/repo/cml/mathlib/quaternion/rotation.tpp:128-182`. -/
noncomputable def qRotationEulerT (s : QState ℝ) (v : QVar) (angle0 angle1 angle2 : A)
    (order : EulerOrder) : Out (QState ℝ) :=
  let u := unpackEulerOrder order.code
  let W := v.order.W
  let I := v.order.X + u.i
  let J := v.order.X + u.j
  let K := v.order.X + u.k
  let a1 := if u.odd then T.neg angle1 else angle1
  let s0 := T.sin (T.half angle0)
  let c0 := T.cos (T.half angle0)
  let s1 := T.sin (T.half a1)
  let c1 := T.cos (T.half a1)
  let s2 := T.sin (T.half angle2)
  let c2 := T.cos (T.half angle2)
  let s0s2 := s0 * s2
  let s0c2 := s0 * c2
  let c0s2 := c0 * s2
  let c0c2 := c0 * c2
  (if u.rep then
    (qPut s v.id I (c1 * (c0s2 + s0c2))).andThen fun s =>
    (qPut s v.id J (s1 * (c0c2 + s0s2))).andThen fun s =>
    (qPut s v.id K (s1 * (c0s2 - s0c2))).andThen fun s =>
    qPut s v.id W (c1 * (c0c2 - s0s2))
  else
    (qPut s v.id I (c1 * s0c2 - s1 * c0s2)).andThen fun s =>
    (qPut s v.id J (c1 * s0s2 + s1 * c0c2)).andThen fun s =>
    (qPut s v.id K (c1 * c0s2 - s1 * s0c2)).andThen fun s =>
    qPut s v.id W (c1 * c0c2 + s1 * s0s2)).andThen fun s =>
  if u.odd then qPutRes s v.id J (do pure (-(← QArr.get (s v.id) J))) else .ok s

/-- `polar_to_cartesian(v, radius, theta)`, `/repo/cml/mathlib/coordinate_conversion.tpp:17-29`; the
radius is an element. -/
noncomputable def polarToCartesianT (v : AVec ℝ) (radius : ℝ) (theta : A) : Res (AVec ℝ) := do
  v.checkSize 2
  let v ← v.put 0 (T.cos theta * radius)
  v.put 1 (T.sin theta * radius)

/-- `cylindrical_to_cartesian(v, axis, radius, theta, height)`,
`/repo/cml/mathlib/coordinate_conversion.tpp:38-62`; radius and height are elements. -/
noncomputable def cylindricalToCartesianT (v : AVec ℝ) (axis : Int) (radius : ℝ) (theta : A)
    (height : ℝ) : Res (AVec ℝ) := do
  requireAxis axis
  v.checkSize 3
  let p := cyclicPermutation3 axis.toNat
  let v ← v.put p.1 height
  let v ← v.put p.2.1 (T.cos theta * radius)
  v.put p.2.2 (T.sin theta * radius)

/-- `spherical_to_cartesian(v, axis, type, radius, theta, phi)`,
`/repo/cml/mathlib/coordinate_conversion.tpp:72-103`; the radius is an element. -/
noncomputable def sphericalToCartesianT (v : AVec ℝ) (axis : Int) (type : LatitudeType)
    (radius : ℝ) (theta phi : A) : Res (AVec ℝ) := do
  requireAxis axis
  v.checkSize 3
  let phi := if type = .latitude then T.coLat phi else phi
  let sinPhi := T.sin phi
  let cosPhi := T.cos phi
  let sinPhiR := sinPhi * radius
  let p := cyclicPermutation3 axis.toNat
  let v ← v.put p.1 (cosPhi * radius)
  let v ← v.put p.2.1 (sinPhiR * T.cos theta)
  v.put p.2.2 (sinPhiR * T.sin theta)

end

/-- `deg(x)` of an integer, `/repo/cml/scalar/functions.h:107-113`: `constants<int>::deg_per_rad()` is
`180 / M_PI` converted to `int` (`/repo/cml/scalar/constants.h:43`). -/
noncomputable def degZ (x : ℤ) : ℤ := x * truncR Consts.degPerRad

/-- `rad(x)` of an integer, `/repo/cml/scalar/functions.h:115-121`: `constants<int>::rad_per_deg()` is
`M_PI / 180` converted to `int` (`/repo/cml/scalar/constants.h:45`). -/
noncomputable def radZ (x : ℤ) : ℤ := x * truncR Consts.radPerDeg

end CML
