import Verif.Model.Lin
import Verif.Model.QuatReal
import Mathlib.Analysis.SpecialFunctions.Complex.Arg

/-!
Rotations: `/repo/cml/mathlib/matrix/rotation.tpp`, `/repo/cml/mathlib/quaternion/rotation.tpp`,
`/repo/cml/mathlib/quaternion/basis.tpp`, `/repo/cml/mathlib/vector/rotation.tpp`,
`/repo/cml/mathlib/vector/orthonormal.tpp`, look-at and field-of-view transforms.

Simplifications common to the file (in addition to those of `Model/Lin.lean`): the elements are real
numbers, the functions of the standard library are the real functions, and vectors that are out
parameters are returned as new vectors.  Quaternions read by a function are nodes in a quaternion
state; quaternions written are variables of that state.
-/

namespace CML

/-- `std::atan2(y, x)` (`scalar_traits<T>::atan2`): the angle of the point `(x, y)`, in `(-π, π]`, with
`atan2(0, 0) = 0`. -/
noncomputable def atan2 (y x : ℝ) : ℝ := Complex.arg ⟨x, y⟩

/-- `length(x, y)` of two scalars, `/repo/cml/scalar/functions.h:164-170`, `180-186`. -/
noncomputable def len2 (x y : ℝ) : ℝ := Real.sqrt (x * x + y * y)

/-- `v.length()`, `/repo/cml/vector/readable_vector.tpp:66-70`. -/
noncomputable def AVec.length (v : AVec ℝ) : Res ℝ := do
  pure (Real.sqrt (← v.lengthSquared))

/-- `v.normalize()`, `/repo/cml/vector/readable_vector.tpp:72-89` and
`/repo/cml/vector/writable_vector.tpp:104-109`. -/
noncomputable def AVec.normalized (v : AVec ℝ) : Res (AVec ℝ) := do
  let l ← v.length
  v.sdiv l

/-- Three basis vectors of three elements, written row by row as the builders below do with nine calls
of `set_basis_element`. -/
def BMat.bput9 {K : Type} (m : BMat K) (i j k : Nat) (ii ij ik ji jj jk ki kj kk : K) :
    Res (BMat K) := do
  let m ← m.bput i i ii
  let m ← m.bput i j ij
  let m ← m.bput i k ik
  let m ← m.bput j i ji
  let m ← m.bput j j jj
  let m ← m.bput j k jk
  let m ← m.bput k i ki
  let m ← m.bput k j kj
  m.bput k k kk

/-! ### Matrix builders -/

/-- `matrix_rotation_2D(m, angle)`, `/repo/cml/mathlib/matrix/rotation.tpp:22-43`. -/
noncomputable def rotation2D (m : BMat ℝ) (angle : ℝ) : Res (BMat ℝ) := do
  m.checkLinear2D
  let m := m.identity
  let s := Real.sin angle
  let c := Real.cos angle
  let m ← m.bput 0 0 c
  let m ← m.bput 0 1 s
  let m ← m.bput 1 0 (-s)
  m.bput 1 1 c

/-- `matrix_rotation_world_axis(m, axis, angle)`, `/repo/cml/mathlib/matrix/rotation.tpp:70-96`. -/
noncomputable def rotationWorldAxis (m : BMat ℝ) (axis : Int) (angle : ℝ) : Res (BMat ℝ) := do
  m.checkLinear3D
  Res.require (decide (0 ≤ axis ∧ axis ≤ 2)) .invalidArgument
  let p := cyclicPermutation3 axis.toNat
  let j := p.2.1
  let k := p.2.2
  let s := Real.sin angle
  let c := Real.cos angle
  let m := m.identity
  let m ← m.bput j j c
  let m ← m.bput j k s
  let m ← m.bput k j (-s)
  m.bput k k c

/-- `matrix_rotation_world_x(m, angle)`, `/repo/cml/mathlib/matrix/rotation.tpp:98-103`. -/
noncomputable def rotationWorldX (m : BMat ℝ) (angle : ℝ) : Res (BMat ℝ) :=
  rotationWorldAxis m 0 angle

/-- `matrix_rotation_world_y(m, angle)`, `/repo/cml/mathlib/matrix/rotation.tpp:105-110`. -/
noncomputable def rotationWorldY (m : BMat ℝ) (angle : ℝ) : Res (BMat ℝ) :=
  rotationWorldAxis m 1 angle

/-- `matrix_rotation_world_z(m, angle)`, `/repo/cml/mathlib/matrix/rotation.tpp:112-117`. -/
noncomputable def rotationWorldZ (m : BMat ℝ) (angle : ℝ) : Res (BMat ℝ) :=
  rotationWorldAxis m 2 angle

/-- `matrix_rotation_axis_angle(m, axis, angle)`, `/repo/cml/mathlib/matrix/rotation.tpp:119-166`. -/
noncomputable def rotationAxisAngle (m : BMat ℝ) (axis : AVec ℝ) (angle : ℝ) : Res (BMat ℝ) := do
  m.checkLinear3D
  axis.checkSize 3
  let m := m.identity
  let s := Real.sin angle
  let c := Real.cos angle
  let omc := 1 - c
  let x ← axis.get 0
  let y ← axis.get 1
  let z ← axis.get 2
  let xomc := x * omc
  let yomc := y * omc
  let zomc := z * omc
  let xxomc := x * xomc
  let yyomc := y * yomc
  let zzomc := z * zomc
  let xyomc := x * yomc
  let yzomc := y * zomc
  let zxomc := z * xomc
  let xs := x * s
  let ys := y * s
  let zs := z * s
  m.bput9 0 1 2
    (xxomc + c) (xyomc + zs) (zxomc - ys)
    (xyomc - zs) (yyomc + c) (yzomc + xs)
    (zxomc + ys) (yzomc - xs) (zzomc + c)

/-- `matrix_rotation_euler(m, angle_0, angle_1, angle_2, order)`,
`/repo/cml/mathlib/matrix/rotation.tpp:168-229`. -/
noncomputable def rotationEuler (m : BMat ℝ) (angle0 angle1 angle2 : ℝ) (order : EulerOrder) :
    Res (BMat ℝ) := do
  m.checkLinear3D
  let m := m.identity
  let u := unpackEulerOrder order.code
  let a0 := if u.odd then -angle0 else angle0
  let a1 := if u.odd then -angle1 else angle1
  let a2 := if u.odd then -angle2 else angle2
  let s0 := Real.sin a0
  let c0 := Real.cos a0
  let s1 := Real.sin a1
  let c1 := Real.cos a1
  let s2 := Real.sin a2
  let c2 := Real.cos a2
  let s0s2 := s0 * s2
  let s0c2 := s0 * c2
  let c0s2 := c0 * s2
  let c0c2 := c0 * c2
  if u.rep then
    m.bput9 u.i u.j u.k
      c1 (s1 * s2) (-s1 * c2)
      (s0 * s1) (-c1 * s0s2 + c0c2) (c1 * s0c2 + c0s2)
      (c0 * s1) (-c1 * c0s2 - s0c2) (c1 * c0c2 - s0s2)
  else
    m.bput9 u.i u.j u.k
      (c1 * c2) (c1 * s2) (-s1)
      (s1 * s0c2 - c0s2) (s1 * s0s2 + c0c2) (s0 * c1)
      (s1 * c0c2 + s0s2) (s1 * c0s2 - s0c2) (c0 * c1)

/-- `matrix_rotation_euler(m, euler, order)`, `/repo/cml/mathlib/matrix/rotation.tpp:231-238`. -/
noncomputable def rotationEulerV (m : BMat ℝ) (euler : AVec ℝ) (order : EulerOrder) :
    Res (BMat ℝ) := do
  euler.checkSize 3
  let a0 ← euler.get 0
  let a1 ← euler.get 1
  let a2 ← euler.get 2
  rotationEuler m a0 a1 a2 order

/-- `matrix_rotation_euler_derivatives(m, axis, angle_0, angle_1, angle_2, order)`,
`/repo/cml/mathlib/matrix/rotation.tpp:240-314`. -/
noncomputable def rotationEulerDerivatives (m : BMat ℝ) (axis : Int) (angle0 angle1 angle2 : ℝ)
    (order : EulerOrder) : Res (BMat ℝ) := do
  Res.require (decide (0 ≤ axis ∧ axis ≤ 2)) .invalidArgument
  m.checkLinear3D
  let m := m.identity
  let u := unpackEulerOrder order.code
  Res.require (!u.rep) .invalidArgument
  let a0 := if u.odd then -angle0 else angle0
  let a1 := if u.odd then -angle1 else angle1
  let a2 := if u.odd then -angle2 else angle2
  let s0 := Real.sin a0
  let c0 := Real.cos a0
  let s1 := Real.sin a1
  let c1 := Real.cos a1
  let s2 := Real.sin a2
  let c2 := Real.cos a2
  let s0s2 := s0 * s2
  let s0c2 := s0 * c2
  let c0s2 := c0 * s2
  let c0c2 := c0 * c2
  if axis = 0 then
    m.bput9 u.i u.j u.k
      0 0 0
      (s1 * c0c2 + s0s2) (s1 * c0s2 - s0c2) (c0 * c1)
      (-s1 * s0c2 + c0s2) (-s1 * s0s2 - c0c2) (-s0 * c1)
  else if axis = 1 then
    m.bput9 u.i u.j u.k
      (-s1 * c2) (-s1 * s2) (-c1)
      (c1 * s0c2) (c1 * s0s2) (-s0 * s1)
      (c1 * c0c2) (c1 * c0s2) (-c0 * s1)
  else if axis = 2 then
    m.bput9 u.i u.j u.k
      (-c1 * s2) (c1 * c2) 0
      (-s1 * s0s2 - c0c2) (s1 * s0c2 - c0s2) 0
      (-s1 * c0s2 + s0c2) (s1 * c0c2 + s0s2) 0
  else pure m

/-- `matrix_rotation_euler_derivatives(m, axis, euler, order)`,
`/repo/cml/mathlib/matrix/rotation.tpp:316-324`. -/
noncomputable def rotationEulerDerivativesV (m : BMat ℝ) (axis : Int) (euler : AVec ℝ)
    (order : EulerOrder) : Res (BMat ℝ) := do
  euler.checkSize 3
  let a0 ← euler.get 0
  let a1 ← euler.get 1
  let a2 ← euler.get 2
  rotationEulerDerivatives m axis a0 a1 a2 order

section
variable {K : Type} [Zero K] [One K] [Add K] [Sub K] [Mul K] [Neg K] [Div K] [DecidableEq K]

/-- `matrix_rotation_quaternion(m, q)`, `/repo/cml/mathlib/matrix/rotation.tpp:326-374`. -/
def rotationQuaternion (s : QState K) (m : BMat K) (q : QNode K) : Res (BMat K) := do
  m.checkLinear3D
  let x ← q.get s q.order.X
  let y ← q.get s q.order.Y
  let z ← q.get s q.order.Z
  let w ← q.get s q.order.W
  let x2 := x + x
  let y2 := y + y
  let z2 := z + z
  let xx2 := x * x2
  let yy2 := y * y2
  let zz2 := z * z2
  let xy2 := x * y2
  let yz2 := y * z2
  let zx2 := z * x2
  let xw2 := w * x2
  let yw2 := w * y2
  let zw2 := w * z2
  let m := m.identity
  m.bput9 0 1 2
    (1 - yy2 - zz2) (xy2 + zw2) (zx2 - yw2)
    (xy2 - zw2) (1 - zz2 - xx2) (yz2 + xw2)
    (zx2 + yw2) (yz2 - xw2) (1 - xx2 - yy2)

/-- `quaternion_get_basis_vector(q, i)`, `/repo/cml/mathlib/quaternion/basis.tpp:13-39`. -/
def quaternionGetBasisVector (s : QState K) (q : QNode K) (i : Int) : Res (AVec K) := do
  Res.require (decide (0 ≤ i ∧ i ≤ 2)) .invalidArgument
  let i := i.toNat
  let j := (i + 1) % 3
  let k := (i + 2) % 3
  let qI ← q.get s (q.order.X + i)
  let qJ ← q.get s (q.order.X + j)
  let qK ← q.get s (q.order.X + k)
  let qW ← q.get s q.order.W
  let j2 := qJ + qJ
  let k2 := qK + qK
  let basis : AVec K := ⟨true, 3, fun _ => 0⟩
  let basis ← basis.put i (1 - qJ * j2 - qK * k2)
  let basis ← basis.put j (qI * j2 + qW * k2)
  basis.put k (qI * k2 - qW * j2)

/-- `quaternion_get_x_basis_vector(q)`, `/repo/cml/mathlib/quaternion/basis.tpp:41-47`. -/
def quaternionGetXBasisVector (s : QState K) (q : QNode K) : Res (AVec K) :=
  quaternionGetBasisVector s q 0

/-- `quaternion_get_y_basis_vector(q)`, `/repo/cml/mathlib/quaternion/basis.tpp:49-55`. -/
def quaternionGetYBasisVector (s : QState K) (q : QNode K) : Res (AVec K) :=
  quaternionGetBasisVector s q 1

/-- `quaternion_get_z_basis_vector(q)`, `/repo/cml/mathlib/quaternion/basis.tpp:57-63`. -/
def quaternionGetZBasisVector (s : QState K) (q : QNode K) : Res (AVec K) :=
  quaternionGetBasisVector s q 2

/-- `quaternion_get_basis_vectors(q, x, y, z)`, `/repo/cml/mathlib/quaternion/basis.tpp:65-75`:
`(x, y, z)`. -/
def quaternionGetBasisVectors (s : QState K) (q : QNode K) : Res (AVec K × AVec K × AVec K) := do
  let x ← quaternionGetXBasisVector s q
  let y ← quaternionGetYBasisVector s q
  let z ← quaternionGetZBasisVector s q
  pure (x, y, z)

end

/-! ### Alignment -/

/-- The three axes of `orthonormal_basis`, an array of `compiled<3>` vectors. -/
def axesPut (axes : Nat → AVec ℝ) (i : Nat) (v : AVec ℝ) : Res (Nat → AVec ℝ) := do
  AVec.checkSameSize (axes i) v
  pure fun j => if j = i then { axes i with el := v.el } else axes j

/-- `orthonormal_basis_2D(align, x, y, normalize_align, order)`,
`/repo/cml/mathlib/vector/orthonormal.tpp:16-46`: `(x, y)`.  The array of uninitialised vectors is
represented by an array of zero vectors; every element is written before it is read. -/
noncomputable def orthonormalBasis2D (align : AVec ℝ) (normalizeAlign : Bool) (order : AxisOrder2D) :
    Res (AVec ℝ × AVec ℝ) := do
  let u := unpackAxisOrder2D order.code
  let i := u.1
  let j := u.2.1
  let axes : Nat → AVec ℝ := fun _ => ⟨true, 2, fun _ => 0⟩
  let axes ← axesPut axes i align
  let axes ← if normalizeAlign then do axesPut axes i (← (axes i).normalized) else .ok axes
  let axes ← axesPut axes j (← perp (axes i))
  let axes ← if u.2.2 then axesPut axes j (axes j).neg else .ok axes
  pure (axes 0, axes 1)

/-- `orthonormal_basis(align, reference, x, y, z, normalize_align, order)`,
`/repo/cml/mathlib/vector/orthonormal.tpp:48-79`: `(x, y, z)`.  The array of uninitialised vectors is
represented by an array of zero vectors; every element is written before it is read. -/
noncomputable def orthonormalBasis (align reference : AVec ℝ) (normalizeAlign : Bool)
    (order : AxisOrder) : Res (AVec ℝ × AVec ℝ × AVec ℝ) := do
  let u := unpackAxisOrder order.code
  let axes : Nat → AVec ℝ := fun _ => ⟨true, 3, fun _ => 0⟩
  let axes ← axesPut axes u.i align
  let axes ← if normalizeAlign then do axesPut axes u.i (← (axes u.i).normalized) else .ok axes
  let c ← (axes u.i).cross reference
  let axes ← axesPut axes u.k (← c.normalized)
  let axes ← axesPut axes u.j (← (axes u.k).cross (axes u.i))
  let axes ← if u.odd then axesPut axes u.k (axes u.k).neg else .ok axes
  pure (axes 0, axes 1, axes 2)

/-- `matrix_rotation_align_2D(m, align, normalize, order)`,
`/repo/cml/mathlib/matrix/rotation.tpp:47-66`. -/
noncomputable def rotationAlign2D (m : BMat ℝ) (align : AVec ℝ) (normalize : Bool)
    (order : AxisOrder2D) : Res (BMat ℝ) := do
  m.checkLinear2D
  let m := m.identity
  let b ← orthonormalBasis2D align normalize order
  setBasisVectors2D m b.1 b.2

/-- `matrix_rotation_align(m, align, reference, normalize, order)`,
`/repo/cml/mathlib/matrix/rotation.tpp:378-396`. -/
noncomputable def rotationAlign (m : BMat ℝ) (align reference : AVec ℝ) (normalize : Bool)
    (order : AxisOrder) : Res (BMat ℝ) := do
  let m := m.identity
  let b ← orthonormalBasis align reference normalize order
  setBasisVectors m b.1 b.2.1 b.2.2

/-- `matrix_rotation_aim_at(m, pos, target, reference, order)`,
`/repo/cml/mathlib/matrix/rotation.tpp:398-405`. -/
noncomputable def rotationAimAt (m : BMat ℝ) (pos target reference : AVec ℝ) (order : AxisOrder) :
    Res (BMat ℝ) := do
  let d ← target.sub pos
  rotationAlign m d reference true order

/-- `matrix_look_at(m, position, target, up, handedness)`,
`/repo/cml/mathlib/matrix/transform.tpp:22-43`. -/
noncomputable def lookAt (m : BMat ℝ) (position target up : AVec ℝ) (h : Handed) :
    Res (BMat ℝ) := do
  m.checkAffine3D
  let m := m.identity
  let s : ℝ := h.s
  let d ← target.sub position
  let z := (← d.normalized).smul s
  let x ← (← up.cross z).normalized
  let y ← z.cross x
  let m ← setTransposedBasisVectors m x y z
  let dx ← position.dot x
  let dy ← position.dot y
  let dz ← position.dot z
  setTranslation m (-dx) (-dy) (-dz)

/-- `matrix_look_at_LH(m, position, target, up)`, `/repo/cml/mathlib/matrix/transform.tpp:45-52`. -/
noncomputable def lookAtLH (m : BMat ℝ) (position target up : AVec ℝ) : Res (BMat ℝ) :=
  lookAt m position target up .left

/-- `matrix_look_at_RH(m, position, target, up)`, `/repo/cml/mathlib/matrix/transform.tpp:54-61`. -/
noncomputable def lookAtRH (m : BMat ℝ) (position target up : AVec ℝ) : Res (BMat ℝ) :=
  lookAt m position target up .right

/-- `matrix_affine_transform(m, axis, angle, translation, normalize)`,
`/repo/cml/mathlib/matrix/transform.tpp:86-99`. -/
noncomputable def affineAxisAngle (m : BMat ℝ) (axis : AVec ℝ) (angle : ℝ) (translation : AVec ℝ)
    (normalize : Bool) : Res (BMat ℝ) := do
  m.checkAffine3D
  let m ← if normalize then do rotationAxisAngle m (← axis.normalized) angle
    else rotationAxisAngle m axis angle
  setTranslationV m translation

/-- `rotate_vector(v, n, angle)`, `/repo/cml/mathlib/vector/rotation.tpp:15-34`. -/
noncomputable def rotateVector (v n : AVec ℝ) (angle : ℝ) : Res (AVec ℝ) := do
  v.checkSize 3
  n.checkSize 3
  let d ← v.dot n
  let parallel := n.smul d
  let sinAngle := Real.sin angle
  let cosAngle := Real.cos angle
  let p ← v.sub parallel
  let c ← n.cross v
  let r ← (p.smul cosAngle).add (c.smul sinAngle)
  r.add parallel

/-! ### Conversion of matrices -/

/-- `matrix_to_axis_angle(m, axis, angle, tolerance)`,
`/repo/cml/mathlib/matrix/rotation.tpp:409-471`: `(axis, angle)` (as the overload in lines
493-500). -/
noncomputable def toAxisAngle (m : BMat ℝ) (tolerance : ℝ) : Res (AVec ℝ × ℝ) := do
  m.checkLinear3D
  let b12 ← m.bget 1 2
  let b21 ← m.bget 2 1
  let b20 ← m.bget 2 0
  let b02 ← m.bget 0 2
  let b01 ← m.bget 0 1
  let b10 ← m.bget 1 0
  let axis := AVec.mk3 true (b12 - b21) (b20 - b02) (b01 - b10)
  let l ← axis.length
  let tmo := (← trace3 m) - 1
  if l > tolerance then do
    let axis ← axis.sdiv l
    pure (axis, atan2 l tmo)
  else if tmo > 0 then
    pure (AVec.mk3 true 0 0 0, 0)
  else do
    let b00 ← m.bget 0 0
    let b11 ← m.bget 1 1
    let b22 ← m.bget 2 2
    let p := cyclicPermutation3 (indexOfMax3 b00 b11 b22)
    let i := p.1
    let j := p.2.1
    let k := p.2.2
    let bii ← m.bget i i
    let bjj ← m.bget j j
    let bkk ← m.bget k k
    let axis ← axis.put i (Real.sqrt (bii - bjj - bkk + 1) / 2)
    let ai ← axis.get i
    let s ← divR 1 (2 * ai)
    let bij ← m.bget i j
    let axis ← axis.put j (bij * s)
    let bik ← m.bget i k
    let axis ← axis.put k (bik * s)
    pure (axis, Real.pi)

/-- `matrix_to_euler(m, angle_0, angle_1, angle_2, order, tolerance)`,
`/repo/cml/mathlib/matrix/rotation.tpp:502-561`: the three angles (as the overloads in lines
583-598). -/
noncomputable def toEuler (m : BMat ℝ) (order : EulerOrder) (tolerance : ℝ) : Res (AVec ℝ) := do
  m.checkLinear3D
  let u := unpackEulerOrder order.code
  let i := u.i
  let j := u.j
  let k := u.k
  let r ← if u.rep then do
      let bji ← m.bget j i
      let bki ← m.bget k i
      let s1 := len2 bji bki
      let c1 ← m.bget i i
      let a1 := atan2 s1 c1
      if s1 > tolerance then do
        let bij ← m.bget i j
        let bik ← m.bget i k
        Res.ok (atan2 bji bki, a1, atan2 bij (-bik))
      else do
        let bkj ← m.bget k j
        let bjj ← m.bget j j
        Res.ok (0, a1, sign c1 * atan2 (-bkj) bjj)
    else do
      let bik ← m.bget i k
      let s1 := -bik
      let bii ← m.bget i i
      let bij ← m.bget i j
      let c1 := len2 bii bij
      let a1 := atan2 s1 c1
      if c1 > tolerance then do
        let bjk ← m.bget j k
        let bkk ← m.bget k k
        Res.ok (atan2 bjk bkk, a1, atan2 bij bii)
      else do
        let bkj ← m.bget k j
        let bjj ← m.bget j j
        Res.ok (0, a1, -(sign s1 * atan2 (-bkj) bjj))
  if u.odd then pure (.mk3 true (-r.1) (-r.2.1) (-r.2.2)) else pure (.mk3 true r.1 r.2.1 r.2.2)

/-! ### Quaternion builders -/

/-- `quaternion_rotation_world_axis(q, axis, angle)`,
`/repo/cml/mathlib/quaternion/rotation.tpp:20-35`. -/
noncomputable def qRotationWorldAxis (s : QState ℝ) (v : QVar) (axis : Int) (angle : ℝ) :
    Out (QState ℝ) :=
  .withVal (Res.require (decide (0 ≤ axis ∧ axis ≤ 2)) .invalidArgument) s fun _ =>
  (qIdentity s v).andThen fun s =>
  (qPut s v.id v.order.W (Real.cos (angle / 2))).andThen fun s =>
  qPut s v.id (v.order.X + axis.toNat) (Real.sin (angle / 2))

/-- `quaternion_rotation_world_x(q, angle)`, `/repo/cml/mathlib/quaternion/rotation.tpp:37-42`. -/
noncomputable def qRotationWorldX (s : QState ℝ) (v : QVar) (angle : ℝ) : Out (QState ℝ) :=
  qRotationWorldAxis s v 0 angle

/-- `quaternion_rotation_world_y(q, angle)`, `/repo/cml/mathlib/quaternion/rotation.tpp:44-49`. -/
noncomputable def qRotationWorldY (s : QState ℝ) (v : QVar) (angle : ℝ) : Out (QState ℝ) :=
  qRotationWorldAxis s v 1 angle

/-- `quaternion_rotation_world_z(q, angle)`, `/repo/cml/mathlib/quaternion/rotation.tpp:51-56`. -/
noncomputable def qRotationWorldZ (s : QState ℝ) (v : QVar) (angle : ℝ) : Out (QState ℝ) :=
  qRotationWorldAxis s v 2 angle

/-- `quaternion_rotation_axis_angle(q, axis, angle)`,
`/repo/cml/mathlib/quaternion/rotation.tpp:58-73`. -/
noncomputable def qRotationAxisAngle (s : QState ℝ) (v : QVar) (axis : AVec ℝ) (angle : ℝ) :
    Out (QState ℝ) :=
  .withVal (axis.checkSize 3) s fun _ =>
  let a := axis.smul (Real.sin (angle / 2))
  qAssignVec s v a.fixed a.size (fun _ i => a.get i) (Real.cos (angle / 2))

/-- `quaternion_rotation_matrix(q, m)`, `/repo/cml/mathlib/quaternion/rotation.tpp:75-126`. -/
noncomputable def qRotationMatrix (s : QState ℝ) (v : QVar) (m : BMat ℝ) : Out (QState ℝ) :=
  let W := v.order.W
  let X := v.order.X
  let Y := v.order.Y
  let Z := v.order.Z
  let at' := fun (s : QState ℝ) i => QArr.get (s v.id) i
  .withVal (do m.checkMinimumSize 3 3; trace3 m) s fun tr =>
  if tr ≥ 0 then
    (qPut s v.id W (Real.sqrt (tr + 1) / 2)).andThen fun s =>
    .withVal (do divR (1 / 4) (← at' s W)) s fun r =>
    (qPutRes s v.id X (do pure (((← m.bget 1 2) - (← m.bget 2 1)) * r))).andThen fun s =>
    (qPutRes s v.id Y (do pure (((← m.bget 2 0) - (← m.bget 0 2)) * r))).andThen fun s =>
    qPutRes s v.id Z (do pure (((← m.bget 0 1) - (← m.bget 1 0)) * r))
  else
    .withVal (do pure (indexOfMax3 (← m.bget 0 0) (← m.bget 1 1) (← m.bget 2 2))) s fun largest =>
    let p := cyclicPermutation3 largest
    let i := p.1
    let j := p.2.1
    let k := p.2.2
    let I := X + i
    let J := X + j
    let K := X + k
    (qPutRes s v.id I (do
      pure (Real.sqrt ((← m.bget i i) - (← m.bget j j) - (← m.bget k k) + 1) / 2))).andThen fun s =>
    .withVal (do divR (1 / 4) (← at' s I)) s fun r =>
    (qPutRes s v.id J (do pure (((← m.bget i j) + (← m.bget j i)) * r))).andThen fun s =>
    (qPutRes s v.id K (do pure (((← m.bget i k) + (← m.bget k i)) * r))).andThen fun s =>
    qPutRes s v.id W (do pure (((← m.bget j k) - (← m.bget k j)) * r))

/-- `quaternion_rotation_euler(q, angle_0, angle_1, angle_2, order)`,
`/repo/cml/mathlib/quaternion/rotation.tpp:128-182`. -/
noncomputable def qRotationEuler (s : QState ℝ) (v : QVar) (angle0 angle1 angle2 : ℝ)
    (order : EulerOrder) : Out (QState ℝ) :=
  let u := unpackEulerOrder order.code
  let W := v.order.W
  let I := v.order.X + u.i
  let J := v.order.X + u.j
  let K := v.order.X + u.k
  let a1 := if u.odd then -angle1 else angle1
  let s0 := Real.sin (angle0 / 2)
  let c0 := Real.cos (angle0 / 2)
  let s1 := Real.sin (a1 / 2)
  let c1 := Real.cos (a1 / 2)
  let s2 := Real.sin (angle2 / 2)
  let c2 := Real.cos (angle2 / 2)
  let s0s2 := s0 * s2
  let s0c2 := s0 * c2
  let c0s2 := c0 * s2
  let c0c2 := c0 * c2
  (if u.rep then
    (qPut s v.id I (c1 * (c0s2 + s0c2))).andThen fun s =>
    (qPut s v.id J (s1 * (c0c2 + s0s2))).andThen fun s =>
    (qPut s v.id K (s1 * (c0s2 - s0c2))).andThen fun s =>
    qPut s v.id W (c1 * (c0c2 - s0s2))
  else
    (qPut s v.id I (c1 * s0c2 - s1 * c0s2)).andThen fun s =>
    (qPut s v.id J (c1 * s0s2 + s1 * c0c2)).andThen fun s =>
    (qPut s v.id K (c1 * c0s2 - s1 * s0c2)).andThen fun s =>
    qPut s v.id W (c1 * c0c2 + s1 * s0s2)).andThen fun s =>
  if u.odd then qPutRes s v.id J (do pure (-(← QArr.get (s v.id) J))) else .ok s

/-- `quaternion_rotation_euler(q, euler, order)`,
`/repo/cml/mathlib/quaternion/rotation.tpp:184-191`. -/
noncomputable def qRotationEulerV (s : QState ℝ) (v : QVar) (euler : AVec ℝ) (order : EulerOrder) :
    Out (QState ℝ) :=
  .withVal (do
    euler.checkSize 3
    let a0 ← euler.get 0
    let a1 ← euler.get 1
    let a2 ← euler.get 2
    pure (a0, a1, a2)) s fun a =>
  qRotationEuler s v a.1 a.2.1 a.2.2 order

/-- `matrix<value_type, compiled<3, 3>> m;`, the temporary of the functions below
(`/repo/cml/mathlib/quaternion/rotation.tpp:202-204`): the default basis is `col_basis`
(`/repo/cml/matrix/matrix.h:36-38`).  The uninitialised elements are represented by zeros; the matrix
functions set all elements before they are read. -/
def tmp33 : BMat ℝ := ⟨⟨3, 3, fun _ _ => 0⟩, .col, true⟩

/-- `quaternion_rotation_align(q, align, reference, normalize, order)`,
`/repo/cml/mathlib/quaternion/rotation.tpp:195-207`. -/
noncomputable def qRotationAlign (s : QState ℝ) (v : QVar) (align reference : AVec ℝ)
    (normalize : Bool) (order : AxisOrder) : Out (QState ℝ) :=
  .withVal (rotationAlign tmp33 align reference normalize order) s fun m =>
  qRotationMatrix s v m

/-- `quaternion_rotation_aim_at(q, pos, target, reference, order)`,
`/repo/cml/mathlib/quaternion/rotation.tpp:209-221`. -/
noncomputable def qRotationAimAt (s : QState ℝ) (v : QVar) (pos target reference : AVec ℝ)
    (order : AxisOrder) : Out (QState ℝ) :=
  .withVal (rotationAimAt tmp33 pos target reference order) s fun m =>
  qRotationMatrix s v m

/-- `quaternion_to_axis_angle(q, axis, angle, tolerance)`,
`/repo/cml/mathlib/quaternion/rotation.tpp:225-248`: `(axis, angle)` (as the overload in lines
271-278). -/
noncomputable def qToAxisAngle (s : QState ℝ) (q : QNode ℝ) (tolerance : ℝ) : Res (AVec ℝ × ℝ) := do
  let x ← qImag s q 0
  let y ← qImag s q 1
  let z ← qImag s q 2
  let axis := AVec.mk3 true x y z
  let l ← axis.length
  if l > tolerance then do
    let axis ← axis.sdiv l
    let r ← qReal s q
    pure (axis, 2 * atan2 l r)
  else
    pure (AVec.mk3 true 0 0 0, 0)

/-- `quaternion_to_euler(q, angle_0, angle_1, angle_2, order, tolerance)`,
`/repo/cml/mathlib/quaternion/rotation.tpp:280-321`. -/
noncomputable def qToEuler (s : QState ℝ) (q : QNode ℝ) (order : EulerOrder) (tolerance : ℝ) :
    Res (AVec ℝ) := do
  let m ← rotationQuaternion s tmp33 q
  toEuler m order tolerance

/-! ### Field of view -/

/-- `matrix_perspective_xfov(m, xfov, aspect, n, f, handedness, z_clip)`,
`/repo/cml/mathlib/matrix/projection.tpp:176-186`. -/
noncomputable def perspectiveXfov (m : BMat ℝ) (xfov aspect n f : ℝ) (h : Handed) (z : ZClip) :
    Res (BMat ℝ) := do
  let width := 2 * n * Real.tan (xfov / 2)
  let height ← divR width aspect
  perspectiveWH m width height n f h z

/-- `matrix_perspective_yfov(m, yfov, aspect, n, f, handedness, z_clip)`,
`/repo/cml/mathlib/matrix/projection.tpp:204-214`. -/
noncomputable def perspectiveYfov (m : BMat ℝ) (yfov aspect n f : ℝ) (h : Handed) (z : ZClip) :
    Res (BMat ℝ) := do
  let height := 2 * n * Real.tan (yfov / 2)
  perspectiveWH m (height * aspect) height n f h z

end CML
