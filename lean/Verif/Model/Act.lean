import Verif.Model.Rotation

/-!
The matrix functions of the mathlib as procedures with an in-out argument: after an exception the argument is
observable.  (`Model/Lin` and `Model/Rotation` describe the same functions without it; `Props/Strong` shows that
both agree.)
-/

namespace CML

/-- Outcome of a procedure: value and final state, exception and the state at that time, undefined. -/
inductive Step (σ α : Type)
  | ok (a : α) (s : σ)
  | throw (e : Err) (s : σ)
  | ub (u : UB)

/-- A procedure with in-out argument of type `σ`. -/
def Act (σ α : Type) : Type := σ → Step σ α

namespace Act
variable {σ α β : Type}

/-- Sequencing: C++ evaluation stops at an exception; what was written stays written. -/
protected def bind (a : Act σ α) (f : α → Act σ β) : Act σ β := fun s =>
  match a s with
  | .ok v s => f v s
  | .throw e s => .throw e s
  | .ub u => .ub u

instance : Monad (Act σ) where
  pure a := fun s => .ok a s
  bind := Act.bind

/-- A computation that reads the argument. -/
def read (r : σ → Res α) : Act σ α := fun s =>
  match r s with
  | .ok a => .ok a s
  | .throw e => .throw e s
  | .ub u => .ub u

/-- A computation that does not use the argument. -/
def eval (r : Res α) : Act σ α := read fun _ => r

/-- Overwrite the argument. -/
def modify (f : σ → σ) : Act σ Unit := fun s => .ok () (f s)

/-- `for(int i = lo; i < lo + n; ++i) body(i)`. -/
def loop (body : Nat → Act σ Unit) : Nat → Nat → Act σ Unit
  | _, 0 => pure ()
  | lo, n + 1 => do body lo; loop body (lo + 1) n

/-- The outcome without the state after an exception. -/
def final (a : Act σ Unit) (s : σ) : Res σ :=
  match a s with
  | .ok _ s => .ok s
  | .throw e _ => .throw e
  | .ub u => .ub u

end Act

open Act

section
variable {K : Type}

/-- `m.set_basis_element(i, j, v)`, `/repo/cml/matrix/writable_matrix.tpp:93-100`, `487-501`. -/
def aPut (i j : Nat) (v : K) : Act (BMat K) Unit := fun m =>
  match m.bput i j v with
  | .ok m' => .ok () m'
  | .throw e => .throw e m
  | .ub u => .ub u

/-- Nine `set_basis_element` calls (`BMat.bput9`). -/
def aPut9 (i j k : Nat) (ii ij ik ji jj jk ki kj kk : K) : Act (BMat K) Unit := do
  aPut i i ii
  aPut i j ij
  aPut i k ik
  aPut j i ji
  aPut j j jj
  aPut j k jk
  aPut k i ki
  aPut k j kj
  aPut k k kk

/-- `matrix_set_basis_vector_2D(m, i, v)`, `/repo/cml/mathlib/matrix/basis.tpp:17-28`. -/
def aSetBasisVector2D (i : Int) (v : AVec K) : Act (BMat K) Unit := do
  read BMat.checkLinear2D
  eval (v.checkSize 2)
  eval (Res.require (decide (0 ≤ i ∧ i ≤ 1)) .invalidArgument)
  let a ← eval (v.get 0)
  aPut i.toNat 0 a
  let a ← eval (v.get 1)
  aPut i.toNat 1 a

/-- `matrix_set_basis_vectors_2D(m, x, y)`, `/repo/cml/mathlib/matrix/basis.tpp:30-53`. -/
def aSetBasisVectors2D (x y : AVec K) : Act (BMat K) Unit := do
  aSetBasisVector2D 0 x
  aSetBasisVector2D 1 y

/-- `matrix_set_transposed_basis_vector_2D(m, i, v)`, `/repo/cml/mathlib/matrix/basis.tpp:55-66`. -/
def aSetTransposedBasisVector2D (i : Int) (v : AVec K) : Act (BMat K) Unit := do
  read BMat.checkLinear2D
  eval (v.checkSize 2)
  eval (Res.require (decide (0 ≤ i ∧ i ≤ 1)) .invalidArgument)
  let a ← eval (v.get 0)
  aPut 0 i.toNat a
  let a ← eval (v.get 1)
  aPut 1 i.toNat a

/-- `matrix_set_transposed_basis_vectors_2D(m, x, y)`, `/repo/cml/mathlib/matrix/basis.tpp:68-91`. -/
def aSetTransposedBasisVectors2D (x y : AVec K) : Act (BMat K) Unit := do
  aSetTransposedBasisVector2D 0 x
  aSetTransposedBasisVector2D 1 y

/-- `matrix_set_basis_vector(m, i, v)`, `/repo/cml/mathlib/matrix/basis.tpp:167-179`. -/
def aSetBasisVector (i : Int) (v : AVec K) : Act (BMat K) Unit := do
  read BMat.checkLinear3D
  eval (v.checkSize 3)
  eval (Res.require (decide (0 ≤ i ∧ i ≤ 2)) .invalidArgument)
  let a ← eval (v.get 0)
  aPut i.toNat 0 a
  let a ← eval (v.get 1)
  aPut i.toNat 1 a
  let a ← eval (v.get 2)
  aPut i.toNat 2 a

/-- `matrix_set_basis_vectors(m, x, y, z)`, `/repo/cml/mathlib/matrix/basis.tpp:181-214`. -/
def aSetBasisVectors (x y z : AVec K) : Act (BMat K) Unit := do
  aSetBasisVector 0 x
  aSetBasisVector 1 y
  aSetBasisVector 2 z

/-- `matrix_set_transposed_basis_vector(m, i, v)`, `/repo/cml/mathlib/matrix/basis.tpp:216-228`. -/
def aSetTransposedBasisVector (i : Int) (v : AVec K) : Act (BMat K) Unit := do
  read BMat.checkLinear3D
  eval (v.checkSize 3)
  eval (Res.require (decide (0 ≤ i ∧ i ≤ 2)) .invalidArgument)
  let a ← eval (v.get 0)
  aPut 0 i.toNat a
  let a ← eval (v.get 1)
  aPut 1 i.toNat a
  let a ← eval (v.get 2)
  aPut 2 i.toNat a

/-- `matrix_set_transposed_basis_vectors(m, x, y, z)`, `/repo/cml/mathlib/matrix/basis.tpp:230-263`. -/
def aSetTransposedBasisVectors (x y z : AVec K) : Act (BMat K) Unit := do
  aSetTransposedBasisVector 0 x
  aSetTransposedBasisVector 1 y
  aSetTransposedBasisVector 2 z

/-- `matrix_set_translation_2D(m, e0, e1)`, `/repo/cml/mathlib/matrix/translation.tpp:14-57`. -/
def aSetTranslation2D (e0 e1 : K) : Act (BMat K) Unit := do
  read BMat.checkAffine2D
  aPut 2 0 e0
  aPut 2 1 e1

/-- `matrix_set_translation_2D(m, v)`, `/repo/cml/mathlib/matrix/translation.tpp:59-67`. -/
def aSetTranslation2DV (v : AVec K) : Act (BMat K) Unit := do
  eval (v.checkSize 2)
  read BMat.checkAffine2D
  let e0 ← eval (v.get 0)
  let e1 ← eval (v.get 1)
  aPut 2 0 e0
  aPut 2 1 e1

/-- `matrix_translation_2D(m, e0, e1)`, `/repo/cml/mathlib/matrix/translation.tpp:95-101`. -/
def aTranslation2D [Zero K] [One K] (e0 e1 : K) : Act (BMat K) Unit := do
  modify BMat.identity
  aSetTranslation2D e0 e1

/-- `matrix_translation_2D(m, v)`, `/repo/cml/mathlib/matrix/translation.tpp:103-109`. -/
def aTranslation2DV [Zero K] [One K] (v : AVec K) : Act (BMat K) Unit := do
  modify BMat.identity
  aSetTranslation2DV v

/-- `matrix_set_translation(m, e0, e1, e2)`, `/repo/cml/mathlib/matrix/translation.tpp:113-120`. -/
def aSetTranslation (e0 e1 e2 : K) : Act (BMat K) Unit := do
  read BMat.checkAffine3D
  aPut 3 0 e0
  aPut 3 1 e1
  aPut 3 2 e2

/-- `matrix_set_translation(m, v)`, `/repo/cml/mathlib/matrix/translation.tpp:131-140`. -/
def aSetTranslationV [Zero K] (v : AVec K) : Act (BMat K) Unit := do
  eval (v.checkSizeRange 2 3)
  read BMat.checkAffine3D
  let e0 ← eval (v.get 0)
  let e1 ← eval (v.get 1)
  let e2 ← eval (if v.size = 3 then v.get 2 else .ok 0)
  aPut 3 0 e0
  aPut 3 1 e1
  aPut 3 2 e2

/-- `matrix_translation(m, e0, e1, e2)`, `/repo/cml/mathlib/matrix/translation.tpp:170-177`. -/
def aTranslation [Zero K] [One K] (e0 e1 e2 : K) : Act (BMat K) Unit := do
  modify BMat.identity
  aSetTranslation e0 e1 e2

/-- `matrix_translation(m, v)`, `/repo/cml/mathlib/matrix/translation.tpp:179-185`. -/
def aTranslationV [Zero K] [One K] (v : AVec K) : Act (BMat K) Unit := do
  modify BMat.identity
  aSetTranslationV v

/-- `matrix_scale_2D(m, e0, e1)`, `/repo/cml/mathlib/matrix/scale.tpp:17-28`. -/
def aScale2D [Zero K] [One K] (e0 e1 : K) : Act (BMat K) Unit := do
  read BMat.checkAffine2D
  modify BMat.identity
  aPut 0 0 e0
  aPut 1 1 e1

/-- `matrix_scale_2D(m, v)`, `/repo/cml/mathlib/matrix/scale.tpp:30-36`. -/
def aScale2DV [Zero K] [One K] (v : AVec K) : Act (BMat K) Unit := do
  eval (v.checkSize 2)
  let a ← eval (v.get 0)
  let b ← eval (v.get 1)
  aScale2D a b

/-- `matrix_inverse_scale_2D(m, e0, e1)`, `/repo/cml/mathlib/matrix/scale.tpp:45-50`. -/
def aInverseScale2D [Field K] [DecidableEq K] (e0 e1 : K) : Act (BMat K) Unit := do
  let a ← eval (divR 1 e0)
  let b ← eval (divR 1 e1)
  aScale2D a b

/-- `matrix_inverse_scale_2D(m, v)`, `/repo/cml/mathlib/matrix/scale.tpp:52-59`. -/
def aInverseScale2DV [Field K] [DecidableEq K] (v : AVec K) : Act (BMat K) Unit := do
  eval (v.checkSize 2)
  let a ← eval (v.get 0)
  let b ← eval (v.get 1)
  aInverseScale2D a b

/-- `matrix_scale(m, e0, e1, e2)`, `/repo/cml/mathlib/matrix/scale.tpp:63-76`. -/
def aScale3D [Zero K] [One K] (e0 e1 e2 : K) : Act (BMat K) Unit := do
  read BMat.checkAffine3D
  modify BMat.identity
  aPut 0 0 e0
  aPut 1 1 e1
  aPut 2 2 e2

/-- `matrix_scale(m, v)`, `/repo/cml/mathlib/matrix/scale.tpp:78-84`. -/
def aScale3DV [Zero K] [One K] (v : AVec K) : Act (BMat K) Unit := do
  eval (v.checkSize 3)
  let a ← eval (v.get 0)
  let b ← eval (v.get 1)
  let c ← eval (v.get 2)
  aScale3D a b c

/-- `matrix_inverse_scale(m, e0, e1, e2)`, `/repo/cml/mathlib/matrix/scale.tpp:93-99`. -/
def aInverseScale3D [Field K] [DecidableEq K] (e0 e1 e2 : K) : Act (BMat K) Unit := do
  let a ← eval (divR 1 e0)
  let b ← eval (divR 1 e1)
  let c ← eval (divR 1 e2)
  aScale3D a b c

/-- `matrix_inverse_scale(m, v)`, `/repo/cml/mathlib/matrix/scale.tpp:101-107`. -/
def aInverseScale3DV [Field K] [DecidableEq K] (v : AVec K) : Act (BMat K) Unit := do
  eval (v.checkSize 3)
  let a ← eval (v.get 0)
  let b ← eval (v.get 1)
  let c ← eval (v.get 2)
  aInverseScale3D a b c

/-- `matrix_skew_symmetric(m, v)`, `/repo/cml/mathlib/matrix/misc.tpp:31-46`. -/
def aSkewSymmetric [Zero K] [Neg K] (v : AVec K) : Act (BMat K) Unit := do
  read BMat.checkLinear3D
  eval (v.checkSize 3)
  modify BMat.zero
  let v0 ← eval (v.get 0)
  let v1 ← eval (v.get 1)
  let v2 ← eval (v.get 2)
  aPut 1 2 v0
  aPut 2 1 (-v0)
  aPut 2 0 v1
  aPut 0 2 (-v1)
  aPut 0 1 v2
  aPut 1 0 (-v2)

/-- `matrix_skew_symmetric_2D(m, s)`, `/repo/cml/mathlib/matrix/misc.tpp:48-57`. -/
def aSkewSymmetric2D [Zero K] [Neg K] (s : K) : Act (BMat K) Unit := do
  read BMat.checkLinear2D
  modify BMat.zero
  aPut 0 1 s
  aPut 1 0 (-s)

/-- `matrix_linear_transform(m, l)`, `/repo/cml/mathlib/matrix/transform.tpp:65-82`. -/
def aLinearTransform [Zero K] [One K] (l : LinSrc K) : Act (BMat K) Unit := do
  read BMat.checkLinear3D
  read fun m => (l.mat m).checkLinear3D
  modify BMat.identity
  loop (fun i => loop (fun j => do
    let e ← read fun m => (l.mat m).bget i j
    aPut i j e) 0 3) 0 3

/-- `matrix_affine_transform(m, linear, translation)`, `/repo/cml/mathlib/matrix/transform.tpp:101-109`. -/
def aAffineTransform [Zero K] [One K] (l : LinSrc K) (t : AVec K) : Act (BMat K) Unit := do
  read BMat.checkAffine3D
  aLinearTransform l
  aSetTranslationV t

/-- `matrix_invert_RT_only_2D(m)`, `/repo/cml/mathlib/matrix/invert.tpp:11-25`. -/
def aInvertRTOnly2D [Add K] [Mul K] [Neg K] : Act (BMat K) Unit := do
  read BMat.checkAffine2D
  let x ← read (getBasisVector2D · 0)
  let y ← read (getBasisVector2D · 1)
  aSetTransposedBasisVectors2D x y
  let p ← read getTranslation2D
  let px ← eval (p.dot x)
  let py ← eval (p.dot y)
  aSetTranslation2D (-px) (-py)

/-- `matrix_invert_RT_only(m)`, `/repo/cml/mathlib/matrix/invert.tpp:27-42`. -/
def aInvertRTOnly [Add K] [Mul K] [Neg K] : Act (BMat K) Unit := do
  read BMat.checkAffine3D
  let x ← read (getBasisVector · 0)
  let y ← read (getBasisVector · 1)
  let z ← read (getBasisVector · 2)
  aSetTransposedBasisVectors x y z
  let p ← read getTranslation
  let px ← eval (p.dot x)
  let py ← eval (p.dot y)
  let pz ← eval (p.dot z)
  aSetTranslation (-px) (-py) (-pz)

/-- `matrix_invert_RT(m)`, `/repo/cml/mathlib/matrix/invert.tpp:44-76` (simplification as in `invertRTSize`). -/
def aInvertRT [Add K] [Mul K] [Neg K] : Act (BMat K) Unit := do
  read BMat.checkAffine
  let M ← read fun m => .ok (invertRTSize m)
  loop (fun i => loop (fun j => do
    let eij ← read (BMat.bget · i j)
    let eji ← read (BMat.bget · j i)
    aPut i j eji
    aPut j i eij) (i + 1) (M - (i + 1))) 0 M
  let T ← read (getBasisVectorND · M)
  loop (fun i => do
    let b ← read (BMat.bget · 0 i)
    let t ← eval (T.get 0)
    let e ← read fun m => Res.loop (fun j e => do
      let b ← m.bget j i
      let t ← T.get j
      pure (e + b * t)) 1 (M - 1) (b * t)
    aPut M i (-e)) 0 M

/-- `matrix_orthographic(m, left, right, bottom, top, n, f, handedness, z_clip)`,
`/repo/cml/mathlib/matrix/projection.tpp:21-51`. -/
def aOrthographic [Field K] [DecidableEq K] (left right bottom top n f : K) (h : Handed)
    (zc : ZClip) : Act (BMat K) Unit := do
  read (BMat.checkMinimumSize · 4 4)
  modify BMat.identity
  let invWidth ← eval (divR 1 (right - left))
  let invHeight ← eval (divR 1 (top - bottom))
  let invDepth ← eval (divR 1 (f - n))
  let s : K := h.s
  match zc with
    | .negOne => do
      aPut 2 2 (s * 2 * invDepth)
      aPut 3 2 (-(f + n) * invDepth)
    | .zero => do
      aPut 2 2 (s * invDepth)
      aPut 3 2 (-n * invDepth)
  aPut 0 0 (2 * invWidth)
  aPut 1 1 (2 * invHeight)
  aPut 3 0 (-(right + left) * invWidth)
  aPut 3 1 (-(top + bottom) * invHeight)

/-- `matrix_perspective(m, left, right, bottom, top, n, f, handedness, z_clip)`,
`/repo/cml/mathlib/matrix/projection.tpp:98-131`. -/
def aPerspective [Field K] [DecidableEq K] (left right bottom top n f : K) (h : Handed)
    (zc : ZClip) : Act (BMat K) Unit := do
  read (BMat.checkMinimumSize · 4 4)
  modify BMat.identity
  let invWidth ← eval (divR 1 (right - left))
  let invHeight ← eval (divR 1 (top - bottom))
  let invDepth ← eval (divR 1 (f - n))
  let near2 := 2 * n
  let s : K := h.s
  match zc with
    | .negOne => do
      aPut 2 2 (s * (f + n) * invDepth)
      aPut 3 2 (-2 * f * n * invDepth)
    | .zero => do
      aPut 2 2 (s * f * invDepth)
      let b ← read (BMat.bget · 2 2)
      aPut 3 2 (-s * n * b)
  aPut 0 0 (near2 * invWidth)
  aPut 1 1 (near2 * invHeight)
  aPut 2 0 (-s * (right + left) * invWidth)
  aPut 2 1 (-s * (top + bottom) * invHeight)
  aPut 2 3 s
  aPut 3 3 0

end

/-- `matrix_rotation_2D(m, angle)`, `/repo/cml/mathlib/matrix/rotation.tpp:22-43`. -/
noncomputable def aRotation2D (angle : ℝ) : Act (BMat ℝ) Unit := do
  read BMat.checkLinear2D
  modify BMat.identity
  let s := Real.sin angle
  let c := Real.cos angle
  aPut 0 0 c
  aPut 0 1 s
  aPut 1 0 (-s)
  aPut 1 1 c

/-- `matrix_rotation_world_axis(m, axis, angle)`, `/repo/cml/mathlib/matrix/rotation.tpp:70-96`. -/
noncomputable def aRotationWorldAxis (axis : Int) (angle : ℝ) : Act (BMat ℝ) Unit := do
  read BMat.checkLinear3D
  eval (Res.require (decide (0 ≤ axis ∧ axis ≤ 2)) .invalidArgument)
  let p := cyclicPermutation3 axis.toNat
  let j := p.2.1
  let k := p.2.2
  let s := Real.sin angle
  let c := Real.cos angle
  modify BMat.identity
  aPut j j c
  aPut j k s
  aPut k j (-s)
  aPut k k c

/-- `matrix_rotation_axis_angle(m, axis, angle)`, `/repo/cml/mathlib/matrix/rotation.tpp:119-166`. -/
noncomputable def aRotationAxisAngle (axis : AVec ℝ) (angle : ℝ) : Act (BMat ℝ) Unit := do
  read BMat.checkLinear3D
  eval (axis.checkSize 3)
  modify BMat.identity
  let s := Real.sin angle
  let c := Real.cos angle
  let omc := 1 - c
  let x ← eval (axis.get 0)
  let y ← eval (axis.get 1)
  let z ← eval (axis.get 2)
  let xomc := x * omc
  let yomc := y * omc
  let zomc := z * omc
  let xxomc := x * xomc
  let yyomc := y * yomc
  let zzomc := z * zomc
  let xyomc := x * yomc
  let yzomc := y * zomc
  let zxomc := z * xomc
  let xs := x * s
  let ys := y * s
  let zs := z * s
  aPut9 0 1 2
    (xxomc + c) (xyomc + zs) (zxomc - ys)
    (xyomc - zs) (yyomc + c) (yzomc + xs)
    (zxomc + ys) (yzomc - xs) (zzomc + c)

/-- `matrix_rotation_euler(m, angle_0, angle_1, angle_2, order)`,
`/repo/cml/mathlib/matrix/rotation.tpp:168-229`. -/
noncomputable def aRotationEuler (angle0 angle1 angle2 : ℝ) (order : EulerOrder) : Act (BMat ℝ) Unit := do
  read BMat.checkLinear3D
  modify BMat.identity
  let u := unpackEulerOrder order.code
  let a0 := if u.odd then -angle0 else angle0
  let a1 := if u.odd then -angle1 else angle1
  let a2 := if u.odd then -angle2 else angle2
  let s0 := Real.sin a0
  let c0 := Real.cos a0
  let s1 := Real.sin a1
  let c1 := Real.cos a1
  let s2 := Real.sin a2
  let c2 := Real.cos a2
  let s0s2 := s0 * s2
  let s0c2 := s0 * c2
  let c0s2 := c0 * s2
  let c0c2 := c0 * c2
  if u.rep then
    aPut9 u.i u.j u.k
      c1 (s1 * s2) (-s1 * c2)
      (s0 * s1) (-c1 * s0s2 + c0c2) (c1 * s0c2 + c0s2)
      (c0 * s1) (-c1 * c0s2 - s0c2) (c1 * c0c2 - s0s2)
  else
    aPut9 u.i u.j u.k
      (c1 * c2) (c1 * s2) (-s1)
      (s1 * s0c2 - c0s2) (s1 * s0s2 + c0c2) (s0 * c1)
      (s1 * c0c2 + s0s2) (s1 * c0s2 - s0c2) (c0 * c1)

/-- `matrix_rotation_euler(m, euler, order)`, `/repo/cml/mathlib/matrix/rotation.tpp:231-238`. -/
noncomputable def aRotationEulerV (euler : AVec ℝ) (order : EulerOrder) : Act (BMat ℝ) Unit := do
  eval (euler.checkSize 3)
  let a0 ← eval (euler.get 0)
  let a1 ← eval (euler.get 1)
  let a2 ← eval (euler.get 2)
  aRotationEuler a0 a1 a2 order

/-- `matrix_rotation_euler_derivatives(m, axis, angle_0, angle_1, angle_2, order)`,
`/repo/cml/mathlib/matrix/rotation.tpp:240-314`. -/
noncomputable def aRotationEulerDerivatives (axis : Int) (angle0 angle1 angle2 : ℝ)
    (order : EulerOrder) : Act (BMat ℝ) Unit := do
  eval (Res.require (decide (0 ≤ axis ∧ axis ≤ 2)) .invalidArgument)
  read BMat.checkLinear3D
  modify BMat.identity
  let u := unpackEulerOrder order.code
  eval (Res.require (!u.rep) .invalidArgument)
  let a0 := if u.odd then -angle0 else angle0
  let a1 := if u.odd then -angle1 else angle1
  let a2 := if u.odd then -angle2 else angle2
  let s0 := Real.sin a0
  let c0 := Real.cos a0
  let s1 := Real.sin a1
  let c1 := Real.cos a1
  let s2 := Real.sin a2
  let c2 := Real.cos a2
  let s0s2 := s0 * s2
  let s0c2 := s0 * c2
  let c0s2 := c0 * s2
  let c0c2 := c0 * c2
  if axis = 0 then
    aPut9 u.i u.j u.k
      0 0 0
      (s1 * c0c2 + s0s2) (s1 * c0s2 - s0c2) (c0 * c1)
      (-s1 * s0c2 + c0s2) (-s1 * s0s2 - c0c2) (-s0 * c1)
  else if axis = 1 then
    aPut9 u.i u.j u.k
      (-s1 * c2) (-s1 * s2) (-c1)
      (c1 * s0c2) (c1 * s0s2) (-s0 * s1)
      (c1 * c0c2) (c1 * c0s2) (-c0 * s1)
  else if axis = 2 then
    aPut9 u.i u.j u.k
      (-c1 * s2) (c1 * c2) 0
      (-s1 * s0s2 - c0c2) (s1 * s0c2 - c0s2) 0
      (-s1 * c0s2 + s0c2) (s1 * c0c2 + s0s2) 0
  else pure ()

/-- `matrix_rotation_align_2D(m, align, normalize, order)`,
`/repo/cml/mathlib/matrix/rotation.tpp:47-66`. -/
noncomputable def aRotationAlign2D (align : AVec ℝ) (normalize : Bool) (order : AxisOrder2D) :
    Act (BMat ℝ) Unit := do
  read BMat.checkLinear2D
  modify BMat.identity
  let b ← eval (orthonormalBasis2D align normalize order)
  aSetBasisVectors2D b.1 b.2

/-- `matrix_rotation_align(m, align, reference, normalize, order)`,
`/repo/cml/mathlib/matrix/rotation.tpp:378-396`. -/
noncomputable def aRotationAlign (align reference : AVec ℝ) (normalize : Bool) (order : AxisOrder) :
    Act (BMat ℝ) Unit := do
  modify BMat.identity
  let b ← eval (orthonormalBasis align reference normalize order)
  aSetBasisVectors b.1 b.2.1 b.2.2

/-- `matrix_rotation_aim_at(m, pos, target, reference, order)`,
`/repo/cml/mathlib/matrix/rotation.tpp:398-405`. -/
noncomputable def aRotationAimAt (pos target reference : AVec ℝ) (order : AxisOrder) : Act (BMat ℝ) Unit := do
  let d ← eval (target.sub pos)
  aRotationAlign d reference true order

/-- `matrix_look_at(m, position, target, up, handedness)`,
`/repo/cml/mathlib/matrix/transform.tpp:22-43`. -/
noncomputable def aLookAt (position target up : AVec ℝ) (h : Handed) : Act (BMat ℝ) Unit := do
  read BMat.checkAffine3D
  modify BMat.identity
  let s : ℝ := h.s
  let d ← eval (target.sub position)
  let n ← eval d.normalized
  let z := n.smul s
  let c ← eval (up.cross z)
  let x ← eval c.normalized
  let y ← eval (z.cross x)
  aSetTransposedBasisVectors x y z
  let dx ← eval (position.dot x)
  let dy ← eval (position.dot y)
  let dz ← eval (position.dot z)
  aSetTranslation (-dx) (-dy) (-dz)

/-- `matrix_affine_transform(m, axis, angle, translation, normalize)`,
`/repo/cml/mathlib/matrix/transform.tpp:86-99`. -/
noncomputable def aAffineAxisAngle (axis : AVec ℝ) (angle : ℝ) (translation : AVec ℝ) (normalize : Bool) :
    Act (BMat ℝ) Unit := do
  read BMat.checkAffine3D
  if normalize then do
    let n ← eval axis.normalized
    aRotationAxisAngle n angle
  else aRotationAxisAngle axis angle
  aSetTranslationV translation

/-- `matrix_rotation_quaternion(m, q)`, `/repo/cml/mathlib/matrix/rotation.tpp:326-374`. -/
def aRotationQuaternion {K : Type} [CommRing K] [Div K] [DecidableEq K] (s : QState K) (q : QNode K) :
    Act (BMat K) Unit := do
  read BMat.checkLinear3D
  let x ← eval (q.get s q.order.X)
  let y ← eval (q.get s q.order.Y)
  let z ← eval (q.get s q.order.Z)
  let w ← eval (q.get s q.order.W)
  let x2 := x + x
  let y2 := y + y
  let z2 := z + z
  let xx2 := x * x2
  let yy2 := y * y2
  let zz2 := z * z2
  let xy2 := x * y2
  let yz2 := y * z2
  let zx2 := z * x2
  let xw2 := w * x2
  let yw2 := w * y2
  let zw2 := w * z2
  modify BMat.identity
  aPut9 0 1 2
    (1 - yy2 - zz2) (xy2 + zw2) (zx2 - yw2)
    (xy2 - zw2) (1 - zz2 - xx2) (yz2 + xw2)
    (zx2 + yw2) (yz2 - xw2) (1 - xx2 - yy2)

end CML
