import Verif.Model.Rotation
import Verif.Model.Scalar

/-!
Angles (`/repo/cml/mathlib/vector/angle.tpp`), coordinate conversions
(`/repo/cml/mathlib/coordinate_conversion.tpp`), random unit vectors
(`/repo/cml/mathlib/random_unit.tpp`) and normalised frustum planes (`/repo/cml/mathlib/frustum.tpp`).

Simplifications common to the file (in addition to those of `Model/Lin.lean` and `Model/Rotation.lean`):
scalar out parameters are returned, and are taken to be distinct from each other and from the operands.
-/

namespace CML

/-! ### Angles -/

/-- `signed_angle_2D(v1, v2)`, `/repo/cml/mathlib/vector/angle.tpp:15-23`. -/
noncomputable def signedAngle2D (v1 v2 : AVec ℝ) : Res ℝ := do
  let p ← v1.perpDot v2
  let d ← v1.dot v2
  pure (atan2 p d)

/-- `unsigned_angle_2D(v1, v2)`, `/repo/cml/mathlib/vector/angle.tpp:25-33`. -/
noncomputable def unsignedAngle2D (v1 v2 : AVec ℝ) : Res ℝ := do
  let a ← signedAngle2D v1 v2
  pure |a|

/-- `signed_angle(v1, v2, reference)`, `/repo/cml/mathlib/vector/angle.tpp:35-47`. -/
noncomputable def signedAngle (v1 v2 reference : AVec ℝ) : Res ℝ := do
  let c ← v1.cross v2
  let l ← c.length
  let d ← v1.dot v2
  let angle := atan2 l d
  let r ← c.dot reference
  pure (if r < 0 then -angle else angle)

/-- `unsigned_angle(v1, v2)`, `/repo/cml/mathlib/vector/angle.tpp:49-57`. -/
noncomputable def unsignedAngle (v1 v2 : AVec ℝ) : Res ℝ := do
  let c ← v1.cross v2
  let l ← c.length
  let d ← v1.dot v2
  pure (atan2 l d)

/-! ### Coordinate conversions -/

/-- `LatitudeType`, `/repo/cml/mathlib/coordinate_conversion.h:18-22`. -/
inductive LatitudeType | latitude | colatitude
  deriving DecidableEq

/-- `cml_require(0 <= axis && axis <= 2, …)`, `/repo/cml/mathlib/coordinate_conversion.tpp:48-49`,
`83-84`, `152-153`, `197-198`. -/
def requireAxis (axis : Int) : Res Unit :=
  Res.require (decide (0 ≤ axis ∧ axis ≤ 2)) .invalidArgument

/-- `polar_to_cartesian(v, radius, theta)`, `/repo/cml/mathlib/coordinate_conversion.tpp:17-29` (and, with
the arguments in another order, lines 31-36). -/
noncomputable def polarToCartesian (v : AVec ℝ) (radius theta : ℝ) : Res (AVec ℝ) := do
  v.checkSize 2
  let v ← v.put 0 (Real.cos theta * radius)
  v.put 1 (Real.sin theta * radius)

/-- `cylindrical_to_cartesian(v, axis, radius, theta, height)`,
`/repo/cml/mathlib/coordinate_conversion.tpp:38-62` (and, with the arguments in another order, lines
64-70). -/
noncomputable def cylindricalToCartesian (v : AVec ℝ) (axis : Int) (radius theta height : ℝ) :
    Res (AVec ℝ) := do
  requireAxis axis
  v.checkSize 3
  let p := cyclicPermutation3 axis.toNat
  let v ← v.put p.1 height
  let v ← v.put p.2.1 (Real.cos theta * radius)
  v.put p.2.2 (Real.sin theta * radius)

/-- `spherical_to_cartesian(v, axis, type, radius, theta, phi)`,
`/repo/cml/mathlib/coordinate_conversion.tpp:72-103` (and, with the arguments in another order, lines
105-111). -/
noncomputable def sphericalToCartesian (v : AVec ℝ) (axis : Int) (type : LatitudeType)
    (radius theta phi : ℝ) : Res (AVec ℝ) := do
  requireAxis axis
  v.checkSize 3
  let phi := if type = .latitude then Real.pi / 2 - phi else phi
  let sinPhi := Real.sin phi
  let cosPhi := Real.cos phi
  let sinPhiR := sinPhi * radius
  let p := cyclicPermutation3 axis.toNat
  let v ← v.put p.1 (cosPhi * radius)
  let v ← v.put p.2.1 (sinPhiR * Real.cos theta)
  v.put p.2.2 (sinPhiR * Real.sin theta)

/-- `cartesian_to_polar(v, radius, theta, tolerance)`,
`/repo/cml/mathlib/coordinate_conversion.tpp:115-130`: `(radius, theta)`.  The overload of lines 132-139
passes a constant tolerance. -/
noncomputable def cartesianToPolar (v : AVec ℝ) (tolerance : ℝ) : Res (ℝ × ℝ) := do
  v.checkSize 2
  let radius ← v.length
  let theta ← if radius < tolerance then .ok 0 else do
    let y ← v.get 1
    let x ← v.get 0
    pure (atan2 y x)
  pure (radius, theta)

/-- `cartesian_to_cylindrical(v, axis, radius, theta, height, tolerance)`,
`/repo/cml/mathlib/coordinate_conversion.tpp:141-166`: `(radius, theta, height)`.  The overload of lines
168-176 passes a constant tolerance, that of lines 178-184 has the arguments in another order. -/
noncomputable def cartesianToCylindrical (v : AVec ℝ) (axis : Int) (tolerance : ℝ) :
    Res (ℝ × ℝ × ℝ) := do
  requireAxis axis
  v.checkSize 3
  let p := cyclicPermutation3 axis.toNat
  let height ← v.get p.1
  let x ← v.get p.2.1
  let y ← v.get p.2.2
  let radius := len2 x y
  let theta := if radius < tolerance then 0 else atan2 y x
  pure (radius, theta, height)

/-- `cartesian_to_spherical(v, axis, type, radius, theta, phi, tolerance)`,
`/repo/cml/mathlib/coordinate_conversion.tpp:186-216`: `(radius, theta, phi)`.  The overload of lines
218-226 passes a constant tolerance, that of lines 228-234 has the arguments in another order. -/
noncomputable def cartesianToSpherical (v : AVec ℝ) (axis : Int) (type : LatitudeType)
    (tolerance : ℝ) : Res (ℝ × ℝ × ℝ) := do
  requireAxis axis
  v.checkSize 3
  let p := cyclicPermutation3 axis.toNat
  let x ← v.get p.2.1
  let y ← v.get p.2.2
  let len := len2 x y
  let theta := if len < tolerance then 0 else atan2 y x
  let z ← v.get p.1
  let radius := len2 z len
  let phi := if radius < tolerance then 0 else
    let phi := atan2 len z
    if type = .latitude then Real.pi / 2 - phi else phi
  pure (radius, theta, phi)

/-! ### Frustum planes -/

/-- `length(x, y, z)` of three scalars, `/repo/cml/scalar/functions.h:172-178`, `188-194`. -/
noncomputable def len3 (x y z : ℝ) : ℝ := Real.sqrt (x * x + y * y + z * z)

/-- One pass of the normalising loop of `extract_frustum_planes`,
`/repo/cml/mathlib/frustum.tpp:74-80`. -/
noncomputable def Plane.normalized (p : Plane ℝ) : Res (Plane ℝ) := do
  let l := len3 p.a p.b p.c
  let a ← divR p.a l
  let b ← divR p.b l
  let c ← divR p.c l
  let d ← divR p.d l
  pure ⟨a, b, c, d⟩

/-- The normalising loop, `/repo/cml/mathlib/frustum.tpp:73-81`, over the list of planes. -/
noncomputable def normalizePlanes : List (Plane ℝ) → Res (List (Plane ℝ))
  | [] => .ok []
  | p :: ps => do
    let q ← p.normalized
    let qs ← normalizePlanes ps
    pure (q :: qs)

/-- `extract_frustum_planes(m, planes, z_clip, normalize)`, `/repo/cml/mathlib/frustum.tpp:25-82`. -/
noncomputable def extractFrustumPlanes (m : BMat ℝ) (zc : ZClip) (normalize : Bool) :
    Res (List (Plane ℝ)) := do
  let ps ← frustumPlanes m zc
  if normalize then normalizePlanes ps else .ok ps

/-- `extract_frustum_planes(modelview, projection, planes, z_clip, normalize)`,
`/repo/cml/mathlib/frustum.tpp:15-23`. -/
noncomputable def extractFrustumPlanes2 (modelview projection : BMat ℝ) (zc : ZClip)
    (normalize : Bool) : Res (List (Plane ℝ)) := do
  let m ← matrixConcat modelview projection
  extractFrustumPlanes m zc normalize

/-! ### Random unit vectors -/

/-- The values returned by the random number generators: the angle drawn by `random_real(-a, a)` and the
normally distributed numbers. -/
structure RandomSource where
  angle : ℝ
  normal : Nat → ℝ

/-- The `do … while` loop of `random_unit(n, gen)` and the normalisation after it,
`/repo/cml/mathlib/random_unit.tpp:103-111`.  The loop is unrolled at most `fuel` times; `none` means that
it has not ended by then.  `pos` is the number of values drawn so far. -/
noncomputable def randomUnitLoop (gen : Nat → ℝ) : Nat → AVec ℝ → Nat → Option (Res (AVec ℝ))
  | 0, _, _ => none
  | fuel + 1, n, pos =>
    let n' : AVec ℝ := { n with el := fun i => if i < n.size then gen (pos + i) else n.el i }
    match n'.lengthSquared with
    | .ok l => if l = 0 then randomUnitLoop gen fuel n' (pos + n.size) else some n'.normalized
    | .throw e => some (.throw e)
    | .ub u => some (.ub u)

/-- `random_unit(n, gen)`, `/repo/cml/mathlib/random_unit.tpp:89-112`, and `random_unit(n)`, lines
114-123. -/
noncomputable def randomUnit (n : AVec ℝ) (gen : Nat → ℝ) (fuel : Nat) : Option (Res (AVec ℝ)) :=
  match n.checkMinimumSize 1 with
  | .ok _ => randomUnitLoop gen fuel n 0
  | .throw e => some (.throw e)
  | .ub u => some (.ub u)

/-- `acos_safe(x)`, `/repo/cml/scalar/functions.h:59-65`. -/
noncomputable def acosSafe (x : ℝ) : ℝ := Real.arccos (clamp x (-1) 1)

/-- `detail::random_unit(n, d, a, int_c<2>)`, `/repo/cml/mathlib/random_unit.tpp:20-40`. -/
noncomputable def randomCone2D (n d : AVec ℝ) (theta : ℝ) : Res (AVec ℝ) := do
  let st := Real.sin theta
  let ct := Real.cos theta
  let d0 ← d.get 0
  let d1 ← d.get 1
  let n ← n.put 0 (ct * d0 - st * d1)
  let n ← n.put 1 (st * d0 + ct * d1)
  n.normalized

/-- `detail::random_unit(n, d, a, int_c<N>)` after the random vector `n` has been drawn,
`/repo/cml/mathlib/random_unit.tpp:58-84`.  `n` and `d` are taken to be distinct vectors. -/
noncomputable def randomConeMap (n d : AVec ℝ) (a : ℝ) : Res (AVec ℝ) := do
  let c ← n.dot d
  let nn := if c < 0 then n.neg else n
  let cosO := if c < 0 then -c else c
  let O := acosSafe cosO
  let e ← (d.smul (Real.sin (O - a))).add (nn.smul (Real.sin a))
  let na ← e.sdiv (Real.sin O)
  let t := O / (Real.pi / 2)
  let e ← (d.smul (Real.sin ((1 - t) * a))).add (na.smul (Real.sin (t * a)))
  let r ← e.sdiv (Real.sin a)
  pure { n with el := r.el }

/-- `random_unit(n, d, a)`, `/repo/cml/mathlib/random_unit.tpp:125-138`; `resizable` tells whether `n` is a
dynamic vector.  The two-dimensional version is chosen if the size of `d` is two at compile time. -/
noncomputable def randomCone (n : AVec ℝ) (resizable : Bool) (d : AVec ℝ) (a : ℝ) (src : RandomSource)
    (fuel : Nat) : Option (Res (AVec ℝ)) :=
  if 0 < a ∧ a ≤ Real.pi / 2 then
    let n : AVec ℝ := if resizable then { n with size := d.size } else n
    match AVec.checkSameSize n d with
    | .ok _ =>
      if d.fixed = true ∧ d.size = 2 then some (randomCone2D n d src.angle)
      else match randomUnit n src.normal fuel with
        | some (.ok n) => some (randomConeMap n d a)
        | r => r
    | .throw e => some (.throw e)
    | .ub u => some (.ub u)
  else some (.throw .invalidArgument)

end CML
