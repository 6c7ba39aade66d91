import Verif.Model.Geometry
import Verif.Model.Basis

/-!
Output arguments.  The conversion functions of `/repo/cml/mathlib/` return their results through references
(`E0& radius`, `writable_vector<ASub>& axis`).  Nothing keeps a program from passing references to the elements of the
very vector or matrix that is converted (`v[i]` and `M(i,j)` of a variable are references,
`/repo/cml/scalar/traits.h:33-34`), or an external vector over its storage (`/repo/cml/vector/fixed_external.h`).  Here the
functions are modelled statement by statement on cells of memory, so that every read sees the writes before it.

Simplifications: all scalars have the type `ℝ` and all cells hold a value; a resizable output vector is taken to have
its final size (`check_or_resize` with another size allocates new storage, which nothing else refers to).
-/

namespace CML

/-- Memory: the value in every cell. -/
abbrev Cells := Nat → ℝ

/-- The assignment of `x` to the object in cell `a`. -/
def Cells.wr (σ : Cells) (a : Nat) (x : ℝ) : Cells := fun b => if b = a then x else σ b

/-- A vector in memory, `/repo/cml/vector/fixed_compiled.h`, `/repo/cml/vector/fixed_external.h`: element `i` is in the cell
`addr i`.  Nothing is assumed about the cells, so that vectors may overlap. -/
structure VAt where
  fixed : Bool
  size : Nat
  addr : Nat → Nat

/-- The vector as it is now. -/
def VAt.load (σ : Cells) (v : VAt) : AVec ℝ := ⟨v.fixed, v.size, fun i => σ (v.addr i)⟩

/-- A matrix in memory, `/repo/cml/matrix/fixed_compiled.h`, `/repo/cml/matrix/fixed_external.h`: element `(r, c)` is in the
cell `addr r c`. -/
structure MAt where
  rows : Nat
  cols : Nat
  basis : Basis
  fixed : Bool
  addr : Nat → Nat → Nat

/-- The matrix as it is now. -/
def MAt.load (σ : Cells) (m : MAt) : BMat ℝ := ⟨⟨m.rows, m.cols, fun r c => σ (m.addr r c)⟩, m.basis, m.fixed⟩

/-- The cell of `basis_element(i, j)`, `/repo/cml/matrix/readable_matrix.tpp:58-63`, `99-113`. -/
def MAt.cell (m : MAt) (i j : Nat) : Nat :=
  match m.basis with
  | .row => m.addr i j
  | .col => m.addr j i

/-- A quaternion in memory, `/repo/cml/quaternion/fixed_compiled.h`. -/
structure QAt where
  order : QOrder
  addr : Nat → Nat

/-- The quaternion as it is now: variable number 0 of a state. -/
def QAt.load (σ : Cells) (q : QAt) : QState ℝ := fun _ i => some (σ (q.addr i))

/-- The quaternion as an operand. -/
def QAt.node (q : QAt) : QNode ℝ := .var ⟨0, q.order, .positive⟩

/-! ### Coordinates -/

/-- `cartesian_to_polar(v, radius, theta, tolerance)`, `/repo/cml/mathlib/coordinate_conversion.tpp:115-139`. -/
noncomputable def polarInto (σ : Cells) (v : VAt) (radius theta : Nat) (tolerance : ℝ) : Res Cells := do
  (v.load σ).checkSize 2
  let l ← (v.load σ).length
  let σ := σ.wr radius l
  let t ← if σ radius < tolerance then .ok 0 else do
    let y ← (v.load σ).get 1
    let x ← (v.load σ).get 0
    .ok (atan2 y x)
  .ok (σ.wr theta t)

/-- `cartesian_to_cylindrical(v, axis, radius, theta, height, tolerance)`,
`/repo/cml/mathlib/coordinate_conversion.tpp:141-184`. -/
noncomputable def cylindricalInto (σ : Cells) (v : VAt) (axis : Int) (radius theta height : Nat) (tolerance : ℝ) :
    Res Cells := do
  requireAxis axis
  (v.load σ).checkSize 3
  let p := cyclicPermutation3 axis.toNat
  let z ← (v.load σ).get p.1
  let σ := σ.wr height z
  let x ← (v.load σ).get p.2.1
  let y ← (v.load σ).get p.2.2
  let σ := σ.wr radius (len2 x y)
  let t ← if σ radius < tolerance then .ok 0 else do
    let y ← (v.load σ).get p.2.2
    let x ← (v.load σ).get p.2.1
    .ok (atan2 y x)
  .ok (σ.wr theta t)

/-- `cartesian_to_spherical(v, axis, type, radius, theta, phi, tolerance)`,
`/repo/cml/mathlib/coordinate_conversion.tpp:186-234`. -/
noncomputable def sphericalInto (σ : Cells) (v : VAt) (axis : Int) (type : LatitudeType) (radius theta phi : Nat)
    (tolerance : ℝ) : Res Cells := do
  requireAxis axis
  (v.load σ).checkSize 3
  let p := cyclicPermutation3 axis.toNat
  let x ← (v.load σ).get p.2.1
  let y ← (v.load σ).get p.2.2
  let len := len2 x y
  let t ← if len < tolerance then .ok 0 else do
    let y ← (v.load σ).get p.2.2
    let x ← (v.load σ).get p.2.1
    .ok (atan2 y x)
  let σ := σ.wr theta t
  let z ← (v.load σ).get p.1
  let σ := σ.wr radius (len2 z len)
  if σ radius < tolerance then .ok (σ.wr phi 0) else do
    let z ← (v.load σ).get p.1
    let σ := σ.wr phi (atan2 len z)
    if type = .latitude then .ok (σ.wr phi (Real.pi / 2 - σ phi)) else .ok σ

/-! ### Rotations -/

/-- `matrix_to_euler(m, angle_0, angle_1, angle_2, order, tolerance)`,
`/repo/cml/mathlib/matrix/rotation.tpp:502-561`. -/
noncomputable def eulerInto (σ : Cells) (m : MAt) (a0 a1 a2 : Nat) (order : EulerOrder) (tolerance : ℝ) :
    Res Cells := do
  (m.load σ).checkLinear3D
  let u := unpackEulerOrder order.code
  let i := u.i
  let j := u.j
  let k := u.k
  let σ ← if u.rep then do
      let bji ← (m.load σ).bget j i
      let bki ← (m.load σ).bget k i
      let s1 := len2 bji bki
      let c1 ← (m.load σ).bget i i
      let σ := σ.wr a1 (atan2 s1 c1)
      if s1 > tolerance then do
        let bji ← (m.load σ).bget j i
        let bki ← (m.load σ).bget k i
        let σ := σ.wr a0 (atan2 bji bki)
        let bij ← (m.load σ).bget i j
        let bik ← (m.load σ).bget i k
        Res.ok (σ.wr a2 (atan2 bij (-bik)))
      else do
        let σ := σ.wr a0 0
        let bkj ← (m.load σ).bget k j
        let bjj ← (m.load σ).bget j j
        Res.ok (σ.wr a2 (sign c1 * atan2 (-bkj) bjj))
    else do
      let bik ← (m.load σ).bget i k
      let s1 := -bik
      let bii ← (m.load σ).bget i i
      let bij ← (m.load σ).bget i j
      let c1 := len2 bii bij
      let σ := σ.wr a1 (atan2 s1 c1)
      if c1 > tolerance then do
        let bjk ← (m.load σ).bget j k
        let bkk ← (m.load σ).bget k k
        let σ := σ.wr a0 (atan2 bjk bkk)
        let bij ← (m.load σ).bget i j
        let bii ← (m.load σ).bget i i
        Res.ok (σ.wr a2 (atan2 bij bii))
      else do
        let σ := σ.wr a0 0
        let bkj ← (m.load σ).bget k j
        let bjj ← (m.load σ).bget j j
        Res.ok (σ.wr a2 (-(sign s1 * atan2 (-bkj) bjj)))
  if u.odd then
    let σ := σ.wr a0 (-σ a0)
    let σ := σ.wr a1 (-σ a1)
    .ok (σ.wr a2 (-σ a2))
  else .ok σ

/-- The three elements of `axis` are assigned one after the other, `/repo/cml/vector/writable_vector.tpp:119-125`,
`229-237`, `448-457`. -/
def Cells.wr3 (σ : Cells) (axis : VAt) (x y z : ℝ) : Cells :=
  ((σ.wr (axis.addr 0) x).wr (axis.addr 1) y).wr (axis.addr 2) z

/-- `axis /= l`, `/repo/cml/vector/writable_vector.tpp:370-380`: every element is read, divided and stored. -/
noncomputable def Cells.div3 (σ : Cells) (axis : VAt) (l : ℝ) : Res Cells := do
  let x ← divR (σ (axis.addr 0)) l
  let σ := σ.wr (axis.addr 0) x
  let y ← divR (σ (axis.addr 1)) l
  let σ := σ.wr (axis.addr 1) y
  let z ← divR (σ (axis.addr 2)) l
  .ok (σ.wr (axis.addr 2) z)

/-- `matrix_to_axis_angle(m, axis, angle, tolerance)`, `/repo/cml/mathlib/matrix/rotation.tpp:409-471`. -/
noncomputable def axisAngleInto (σ : Cells) (m : MAt) (axis : VAt) (angle : Nat) (tolerance : ℝ) : Res Cells := do
  (m.load σ).checkLinear3D
  (axis.load σ).checkSize 3
  let b12 ← (m.load σ).bget 1 2
  let b21 ← (m.load σ).bget 2 1
  let b20 ← (m.load σ).bget 2 0
  let b02 ← (m.load σ).bget 0 2
  let b01 ← (m.load σ).bget 0 1
  let b10 ← (m.load σ).bget 1 0
  let σ := σ.wr3 axis (b12 - b21) (b20 - b02) (b01 - b10)
  let l ← (axis.load σ).length
  let tmo := (← trace3 (m.load σ)) - 1
  if l > tolerance then do
    let σ ← σ.div3 axis l
    .ok (σ.wr angle (atan2 l tmo))
  else if tmo > 0 then
    .ok ((σ.wr3 axis 0 0 0).wr angle 0)
  else do
    let b00 ← (m.load σ).bget 0 0
    let b11 ← (m.load σ).bget 1 1
    let b22 ← (m.load σ).bget 2 2
    let p := cyclicPermutation3 (indexOfMax3 b00 b11 b22)
    let i := p.1
    let j := p.2.1
    let k := p.2.2
    let bii ← (m.load σ).bget i i
    let bjj ← (m.load σ).bget j j
    let bkk ← (m.load σ).bget k k
    let σ := σ.wr (axis.addr i) (Real.sqrt (bii - bjj - bkk + 1) / 2)
    let s ← divR 1 (2 * σ (axis.addr i))
    let bij ← (m.load σ).bget i j
    let σ := σ.wr (axis.addr j) (bij * s)
    let bik ← (m.load σ).bget i k
    let σ := σ.wr (axis.addr k) (bik * s)
    .ok (σ.wr angle Real.pi)

/-- `quaternion_to_axis_angle(q, axis, angle, tolerance)`, `/repo/cml/mathlib/quaternion/rotation.tpp:225-248`: the
vector `q.imaginary()` refers to `q` and is read while `axis` is written. -/
noncomputable def qAxisAngleInto (σ : Cells) (q : QAt) (axis : VAt) (angle : Nat) (tolerance : ℝ) : Res Cells := do
  (axis.load σ).checkSize 3
  let x ← qImag (q.load σ) q.node 0
  let σ := σ.wr (axis.addr 0) x
  let y ← qImag (q.load σ) q.node 1
  let σ := σ.wr (axis.addr 1) y
  let z ← qImag (q.load σ) q.node 2
  let σ := σ.wr (axis.addr 2) z
  let l ← (axis.load σ).length
  if l > tolerance then do
    let σ ← σ.div3 axis l
    let r ← qReal (q.load σ) q.node
    .ok (σ.wr angle (2 * atan2 l r))
  else
    .ok ((σ.wr3 axis 0 0 0).wr angle 0)

/-! ### Parts of a matrix -/

/-- `matrix_get_translation(m, e0, e1, e2)`, `/repo/cml/mathlib/matrix/translation.tpp:142-154`. -/
noncomputable def translationInto (σ : Cells) (m : MAt) (e0 e1 e2 : Nat) : Res Cells := do
  (m.load σ).checkAffine3D
  let x ← (m.load σ).bget 3 0
  let σ := σ.wr e0 x
  let y ← (m.load σ).bget 3 1
  let σ := σ.wr e1 y
  let z ← (m.load σ).bget 3 2
  .ok (σ.wr e2 z)

/-- The assignment of a vector of three elements that is a temporary of its own,
`/repo/cml/vector/writable_vector.tpp:394-402` (`check_or_resize` first). -/
noncomputable def Cells.assign3 (σ : Cells) (x : VAt) (t : AVec ℝ) : Res Cells := do
  (x.load σ).checkSize 3
  let a ← t.get 0
  let b ← t.get 1
  let c ← t.get 2
  .ok (σ.wr3 x a b c)

/-- `matrix_get_basis_vectors(m, x, y, z)`, `/repo/cml/mathlib/matrix/basis.tpp:299-308`: one vector is extracted and
assigned after the other. -/
noncomputable def basisVectorsInto (σ : Cells) (m : MAt) (x y z : VAt) : Res Cells := do
  let a ← getBasisVector (m.load σ) 0
  let σ ← σ.assign3 x a
  let b ← getBasisVector (m.load σ) 1
  let σ ← σ.assign3 y b
  let c ← getBasisVector (m.load σ) 2
  σ.assign3 z c

/-- `matrix_get_transposed_basis_vectors(m, x, y, z)`, `/repo/cml/mathlib/matrix/basis.tpp:344-353`. -/
noncomputable def transposedBasisVectorsInto (σ : Cells) (m : MAt) (x y z : VAt) : Res Cells := do
  let a ← getTransposedBasisVector (m.load σ) 0
  let σ ← σ.assign3 x a
  let b ← getTransposedBasisVector (m.load σ) 1
  let σ ← σ.assign3 y b
  let c ← getTransposedBasisVector (m.load σ) 2
  σ.assign3 z c

/-- `orthonormal_basis(align, reference, x, y, z, normalize_align, order)`,
`/repo/cml/mathlib/vector/orthonormal.tpp:48-79`: the axes are computed in temporaries and then assigned. -/
noncomputable def orthonormalInto (σ : Cells) (align reference x y z : VAt) (normalizeAlign : Bool)
    (order : AxisOrder) : Res Cells := do
  let b ← orthonormalBasis (align.load σ) (reference.load σ) normalizeAlign order
  let σ ← σ.assign3 x b.1
  let σ ← σ.assign3 y b.2.1
  σ.assign3 z b.2.2

end CML
