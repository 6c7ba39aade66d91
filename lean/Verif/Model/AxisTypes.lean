import Verif.Model.Rotation

/-!
`matrix_to_axis_angle` and `quaternion_to_axis_angle` with output variables of types other than the type of the
elements of the matrix or quaternion.
`Model/Rotation` has the versions in which all types are the real numbers.
-/

namespace CML

/-- The elements of a vector, converted to another type. -/
def AVec.conv (c : ℝ → ℝ) (v : AVec ℝ) : AVec ℝ := { v with el := fun i => c (v.el i) }

/-- `matrix_to_axis_angle(m, axis, angle, tolerance)` for an axis with elements of type `A` and an angle of type `E`,
`/repo/cml/mathlib/matrix/rotation.tpp:409-471`; `ca` and `ce` convert to these types.  The elements are converted
when they are stored (lines 427-429), the length is computed in the type `A`
(`/repo/cml/vector/readable_vector.tpp:57-70`; for integral types `/repo/cml/scalar/traits.h:49-52`), and so is
the quotient in line 437.

Simplification: the values of the types are real numbers; elements of the matrix are exact, sums and products in `A`
as well (as for integral types without overflow). -/
noncomputable def toAxisAngleAs (ca ce : ℝ → ℝ) (m : BMat ℝ) (tolerance : ℝ) : Res (AVec ℝ × ℝ) := do
  m.checkLinear3D
  let b12 ← m.bget 1 2
  let b21 ← m.bget 2 1
  let b20 ← m.bget 2 0
  let b02 ← m.bget 0 2
  let b01 ← m.bget 0 1
  let b10 ← m.bget 1 0
  let axis := AVec.mk3 true (ca (b12 - b21)) (ca (b20 - b02)) (ca (b01 - b10))
  let len ← axis.length
  let l := ca len
  let tmo := (← trace3 m) - 1
  if l > tolerance then do
    let axis ← axis.sdiv l
    pure (axis.conv ca, ce (atan2 l tmo))
  else if tmo > 0 then
    pure (AVec.mk3 true 0 0 0, ce 0)
  else do
    let b00 ← m.bget 0 0
    let b11 ← m.bget 1 1
    let b22 ← m.bget 2 2
    let p := cyclicPermutation3 (indexOfMax3 b00 b11 b22)
    let i := p.1
    let j := p.2.1
    let k := p.2.2
    let bii ← m.bget i i
    let bjj ← m.bget j j
    let bkk ← m.bget k k
    let axis ← axis.put i (ca (Real.sqrt (bii - bjj - bkk + 1) / 2))
    let ai ← axis.get i
    let s ← divR 1 (2 * ai)
    let bij ← m.bget i j
    let axis ← axis.put j (ca (bij * s))
    let bik ← m.bget i k
    let axis ← axis.put k (ca (bik * s))
    pure (axis, ce Real.pi)

/-- `quaternion_to_axis_angle(q, axis, angle, tolerance)` for an axis with elements of type `A` and an angle of type
`E`, `/repo/cml/mathlib/quaternion/rotation.tpp:225-248`; `ca` and `ce` convert to these types.  Line 243 uses the
traits of `E`, so the arguments of `atan2` are converted to `E`, and so is its value
(`/repo/cml/scalar/traits.h:84-87`, `143-146`).

Simplification: as `toAxisAngleAs`; products in `E` are exact as well. -/
noncomputable def qToAxisAngleAs (ca ce : ℝ → ℝ) (s : QState ℝ) (q : QNode ℝ) (tolerance : ℝ) :
    Res (AVec ℝ × ℝ) := do
  let x ← qImag s q 0
  let y ← qImag s q 1
  let z ← qImag s q 2
  let axis := AVec.mk3 true (ca x) (ca y) (ca z)
  let len ← axis.length
  let l := ca len
  if l > tolerance then do
    let axis ← axis.sdiv l
    let r ← qReal s q
    pure (axis.conv ca, ce 2 * ce (atan2 (ce l) (ce r)))
  else
    pure (AVec.mk3 true 0 0 0, ce 0)

end CML
