import Verif.Model.Lin
import Verif.Model.Float

/-!
The projection matrices again, for any element type, so that they can be evaluated in rounded arithmetic.  For fields
they are the functions of `Model/Lin` (`projections_field`).
-/

namespace CML

variable {K : Type} [Zero K] [One K] [Add K] [Sub K] [Mul K] [Neg K] [Div K] [IntCast K] [DecidableEq K]

/-- `matrix_orthographic(m, left, right, bottom, top, n, f, handedness, z_clip)`,
`/repo/cml/mathlib/matrix/projection.tpp:21-51`. -/
def orthographicG (m : BMat K) (left right bottom top n f : K) (h : Handed) (zc : ZClip) : Res (BMat K) := do
  m.checkMinimumSize 4 4
  let m := m.identity
  let two : K := ((2 : ℤ) : K)
  let invWidth ← divR 1 (right - left)
  let invHeight ← divR 1 (top - bottom)
  let invDepth ← divR 1 (f - n)
  let s : K := h.s
  let m ← (match zc with
    | .negOne => do
      let m ← m.bput 2 2 (s * two * invDepth)
      m.bput 3 2 (-(f + n) * invDepth)
    | .zero => do
      let m ← m.bput 2 2 (s * invDepth)
      m.bput 3 2 (-n * invDepth))
  let m ← m.bput 0 0 (two * invWidth)
  let m ← m.bput 1 1 (two * invHeight)
  let m ← m.bput 3 0 (-(right + left) * invWidth)
  m.bput 3 1 (-(top + bottom) * invHeight)

/-- `matrix_perspective(m, left, right, bottom, top, n, f, handedness, z_clip)`,
`/repo/cml/mathlib/matrix/projection.tpp:98-131`. -/
def perspectiveG (m : BMat K) (left right bottom top n f : K) (h : Handed) (zc : ZClip) : Res (BMat K) := do
  m.checkMinimumSize 4 4
  let m := m.identity
  let two : K := ((2 : ℤ) : K)
  let invWidth ← divR 1 (right - left)
  let invHeight ← divR 1 (top - bottom)
  let invDepth ← divR 1 (f - n)
  let near2 := two * n
  let s : K := h.s
  let m ← (match zc with
    | .negOne => do
      let m ← m.bput 2 2 (s * (f + n) * invDepth)
      m.bput 3 2 (-two * f * n * invDepth)
    | .zero => do
      let m ← m.bput 2 2 (s * f * invDepth)
      let b ← m.bget 2 2
      m.bput 3 2 (-s * n * b))
  let m ← m.bput 0 0 (near2 * invWidth)
  let m ← m.bput 1 1 (near2 * invHeight)
  let m ← m.bput 2 0 (-s * (right + left) * invWidth)
  let m ← m.bput 2 1 (-s * (top + bottom) * invHeight)
  let m ← m.bput 2 3 s
  m.bput 3 3 0

end CML
