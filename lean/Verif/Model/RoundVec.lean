import Verif.Model.RoundBuild

/-!
`rotate_vector` again, for any element type with a sine and a cosine, so that it can be evaluated in rounded
arithmetic.
-/

namespace CML

variable {K : Type} [Add K] [Sub K] [Mul K]

/-- `rotate_vector(v, n, angle)`, `/repo/cml/mathlib/vector/rotation.tpp:15-34`. -/
def rotateVectorG (T : Trig K) (v n : AVec K) (angle : K) : Res (AVec K) := do
  v.checkSize 3
  n.checkSize 3
  let d ← v.dot n
  let parallel := n.smul d
  let sinAngle := T.sin angle
  let cosAngle := T.cos angle
  let p ← v.sub parallel
  let c ← n.cross v
  let r ← (p.smul cosAngle).add (c.smul sinAngle)
  r.add parallel

end CML
