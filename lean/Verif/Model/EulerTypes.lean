import Verif.Model.Rotation

/-!
`matrix_to_euler` with output variables of three different types.  `Model/Rotation` has the version in which all types
are the real numbers.
-/

namespace CML

/-- `matrix_to_euler(m, angle_0, angle_1, angle_2, order, tolerance)` for angles of the types `E0`, `E1`, `E2`,
`/repo/cml/mathlib/matrix/rotation.tpp:502-561`; `c0`, `c1`, `c2` convert to these types.  Lines 530-531 convert the third
angle to `E0`, and the assignment converts it to `E2`.

Simplification: the values of the three types are real numbers; elements of the matrix and `atan2` are exact. -/
noncomputable def toEulerAs (c0 c1 c2 : ℝ → ℝ) (m : BMat ℝ) (order : EulerOrder) (tolerance : ℝ) :
    Res (ℝ × ℝ × ℝ) := do
  m.checkLinear3D
  let u := unpackEulerOrder order.code
  let i := u.i
  let j := u.j
  let k := u.k
  let r ← if u.rep then do
      let bji ← m.bget j i
      let bki ← m.bget k i
      let s1 := len2 bji bki
      let cos1 ← m.bget i i
      let a1 := c1 (atan2 s1 cos1)
      if s1 > tolerance then do
        let bij ← m.bget i j
        let bik ← m.bget i k
        Res.ok (c0 (atan2 bji bki), a1, c2 (c0 (atan2 bij (-bik))))
      else do
        let bkj ← m.bget k j
        let bjj ← m.bget j j
        Res.ok (c0 0, a1, c2 (sign cos1 * atan2 (-bkj) bjj))
    else do
      let bik ← m.bget i k
      let s1 := -bik
      let bii ← m.bget i i
      let bij ← m.bget i j
      let cos1 := len2 bii bij
      let a1 := c1 (atan2 s1 cos1)
      if cos1 > tolerance then do
        let bjk ← m.bget j k
        let bkk ← m.bget k k
        Res.ok (c0 (atan2 bjk bkk), a1, c2 (atan2 bij bii))
      else do
        let bkj ← m.bget k j
        let bjj ← m.bget j j
        Res.ok (c0 0, a1, -(c2 (sign s1 * atan2 (-bkj) bjj)))
  if u.odd then pure (-r.1, -r.2.1, -r.2.2) else pure r

end CML
