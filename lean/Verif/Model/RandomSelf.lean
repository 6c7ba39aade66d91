import Verif.Model.Geometry

/-!
`random_unit(n, d, a)` with the same vector for `n` and `d`: `random_unit(v, v, a)`, which the signature admits
(`/repo/cml/mathlib/random_unit.tpp:125-128`).  The versions for distinct vectors are in `Model/Geometry`.
-/

namespace CML

/-- `detail::random_unit(v, v, a, int_c<2>)`, `/repo/cml/mathlib/random_unit.tpp:20-40`: the second element is
computed from the first one after the assignment to it. -/
noncomputable def randomCone2DSelf (v : AVec ℝ) (theta : ℝ) : Res (AVec ℝ) := do
  let st := Real.sin theta
  let ct := Real.cos theta
  let d0 ← v.get 0
  let d1 ← v.get 1
  let v ← v.put 0 (ct * d0 - st * d1)
  let d0 ← v.get 0
  let d1 ← v.get 1
  let v ← v.put 1 (st * d0 + ct * d1)
  v.normalized

/-- `random_unit(v, v, a)`, `/repo/cml/mathlib/random_unit.tpp:125-138`.  In the general version the drawn vector
replaces the direction before it is used (line 56).  The sizes agree, so `check_or_resize` does nothing. -/
noncomputable def randomConeSelf (v : AVec ℝ) (a : ℝ) (src : RandomSource) (fuel : Nat) : Option (Res (AVec ℝ)) :=
  if 0 < a ∧ a ≤ Real.pi / 2 then
    if v.fixed = true ∧ v.size = 2 then some (randomCone2DSelf v src.angle)
    else match randomUnit v src.normal fuel with
      | some (.ok v) => some (randomConeMap v v a)
      | r => r
  else some (.throw .invalidArgument)

end CML
