import Verif.Model.SelfBuild

/-!
`matrix_look_at` with arguments that refer to the target (`/repo/cml/mathlib/matrix/transform.tpp:22-43`).  The axes are
expression nodes: `auto z = s * (target - position).normalize()` stores references to `target` and `position`, `auto x =
cross(up, z).normalize()` one to `up`, and only the two lengths are computed at once
(`/repo/cml/vector/readable_vector.tpp:72-89`).  The elements of the axes are computed when they are stored in the
matrix, and again for the translation, from whatever the arguments are then.

Simplification: an axis is evaluated as a whole where the code evaluates one element of it; the sizes do not change, so
that the checks of the nodes succeed again.
-/

namespace CML

/-- An expression node that refers to the target: the vector it stands for at the moment. -/
abbrev LazyVec := BMat ℝ → Res (AVec ℝ)

namespace SelfBuild

/-- `target - position`, `/repo/cml/vector/binary_node.tpp:14-58`. -/
noncomputable def lookD (position target : VArg ℝ) : LazyVec := fun m => do
  let t ← target.view m
  let p ← position.view m
  t.sub p

/-- `s * (target - position).normalize()` with the length `l`, `/repo/cml/mathlib/matrix/transform.tpp:36`. -/
noncomputable def lookZ (position target : VArg ℝ) (s l : ℝ) : LazyVec := fun m => do
  let d ← lookD position target m
  let n ← d.sdiv l
  .ok (n.smul s)

/-- `cross(up, z)`, `/repo/cml/mathlib/matrix/transform.tpp:37`. -/
noncomputable def lookC (up : VArg ℝ) (z : LazyVec) : LazyVec := fun m => do
  let u ← up.view m
  let z ← z m
  u.cross z

/-- `cross(up, z).normalize()` with the length `l`, `/repo/cml/mathlib/matrix/transform.tpp:37`. -/
noncomputable def lookX (up : VArg ℝ) (z : LazyVec) (l : ℝ) : LazyVec := fun m => do
  let c ← lookC up z m
  c.sdiv l

/-- `cross(z, x)`, `/repo/cml/mathlib/matrix/transform.tpp:38`. -/
noncomputable def lookY (z x : LazyVec) : LazyVec := fun m => do
  let z ← z m
  let x ← x m
  z.cross x

/-- `matrix_set_transposed_basis_vector(m, i, v)` with a node `v`, `/repo/cml/mathlib/matrix/basis.tpp:216-228`. -/
noncomputable def setTransposedLazy (m : BMat ℝ) (i : Int) (v : LazyVec) : Res (BMat ℝ) := do
  m.checkLinear3D
  let w ← v m
  w.checkSize 3
  Res.require (decide (0 ≤ i ∧ i ≤ 2)) .invalidArgument
  let w ← v m
  let a ← w.get 0
  let m ← m.bput 0 i.toNat a
  let w ← v m
  let a ← w.get 1
  let m ← m.bput 1 i.toNat a
  let w ← v m
  let a ← w.get 2
  m.bput 2 i.toNat a

/-- `matrix_look_at(m, position, target, up, handedness)`, `/repo/cml/mathlib/matrix/transform.tpp:22-43`. -/
noncomputable def lookAt (m : BMat ℝ) (position target up : VArg ℝ) (h : Handed) : Res (BMat ℝ) := do
  m.checkAffine3D
  let m := m.identity
  let s : ℝ := h.s
  let d ← lookD position target m
  let lz ← d.length
  let z := lookZ position target s lz
  let c ← lookC up z m
  let lx ← c.length
  let x := lookX up z lx
  let y := lookY z x
  let _ ← y m
  let m ← setTransposedLazy m 0 x
  let m ← setTransposedLazy m 1 y
  let m ← setTransposedLazy m 2 z
  let p ← position.view m
  let w ← x m
  let dx ← p.dot w
  let w ← y m
  let dy ← p.dot w
  let w ← z m
  let dz ← p.dot w
  CML.setTranslation m (-dx) (-dy) (-dz)

end SelfBuild

end CML
