import Verif.Model.Lin

/-!
The remaining functions of `/repo/cml/mathlib/matrix/basis.tpp` (the setters and `matrix_get_basis_vector`
are in `Model/Lin`).  The simplifications of `Model/Lin` apply.
-/

namespace CML
variable {K : Type}

/-- `matrix_get_transposed_basis_vector_2D(m, i)`, `/repo/cml/mathlib/matrix/basis.tpp:129-138`. -/
def getTransposedBasisVector2D (m : BMat K) (i : Int) : Res (AVec K) := do
  m.checkLinear2D
  Res.require (decide (0 ≤ i ∧ i ≤ 1)) .invalidArgument
  let a ← m.bget 0 i.toNat
  let b ← m.bget 1 i.toNat
  pure (.mk2 true a b)

/-- `matrix_get_transposed_basis_vector(m, i)`, `/repo/cml/mathlib/matrix/basis.tpp:310-319`. -/
def getTransposedBasisVector (m : BMat K) (i : Int) : Res (AVec K) := do
  m.checkLinear3D
  Res.require (decide (0 ≤ i ∧ i ≤ 2)) .invalidArgument
  let a ← m.bget 0 i.toNat
  let b ← m.bget 1 i.toNat
  let c ← m.bget 2 i.toNat
  pure (.mk3 true a b c)

/-- `matrix_get_basis_vectors_2D(m, x, y)`, `/repo/cml/mathlib/matrix/basis.tpp:119-127`: the two
vectors that are assigned to `x`, `y`. -/
def getBasisVectors2D (m : BMat K) : Res (AVec K × AVec K) := do
  let x ← getBasisVector2D m 0
  let y ← getBasisVector2D m 1
  pure (x, y)

/-- `matrix_get_transposed_basis_vectors_2D(m, x, y)`, `/repo/cml/mathlib/matrix/basis.tpp:155-163`: the
two vectors that are assigned to `x`, `y`. -/
def getTransposedBasisVectors2D (m : BMat K) : Res (AVec K × AVec K) := do
  let x ← getTransposedBasisVector2D m 0
  let y ← getTransposedBasisVector2D m 1
  pure (x, y)

/-- `matrix_get_basis_vectors(m, x, y, z)`, `/repo/cml/mathlib/matrix/basis.tpp:299-308`: the three
vectors that are assigned to `x`, `y`, `z`. -/
def getBasisVectors (m : BMat K) : Res (AVec K × AVec K × AVec K) := do
  let x ← getBasisVector m 0
  let y ← getBasisVector m 1
  let z ← getBasisVector m 2
  pure (x, y, z)

/-- `matrix_get_transposed_basis_vectors(m, x, y, z)`, `/repo/cml/mathlib/matrix/basis.tpp:344-353`: the
three vectors that are assigned to `x`, `y`, `z`. -/
def getTransposedBasisVectors (m : BMat K) : Res (AVec K × AVec K × AVec K) := do
  let x ← getTransposedBasisVector m 0
  let y ← getTransposedBasisVector m 1
  let z ← getTransposedBasisVector m 2
  pure (x, y, z)

end CML
