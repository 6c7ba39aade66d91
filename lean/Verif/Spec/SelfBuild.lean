import Verif.Model.SelfBuild
import Verif.Spec.Rotation
import Verif.Spec.SelfArg

/-!
What arguments of the transform builders that refer to the target mean (C123): the values before the call.
-/

namespace CML
variable {K : Type}

/-- The element, row or column the argument refers to exists. -/
def SArg.In (m : BMat K) : SArg K → Prop
  | .val _ => True
  | .own i j => i < m.rows ∧ j < m.cols

/-- The value of the argument while the target is `m`. -/
def SArg.now (m : BMat K) : SArg K → K
  | .val x => x
  | .own i j => m.el i j

/-- The row or column the argument refers to exists. -/
def VArg.In (m : BMat K) : VArg K → Prop
  | .other _ => True
  | .row i => i < m.rows
  | .col j => j < m.cols

/-- Basis vector `i` of the target: a row of a row-basis matrix, a column of a column-basis matrix. -/
def VArg.basisVec (b : Basis) (i : Nat) : VArg K :=
  match b with
  | .row => .row i
  | .col => .col i

/-- The vector across all basis vectors of the target: a column of a row-basis matrix, a row of a column-basis
matrix. -/
def VArg.crossVec (b : Basis) (j : Nat) : VArg K :=
  match b with
  | .row => .col j
  | .col => .row j

/-- Scalar argument `a` of a function that stores the translation of a three-dimensional transform: a value, a
component of the translation of the target, or another element of the target. -/
inductive SArg.IsTrans (m : BMat K) : SArg K → Src K 3 → Prop
  | val (x : K) : SArg.IsTrans m (.val x) (.val x)
  | rowOwn (h : m.basis = .row) (j : Fin 3) : SArg.IsTrans m (.own 3 j) (.own j)
  | colOwn (h : m.basis = .col) (j : Fin 3) : SArg.IsTrans m (.own j 3) (.own j)
  | other (i j : Nat) (h : i < m.rows ∧ j < m.cols) (hn : ¬m.TransPos 3 i j) :
    SArg.IsTrans m (.own i j) (.val (m.el i j))

/-- Basis vectors have `n` elements. -/
def BMat.BasisSize (m : BMat K) (n : Nat) : Prop :=
  match m.basis with
  | .row => m.cols = n
  | .col => m.rows = n

/-- Basis vector `i` exists. -/
def BMat.HasBasis (m : BMat K) (i : Nat) : Prop :=
  match m.basis with
  | .row => i < m.rows
  | .col => i < m.cols

/-- Element `k` of basis vector `i`. -/
def BMat.basisEl (m : BMat K) (i k : Nat) : K :=
  match m.basis with
  | .row => m.el i k
  | .col => m.el k i

/-- Vector argument `v` of `matrix_set_basis_vectors`: a vector elsewhere, one of the basis vectors that are written, or
the remaining basis vector (the translation) of the target. -/
inductive VArg.IsBasis (m : BMat K) : VArg K → Src (Fin 3 → K) 3 → Prop
  /-- a vector elsewhere -/
  | vec (v : AVec K) (y : Fin 3 → K) (h : v.Is 3 y) : VArg.IsBasis m (.other v) (.val y)
  /-- one of the basis vectors that are written -/
  | own (j : Fin 3) (h : m.BasisSize 3) : VArg.IsBasis m (.basisVec m.basis j) (.own j)
  /-- another basis vector (the translation) -/
  | rest (j : Nat) (h : m.BasisSize 3) (h3 : 3 ≤ j) (hj : m.HasBasis j) :
    VArg.IsBasis m (.basisVec m.basis j) (.val fun k => m.basisEl j k)

end CML
