import Verif.Model.Lin
import Verif.Spec.Mat
import Mathlib.LinearAlgebra.CrossProduct
import Mathlib.LinearAlgebra.Matrix.Determinant.Basic
import Mathlib.LinearAlgebra.UnitaryGroup

/-!
Specification side of the transforms: the linear map, the translation and the affine map a matrix
stands for, in either basis.  A column-basis matrix acts on column vectors, a row-basis matrix on row
vectors, so the linear map of a row-basis matrix is its transpose.
-/

namespace CML
variable {K : Type}

/-- The `n × n` linear part, as a matrix acting on column vectors. -/
def linOf (m : BMat K) (n : Nat) : Matrix (Fin n) (Fin n) K :=
  match m.basis with
  | .col => m.toMat.toMatrix n n
  | .row => (m.toMat.toMatrix n n).transpose

/-- The translation part of an `n`-dimensional affine transform: the last column (column basis) or the
last row (row basis). -/
def transOf (m : BMat K) (n : Nat) : Fin n → K :=
  match m.basis with
  | .col => fun j => m.el j n
  | .row => fun j => m.el n j

/-- The affine map of `m` in dimension `n`. -/
def affOf [Semiring K] (m : BMat K) (n : Nat) (x : Fin n → K) : Fin n → K :=
  (linOf m n).mulVec x + transOf m n

/-- The elements of a vector of size `n`. -/
def AVec.vec (v : AVec K) (n : Nat) : Fin n → K := fun i => v.el i

/-- `v` is a vector of `n` elements `x`. -/
def AVec.Is (v : AVec K) (n : Nat) (x : Fin n → K) : Prop := v.size = n ∧ v.vec n = x

/-- A vector with given elements (used for the examples). -/
def AVec.of [Zero K] (fixed : Bool) {n : Nat} (x : Fin n → K) : AVec K :=
  ⟨fixed, n, fun i => if h : i < n then x ⟨i, h⟩ else 0⟩

theorem AVec.of_is [Zero K] (fixed : Bool) {n : Nat} (x : Fin n → K) : (AVec.of fixed x).Is n x := by
  refine ⟨rfl, ?_⟩
  funext i
  simp [AVec.vec, AVec.of]

/-- `m'` has the type and the shape of `m`. -/
structure BMat.SameShape (m m' : BMat K) : Prop where
  rows : m'.rows = m.rows
  cols : m'.cols = m.cols
  basis : m'.basis = m.basis
  fixed : m'.fixed = m.fixed

/-- Outside of the leading `n × n` block the matrix is the identity. -/
def BMat.IdOutside [Zero K] [One K] (m : BMat K) (n : Nat) : Prop :=
  ∀ i j, i < m.rows → j < m.cols → ¬(i < n ∧ j < n) → m.el i j = if i = j then 1 else 0

/-- Position `(row, column)` holds a component of the translation of an `n`-dimensional affine
transform. -/
def BMat.TransPos (m : BMat K) (n i j : Nat) : Prop :=
  match m.basis with
  | .row => i = n ∧ j < n
  | .col => j = n ∧ i < n

/-- Outside of the translation part of an `n`-dimensional affine transform and of the leading
`n × n` block, the matrix is the identity. -/
def BMat.IdOutsideAff [Zero K] [One K] (m : BMat K) (n : Nat) : Prop :=
  ∀ i j, i < m.rows → j < m.cols → ¬(i < n ∧ j < n) →
    ¬m.TransPos n i j → m.el i j = if i = j then 1 else 0

/-- Matrix `m` is large enough for `n`-dimensional linear transforms. -/
def BMat.HasLin (m : BMat K) (n : Nat) : Prop := n ≤ m.rows ∧ n ≤ m.cols

/-- Matrix `m` is large enough for `n`-dimensional affine transforms: `n` elements in each of `n + 1`
basis vectors. -/
def BMat.HasAff (m : BMat K) (n : Nat) : Prop :=
  match m.basis with
  | .row => n + 1 ≤ m.rows ∧ n ≤ m.cols
  | .col => n ≤ m.rows ∧ n + 1 ≤ m.cols

/-- An `(n + 1) × (n + 1)` matrix whose last column (row basis) or row (column basis) is
`0, …, 0, 1`: a homogeneous affine transform. -/
structure BMat.Homogeneous [Zero K] [One K] (m : BMat K) (n : Nat) : Prop where
  rows : m.rows = n + 1
  cols : m.cols = n + 1
  zero : ∀ i, i < n → (match m.basis with | .row => m.el i n | .col => m.el n i) = 0
  one : m.el n n = 1

/-- A matrix with given linear map, translation and the identity elsewhere (used for the examples). -/
def BMat.of [Zero K] [One K] (basis : Basis) (fixed : Bool) (r c : Nat) (l : Nat → Nat → K) : BMat K :=
  ⟨⟨r, c, fun i j => match basis with | .col => l i j | .row => l j i⟩, basis, fixed⟩

/-- A matrix with the given table of elements (used for the examples). -/
def BMat.ofLists [Zero K] (basis : Basis) (fixed : Bool) (r c : Nat) (l : List (List K)) : BMat K :=
  ⟨⟨r, c, fun i j => ((l[i]?).bind (·[j]?)).getD 0⟩, basis, fixed⟩

/-- The elements of a result (used for the examples). -/
def BMat.table (r : Res (BMat K)) : Res (List (List K)) :=
  Mat.table (match r with | .ok m => .ok m.toMat | .throw e => .throw e | .ub u => .ub u)

/-- The elements of a vector result (used for the examples). -/
def AVec.list : Res (AVec K) → Res (List K)
  | .ok v => .ok (List.ofFn fun i : Fin v.size => v.el i)
  | .throw e => .throw e
  | .ub u => .ub u

end CML
