import Verif.Model.Mat
import Mathlib.LinearAlgebra.Matrix.Determinant.Basic

/-!
Specification side of the numerical matrix algorithms: a `Mat` denotes a Mathlib matrix; the two
triangular factors packed in one matrix.
-/

namespace CML

/-- The leading `r × c` part of a model matrix as a Mathlib matrix. -/
def Mat.toMatrix {K : Type} (M : Mat K) (r c : Nat) : Matrix (Fin r) (Fin c) K :=
  fun i j => M.el i j

/-- `M` is an `n × n` matrix with the elements of `A`. -/
structure Mat.Is {K : Type} (M : Mat K) (n : Nat) (A : Matrix (Fin n) (Fin n) K) : Prop where
  rows : M.rows = n
  cols : M.cols = n
  el : M.toMatrix n n = A

/-- A model matrix with given elements (used for the examples). -/
def Mat.of {K : Type} [Zero K] {n : Nat} (A : Matrix (Fin n) (Fin n) K) : Mat K :=
  ⟨n, n, fun i j => if h : i < n ∧ j < n then A ⟨i, h.1⟩ ⟨j, h.2⟩ else 0⟩

theorem Mat.of_is {K : Type} [Zero K] {n : Nat} (A : Matrix (Fin n) (Fin n) K) :
    (Mat.of A).Is n A := by
  refine ⟨rfl, rfl, ?_⟩
  funext i j
  simp [Mat.toMatrix, Mat.of]

/-- The elements of a result as lists (used for the examples). -/
def Mat.table {K : Type} : Res (Mat K) → Res (List (List K))
  | .ok M => .ok (List.ofFn fun i : Fin M.rows => List.ofFn fun j : Fin M.cols => M.el i j)
  | .throw e => .throw e
  | .ub u => .ub u

/-- The unit lower triangular factor packed below the diagonal. -/
def unitLower {K : Type} [Zero K] [One K] {n : Nat} (A : Matrix (Fin n) (Fin n) K) :
    Matrix (Fin n) (Fin n) K :=
  fun i j => if j < i then A i j else if i = j then 1 else 0

/-- The upper triangular factor packed on and above the diagonal. -/
def upper {K : Type} [Zero K] {n : Nat} (A : Matrix (Fin n) (Fin n) K) :
    Matrix (Fin n) (Fin n) K :=
  fun i j => if i ≤ j then A i j else 0

end CML
