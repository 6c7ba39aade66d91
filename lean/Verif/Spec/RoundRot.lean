import Verif.Spec.RoundQuat
import Verif.Spec.Rotation
import Verif.Model.Expr
import Mathlib.Analysis.SpecialFunctions.Sqrt

/-!
Chains of products, and the size of matrices, to state how far rounded rotations drift away from the exact
ones.
-/

namespace CML

open Quaternion

/-- The size of a matrix: the square root of the sum of the squares of its elements. -/
noncomputable def frob {m n : Nat} (A : Matrix (Fin m) (Fin n) ℝ) : ℝ := Real.sqrt (∑ i, ∑ j, A i j ^ 2)

/-- `a * b1 * b2 * …` as C++ evaluates it: from left to right, every product a temporary
(`/repo/cml/matrix/matrix_product.tpp:13-36`). -/
def mulChain {E : Type} [Add E] [Sub E] [Mul E] [Div E] [Neg E] (s : State E) :
    MNode E → List (MNode E) → Res (MNode E)
  | a, [] => .ok a
  | a, b :: bs => do
    let t ← matMul s a b
    mulChain s (.temp t) bs

/-- `a * b1 * b2 * …` for quaternions (`/repo/cml/quaternion/product.tpp:16-53`). -/
def qMulChain {E : Type} [Zero E] [One E] [Add E] [Sub E] [Mul E] [Neg E] [Div E] [DecidableEq E] (s : QState E) :
    QNode E → List (QNode E) → Res (QNode E)
  | a, [] => .ok a
  | a, b :: bs => do
    let t ← qMul s a b
    qMulChain s t bs

/-- `q *= b1; q *= b2; …` (`/repo/cml/quaternion/writable_quaternion.tpp:366-373`). -/
def qMulAssignChain {E : Type} [Zero E] [One E] [Add E] [Sub E] [Mul E] [Neg E] [Div E] [DecidableEq E] (v : QVar) :
    QState E → List (QNode E) → Out (QState E)
  | s, [] => .ok s
  | s, b :: bs => (qMulAssign s v b).andThen fun s => qMulAssignChain v s bs

end CML
