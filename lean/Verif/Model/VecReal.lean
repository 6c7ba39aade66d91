import Verif.Model.VecOps
import Verif.Model.Sqrt

/-! Vector functions that need a square root, and constant vectors. -/

namespace CML

section
variable {E : Type} [Add E] [Sub E] [Mul E] [Div E] [Neg E] [Zero E] [DecidableEq E] [Sqrt E]

/-- `length()`, `/repo/cml/vector/readable_vector.tpp:65-70`. -/
def vLength (s : State E) (a : VNode E) : Res E := do
  let q ← vLengthSquared s a
  pure (Sqrt.sqrt q)

/-- `normalize() const`, `/repo/cml/vector/readable_vector.tpp:72-89`: the node `*this / length()`. -/
def vNormalized (s : State E) (a : VNode E) : Res (VNode E) := do
  let l ← vLength s a
  pure (.scal .div a l)

/-- `normalize()` in place, `/repo/cml/vector/writable_vector.tpp:104-109`: `*this /= length()`; the
length is a temporary. -/
def vNormalize (triv : Bool) (s : State E) (x : Nat) : Out (State E) :=
  .withVal (vLength s (.var x)) s fun l => vScalAssign triv .div s x (.val l)

end

section
variable {E : Type} [Add E] [Sub E] [Mul E] [Div E] [Neg E] [Zero E] [One E]

/-- `zero()`, `/repo/cml/vector/writable_vector.tpp:119-125`. -/
def vZero (triv : Bool) (s : State E) (x : Nat) : Out (State E) :=
  storeLoop triv s x fun _ _ => .ok 0

/-- `cardinal(i)`, `/repo/cml/vector/writable_vector.tpp:135-140`. -/
def vCardinal (triv : Bool) (s : State E) (x i : Nat) : Out (State E) :=
  (vZero triv s x).andThen fun s => vPut triv s x i 1

end

end CML
