import Verif.Model.VecOps
import Verif.Model.MatOps
import Verif.Model.Quat
import Verif.Model.Scalar

/-!
Floating-point elements with NaN.  The comparison operators of `/repo/cml/vector/comparison.tpp`,
`/repo/cml/matrix/comparison.tpp` and `/repo/cml/quaternion/comparison.tpp` are used with `float` and
`double` elements, where `<`, `>` and `==` are false as soon as one operand is NaN.  The element type
below adds that value to a linear order `K`.

Simplifications: `K` stands for the non-NaN values of the format (it may contain infinities; the two
zeros are one value).  Arithmetic propagates NaN; which operations on non-NaN operands produce NaN is
not modelled, since no theorem about comparison depends on it.
-/

namespace CML

/-- A floating-point value: NaN or an element of a linear order (IEEE 754, section 5.11; the element
type of the operands at `/repo/cml/vector/comparison.tpp:13-83`). -/
inductive Ieee (K : Type)
  | nan
  | num (x : K)
deriving DecidableEq

namespace Ieee
variable {K : Type}

/-- `<` on floating-point values: false if an operand is NaN
(`left[i] < right[i]`, `/repo/cml/vector/comparison.tpp:19`). -/
instance [LT K] : LT (Ieee K) := ⟨fun x y => match x, y with
  | num x, num y => x < y
  | _, _ => False⟩

instance [LT K] [DecidableLT K] : DecidableLT (Ieee K) := fun x y => match x, y with
  | num x, num y => inferInstanceAs (Decidable (x < y))
  | nan, _ => isFalse (fun h => h)
  | num _, nan => isFalse (fun h => h)

/-- `==` on floating-point values: false if an operand is NaN, so NaN is not equal to itself
(`left[i] == right[i]`, `/repo/cml/quaternion/comparison.tpp:63`). -/
instance [DecidableEq K] : BEq (Ieee K) := ⟨fun x y => match x, y with
  | num x, num y => decide (x = y)
  | _, _ => false⟩

/-- A binary operation, with NaN propagated (`/repo/cml/common/binary_ops.h`). -/
def lift₂ (f : K → K → K) : Ieee K → Ieee K → Ieee K
  | num x, num y => num (f x y)
  | _, _ => nan

instance [Add K] : Add (Ieee K) := ⟨lift₂ (· + ·)⟩
instance [Sub K] : Sub (Ieee K) := ⟨lift₂ (· - ·)⟩
instance [Mul K] : Mul (Ieee K) := ⟨lift₂ (· * ·)⟩
instance [Div K] : Div (Ieee K) := ⟨lift₂ (· / ·)⟩
instance [Neg K] : Neg (Ieee K) := ⟨fun x => match x with
  | num x => num (-x)
  | nan => nan⟩
instance [Zero K] : Zero (Ieee K) := ⟨num 0⟩
instance [One K] : One (Ieee K) := ⟨num 1⟩

end Ieee

section
variable {E : Type} [Zero E] [One E] [Add E] [Sub E] [Mul E] [Neg E] [Div E] [DecidableEq E]

/-- `operator==` of quaternions with the element type's own `==`,
`/repo/cml/quaternion/comparison.tpp:53-66`; `qEq` is the case where that is equality. -/
def qEqB [BEq E] (s : QState E) (a b : QNode E) : Res Bool :=
  if a.order = b.order then
    Res.loop (fun i r => if r then do
      let x ← a.get s i
      let y ← b.get s i
      pure (x == y)
    else .ok r) 0 4 true
  else .throw .staticAssert

/-- `operator<` of quaternions with the element type's own `<`,
`/repo/cml/quaternion/comparison.tpp:13-31`; `qLt` is the case of a linear order. -/
def qLtB [LT E] [DecidableLT E] (s : QState E) (a b : QNode E) : Res Bool :=
  if a.order = b.order then do
    let r ← Res.loop (fun i (r : Option Bool) =>
      match r with
      | some r => .ok (some r)
      | none => do
        let x ← a.get s i
        let y ← b.get s i
        if x < y then pure (some true) else if x > y then pure (some false) else pure none)
      0 4 none
    match r with
    | some r => pure r
    | none => pure false
  else .throw .staticAssert

/-- `operator>` of quaternions with the element type's own `>`,
`/repo/cml/quaternion/comparison.tpp:33-51`; `qGt` is the case of a linear order. -/
def qGtB [LT E] [DecidableLT E] (s : QState E) (a b : QNode E) : Res Bool :=
  if a.order = b.order then do
    let r ← Res.loop (fun i (r : Option Bool) =>
      match r with
      | some r => .ok (some r)
      | none => do
        let x ← a.get s i
        let y ← b.get s i
        if x > y then pure (some true) else if x < y then pure (some false) else pure none)
      0 4 none
    match r with
    | some r => pure r
    | none => pure false
  else .throw .staticAssert

/-- `operator<=`, `operator>=` and `operator!=` of quaternions,
`/repo/cml/quaternion/comparison.tpp:68-90`. -/
def qLeB [LT E] [DecidableLT E] (s : QState E) (a b : QNode E) : Res Bool := do
  pure (!(← qGtB s a b))
@[inherit_doc qLeB]
def qGeB [LT E] [DecidableLT E] (s : QState E) (a b : QNode E) : Res Bool := do
  pure (!(← qLtB s a b))
@[inherit_doc qLeB]
def qNeB [BEq E] (s : QState E) (a b : QNode E) : Res Bool := do pure (!(← qEqB s a b))

end

end CML
