import Verif.Model.SelfArg
import Verif.Spec.Raw

/-!
What arguments that refer to elements of the target mean (C123): the caller means the values before the call; a
function that reads and stores one argument after the other sees the elements it has already stored.
-/

namespace CML

variable {E : Type} {n : Nat}

/-- An argument of a function that writes `n` elements: a value, or element `j` of the target. -/
inductive Src (E : Type) (n : Nat)
  | val (e : E)
  | own (j : Fin n)
  deriving DecidableEq

/-- The value the caller means: the value before the call, when the target holds `q`. -/
def Src.meant (q : Fin n → E) : Src E n → E
  | .val e => e
  | .own j => q j

/-- `r` arises from `q` by storing one argument after the other: an argument that refers to an element in front of
the one being stored has the new value of that element. -/
def InTurn (q : Fin n → E) (src : Fin n → Src E n) (r : Fin n → E) : Prop :=
  ∀ i, r i = match src i with
    | .val e => e
    | .own j => if j < i then r j else q j

/-- In memory `h`, the argument `a` is what `src` says, for a target whose element number `j` is at place `place j`
and which occupies the elements of `d`. -/
inductive ERef.Is (h : Heap E) (d : VObj) (place : Fin n → Nat) : ERef E → Src E n → Prop
  /-- a value -/
  | val (e : E) : ERef.Is h d place (.val e) (.val e)
  /-- an element of the target -/
  | own (j : Fin n) : ERef.Is h d place (.ref ⟨d.data, d.off + place j⟩) (.own j)
  /-- an element somewhere else -/
  | other (p : Ptr) (e : E) (hr : p.Points h 1 fun _ => e) (ha : p.Apart 1 d) :
    ERef.Is h d place (.ref p) (.val e)

end CML
