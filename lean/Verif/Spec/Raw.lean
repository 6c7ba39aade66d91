import Verif.Model.Raw
import Verif.Spec.Memory

/-! What a pointer refers to (C117), stated on the cells of the memory. -/

namespace CML

variable {E : Type}

/-- The memory behind pointer `p` holds the `n` values `f`. -/
def Ptr.Points (h : Heap E) (p : Ptr) (n : Nat) (f : Fin n → E) : Prop :=
  ∀ k : Fin n, ∃ b, p.blk = some b ∧ h.cell b (p.off + k) = some (some (f k))

/-- The `n` elements from `p` on are outside of the elements of `d`. -/
def Ptr.Apart (p : Ptr) (n : Nat) (d : VObj) : Prop :=
  p.blk ≠ d.data ∨ p.off + n ≤ d.off ∨ d.off + d.size ≤ p.off

end CML
