import Verif.Model.VecOps

/-! Conditions on memory used by the properties: what is stored where, which cells may be assigned, what
must not change. -/

namespace CML

variable {E : Type}

/-- Content of a memory cell, if it exists. -/
def Heap.cell (h : Heap E) (b o : Nat) : Option (Option E) := (h.blk b).bind fun l => l[o]?

/-- A cell that exists and may be assigned to. -/
def Heap.Writable (triv : Bool) (h : Heap E) (b o : Nat) : Prop :=
  ∃ c, h.cell b o = some c ∧ (triv = true ∨ c.isSome)

/-- A dynamic vector's array: null and empty, or a live block of exactly its size. -/
def VObj.Owned (h : Heap E) (v : VObj) : Prop :=
  (v.data = none ∧ v.size = 0) ∨ ∃ b l, v.data = some b ∧ h.blk b = some l ∧ l.length = v.size

/-- The elements of `d` are existing, assignable memory cells. -/
def VObj.Ready (triv : Bool) (h : Heap E) (d : VObj) : Prop :=
  ∀ i, i < d.size → ∃ b, d.data = some b ∧ h.Writable triv b (d.off + i)

/-- Memory outside of `d` is the same in both heaps. -/
def SameOutside (d : VObj) (h h' : Heap E) : Prop :=
  ∀ b o, ¬(d.data = some b ∧ d.off ≤ o ∧ o < d.off + d.size) → h'.cell b o = h.cell b o

/-- The memory of the lazily read variable `y` survives a reallocation of vector `x` (object `d`). -/
def VKept (s : State E) (x : Nat) (d : VObj) (y : Nat) : Prop :=
  y ≠ x ∧ ∀ w, s.vec y = some w → w.data = none ∨ w.data ≠ d.data

@[inherit_doc VKept]
def MKept (s : State E) (d : VObj) (y : Nat) : Prop :=
  ∀ w, s.mat y = some w → w.data = none ∨ w.data ≠ d.data

end CML
