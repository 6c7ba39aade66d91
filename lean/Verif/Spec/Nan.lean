import Verif.Model.Nan

/-! Specification of comparison of sequences that may hold NaN. -/

namespace CML

variable {K : Type}

/-- Equal numbers (what `==` of the format means): neither is NaN and they are the same number. -/
def Ieee.EqNum (x y : Ieee K) : Prop := ∃ z, x = .num z ∧ y = .num z

/-- One of the two is NaN, or they are equal numbers. -/
def Ieee.Tie (x y : Ieee K) : Prop := x = .nan ∨ y = .nan ∨ Ieee.EqNum x y

/-- At the first position where the sequences are not tied, the left element is smaller. -/
def FirstLess [LT K] {n m : Nat} (p : Fin n → Ieee K) (q : Fin m → Ieee K) : Prop :=
  ∃ (k : Nat) (hn : k < n) (hm : k < m) (x y : K), p ⟨k, hn⟩ = .num x ∧ q ⟨k, hm⟩ = .num y ∧ x < y ∧
    ∀ i (hi : i < k), Ieee.Tie (p ⟨i, hi.trans hn⟩) (q ⟨i, hi.trans hm⟩)

/-- The sequences are tied at every position they share. -/
def AllTied {n m : Nat} (p : Fin n → Ieee K) (q : Fin m → Ieee K) : Prop :=
  ∀ i (hn : i < n) (hm : i < m), Ieee.Tie (p ⟨i, hn⟩) (q ⟨i, hm⟩)

end CML
