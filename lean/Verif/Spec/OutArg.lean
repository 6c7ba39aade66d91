import Verif.Model.OutArg

/-!
What output arguments should mean (C124): the results for the values before the call, each in its place.
-/

namespace CML

/-- Memory `σ'` has the values `l` in the cells named there and is the memory `σ` everywhere else. -/
def Cells.Stores (σ σ' : Cells) (l : List (Nat × ℝ)) : Prop :=
  (∀ p ∈ l, σ' p.1 = p.2) ∧ ∀ b, (∀ p ∈ l, p.1 ≠ b) → σ' b = σ b

/-- Cell `a` is none of the elements of `v`. -/
def VAt.Avoids (v : VAt) (a : Nat) : Prop := ∀ i < v.size, v.addr i ≠ a

/-- The three elements are in different cells. -/
def VAt.Distinct (v : VAt) : Prop := v.addr 0 ≠ v.addr 1 ∧ v.addr 0 ≠ v.addr 2 ∧ v.addr 1 ≠ v.addr 2

/-- No element of `v` is an element of `w`. -/
def VAt.Apart (v w : VAt) : Prop := ∀ i < 3, ∀ j < 3, v.addr i ≠ w.addr j

/-- No element of `v` is an element of the upper left `n × n` part of `m`. -/
def MAt.Apart (m : MAt) (n : Nat) (v : VAt) : Prop := ∀ p < n, ∀ q < n, ∀ i < 3, v.addr i ≠ m.cell p q

/-- The three values in the three elements of `v`. -/
def VAt.holding (v : VAt) (x y z : ℝ) : List (Nat × ℝ) := [(v.addr 0, x), (v.addr 1, y), (v.addr 2, z)]

/-- The basis elements read by `matrix_to_euler` after `angle_1` is assigned. -/
def eulerLate1 (u : EulerUnpacked) : List (Nat × Nat) :=
  if u.rep then [(u.j, u.i), (u.k, u.i), (u.i, u.j), (u.i, u.k), (u.k, u.j), (u.j, u.j)]
  else [(u.j, u.k), (u.k, u.k), (u.i, u.j), (u.i, u.i), (u.k, u.j), (u.j, u.j)]

/-- The basis elements read by `matrix_to_euler` after `angle_0` is assigned. -/
def eulerLate0 (u : EulerUnpacked) : List (Nat × Nat) :=
  if u.rep then [(u.i, u.j), (u.i, u.k), (u.k, u.j), (u.j, u.j)]
  else [(u.i, u.j), (u.i, u.i), (u.k, u.j), (u.j, u.j)]

end CML
