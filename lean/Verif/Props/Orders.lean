import Verif.Model.Orders
import Mathlib.GroupTheory.Perm.Sign
import Mathlib.GroupTheory.Perm.Fin
import Mathlib.Data.Fintype.Perm

/-!
Property theorems C06: axis-order and Euler-order codes.  The domain is the complete finite set of
enumerators; each theorem is by case analysis on all of them.
-/

namespace CML

/-- Specification: the axes written in the name of an Euler order (x = 0, y = 1, z = 2). -/
def EulerOrder.named : EulerOrder → Nat × Nat × Nat
  | .xyz => (0, 1, 2) | .xyx => (0, 1, 0) | .xzy => (0, 2, 1) | .xzx => (0, 2, 0)
  | .yzx => (1, 2, 0) | .yzy => (1, 2, 1) | .yxz => (1, 0, 2) | .yxy => (1, 0, 1)
  | .zxy => (2, 0, 1) | .zxz => (2, 0, 2) | .zyx => (2, 1, 0) | .zyz => (2, 1, 2)

/-- Specification: the axes written in the name of an axis order. -/
def AxisOrder.named : AxisOrder → Nat × Nat × Nat
  | .xyz => (0, 1, 2) | .xzy => (0, 2, 1) | .yzx => (1, 2, 0)
  | .yxz => (1, 0, 2) | .zxy => (2, 0, 1) | .zyx => (2, 1, 0)

/-- Specification: the axes written in the name of a 2D axis order. -/
def AxisOrder2D.named : AxisOrder2D → Nat × Nat
  | .xy => (0, 1) | .yx => (1, 0)

/-- Specification: the permutation of the axes `0,1,2` sending `0 ↦ i, 1 ↦ j, 2 ↦ k` is odd. -/
def OddTriple (i j k : Nat) : Prop :=
  ∃ p : Equiv.Perm (Fin 3), (p 0 : Nat) = i ∧ (p 1 : Nat) = j ∧ (p 2 : Nat) = k ∧
    Equiv.Perm.sign p = -1

/-- Specification: the permutation of the axes sending `0 ↦ i, 1 ↦ j, 2 ↦ k` is even. -/
def EvenTriple (i j k : Nat) : Prop :=
  ∃ p : Equiv.Perm (Fin 3), (p 0 : Nat) = i ∧ (p 1 : Nat) = j ∧ (p 2 : Nat) = k ∧
    Equiv.Perm.sign p = 1

/-- C06: every Euler order name decodes to the axes in its name; the third named axis is `k` for
non-repeating orders and `i` for repeating ones. -/
theorem unpackEulerOrder_named (o : EulerOrder) :
    let u := unpackEulerOrder o.code
    o.named = (u.i, u.j, if u.rep then u.i else u.k) := by
  cases o <;> rfl

/-- C06: an Euler order is decoded as repeating iff its first and last named axes coincide. -/
theorem unpackEulerOrder_rep (o : EulerOrder) :
    (unpackEulerOrder o.code).rep = true ↔ o.named.1 = o.named.2.2 := by
  cases o <;> decide

/-- C06: `i, j, k` are the three distinct axes, and the parity flag is the parity of the
permutation. -/
theorem unpackEulerOrder_parity (o : EulerOrder) :
    let u := unpackEulerOrder o.code
    if u.odd then OddTriple u.i u.j u.k else EvenTriple u.i u.j u.k := by
  unfold OddTriple EvenTriple
  cases o <;> decide

/-- C06: every axis order name decodes to the axes in its name. -/
theorem unpackAxisOrder_named (o : AxisOrder) :
    let u := unpackAxisOrder o.code
    o.named = (u.i, u.j, u.k) := by
  cases o <;> rfl

/-- C06: the parity flag of an axis order is the parity of the permutation; in particular the three
axes are distinct. -/
theorem unpackAxisOrder_parity (o : AxisOrder) :
    let u := unpackAxisOrder o.code
    if u.odd then OddTriple u.i u.j u.k else EvenTriple u.i u.j u.k := by
  unfold OddTriple EvenTriple
  cases o <;> decide

/-- C06: every 2D axis order name decodes to the axes in its name, with `odd` the parity. -/
theorem unpackAxisOrder2D_named (o : AxisOrder2D) :
    unpackAxisOrder2D o.code = (o.named.1, o.named.2, decide (o.named.2 < o.named.1)) := by
  cases o <;> rfl

/-- C06: packing inverts unpacking. -/
theorem pack_unpack (o : AxisOrder) :
    packAxisOrder (unpackAxisOrder o.code).i (unpackAxisOrder o.code).odd = o.code := by
  cases o <;> rfl

/-- C06: unpacking inverts packing: every first axis and parity is the code of exactly one axis
order. -/
theorem unpack_pack (i : Nat) (hi : i < 3) (odd : Bool) :
    ∃ o : AxisOrder, packAxisOrder i odd = o.code ∧
      (unpackAxisOrder o.code).i = i ∧ (unpackAxisOrder o.code).odd = odd := by
  have : i = 0 ∨ i = 1 ∨ i = 2 := by omega
  rcases this with rfl | rfl | rfl <;> cases odd
  · exact ⟨.xyz, by decide⟩
  · exact ⟨.xzy, by decide⟩
  · exact ⟨.yzx, by decide⟩
  · exact ⟨.yxz, by decide⟩
  · exact ⟨.zxy, by decide⟩
  · exact ⟨.zyx, by decide⟩

example : packAxisOrder 1 true = AxisOrder.yxz.code := by decide

/-- C06: different axis orders have different codes. -/
theorem axisOrder_code_injective : Function.Injective AxisOrder.code := by
  intro a b; cases a <;> cases b <;> decide

/-- C06: different Euler orders have different codes. -/
theorem eulerOrder_code_injective : Function.Injective EulerOrder.code := by
  intro a b; cases a <;> cases b <;> decide

/-- C06: `swap_axis_order` exchanges the first two named axes and keeps the third. -/
theorem swapAxisOrder_named (o : AxisOrder) :
    ∃ o' : AxisOrder, swapAxisOrder o.code = o'.code ∧
      o'.named = (o.named.2.1, o.named.1, o.named.2.2) := by
  cases o
  · exact ⟨.yxz, by decide⟩
  · exact ⟨.zxy, by decide⟩
  · exact ⟨.zyx, by decide⟩
  · exact ⟨.xyz, by decide⟩
  · exact ⟨.xzy, by decide⟩
  · exact ⟨.yzx, by decide⟩

/-- C06: `swap_axis_order` is an involution. -/
theorem swapAxisOrder_invol (o : AxisOrder) : swapAxisOrder (swapAxisOrder o.code) = o.code := by
  cases o <;> rfl

end CML
