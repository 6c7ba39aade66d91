import Verif.Model.Mixed

/-!
Specification for expressions over different element types: what the values are in exact arithmetic, and which
numbers an element type can hold.
-/

namespace CML

section
variable {K : Type} [Field K] [LinearOrder K] [FloorRing K]

/-- `z` is a value of the integral type `t`. -/
def ETy.InRange (t : ETy) (z : ℤ) : Prop := t.lo ≤ z ∧ z ≤ t.hi

instance (t : ETy) (z : ℤ) : Decidable (t.InRange z) := by unfold ETy.InRange; infer_instance

/-- `v` is a value of the element type `t`. -/
def ETy.Holds (t : ETy) (v : Num K) : Prop :=
  (t = .real ∧ ∃ x, v = .real x) ∨ (t ≠ .real ∧ ∃ z, v = .int z ∧ t.InRange z)

/-- The number a value stands for. -/
def Num.val : Num K → K
  | .int z => z
  | .real x => x

/-- The element type `t` can hold the number `x` exactly. -/
def ETy.Fits (t : ETy) (x : K) : Prop := t = .real ∨ ∃ z : ℤ, x = z ∧ t.InRange z

/-- Exact arithmetic. -/
def AOp.exact : AOp → K → K → K
  | .add, x, y => x + y
  | .sub, x, y => x - y
  | .mul, x, y => x * y
  | .div, x, y => x / y

/-- The value of an expression in exact arithmetic. -/
def TVec.ideal {n : Nat} : TVec K n → Fin n → K
  | .leaf _ x, i => (x i).val
  | .bin o l r, i => o.exact (l.ideal i) (r.ideal i)
  | .scal o l _ c, i => o.exact (l.ideal i) c.val
  | .neg l, i => -l.ideal i

/-- The operands hold values of their element types. -/
def TVec.WF {n : Nat} : TVec K n → Prop
  | .leaf t x => ∀ i, t.Holds (x i)
  | .bin _ l r => l.WF ∧ r.WF
  | .scal _ l t c => l.WF ∧ t.Holds c
  | .neg l => l.WF

/-- Every intermediate result fits into its type, and the operands of divisions into the type of the
division. -/
def TVec.FitsAt {n : Nat} : TVec K n → Fin n → Prop
  | .leaf _ _, _ => True
  | .bin o l r, i => l.FitsAt i ∧ r.FitsAt i ∧ (l.ty.common r.ty).Fits (o.exact (l.ideal i) (r.ideal i)) ∧
      (o = .div → r.ideal i ≠ 0 ∧ (l.ty.arith r.ty).Fits (l.ideal i) ∧ (l.ty.arith r.ty).Fits (r.ideal i))
  | .scal o l t c, i => l.FitsAt i ∧ (l.ty.common t).Fits (o.exact (l.ideal i) c.val) ∧
      (o = .div → c.val ≠ 0 ∧ (l.ty.arith t).Fits (l.ideal i) ∧ (l.ty.arith t).Fits c.val)
  | .neg l, i => l.FitsAt i ∧ l.ty.promote.Fits (-l.ideal i)

/-- Some operand is of the floating-point type. -/
def TVec.HasReal {n : Nat} : TVec K n → Prop
  | .leaf t _ => t = .real
  | .bin _ l r => l.HasReal ∨ r.HasReal
  | .scal _ l t _ => l.HasReal ∨ t = .real
  | .neg l => l.HasReal

/-- All operands are integral of at least `b` bits and there is no division. -/
def TVec.Ring {n : Nat} (b : Nat) : TVec K n → Prop
  | .leaf t _ => t ≠ .real ∧ b ≤ t.bits
  | .bin o l r => o ≠ .div ∧ l.Ring b ∧ r.Ring b
  | .scal o l t _ => o ≠ .div ∧ l.Ring b ∧ t ≠ .real ∧ b ≤ t.bits
  | .neg l => l.Ring b

end

end CML
