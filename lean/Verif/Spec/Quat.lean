import Verif.Model.Quat
import Mathlib.Algebra.Quaternion
import Mathlib.Data.Prod.Lex

/-!
Specification of quaternion programs: mathematical quaternions (Mathlib's `Quaternion`).
-/

namespace CML

open Quaternion

/-- Four storage elements hold the quaternion `h` in the documented order:
`real_first` = (w, x, y, z), `imaginary_first` = (x, y, z, w). -/
def QHolds {E : Type} [Zero E] [One E] [Neg E] (o : QOrder) (el : QArr E) (h : ℍ[E]) : Prop :=
  match o with
  | .realFirst => el 0 = some h.re ∧ el 1 = some h.imI ∧ el 2 = some h.imJ ∧ el 3 = some h.imK
  | .imagFirst => el 0 = some h.imI ∧ el 1 = some h.imJ ∧ el 2 = some h.imK ∧ el 3 = some h.re

/-- The quaternion variable `v` has the value `h`. -/
def QIs {E : Type} [Zero E] [One E] [Neg E] (s : QState E) (v : QVar) (h : ℍ[E]) : Prop :=
  QHolds v.order (s v.id) h

/-- Reading the four elements of the operand `a` gives the quaternion `h` in the order of `a`. -/
def QReads {E : Type} [Zero E] [One E] [Add E] [Sub E] [Mul E] [Neg E] [Div E] [DecidableEq E]
    (s : QState E) (a : QNode E) (h : ℍ[E]) : Prop :=
  match a.order with
  | .realFirst => a.get s 0 = .ok h.re ∧ a.get s 1 = .ok h.imI ∧ a.get s 2 = .ok h.imJ ∧
      a.get s 3 = .ok h.imK
  | .imagFirst => a.get s 0 = .ok h.imI ∧ a.get s 1 = .ok h.imJ ∧ a.get s 2 = .ok h.imK ∧
      a.get s 3 = .ok h.re

/-- The product of the two multiplication conventions: the Hamilton product, or the Hamilton product
of the exchanged operands. -/
def crossMul {E : Type} [CommRing E] (c : QCross) (a b : ℍ[E]) : ℍ[E] :=
  match c with
  | .positive => a * b
  | .negative => b * a

/-- The C++ type of an expression of the program. -/
def QExp.isVar {E : Type} : QExp E → Bool
  | .var _ => true
  | _ => false

/-- The C++ type of an expression of the program (`o`, `c`: order and cross of the result of a
product). -/
def QExp.ty {E : Type} (o : QOrder) (c : QCross) : QExp E → QTy
  | .var v => .quat v.order v.cross
  | .un op a => .un op a.isVar (a.ty o c)
  | .bin op a b => .bin op a.isVar (a.ty o c) b.isVar (b.ty o c)
  | .scal op a _ => .scal op a.isVar (a.ty o c)
  | .conj a => .conj a.isVar (a.ty o c)
  | .inv a => .inv a.isVar (a.ty o c)
  | .mul _ _ => .quat o c

/-- All variables have order `o` and cross `c`, and only operands of equal type are multiplied. -/
def QExp.Typed {E : Type} (o : QOrder) (c : QCross) : QExp E → Prop
  | .var v => v.order = o ∧ v.cross = c
  | .un _ a => a.Typed o c
  | .bin _ a b => a.Typed o c ∧ b.Typed o c
  | .scal _ a _ => a.Typed o c
  | .conj a => a.Typed o c
  | .inv a => a.Typed o c
  | .mul a b => a.Typed o c ∧ b.Typed o c ∧ a.ty o c = b.ty o c

section
variable {E : Type} [Field E] [LinearOrder E] [IsStrictOrderedRing E]

/-- The mathematical value of an expression when the variables have the values `ρ`. -/
def QExp.value (c : QCross) (ρ : Nat → ℍ[E]) : QExp E → ℍ[E]
  | .var v => ρ v.id
  | .un .pos a => a.value c ρ
  | .un .neg a => -a.value c ρ
  | .bin .add a b => a.value c ρ + b.value c ρ
  | .bin .sub a b => a.value c ρ - b.value c ρ
  | .scal .mul a k => k • a.value c ρ
  | .scal .div a k => k⁻¹ • a.value c ρ
  | .conj a => star (a.value c ρ)
  | .inv a => (a.value c ρ)⁻¹
  | .mul a b => crossMul c (a.value c ρ) (b.value c ρ)

/-- No division by zero, no inverse of zero. -/
def QExp.Defined (c : QCross) (ρ : Nat → ℍ[E]) : QExp E → Prop
  | .var _ => True
  | .un _ a => a.Defined c ρ
  | .bin _ a b => a.Defined c ρ ∧ b.Defined c ρ
  | .scal .mul a _ => a.Defined c ρ
  | .scal .div a k => a.Defined c ρ ∧ k ≠ 0
  | .conj a => a.Defined c ρ
  | .inv a => a.Defined c ρ ∧ a.value c ρ ≠ 0
  | .mul a b => a.Defined c ρ ∧ b.Defined c ρ

end

/-- The variables of the expression have the values `ρ`. -/
def QExp.Has {E : Type} [Zero E] [One E] [Neg E] (s : QState E) (ρ : Nat → ℍ[E]) : QExp E → Prop
  | .var v => QIs s v (ρ v.id)
  | .un _ a => a.Has s ρ
  | .bin _ a b => a.Has s ρ ∧ b.Has s ρ
  | .scal _ a _ => a.Has s ρ
  | .conj a => a.Has s ρ
  | .inv a => a.Has s ρ
  | .mul a b => a.Has s ρ ∧ b.Has s ρ

/-- The same expression written for quaternions of another storage order. -/
def QExp.reorder {E : Type} (o : QOrder) : QExp E → QExp E
  | .var v => .var { v with order := o }
  | .un op a => .un op (a.reorder o)
  | .bin op a b => .bin op (a.reorder o) (b.reorder o)
  | .scal op a k => .scal op (a.reorder o) k
  | .conj a => .conj (a.reorder o)
  | .inv a => .inv (a.reorder o)
  | .mul a b => .mul (a.reorder o) (b.reorder o)

/-- The parts of a quaternion in storage order, compared lexicographically. -/
def qKey {E : Type} [CommRing E] (o : QOrder) (h : ℍ[E]) : E × Lex (E × Lex (E × E)) :=
  match o with
  | .realFirst => (h.re, toLex (h.imI, toLex (h.imJ, h.imK)))
  | .imagFirst => (h.imI, toLex (h.imJ, toLex (h.imK, h.re)))

end CML
