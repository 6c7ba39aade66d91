import Verif.Spec.Quat
import Verif.Spec.Round
import Mathlib.Analysis.Quaternion

/-! Notions used to state rounding error bounds of quaternion programs. -/

namespace CML

open Quaternion

variable {R : Rounding}

/-- The real quaternion held by a quaternion of rounded numbers. -/
noncomputable def realQ (h : ℍ[Fl R]) : ℍ[ℝ] := ⟨h.re.val, h.imI.val, h.imJ.val, h.imK.val⟩

/-- Convert the scalars of an expression. -/
def QExp.map {E F : Type} (f : E → F) : QExp E → QExp F
  | .var v => .var v
  | .un op a => .un op (a.map f)
  | .bin op a b => .bin op (a.map f) (b.map f)
  | .scal op a k => .scal op (a.map f) (f k)
  | .conj a => .conj (a.map f)
  | .inv a => .inv (a.map f)
  | .mul a b => .mul (a.map f) (b.map f)

/-- No inverse and no division by the scalar zero. -/
def QExp.Plain {E : Type} [Zero E] : QExp E → Prop
  | .var _ => True
  | .un _ a => a.Plain
  | .bin _ a b => a.Plain ∧ b.Plain
  | .scal op a k => a.Plain ∧ (op = .div → k ≠ 0)
  | .conj a => a.Plain
  | .inv _ => False
  | .mul a b => a.Plain ∧ b.Plain

/-- The lengths of the operands combined as the operands are, without cancellation: `‖a‖ + ‖b‖` for a sum or a
difference, `‖a‖ ‖b‖` for a product. -/
noncomputable def QExp.mag (ρ : Nat → ℍ[ℝ]) : QExp ℝ → ℝ
  | .var v => ‖ρ v.id‖
  | .un _ a => a.mag ρ
  | .bin _ a b => a.mag ρ + b.mag ρ
  | .scal .mul a k => a.mag ρ * |k|
  | .scal .div a k => a.mag ρ / |k|
  | .conj a => a.mag ρ
  | .inv a => (a.mag ρ)⁻¹
  | .mul a b => a.mag ρ * b.mag ρ

/-- How many rounding errors are allowed for: one for a sum, a difference or a scalar operation, eight for a product
of quaternions. -/
def QExp.cnt {E : Type} : QExp E → ℕ
  | .var _ => 0
  | .un _ a => a.cnt
  | .bin _ a b => max a.cnt b.cnt + 1
  | .scal _ a _ => a.cnt + 1
  | .conj a => a.cnt
  | .inv a => a.cnt
  | .mul a b => a.cnt + b.cnt + 8

end CML
