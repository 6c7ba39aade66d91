import Verif.Spec.Expr

/-! What it means for an operand of a function to have a value. -/

namespace CML

variable {E : Type} [Add E] [Sub E] [Mul E] [Div E] [Neg E]

/-- The operand `a` (a vector or an unevaluated expression object) is valid, has `n` elements
`p 0, …, p (n-1)`, and a compile-time size, if it has one, is `n`. -/
structure VIs (s : State E) (a : VNode E) (n : Nat) (p : Fin n → E) : Prop where
  rep : VRep s a ⟨n, p⟩
  known : ∃ f, a.Typed s f n

end CML
