import Verif.Spec.Alias

/-!
What an expression object is worth that has been stored (`auto e = ...;`) and is evaluated later: products have
been computed when the object was built; everything else refers to the variables as they are at the time of
the evaluation.
-/

namespace CML

section
variable {E : Type} [Add E] [Sub E] [Mul E] [Div E] [Neg E]

/-- A vector value as a literal. -/
def VVal.lit (p : VVal E) : VExpr E := .temp false (List.ofFn p.f)

/-- A matrix value as a literal. -/
def MVal.lit (p : MVal E) : MExpr E :=
  .temp ⟨false, p.r, p.c, List.ofFn fun k => p.f (finProdFinEquiv.symm k).1 (finProdFinEquiv.symm k).2⟩

mutual
/-- The expression with every outermost product replaced by its value. -/
def VExpr.freeze (ρ : Env E) : VExpr E → VExpr E
  | .var x => .var x
  | .temp f xs => .temp f xs
  | .bin o a b => .bin o (a.freeze ρ) (b.freeze ρ)
  | .scal o a c => .scal o (a.freeze ρ) c
  | .neg a => .neg (a.freeze ρ)
  | .cross a b => .cross (a.freeze ρ) (b.freeze ρ)
  | .sub a k => .sub (a.freeze ρ) k
  | .row m i => .row (m.freeze ρ) i
  | .col m j => .col (m.freeze ρ) j
  | .mulMV m v => match (VExpr.mulMV m v).den ρ with
    | some p => p.lit
    | none => .mulMV m v
  | .mulVM v m => match (VExpr.mulVM v m).den ρ with
    | some p => p.lit
    | none => .mulVM v m
@[inherit_doc VExpr.freeze]
def MExpr.freeze (ρ : Env E) : MExpr E → MExpr E
  | .var x => .var x
  | .temp t => .temp t
  | .bin o a b => .bin o (a.freeze ρ) (b.freeze ρ)
  | .scal o a c => .scal o (a.freeze ρ) c
  | .neg a => .neg (a.freeze ρ)
  | .transpose a => .transpose (a.freeze ρ)
  | .outer a b => .outer (a.freeze ρ) (b.freeze ρ)
  | .mul a b => match (MExpr.mul a b).den ρ with
    | some p => p.lit
    | none => .mul a b
end

mutual
/-- The expression contains no product that is computed eagerly. -/
def VExpr.Lazy : VExpr E → Prop
  | .var _ => True
  | .temp _ _ => True
  | .bin _ a b => a.Lazy ∧ b.Lazy
  | .scal _ a _ => a.Lazy
  | .neg a => a.Lazy
  | .cross a b => a.Lazy ∧ b.Lazy
  | .sub a _ => a.Lazy
  | .row m _ => m.Lazy
  | .col m _ => m.Lazy
  | .mulMV _ _ => False
  | .mulVM _ _ => False
@[inherit_doc VExpr.Lazy]
def MExpr.Lazy : MExpr E → Prop
  | .var _ => True
  | .temp _ => True
  | .bin _ a b => a.Lazy ∧ b.Lazy
  | .scal _ a _ => a.Lazy
  | .neg a => a.Lazy
  | .transpose a => a.Lazy
  | .outer a b => a.Lazy ∧ b.Lazy
  | .mul _ _ => False
end

/-- Vector `x` is still there and has kept its size. -/
def VStays (ρ ρ' : Env E) (x : Nat) : Prop := ∀ p, ρ.v x = some p → ∃ p', ρ'.v x = some p' ∧ p'.n = p.n

/-- Matrix `x` is still there and has kept its dimensions. -/
def MStays (ρ ρ' : Env E) (x : Nat) : Prop :=
  ∀ p, ρ.m x = some p → ∃ p', ρ'.m x = some p' ∧ p'.r = p.r ∧ p'.c = p.c

end

end CML
