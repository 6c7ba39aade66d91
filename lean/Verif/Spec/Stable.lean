import Verif.Spec.Expr

/-!
Conditions that can be read off an expression and make it `Supported`.  Moving a `Stable` expression does
not change its size: it is taken from a named object, a fixed-size temporary, or a constant.  The storage
type of an `Upright` matrix expression has the right dimensions.
-/

namespace CML

variable {E : Type}

mutual
/-- The expression has a (positive) compile-time size. -/
def VExpr.IsFixed (s : State E) : VExpr E → Prop
  | .var x => ∀ v, s.vec x = some v → v.fixed = true ∧ 0 < v.size
  | .temp f xs => f = true ∧ xs ≠ []
  | .bin _ a b => a.IsFixed s ∨ b.IsFixed s
  | .scal _ a _ => a.IsFixed s
  | .neg a => a.IsFixed s
  | .cross a b => a.IsFixed s ∨ b.IsFixed s
  | .sub _ _ => False
  | .row m _ => m.IsFixed s
  | .col m _ => m.IsFixed s
  | .mulMV m _ => m.IsFixed s
  | .mulVM _ m => m.IsFixed s
/-- The expression has (positive) compile-time dimensions. -/
def MExpr.IsFixed (s : State E) : MExpr E → Prop
  | .var x => ∀ m, s.mat x = some m → m.fixed = true ∧ 0 < m.rows ∧ 0 < m.cols
  | .temp t => t.fixed = true ∧ 0 < t.rows ∧ 0 < t.cols
  | .bin _ a b => a.IsFixed s ∨ b.IsFixed s
  | .scal _ a _ => a.IsFixed s
  | .neg a => a.IsFixed s
  | .transpose a => a.IsFixed s
  | .outer a b => a.IsFixed s ∧ b.IsFixed s
  | .mul a b => a.IsFixed s ∧ b.IsFixed s
end

mutual
/-- The object that determines the size is a named object or has a compile-time size. -/
def VExpr.Stable (s : State E) : VExpr E → Prop
  | .var _ => True
  | .temp f _ => f = true
  | .bin _ a _ => a.Stable s
  | .scal _ a _ => a.Stable s
  | .neg a => a.Stable s
  | .cross _ _ => True
  | .sub a _ => a.Stable s
  | .row m _ => m.Stable s
  | .col m _ => m.Stable s
  | .mulMV m _ => m.IsFixed s
  | .mulVM _ m => m.IsFixed s
@[inherit_doc VExpr.Stable]
def MExpr.Stable (s : State E) : MExpr E → Prop
  | .var _ => True
  | .temp t => t.fixed = true
  | .bin _ a _ => a.Stable s
  | .scal _ a _ => a.Stable s
  | .neg a => a.Stable s
  | .transpose a => a.Stable s
  | .outer a b => a.Stable s ∧ b.Stable s
  | .mul a b => a.IsFixed s ∧ b.IsFixed s
end

/-- The storage type of the matrix expression has its dimensions: fixed-size objects have positive
dimensions, and only square or dynamic matrices are transposed. -/
def MExpr.Upright [Add E] [Sub E] [Mul E] [Div E] [Neg E] (s : State E) : MExpr E → Prop
  | .var x => ∀ m, s.mat x = some m → m.fixed = true → 0 < m.rows ∧ 0 < m.cols
  | .temp t => t.fixed = true → 0 < t.rows ∧ 0 < t.cols
  | .bin _ _ _ => True
  | .scal _ a _ => a.Upright s
  | .neg a => a.Upright s
  | .transpose a => a.Upright s ∧
      ∀ x, a.build s = .ok x → x.fixed s = .ok false ∨ ∃ n, x.dims s = .ok (n, n)
  | .outer a b =>
      (∀ x n, a.build s = .ok x → x.size s = .ok n → 0 < n) ∧
        ∀ x n, b.build s = .ok x → x.size s = .ok n → 0 < n
  | .mul _ _ => True

section
variable [Add E] [Sub E] [Mul E] [Div E] [Neg E]

mutual
/-- Every operand of every cross product in the expression has a compile-time size or is `Stable`; the
matrix operands of sums, differences and products are `Upright`; the operands of outer products have both
a compile-time size or neither; no subvector is taken of a vector with compiled storage of size 1. -/
def VExpr.Regular (s : State E) : VExpr E → Prop
  | .var _ => True
  | .temp _ _ => True
  | .bin _ a b => a.Regular s ∧ b.Regular s
  | .scal _ a _ => a.Regular s
  | .neg a => a.Regular s
  | .cross a b => a.Regular s ∧ b.Regular s ∧
      (a.IsFixed s ∨ a.Stable s) ∧ (b.IsFixed s ∨ b.Stable s)
  | .sub a _ => a.Regular s ∧
      ∀ x, a.build s = .ok x → x.compiled s = .ok true → ∀ n, x.size s = .ok n → 1 < n
  | .row m _ => m.Regular s
  | .col m _ => m.Regular s
  | .mulMV m v => m.Regular s ∧ v.Regular s ∧ m.Upright s
  | .mulVM v m => v.Regular s ∧ m.Regular s ∧ m.Upright s
@[inherit_doc VExpr.Regular]
def MExpr.Regular (s : State E) : MExpr E → Prop
  | .var _ => True
  | .temp _ => True
  | .bin _ a b => a.Regular s ∧ b.Regular s ∧ a.Upright s ∧ b.Upright s
  | .scal _ a _ => a.Regular s
  | .neg a => a.Regular s
  | .transpose a => a.Regular s
  | .outer a b => a.Regular s ∧ b.Regular s ∧
      ∀ x y, a.build s = .ok x → b.build s = .ok y → x.fixed s = y.fixed s
  | .mul a b => a.Regular s ∧ b.Regular s ∧ a.Upright s ∧ b.Upright s
end

end

/-- A concrete program state for examples: block `i` holds `cells[i]`, the variables are the given
objects, allocations succeed. -/
def demo (cells : List (List (Option E))) (vecs : List VObj) (mats : List MObj) : State E :=
  ⟨⟨fun b => cells[b]?, cells.length, 0, fun _ => false⟩, fun x => vecs[x]?, fun x => mats[x]?⟩

end CML
