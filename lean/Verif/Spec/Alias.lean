import Verif.Spec.Expr
import Verif.Model.VecOps

/-!
Which variables an expression still reads *lazily*, i.e. during the assignment loop (operands of
products are read when the product is evaluated, before the assignment starts).
-/

namespace CML

section
variable {E : Type}

mutual
/-- All lazily read vector variables satisfy `PV` and all lazily read matrix variables `PM`. -/
def VNode.Leaves (PV PM : Nat → Prop) : VNode E → Prop
  | .var y => PV y
  | .temp _ _ => True
  | .bin _ a b => a.Leaves PV PM ∧ b.Leaves PV PM
  | .scal _ a _ => a.Leaves PV PM
  | .neg a => a.Leaves PV PM
  | .cross a b => a.Leaves PV PM ∧ b.Leaves PV PM
  | .sub a _ => a.Leaves PV PM
  | .row m _ => m.Leaves PV PM
  | .col m _ => m.Leaves PV PM
def MNode.Leaves (PV PM : Nat → Prop) : MNode E → Prop
  | .var y => PM y
  | .temp _ => True
  | .bin _ a b => a.Leaves PV PM ∧ b.Leaves PV PM
  | .scal _ a _ => a.Leaves PV PM
  | .neg a => a.Leaves PV PM
  | .transpose a => a.Leaves PV PM
  | .outer a b => a.Leaves PV PM ∧ b.Leaves PV PM
end

/-- Vector variables reached only through element-wise nodes and subvectors satisfy `PA`; variables
under cross products, rows and columns satisfy `PV` and `PM`. -/
def VNode.Ahead (PA PV PM : Nat → Prop) : VNode E → Prop
  | .var y => PA y
  | .temp _ _ => True
  | .bin _ a b => a.Ahead PA PV PM ∧ b.Ahead PA PV PM
  | .scal _ a _ => a.Ahead PA PV PM
  | .neg a => a.Ahead PA PV PM
  | .cross a b => a.Leaves PV PM ∧ b.Leaves PV PM
  | .sub a _ => a.Ahead PA PV PM
  | .row m _ => m.Leaves PV PM
  | .col m _ => m.Leaves PV PM

mutual
/-- `VNode.Leaves` for the expression as written: operands of products do not count. -/
def VExpr.Leaves (PV PM : Nat → Prop) : VExpr E → Prop
  | .var y => PV y
  | .temp _ _ => True
  | .bin _ a b => a.Leaves PV PM ∧ b.Leaves PV PM
  | .scal _ a _ => a.Leaves PV PM
  | .neg a => a.Leaves PV PM
  | .cross a b => a.Leaves PV PM ∧ b.Leaves PV PM
  | .sub a _ => a.Leaves PV PM
  | .row m _ => m.Leaves PV PM
  | .col m _ => m.Leaves PV PM
  | .mulMV _ _ => True
  | .mulVM _ _ => True
def MExpr.Leaves (PV PM : Nat → Prop) : MExpr E → Prop
  | .var y => PM y
  | .temp _ => True
  | .bin _ a b => a.Leaves PV PM ∧ b.Leaves PV PM
  | .scal _ a _ => a.Leaves PV PM
  | .neg a => a.Leaves PV PM
  | .transpose a => a.Leaves PV PM
  | .outer a b => a.Leaves PV PM ∧ b.Leaves PV PM
  | .mul _ _ => True
end

/-- `VNode.Ahead` for the expression as written. -/
def VExpr.Ahead (PA PV PM : Nat → Prop) : VExpr E → Prop
  | .var y => PA y
  | .temp _ _ => True
  | .bin _ a b => a.Ahead PA PV PM ∧ b.Ahead PA PV PM
  | .scal _ a _ => a.Ahead PA PV PM
  | .neg a => a.Ahead PA PV PM
  | .cross a b => a.Leaves PV PM ∧ b.Leaves PV PM
  | .sub a _ => a.Ahead PA PV PM
  | .row m _ => m.Leaves PV PM
  | .col m _ => m.Leaves PV PM
  | .mulMV _ _ => True
  | .mulVM _ _ => True

/-- Two vector objects occupy no common memory cell. -/
def VObj.Disjoint (w d : VObj) : Prop :=
  w.data ≠ d.data ∨ w.off + w.size ≤ d.off ∨ d.off + d.size ≤ w.off

/-- A matrix and a vector object occupy no common memory cell. -/
def MObj.DisjointV (m : MObj) (d : VObj) : Prop :=
  m.data ≠ d.data ∨ m.off + m.rows * m.cols ≤ d.off ∨ d.off + d.size ≤ m.off

/-- Every vector variable with property `y` is disjoint from `d`. -/
def VDisj (s : State E) (d : VObj) (y : Nat) : Prop := ∀ w, s.vec y = some w → w.Disjoint d

/-- Every matrix variable with property `y` is disjoint from `d`. -/
def MDisj (s : State E) (d : VObj) (y : Nat) : Prop := ∀ m, s.mat y = some m → m.DisjointV d

/-- The variable's memory is disjoint from `d` or starts at or behind the start of `d`. -/
def VAhead (s : State E) (d : VObj) (y : Nat) : Prop :=
  ∀ w, s.vec y = some w → w.Disjoint d ∨ (w.data = d.data ∧ d.off ≤ w.off)

end

section
variable {E : Type} [Add E] [Sub E] [Mul E] [Div E] [Neg E]

/-- The statement `x = e;` (build the expression, then assign). -/
def stmtAssign (triv : Bool) (s : State E) (x : Nat) (e : VExpr E) : Out (State E) :=
  .withVal (e.build s) s fun n => vAssign triv s x n

/-- The statement `x += e;` or `x -= e;`. -/
def stmtOpAssign (triv : Bool) (o : BinOp) (s : State E) (x : Nat) (e : VExpr E) : Out (State E) :=
  .withVal (e.build s) s fun n => vOpAssign triv o s x n

/-- The statement `x.minimize(e);` (`lower = true`) or `x.maximize(e);`. -/
def stmtExtremize [LT E] [DecidableLT E] (triv lower : Bool) (s : State E) (x : Nat) (e : VExpr E) :
    Out (State E) :=
  .withVal (e.build s) s fun n => vExtremize triv lower s x n

end

end CML
