import Verif.Model.Expr
import Mathlib.Data.Fin.VecNotation
import Mathlib.Logic.Equiv.Fin.Basic

/-!
Specification of expressions: what a vector/matrix expression means mathematically, independently of
nodes, references, temporaries and evaluation order.  A vector value is a function on `Fin n`, a
matrix value a function on `Fin r × Fin c`.  The value of an expression is `none` when the operand
sizes do not fit.
-/

namespace CML

/-- A vector value. -/
structure VVal (E : Type) where
  n : Nat
  f : Fin n → E

/-- A matrix value. -/
structure MVal (E : Type) where
  r : Nat
  c : Nat
  f : Fin r → Fin c → E

/-- Values of the variables in scope. -/
structure Env (E : Type) where
  v : Nat → Option (VVal E)
  m : Nat → Option (MVal E)

/-- `g 0 + g 1 + … + g n`, summed from the left (the order matters for floating point). -/
def sumLeft {E : Type} [Add E] : (n : Nat) → (Fin (n + 1) → E) → E
  | 0, g => g 0
  | n + 1, g => sumLeft n (fun i => g i.castSucc) + g (Fin.last (n + 1))

/-- Inner product of two non-empty sequences, summed from the left. -/
def dotLeft {E : Type} [Add E] [Mul E] : (n : Nat) → 0 < n → (Fin n → E) → (Fin n → E) → E
  | n + 1, _, p, q => sumLeft n fun i => p i * q i

/-- The meaning of the element-wise operators. -/
def BinOp.den {E : Type} [Add E] [Sub E] [Mul E] (o : BinOp) (a b : E) : E :=
  match o with
  | .plus => a + b
  | .minus => a - b
  | .mul => a * b

/-- The meaning of the operators with a scalar on the right. -/
def ScalOp.den {E : Type} [Mul E] [Div E] (o : ScalOp) (a c : E) : E :=
  match o with
  | .mul => a * c
  | .div => a / c

section
variable {E : Type} [Add E] [Sub E] [Mul E] [Div E] [Neg E]

mutual
/-- The mathematical value of a vector expression. -/
def VExpr.den (ρ : Env E) : VExpr E → Option (VVal E)
  | .var x => ρ.v x
  | .temp _ xs => some ⟨xs.length, fun i => xs[i]⟩
  | .bin o a b =>
    match a.den ρ, b.den ρ with
    | some p, some q =>
      if h : p.n = q.n then some ⟨p.n, fun i => o.den (p.f i) (q.f (i.cast h))⟩ else none
    | _, _ => none
  | .scal o a c => match a.den ρ with
    | some p => some ⟨p.n, fun i => o.den (p.f i) c⟩
    | none => none
  | .neg a => match a.den ρ with
    | some p => some ⟨p.n, fun i => -p.f i⟩
    | none => none
  | .cross a b =>
    match a.den ρ, b.den ρ with
    | some ⟨3, p⟩, some ⟨3, q⟩ =>
      some ⟨3, ![p 1 * q 2 - p 2 * q 1, p 2 * q 0 - p 0 * q 2, p 0 * q 1 - p 1 * q 0]⟩
    | _, _ => none
  | .sub a k =>
    match a.den ρ with
    | some ⟨n + 1, p⟩ =>
      if h : 0 ≤ k ∧ k.toNat < n + 1 then some ⟨n, fun i => p ((⟨k.toNat, h.2⟩ : Fin (n + 1)).succAbove i)⟩
      else none
    | _ => none
  | .row m i => match m.den ρ with
    | some p => if h : 0 ≤ i ∧ i.toNat < p.r then some ⟨p.c, fun j => p.f ⟨i.toNat, h.2⟩ j⟩ else none
    | none => none
  | .col m j => match m.den ρ with
    | some p => if h : 0 ≤ j ∧ j.toNat < p.c then some ⟨p.r, fun i => p.f i ⟨j.toNat, h.2⟩⟩ else none
    | none => none
  | .mulMV m v =>
    match m.den ρ, v.den ρ with
    | some p, some q =>
      if h : p.c = q.n ∧ 0 < p.c then
        some ⟨p.r, fun i => dotLeft p.c h.2 (fun k => p.f i k) (fun k => q.f (k.cast h.1))⟩
      else none
    | _, _ => none
  | .mulVM v m =>
    match v.den ρ, m.den ρ with
    | some p, some q =>
      if h : p.n = q.r ∧ 0 < p.n then
        some ⟨q.c, fun j => dotLeft p.n h.2 p.f (fun k => q.f (k.cast h.1) j)⟩
      else none
    | _, _ => none
/-- The mathematical value of a matrix expression. -/
def MExpr.den (ρ : Env E) : MExpr E → Option (MVal E)
  | .var x => ρ.m x
  | .temp t =>
    if h : t.elems.length = t.rows * t.cols then
      some ⟨t.rows, t.cols, fun i j => t.elems[(finProdFinEquiv (i, j)).cast h.symm]⟩
    else none
  | .bin o a b =>
    match a.den ρ, b.den ρ with
    | some p, some q =>
      if h : p.r = q.r ∧ p.c = q.c then
        some ⟨p.r, p.c, fun i j => o.den (p.f i j) (q.f (i.cast h.1) (j.cast h.2))⟩
      else none
    | _, _ => none
  | .scal o a c => match a.den ρ with
    | some p => some ⟨p.r, p.c, fun i j => o.den (p.f i j) c⟩
    | none => none
  | .neg a => match a.den ρ with
    | some p => some ⟨p.r, p.c, fun i j => -p.f i j⟩
    | none => none
  | .transpose a => match a.den ρ with
    | some p => some ⟨p.c, p.r, fun i j => p.f j i⟩
    | none => none
  | .outer a b =>
    match a.den ρ, b.den ρ with
    | some p, some q => some ⟨p.n, q.n, fun i j => p.f i * q.f j⟩
    | _, _ => none
  | .mul a b =>
    match a.den ρ, b.den ρ with
    | some p, some q =>
      if h : p.c = q.r ∧ 0 < p.c then
        some ⟨p.r, q.c, fun i j =>
          dotLeft p.c h.2 (fun k => p.f i k) (fun k => q.f (k.cast h.1) j)⟩
      else none
    | _, _ => none
end

mutual
/-- The usage rules the library does not check itself: variables are in scope, a skipped subvector index and a
row/column index must be in range, inner dimensions of products must not be zero, a matrix literal
must have the right number of elements. -/
def VExpr.Pre (ρ : Env E) : VExpr E → Prop
  | .var x => (ρ.v x).isSome
  | .temp _ _ => True
  | .bin _ a b => a.Pre ρ ∧ b.Pre ρ
  | .scal _ a _ => a.Pre ρ
  | .neg a => a.Pre ρ
  | .cross a b => a.Pre ρ ∧ b.Pre ρ
  | .sub a k => a.Pre ρ ∧ ∀ p, a.den ρ = some p → 0 ≤ k ∧ k.toNat < p.n
  | .row m i => m.Pre ρ ∧ ∀ p, m.den ρ = some p → i.toNat < p.r
  | .col m j => m.Pre ρ ∧ ∀ p, m.den ρ = some p → j.toNat < p.c
  | .mulMV m v => m.Pre ρ ∧ v.Pre ρ ∧ ∀ p, m.den ρ = some p → 0 < p.c
  | .mulVM v m => v.Pre ρ ∧ m.Pre ρ ∧ ∀ p, v.den ρ = some p → 0 < p.n
def MExpr.Pre (ρ : Env E) : MExpr E → Prop
  | .var x => (ρ.m x).isSome
  | .temp t => t.elems.length = t.rows * t.cols
  | .bin _ a b => a.Pre ρ ∧ b.Pre ρ
  | .scal _ a _ => a.Pre ρ
  | .neg a => a.Pre ρ
  | .transpose a => a.Pre ρ
  | .outer a b => a.Pre ρ ∧ b.Pre ρ
  | .mul a b => a.Pre ρ ∧ b.Pre ρ ∧ ∀ p, a.den ρ = some p → 0 < p.c
end

mutual
/-- A row or column with a negative index is asked for somewhere in the expression: the only reason for an
error other than a size error. -/
def VExpr.NegLine : VExpr E → Prop
  | .var _ => False
  | .temp _ _ => False
  | .bin _ a b => a.NegLine ∨ b.NegLine
  | .scal _ a _ => a.NegLine
  | .neg a => a.NegLine
  | .cross a b => a.NegLine ∨ b.NegLine
  | .sub a _ => a.NegLine
  | .row m i => m.NegLine ∨ i < 0
  | .col m j => m.NegLine ∨ j < 0
  | .mulMV m v => m.NegLine ∨ v.NegLine
  | .mulVM v m => v.NegLine ∨ m.NegLine
def MExpr.NegLine : MExpr E → Prop
  | .var _ => False
  | .temp _ => False
  | .bin _ a b => a.NegLine ∨ b.NegLine
  | .scal _ a _ => a.NegLine
  | .neg a => a.NegLine
  | .transpose a => a.NegLine
  | .outer a b => a.NegLine ∨ b.NegLine
  | .mul a b => a.NegLine ∨ b.NegLine
end

/-- The size errors an expression can raise: vectors of different size, a vector that is not of the fixed
size required (`cross`), matrices of different or not matching dimensions; or a rejection at compile time
where all sizes involved are known then. -/
def Err.IsSize (er : Err) : Prop :=
  er = .vecIncompatible ∨ er = .vecSize ∨ er = .matIncompatible ∨ er = .staticAssert

/-- The static type of a vector node is right: it has the fixed-size tag iff `f`, and then its constant
size is its size. -/
structure VNode.Typed (s : State E) (x : VNode E) (f : Bool) (n : Int) : Prop where
  fixed : x.fixed s = .ok f
  csize : x.csize s = .ok (if f then n else -1)
  compiled : ∃ c, x.compiled s = .ok c ∧ (c = true → f = true)

/-- The static type of a matrix node is right: it has the fixed-size tag iff `f`, and then its constant
dimensions are its dimensions.  (The dimensions of its *storage type* may still be wrong.) -/
structure MNode.Typed (s : State E) (x : MNode E) (f : Bool) (d : Int × Int) : Prop where
  fixed : x.fixed s = .ok f
  cdims : x.cdims s = .ok (if f then d else (-1, -1))
  compiled : ∃ c, x.compiled s = .ok c ∧ (c = true → f = true)
  sdims : ∃ k, x.sdims s = .ok k ∧ (f = false → k = (-1, -1))

/-- If the matrix node has a fixed size, then its storage type has its dimensions and they are positive.
This fails for `transpose(A)` with a fixed-size `A` that is not square. -/
def MNode.Straight (s : State E) (x : MNode E) : Prop :=
  x.fixed s = .ok true → ∃ d, x.dims s = .ok d ∧ x.sdims s = .ok d ∧ 0 < d.1 ∧ 0 < d.2

/-- The node built for the expression is `Straight`. -/
def MExpr.Straight (s : State E) (e : MExpr E) : Prop := ∀ x, e.build s = .ok x → x.Straight s

mutual
/-- The expressions the library supports.  Every operand of a cross product has a compile-time size or keeps
its size when it is moved from (true for named vectors, fixed-size temporaries, and expressions whose
first operand is such; false for dynamic temporaries).  The matrix operands of sums, differences and
products are `Straight`.  The operands of an outer product have both a compile-time size or neither.  No
subvector is taken of a vector with compiled storage of size 1. -/
def VExpr.Supported (s : State E) : VExpr E → Prop
  | .var _ => True
  | .temp _ _ => True
  | .bin _ a b => a.Supported s ∧ b.Supported s
  | .scal _ a _ => a.Supported s
  | .neg a => a.Supported s
  | .cross a b => a.Supported s ∧ b.Supported s ∧
      (∀ x, a.build s = .ok x → (∀ f, x.fixed s = .ok f → f = true) ∨
        x.movedSize s = x.size s) ∧
      (∀ x, b.build s = .ok x → (∀ f, x.fixed s = .ok f → f = true) ∨
        x.movedSize s = x.size s)
  | .sub a _ => a.Supported s ∧
      ∀ x, a.build s = .ok x → x.compiled s = .ok true → ∀ n, x.size s = .ok n → 1 < n
  | .row m _ => m.Supported s
  | .col m _ => m.Supported s
  | .mulMV m v => m.Supported s ∧ v.Supported s ∧ m.Straight s
  | .mulVM v m => v.Supported s ∧ m.Supported s ∧ m.Straight s
@[inherit_doc VExpr.Supported]
def MExpr.Supported (s : State E) : MExpr E → Prop
  | .var _ => True
  | .temp _ => True
  | .bin _ a b => a.Supported s ∧ b.Supported s ∧ a.Straight s ∧ b.Straight s
  | .scal _ a _ => a.Supported s
  | .neg a => a.Supported s
  | .transpose a => a.Supported s
  | .outer a b => a.Supported s ∧ b.Supported s ∧
      ∀ x y, a.build s = .ok x → b.build s = .ok y → x.fixed s = y.fixed s
  | .mul a b => a.Supported s ∧ b.Supported s ∧ a.Straight s ∧ b.Straight s
end

/-- A node object denotes a vector value: right size, and every in-range element read succeeds with
the right value. -/
structure VRep (s : State E) (x : VNode E) (p : VVal E) : Prop where
  size : x.size s = .ok (p.n : Int)
  get : ∀ i : Fin p.n, x.get s i = .ok (p.f i)

/-- A node object denotes a matrix value. -/
structure MRep (s : State E) (x : MNode E) (p : MVal E) : Prop where
  dims : x.dims s = .ok ((p.r : Int), (p.c : Int))
  get : ∀ (i : Fin p.r) (j : Fin p.c), x.get s i j = .ok (p.f i j)

/-- The variables in scope hold the values of the environment. -/
structure Agree (s : State E) (ρ : Env E) : Prop where
  v : ∀ x p, ρ.v x = some p → VRep s (.var x) p
  m : ∀ x p, ρ.m x = some p → MRep s (.var x) p

end

end CML
