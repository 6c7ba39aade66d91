import Verif.Spec.History
import Verif.Spec.Stable

/-!
What a program over dynamic vectors and matrices is supposed to compute, without memory: a store gives every
variable in scope its size and its elements, and a statement changes the store in the way the mathematics
says.  Elements that have not been given a value yet are `none`; nothing is promised about them.
-/

namespace CML

/-- What is known of a vector variable: its size and the elements that have a value. -/
structure VCont (E : Type) where
  n : Nat
  f : Fin n → Option E

/-- What is known of a matrix variable: its type (layout, basis), dimensions, and the elements that have a
value. -/
structure MCont (E : Type) where
  colMajor : Bool
  colBasis : Bool
  r : Nat
  c : Nat
  f : Fin r → Fin c → Option E

/-- The variables in scope and their contents. -/
structure Store (E : Type) where
  v : Nat → Option (VCont E)
  m : Nat → Option (MCont E)

section
variable {E : Type}

/-- No variable is in scope. -/
def Store.empty : Store E := ⟨fun _ => none, fun _ => none⟩

/-- The content of a vector all of whose elements are known. -/
def VCont.of (p : VVal E) : VCont E := ⟨p.n, fun i => some (p.f i)⟩

/-- The content of a matrix all of whose elements are known. -/
def MCont.of (colMajor colBasis : Bool) (p : MVal E) : MCont E :=
  ⟨colMajor, colBasis, p.r, p.c, fun i j => some (p.f i j)⟩

/-- The value of a vector variable, if all its elements have one. -/
def VCont.val? (c : VCont E) : Option (VVal E) :=
  if h : ∀ i, (c.f i).isSome = true then some ⟨c.n, fun i => (c.f i).get (h i)⟩ else none

/-- The value of a matrix variable, if all its elements have one. -/
def MCont.val? (c : MCont E) : Option (MVal E) :=
  if h : ∀ i j, (c.f i j).isSome = true then some ⟨c.r, c.c, fun i j => (c.f i j).get (h i j)⟩ else none

/-- The values an expression may use. -/
def Store.env (σ : Store E) : Env E := ⟨fun x => (σ.v x).bind VCont.val?, fun x => (σ.m x).bind MCont.val?⟩

def Store.setV (σ : Store E) (x : Nat) (c : Option (VCont E)) : Store E :=
  { σ with v := fun y => if y = x then c else σ.v y }

def Store.setM (σ : Store E) (x : Nat) (c : Option (MCont E)) : Store E :=
  { σ with m := fun y => if y = x then c else σ.m y }

/-- The value of a scalar argument: a number or an element of a vector. -/
def Store.scalar (σ : Store E) : ScalarRef E → Option E
  | .val a => some a
  | .elem y i => (σ.v y).bind fun c => if h : i < c.n then c.f ⟨i, h⟩ else none

/-- The value of a scalar argument: a number or an element of a matrix. -/
def Store.mscalar (σ : Store E) : MScalarRef E → Option E
  | .val a => some a
  | .elem y i j => (σ.m y).bind fun c => if h : i < c.r ∧ j < c.c then c.f ⟨i, h.1⟩ ⟨j, h.2⟩ else none

mutual
/-- The object that determines the size of the expression is a named one. -/
def VExpr.Anchored : VExpr E → Prop
  | .var _ => True
  | .temp _ _ => False
  | .bin _ a _ => a.Anchored
  | .scal _ a _ => a.Anchored
  | .neg a => a.Anchored
  | .cross _ _ => True
  | .sub a _ => a.Anchored
  | .row m _ => m.Anchored
  | .col m _ => m.Anchored
  | .mulMV _ _ => False
  | .mulVM _ _ => False
@[inherit_doc VExpr.Anchored]
def MExpr.Anchored : MExpr E → Prop
  | .var _ => True
  | .temp _ => False
  | .bin _ a _ => a.Anchored
  | .scal _ a _ => a.Anchored
  | .neg a => a.Anchored
  | .transpose a => a.Anchored
  | .outer a b => a.Anchored ∧ b.Anchored
  | .mul _ _ => False
end

mutual
/-- The expression uses dynamic temporaries only, and no temporary determines the size of an operand of a
cross product (C79: such expressions are rejected by mistake). -/
def VExpr.Dyn : VExpr E → Prop
  | .var _ => True
  | .temp f _ => f = false
  | .bin _ a b => a.Dyn ∧ b.Dyn
  | .scal _ a _ => a.Dyn
  | .neg a => a.Dyn
  | .cross a b => (a.Dyn ∧ a.Anchored) ∧ b.Dyn ∧ b.Anchored
  | .sub a _ => a.Dyn
  | .row m _ => m.Dyn
  | .col m _ => m.Dyn
  | .mulMV m v => m.Dyn ∧ v.Dyn
  | .mulVM v m => v.Dyn ∧ m.Dyn
@[inherit_doc VExpr.Dyn]
def MExpr.Dyn : MExpr E → Prop
  | .var _ => True
  | .temp t => t.fixed = false
  | .bin _ a b => a.Dyn ∧ b.Dyn
  | .scal _ a _ => a.Dyn
  | .neg a => a.Dyn
  | .transpose a => a.Dyn
  | .outer a b => a.Dyn ∧ b.Dyn
  | .mul a b => a.Dyn ∧ b.Dyn
end

end

section
variable {E : Type} [Add E] [Sub E] [Mul E] [Div E] [Neg E]

/-- The expression is well-formed and has the value `p`. -/
def VExpr.Has (σ : Store E) (e : VExpr E) (p : VVal E) : Prop :=
  e.Dyn ∧ e.Pre σ.env ∧ e.den σ.env = some p

@[inherit_doc VExpr.Has]
def MExpr.Has (σ : Store E) (e : MExpr E) (p : MVal E) : Prop :=
  e.Dyn ∧ e.Pre σ.env ∧ e.den σ.env = some p

/-- The expression obeys the usage rules, but its sizes do not fit. -/
def VExpr.Bad (σ : Store E) (e : VExpr E) : Prop := e.Dyn ∧ e.Pre σ.env ∧ e.den σ.env = none

@[inherit_doc VExpr.Bad]
def MExpr.Bad (σ : Store E) (e : MExpr E) : Prop := e.Dyn ∧ e.Pre σ.env ∧ e.den σ.env = none

/-- The effect of a statement that is used as documented. -/
inductive Op.Means (σ : Store E) : Op E → Store E → Prop
  | vDefault {x : Nat} : σ.v x = none → Means σ (.vDefault x) (σ.setV x (some ⟨0, fun _ => none⟩))
  | vNew {x n : Nat} : σ.v x = none → Means σ (.vNew x n) (σ.setV x (some ⟨n, fun _ => none⟩))
  | vCopyNew {x : Nat} {e : VExpr E} {p : VVal E} : σ.v x = none → e.Has σ p →
      Means σ (.vCopyNew x e) (σ.setV x (some (.of p)))
  | vMoveNew {x y : Nat} {c : VCont E} : σ.v x = none → σ.v y = some c →
      Means σ (.vMoveNew x y) ((σ.setV x (some c)).setV y (some ⟨0, fun _ => none⟩))
  /-- `resize` keeps the common prefix; `resize_fast` keeps the elements only if the size stays the same -/
  | vResize {fast : Bool} {x n : Nat} {c : VCont E} : σ.v x = some c →
      Means σ (.vResize fast x n) (σ.setV x (some ⟨n, fun i =>
        if h : i < c.n then (if fast ∧ n ≠ c.n then none else c.f ⟨i, h⟩) else none⟩))
  | vPut {x i : Nat} {e : E} {c : VCont E} (hi : i < c.n) : σ.v x = some c →
      Means σ (.vPut x i e) (σ.setV x (some ⟨c.n, Function.update c.f ⟨i, hi⟩ (some e)⟩))
  /-- without a change of size `x` may occur in `e`, but not under cross products; with a change of size it
  may occur in operands of products only -/
  | vAssign {x : Nat} {e : VExpr E} {c : VCont E} {p : VVal E} : σ.v x = some c → e.Has σ p →
      (p.n = c.n → e.Ahead (fun _ => True) (· ≠ x) (fun _ => True)) →
      (p.n ≠ c.n → e.Leaves (· ≠ x) (fun _ => True)) →
      Means σ (.vAssign x e) (σ.setV x (some (.of p)))
  | vOp {o : BinOp} {x : Nat} {e : VExpr E} {q p : VVal E} (h : q.n = p.n) : σ.env.v x = some q → e.Has σ p →
      e.Ahead (fun _ => True) (· ≠ x) (fun _ => True) →
      Means σ (.vOp o x e) (σ.setV x (some (.of ⟨q.n, fun i => o.den (q.f i) (p.f (i.cast h))⟩)))
  | vScal {o : ScalOp} {x : Nat} {s : ScalarRef E} {a : E} {q : VVal E} : σ.env.v x = some q →
      σ.scalar s = some a → (∀ i, s ≠ .elem x i) →
      Means σ (.vScal o x s) (σ.setV x (some (.of ⟨q.n, fun i => o.den (q.f i) a⟩)))
  | vFill {x : Nat} {s : ScalarRef E} {a : E} {c : VCont E} : σ.v x = some c → σ.scalar s = some a →
      Means σ (.vFill x s) (σ.setV x (some (.of ⟨c.n, fun _ => a⟩)))
  | vList {cst : Bool} {x : Nat} {xs : List E} {c : VCont E} : σ.v x = some c →
      Means σ (.vList cst x xs) (σ.setV x (some (.of ⟨xs.length, fun i => xs[i]⟩)))
  | vMove {x y : Nat} {c c' : VCont E} : σ.v x = some c → σ.v y = some c' →
      Means σ (.vMove x y) ((σ.setV x (some c')).setV y (some c))
  | vDestroy {x : Nat} {c : VCont E} : σ.v x = some c → Means σ (.vDestroy x) (σ.setV x none)
  | mDefault {cm cb : Bool} {x : Nat} : σ.m x = none →
      Means σ (.mDefault cm cb x) (σ.setM x (some ⟨cm, cb, 0, 0, fun _ _ => none⟩))
  | mNew {cm cb : Bool} {x r c : Nat} : σ.m x = none →
      Means σ (.mNew cm cb x r c) (σ.setM x (some ⟨cm, cb, r, c, fun _ _ => none⟩))
  | mCopyNew {cm cb : Bool} {x : Nat} {e : MExpr E} {p : MVal E} : σ.m x = none → e.Has σ p →
      Means σ (.mCopyNew cm cb x e) (σ.setM x (some (.of cm cb p)))
  | mMoveNew {x y : Nat} {c : MCont E} : σ.m x = none → σ.m y = some c →
      Means σ (.mMoveNew x y)
        ((σ.setM x (some c)).setM y (some ⟨c.colMajor, c.colBasis, 0, 0, fun _ _ => none⟩))
  /-- `resize` keeps the elements if the dimensions stay the same (see C28 for the general case) -/
  | mResize {fast : Bool} {x r k : Nat} {c : MCont E} : σ.m x = some c →
      Means σ (.mResize fast x r k) (σ.setM x (some ⟨c.colMajor, c.colBasis, r, k, fun i j =>
        if h : r = c.r ∧ k = c.c then c.f (i.cast h.1) (j.cast h.2) else none⟩))
  | mPut {x i j : Nat} {e : E} {c : MCont E} (hi : i < c.r) (hj : j < c.c) : σ.m x = some c →
      Means σ (.mPut x i j e) (σ.setM x (some ⟨c.colMajor, c.colBasis, c.r, c.c, fun i' j' =>
        if i' = ⟨i, hi⟩ ∧ j' = ⟨j, hj⟩ then some e else c.f i' j'⟩))
  /-- without a change of dimensions `x` may occur in `e`, but not under transposes; otherwise it may occur
  in operands of products only -/
  | mAssign {x : Nat} {e : MExpr E} {c : MCont E} {p : MVal E} : σ.m x = some c → e.Has σ p →
      (p.r = c.r ∧ p.c = c.c → e.Ahead (fun _ => True) (fun _ => True) (· ≠ x)) →
      (¬ (p.r = c.r ∧ p.c = c.c) → e.Leaves (fun _ => True) (· ≠ x)) →
      Means σ (.mAssign x e) (σ.setM x (some (.of c.colMajor c.colBasis p)))
  | mOp {o : BinOp} {x : Nat} {e : MExpr E} {c : MCont E} {q p : MVal E} (h : q.r = p.r ∧ q.c = p.c) :
      σ.m x = some c → c.val? = some q → e.Has σ p →
      e.Ahead (fun _ => True) (fun _ => True) (· ≠ x) →
      Means σ (.mOp o x e) (σ.setM x (some (.of c.colMajor c.colBasis
        ⟨q.r, q.c, fun i j => o.den (q.f i j) (p.f (i.cast h.1) (j.cast h.2))⟩)))
  | mScal {o : ScalOp} {x : Nat} {s : MScalarRef E} {a : E} {c : MCont E} {q : MVal E} :
      σ.m x = some c → c.val? = some q → σ.mscalar s = some a → (∀ i j, s ≠ .elem x i j) →
      Means σ (.mScal o x s) (σ.setM x (some (.of c.colMajor c.colBasis
        ⟨q.r, q.c, fun i j => o.den (q.f i j) a⟩)))
  | mFill {x : Nat} {s : MScalarRef E} {a : E} {c : MCont E} : σ.m x = some c → σ.mscalar s = some a →
      Means σ (.mFill x s) (σ.setM x (some (.of c.colMajor c.colBasis ⟨c.r, c.c, fun _ _ => a⟩)))
  /-- row by row, in either layout -/
  | mList {kind : ListKind} {x : Nat} {xs : List E} {c : MCont E} (h : xs.length = c.r * c.c) :
      σ.m x = some c →
      Means σ (.mList kind x xs) (σ.setM x (some (.of c.colMajor c.colBasis
        ⟨c.r, c.c, fun i j => xs[(finProdFinEquiv (i, j)).cast h.symm]⟩)))
  | mMove {x y : Nat} {c c' : MCont E} : σ.m x = some c → σ.m y = some c' → c.colMajor = c'.colMajor →
      c.colBasis = c'.colBasis →
      Means σ (.mMove x y) ((σ.setM x (some c')).setM y (some c))
  | mDestroy {x : Nat} {c : MCont E} : σ.m x = some c → Means σ (.mDestroy x) (σ.setM x none)

/-- Statements that have to be rejected: expressions whose sizes do not fit, negative sizes, element lists of
the wrong length. -/
inductive Op.Rejected (σ : Store E) : Op E → Prop
  | vNew {x : Nat} {n : Int} : σ.v x = none → n < 0 → Rejected σ (.vNew x n)
  | vCopyNew {x : Nat} {e : VExpr E} : σ.v x = none → e.Bad σ → Rejected σ (.vCopyNew x e)
  | vResize {fast : Bool} {x : Nat} {n : Int} : (σ.v x).isSome → n < 0 → Rejected σ (.vResize fast x n)
  | vAssign {x : Nat} {e : VExpr E} : e.Bad σ → Rejected σ (.vAssign x e)
  | vOp {o : BinOp} {x : Nat} {e : VExpr E} : e.Bad σ → Rejected σ (.vOp o x e)
  | mNew {cm cb : Bool} {x : Nat} {r c : Int} : σ.m x = none → r < 0 ∨ c < 0 → Rejected σ (.mNew cm cb x r c)
  | mCopyNew {cm cb : Bool} {x : Nat} {e : MExpr E} : σ.m x = none → e.Bad σ → Rejected σ (.mCopyNew cm cb x e)
  | mResize {fast : Bool} {x : Nat} {r c : Int} : (σ.m x).isSome → r < 0 ∨ c < 0 →
      Rejected σ (.mResize fast x r c)
  | mAssign {x : Nat} {e : MExpr E} : e.Bad σ → Rejected σ (.mAssign x e)
  | mOp {o : BinOp} {x : Nat} {e : MExpr E} : e.Bad σ → Rejected σ (.mOp o x e)
  | mList {kind : ListKind} {x : Nat} {xs : List E} {c : MCont E} : σ.m x = some c →
      xs.length ≠ c.r * c.c → Rejected σ (.mList kind x xs)

/-- The effect of a program. -/
inductive Means : Store E → List (Op E) → Store E → Prop
  | nil (σ : Store E) : Means σ [] σ
  | cons {σ σ₁ σ₂ : Store E} {o : Op E} {l : List (Op E)} : o.Means σ σ₁ → Means σ₁ l σ₂ → Means σ (o :: l) σ₂

/-- Execution of a program; it stops at the first exception. -/
def runAll (s : State E) : List (Op E) → Out (State E)
  | [] => .ok s
  | o :: l => (o.run true s).andThen fun s => runAll s l

/-- The state contains vector `x` with content `c` (or no vector `x`). -/
def VHolds (s : State E) (x : Nat) : Option (VCont E) → Prop
  | none => s.vec x = none
  | some c => ∃ d, s.vec x = some d ∧ d.size = c.n ∧ ∀ i e, c.f i = some e → d.get s.heap i = .ok e

/-- The state contains matrix `x` with content `c` (or no matrix `x`). -/
def MHolds (s : State E) (x : Nat) : Option (MCont E) → Prop
  | none => s.mat x = none
  | some c => ∃ d, s.mat x = some d ∧ d.colMajor = c.colMajor ∧ d.colBasis = c.colBasis ∧ d.rows = c.r ∧
      d.cols = c.c ∧ ∀ i j e, c.f i j = some e → d.get s.heap i j = .ok e

/-- The memory state represents the store, and memory is owned properly. -/
structure Holds (s : State E) (σ : Store E) : Prop where
  inv : Inv s
  v : ∀ x, VHolds s x (σ.v x)
  m : ∀ x, MHolds s x (σ.m x)

end

end CML
