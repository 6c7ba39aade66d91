import Verif.Spec.Alias
import Verif.Spec.MatMem
import Verif.Model.MatOps

/-!
Histories of programs that work with dynamic vectors and matrices: statements, reachable states, and the
ownership conditions that every reachable state is claimed to satisfy.
-/

namespace CML

section
variable {E : Type}

/-- The statements of a history.  Every one is one line of C++ with dynamic vectors and matrices. -/
inductive Op (E : Type)
  /-- `vector<E, dynamic<>> x;` -/
  | vDefault (x : Nat)
  /-- `vector<E, dynamic<>> x(n);` -/
  | vNew (x : Nat) (n : Int)
  /-- `vector<E, dynamic<>> x(e);` — copy constructor if `e` is a variable -/
  | vCopyNew (x : Nat) (e : VExpr E)
  /-- `vector<E, dynamic<>> x(std::move(y));` -/
  | vMoveNew (x y : Nat)
  /-- `x.resize(n);` or `x.resize_fast(n);` -/
  | vResize (fast : Bool) (x : Nat) (n : Int)
  /-- `x.put(i, e);` -/
  | vPut (x i : Nat) (e : E)
  /-- `x = e;` — copy assignment if `e` is a variable -/
  | vAssign (x : Nat) (e : VExpr E)
  /-- `x += e;`, `x -= e;` -/
  | vOp (o : BinOp) (x : Nat) (e : VExpr E)
  /-- `x *= c;`, `x /= c;` -/
  | vScal (o : ScalOp) (x : Nat) (c : ScalarRef E)
  /-- `x.fill(c);` -/
  | vFill (x : Nat) (c : ScalarRef E)
  /-- `x = { ... };` -/
  | vList (cst : Bool) (x : Nat) (xs : List E)
  /-- `x = std::move(y);` -/
  | vMove (x y : Nat)
  /-- end of the lifetime of `x` -/
  | vDestroy (x : Nat)
  | mDefault (colMajor colBasis : Bool) (x : Nat)
  | mNew (colMajor colBasis : Bool) (x : Nat) (r c : Int)
  | mCopyNew (colMajor colBasis : Bool) (x : Nat) (e : MExpr E)
  | mMoveNew (x y : Nat)
  | mResize (fast : Bool) (x : Nat) (r c : Int)
  | mPut (x i j : Nat) (e : E)
  | mAssign (x : Nat) (e : MExpr E)
  | mOp (o : BinOp) (x : Nat) (e : MExpr E)
  | mScal (o : ScalOp) (x : Nat) (c : MScalarRef E)
  | mFill (x : Nat) (c : MScalarRef E)
  | mList (kind : ListKind) (x : Nat) (xs : List E)
  | mMove (x y : Nat)
  | mDestroy (x : Nat)

/-- A variable definition needs a name that is not in use. -/
def Op.NameFree (s : State E) : Op E → Prop
  | .vDefault x => s.vec x = none
  | .vNew x _ => s.vec x = none
  | .vCopyNew x _ => s.vec x = none
  | .vMoveNew x _ => s.vec x = none
  | .mDefault _ _ x => s.mat x = none
  | .mNew _ _ x _ _ => s.mat x = none
  | .mCopyNew _ _ x _ => s.mat x = none
  | .mMoveNew x _ => s.mat x = none
  | _ => True

/-- The start of the program: no variable, no memory; `fail` tells which allocations will fail. -/
def State.start (fail : Nat → Bool) : State E := ⟨⟨fun _ => none, 0, 0, fail⟩, fun _ => none, fun _ => none⟩

/-- All variables, vectors and matrices alike, seen as arrays: `inl x` is vector `x`, `inr x` is the
element array of matrix `x`. -/
def State.owner (s : State E) : Nat ⊕ Nat → Option VObj
  | .inl x => s.vec x
  | .inr x => (s.mat x).map MObj.flat

/-- Ownership: every variable holds its own array, of exactly its size, or null; every allocated array
belongs to a variable. -/
structure InvH (h : Heap E) (ow : Nat ⊕ Nat → Option VObj) : Prop where
  fresh : ∀ b, h.next ≤ b → h.blk b = none
  own : ∀ k v, ow k = some v → v.storage = .allocated ∧ v.fixed = false ∧ v.off = 0 ∧ v.Owned h
  excl : ∀ k k' v v' b, ow k = some v → ow k' = some v' → v.data = some b → v'.data = some b → k = k'
  noLeak : ∀ b l, h.blk b = some l → ∃ k v, ow k = some v ∧ v.data = some b

/-- The ownership condition on a program state. -/
def Inv (s : State E) : Prop := InvH s.heap s.owner

/-- The variables a statement may change. -/
def Op.Targets : Op E → Nat ⊕ Nat → Prop
  | .vDefault x, k => k = .inl x
  | .vNew x _, k => k = .inl x
  | .vCopyNew x _, k => k = .inl x
  | .vMoveNew x y, k => k = .inl x ∨ k = .inl y
  | .vResize _ x _, k => k = .inl x
  | .vPut x _ _, k => k = .inl x
  | .vAssign x _, k => k = .inl x
  | .vOp _ x _, k => k = .inl x
  | .vScal _ x _, k => k = .inl x
  | .vFill x _, k => k = .inl x
  | .vList _ x _, k => k = .inl x
  | .vMove x y, k => k = .inl x ∨ k = .inl y
  | .vDestroy x, k => k = .inl x
  | .mDefault _ _ x, k => k = .inr x
  | .mNew _ _ x _ _, k => k = .inr x
  | .mCopyNew _ _ x _, k => k = .inr x
  | .mMoveNew x y, k => k = .inr x ∨ k = .inr y
  | .mResize _ x _ _, k => k = .inr x
  | .mPut x _ _ _, k => k = .inr x
  | .mAssign x _, k => k = .inr x
  | .mOp _ x _, k => k = .inr x
  | .mScal _ x _, k => k = .inr x
  | .mFill x _, k => k = .inr x
  | .mList _ x _, k => k = .inr x
  | .mMove x y, k => k = .inr x ∨ k = .inr y
  | .mDestroy x, k => k = .inr x

/-- Every element of vector `y` has been given a value. -/
def State.VInit (s : State E) (y : Nat) : Prop :=
  ∃ w, s.vec y = some w ∧ ∀ i, i < w.size → ∃ e, w.get s.heap i = .ok e

/-- Every element of matrix `y` has been given a value. -/
def State.MInit (s : State E) (y : Nat) : Prop :=
  ∃ w, s.mat y = some w ∧ ∀ i j, i < w.rows → j < w.cols → ∃ e, w.get s.heap i j = .ok e

end

section
variable {E : Type} [Add E] [Sub E] [Mul E] [Div E] [Neg E]

/-- Execution of a statement. -/
def Op.run (triv : Bool) (s : State E) : Op E → Out (State E)
  | .vDefault x => .ok (CML.vDefault s x)
  | .vNew x n => CML.vNew triv s x n
  | .vCopyNew x e => .withVal (e.build s) s fun n => CML.vCopyNew triv s x n
  | .vMoveNew x y => CML.vMoveNew s x y
  | .vResize fast x n => if fast then CML.vResizeFast triv s x n else CML.vResize triv s x n
  | .vPut x i e => CML.vPut triv s x i e
  | .vAssign x e => stmtAssign triv s x e
  | .vOp o x e => stmtOpAssign triv o s x e
  | .vScal o x c => CML.vScalAssign triv o s x c
  | .vFill x c => CML.vFill triv s x c
  | .vList cst x xs => CML.vAssignList triv cst s x xs
  | .vMove x y => CML.vMoveAssign s x y
  | .vDestroy x => CML.vDestroy triv s x
  | .mDefault cm cb x => .ok (CML.mDefault cm cb s x)
  | .mNew cm cb x r c => CML.mNew triv cm cb s x r c
  | .mCopyNew cm cb x e => .withVal (e.build s) s fun n => CML.mCopyNew triv cm cb s x n
  | .mMoveNew x y => CML.mMoveNew s x y
  | .mResize fast x r c => if fast then CML.mResizeFast triv s x r c else CML.mResize triv s x r c
  | .mPut x i j e => CML.mPut triv s x i j e
  | .mAssign x e => mstmtAssign triv s x e
  | .mOp o x e => mstmtOpAssign triv o s x e
  | .mScal o x c => CML.mScalAssign triv o s x c
  | .mFill x c => CML.mFill triv s x c
  | .mList kind x xs => CML.mAssignList triv kind s x xs
  | .mMove x y => CML.mMoveAssign s x y
  | .mDestroy x => CML.mDestroy triv s x

/-- The states a program can be in after any number of statements.  A statement that throws leaves the
program running (the exception is caught around the statement). -/
inductive Reach (triv : Bool) (fail : Nat → Bool) : State E → Prop
  | start : Reach triv fail (State.start fail)
  | ok {s s' : State E} (o : Op E) : Reach triv fail s → o.NameFree s → o.run triv s = .ok s' →
      Reach triv fail s'
  | thrown {s s' : State E} (o : Op E) (e : Err) : Reach triv fail s → o.NameFree s →
      o.run triv s = .throw e s' → Reach triv fail s'

/-- Any number of further statements, none of which names `k` as a target. -/
inductive Later (triv : Bool) (k : Nat ⊕ Nat) (s : State E) : State E → Prop
  | refl : Later triv k s s
  | ok {s' s'' : State E} (o : Op E) : Later triv k s s' → o.NameFree s' → ¬ o.Targets k →
      o.run triv s' = .ok s'' → Later triv k s s''
  | thrown {s' s'' : State E} (o : Op E) (e : Err) : Later triv k s s' → o.NameFree s' → ¬ o.Targets k →
      o.run triv s' = .throw e s'' → Later triv k s s''

/-- A storage statement used as documented: the variables exist, indices are in range, and only
initialised elements are copied.  (For statements with other expressions see C08, C09, C17, C25.) -/
def Op.Proper (s : State E) : Op E → Prop
  | .vDefault x => s.vec x = none
  | .vNew x _ => s.vec x = none
  | .vCopyNew x e => s.vec x = none ∧ ∃ y, e = .var y ∧ s.VInit y
  | .vMoveNew x y => s.vec x = none ∧ (s.vec y).isSome
  | .vResize _ x _ => (s.vec x).isSome
  | .vPut x i _ => ∃ v, s.vec x = some v ∧ i < v.size
  | .vAssign x e => (s.vec x).isSome ∧ ∃ y, e = .var y ∧ s.VInit y
  | .vList _ x _ => (s.vec x).isSome
  | .vFill x c => (s.vec x).isSome ∧ ∃ e, c = .val e
  | .vMove x y => (s.vec x).isSome ∧ (s.vec y).isSome
  | .vDestroy x => (s.vec x).isSome
  | .mDefault _ _ x => s.mat x = none
  | .mNew _ _ x _ _ => s.mat x = none
  | .mCopyNew _ _ x e => s.mat x = none ∧ ∃ y, e = .var y ∧ s.MInit y
  | .mMoveNew x y => s.mat x = none ∧ (s.mat y).isSome
  | .mResize _ x _ _ => (s.mat x).isSome
  | .mPut x i j _ => ∃ m, s.mat x = some m ∧ i < m.rows ∧ j < m.cols
  | .mAssign x e => (s.mat x).isSome ∧ ∃ y, e = .var y ∧ s.MInit y
  | .mFill x c => (s.mat x).isSome ∧ ∃ e, c = .val e
  | .mMove x y => (s.mat x).isSome ∧ (s.mat y).isSome
  | .mDestroy x => (s.mat x).isSome
  | _ => False

end

end CML
