import Verif.Spec.Alias
import Verif.Spec.Memory
import Verif.Model.MatOps

/-!
Specification notions for matrices in memory: the memory region of a matrix, which matrices an assignment
reads while it writes, and statements.
-/

namespace CML

/-- The memory region of a matrix, described as a vector of `rows * cols` elements. -/
def MObj.flat (m : MObj) : VObj := ⟨m.storage, m.fixed, m.data, m.off, m.rows * m.cols⟩

/-- The dimensions of the matrix cannot change: its elements are part of the object, or it is a view whose
dimensions are template parameters. -/
def MObj.Rigid (m : MObj) : Prop := m.storage = .compiled ∨ m.storage = .external ∧ m.fixed = true

/-- `q'` has the elements of `q` at the same places of the linear storage (as far as it has such places). -/
def SameSequence {E : Type} (colMajor : Bool) {r c r' c' : Nat} (q : Fin r → Fin c → E)
    (q' : Fin r' → Fin c' → E) : Prop :=
  ∀ (i : Fin r) (j : Fin c) (i' : Fin r') (j' : Fin c'),
    (if colMajor then j * r + i = j' * r' + i' else i * c + j = i' * c' + j') → q' i' j' = q i j

section
variable {E : Type}

/-- Matrix variables reached only through element-wise nodes satisfy `PA`; variables under transposes and
outer products satisfy `PV` and `PM`. -/
def MNode.Ahead (PA PV PM : Nat → Prop) : MNode E → Prop
  | .var y => PA y
  | .temp _ => True
  | .bin _ a b => a.Ahead PA PV PM ∧ b.Ahead PA PV PM
  | .scal _ a _ => a.Ahead PA PV PM
  | .neg a => a.Ahead PA PV PM
  | .transpose a => a.Leaves PV PM
  | .outer a b => a.Leaves PV PM ∧ b.Leaves PV PM

/-- `MNode.Ahead` for the expression as written (operands of products do not count). -/
def MExpr.Ahead (PA PV PM : Nat → Prop) : MExpr E → Prop
  | .var y => PA y
  | .temp _ => True
  | .bin _ a b => a.Ahead PA PV PM ∧ b.Ahead PA PV PM
  | .scal _ a _ => a.Ahead PA PV PM
  | .neg a => a.Ahead PA PV PM
  | .transpose a => a.Leaves PV PM
  | .outer a b => a.Leaves PV PM ∧ b.Leaves PV PM
  | .mul _ _ => True

/-- The matrix variable's memory is disjoint from `d`, or it has the same layout and dimensions as `d` and
starts at or behind the start of `d` (in particular: it is `d` itself). -/
def MAhead (s : State E) (d : MObj) (y : Nat) : Prop :=
  ∀ w, s.mat y = some w → w.DisjointV d.flat ∨
    (w.data = d.data ∧ d.off ≤ w.off ∧ w.colMajor = d.colMajor ∧ w.rows = d.rows ∧ w.cols = d.cols)

/-- A dynamic matrix' array: null and empty, or a live block of exactly its size. -/
def MObj.Owned (h : Heap E) (m : MObj) : Prop := m.flat.Owned h

end

section
variable {E : Type} [Add E] [Sub E] [Mul E] [Div E] [Neg E]

/-- The statement `x = e;`. -/
def mstmtAssign (triv : Bool) (s : State E) (x : Nat) (e : MExpr E) : Out (State E) :=
  .withVal (e.build s) s fun n => mAssign triv s x n

/-- The statement `x += e;` or `x -= e;`. -/
def mstmtOpAssign (triv : Bool) (o : BinOp) (s : State E) (x : Nat) (e : MExpr E) : Out (State E) :=
  .withVal (e.build s) s fun n => mOpAssign triv o s x n

/-- The operand `a` is valid and has the elements of the `r × c` matrix `A`; its compile-time dimensions,
if it has them, are `r` and `c`. -/
structure MIs (s : State E) (a : MNode E) (r c : Nat) (A : Fin r → Fin c → E) : Prop where
  rep : MRep s a ⟨r, c, A⟩
  known : ∃ f, a.Typed s f ((r : Int), (c : Int))

end

end CML
