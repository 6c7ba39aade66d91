import Verif.Model.Raw

/-!
Arguments that refer to the object a function writes: `set(e0, e1, ...)` of vectors and matrices takes all its
arguments by reference (`/repo/cml/vector/writable_vector.tpp:229-247`, `/repo/cml/matrix/writable_matrix.tpp:22-49`),
and so do the functions of `/repo/cml/mathlib/matrix/` that build a matrix from scalars or vectors (see
`Model/SelfBuild.lean`).
-/

namespace CML

variable {E : Type}

/-- An argument of type `const E&`: bound to a temporary, or to an element in memory (`v[i]` and `M(i,j)` are
references, `/repo/cml/scalar/traits.h:33-34`). -/
inductive ERef (E : Type)
  | val (e : E)
  | ref (p : Ptr)

/-- The value the argument has at the moment. -/
def ERef.read (h : Heap E) : ERef E → Res E
  | .val e => .ok e
  | .ref p => p.read h 0

/-- The argument number `i`. -/
def ERef.nth (h : Heap E) (es : List (ERef E)) (i : Nat) : Res E :=
  match es[i]? with
  | some e => e.read h
  | none => .ub .oob

/-- `v.set(e0, e1, ...)`, `/repo/cml/vector/writable_vector.tpp:16-34`, `229-237`, `448-457`: the vector is resized
to the number of arguments (or its size is checked), then one argument after the other is read and stored. -/
def vSetRefs (triv : Bool) (s : State E) (x : Nat) (es : List (ERef E)) : Out (State E) :=
  (checkOrResizeN triv true s x es.length).andThen fun s =>
    Out.loop (storeStep triv x fun s i => ERef.nth s.heap es i) 0 es.length s

/-- `M.set(e0, e1, ...)`, `/repo/cml/matrix/writable_matrix.tpp:22-49`, `472-485`: the number of arguments is checked,
then argument `k` is read and stored in element `(k / cols, k % cols)`. -/
def mSetRefs (triv : Bool) (s : State E) (x : Nat) (es : List (ERef E)) : Out (State E) :=
  .withVal (s.mobj x) s fun m =>
    .withVal (Res.require (m.rows * m.cols == es.length) (ListKind.elements.err m.fixed)) s fun _ =>
      Out.loop (fun k s => .withVal (ERef.nth s.heap es k) s fun v =>
        mPut triv s x (k / m.cols) (k % m.cols) v) 0 es.length s

end CML
