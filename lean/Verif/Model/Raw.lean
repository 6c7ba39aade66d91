import Verif.Model.MatOps

/-!
Raw access to the elements: `data()`, iteration with `begin()`/`end()`, assignment and construction from a
pointer, views of the memory of another object, and filling with random numbers.
-/

namespace CML

variable {E : Type}

/-- A pointer to an element: `off` elements into block `blk`, or null. -/
structure Ptr where
  blk : Option Nat
  off : Nat
  deriving DecidableEq, Repr

/-- `p[i]`. -/
def Ptr.read (p : Ptr) (h : Heap E) (i : Nat) : Res E :=
  match p.blk with
  | none => .ub .dead
  | some b => h.read b (p.off + i)

/-- `p + n`. -/
def Ptr.add (p : Ptr) (n : Nat) : Ptr := { p with off := p.off + n }

/-- `for(; p != q; ++p) … *p …`: the values read, with at most `fuel` steps (an iteration that does not arrive
at `q` leaves the array). -/
def Ptr.iterate (h : Heap E) : Nat → Ptr → Ptr → Res (List E)
  | 0, p, q => if p = q then .ok [] else .ub .oob
  | fuel + 1, p, q =>
    if p = q then .ok []
    else do
      let e ← p.read h 0
      let es ← Ptr.iterate h fuel (p.add 1) q
      pure (e :: es)

/-- `data()` and `begin()` of a vector, `/repo/cml/vector/dynamic_allocated.tpp:106-125`,
`fixed_compiled.tpp:43-62`, `dynamic_external.tpp:54-73`, `fixed_external.tpp:37-56`,
`dynamic_const_external.tpp:47-59`, `fixed_const_external.tpp:32-44`. -/
def VObj.begin (v : VObj) : Ptr := ⟨v.data, v.off⟩

/-- `end()` of a vector: `data() + size()`, `/repo/cml/vector/dynamic_allocated.tpp:127-132`,
`fixed_compiled.tpp:64-69`, `dynamic_external.tpp:75-80`, `fixed_external.tpp:58-63`,
`dynamic_const_external.tpp:61-66`, `fixed_const_external.tpp:46-51`. -/
def VObj.end (v : VObj) : Ptr := v.begin.add v.size

/-- `data()` and `begin()` of a matrix, `/repo/cml/matrix/dynamic_allocated.tpp:118-137`,
`fixed_compiled.tpp:50-69`, `dynamic_external.tpp:57-76`, `fixed_external.tpp:37-56`. -/
def MObj.begin (m : MObj) : Ptr := ⟨m.data, m.off⟩

/-- `end()` of a matrix: `data() + rows * cols`, `/repo/cml/matrix/dynamic_allocated.tpp:139-144`,
`fixed_compiled.tpp:71-76`, `dynamic_external.tpp:78-83`, `fixed_external.tpp:58-63`. -/
def MObj.end (m : MObj) : Ptr := m.begin.add (m.rows * m.cols)

/-- `for(auto e : v)`: the elements visited. -/
def vIterate (fuel : Nat) (s : State E) (x : Nat) : Res (List E) := do
  let v ← s.vobj x
  Ptr.iterate s.heap fuel v.begin v.end

/-- `for(auto e : M)`: the elements visited. -/
def mIterate (fuel : Nat) (s : State E) (x : Nat) : Res (List E) := do
  let m ← s.mobj x
  Ptr.iterate s.heap fuel m.begin m.end

/-- `assign(const Pointer&)` of a vector, `/repo/cml/vector/writable_vector.tpp:415-422`.  The pointer refers to
the memory of the program, so it may overlap the destination. -/
def vAssignPtr (triv : Bool) (s : State E) (x : Nat) (p : Ptr) : Out (State E) :=
  storeLoop triv s x fun s i => p.read s.heap i

/-- `vector(pointer, size)` and `vector(size, pointer)` of a dynamic vector,
`/repo/cml/vector/dynamic_allocated.tpp:64-82`. -/
def vNewPtr (triv : Bool) (s : State E) (x : Nat) (p : Ptr) (n : Int) : Out (State E) :=
  ctor x ((vResizeFast triv (vDefault s x) x n).andThen fun s => vAssignPtr triv s x p)

/-- `assign(const Pointer&)` of a matrix, `/repo/cml/matrix/writable_matrix.tpp:448-456`, with the pointer into
the memory of the program (see `mAssignPtr` for a pointer to something else). -/
def mAssignRaw (triv : Bool) (s : State E) (x : Nat) (p : Ptr) : Out (State E) :=
  .withVal (s.mobj x) s fun m =>
    Out.loop (fun k s => .withVal (p.read s.heap k) s fun e => mPut triv s x (k / m.cols) (k % m.cols) e) 0
      (m.rows * m.cols) s

/-- `matrix(rows, cols, pointer)` and `matrix(pointer, rows, cols)` of a dynamic matrix,
`/repo/cml/matrix/dynamic_allocated.tpp:82-102`. -/
def mNewPtr (triv colMajor colBasis : Bool) (s : State E) (x : Nat) (p : Ptr) (r c : Int) : Out (State E) :=
  mctor x ((mResizeFast triv (mDefault colMajor colBasis s x) x r c).andThen fun s => mAssignRaw triv s x p)

/-- Move constructor of external vectors, `/repo/cml/vector/dynamic_external.tpp:44-50`,
`fixed_external.tpp:29-33`, `dynamic_const_external.tpp:37-43`, `fixed_const_external.tpp:23-28`: the new view takes
over the memory and the old one becomes null (a size that is a template parameter stays). -/
def vViewMoveNew (s : State E) (x y : Nat) : Out (State E) :=
  .withVal (s.vobj y) s fun w =>
    .ok ((s.setVec x (some w)).setVec y
      (some { w with data := none, off := 0, size := if w.fixed then w.size else 0 }))

/-- `reset()` of a view with a run-time size, `/repo/cml/vector/dynamic_external.tpp:82-87`,
`dynamic_const_external.tpp:68-73`. -/
def vViewReset (s : State E) (x : Nat) : Out (State E) :=
  .withVal (s.vobj x) s fun v => .ok (s.setVec x (some { v with data := none, off := 0, size := 0 }))

/-- `random(low, high)` of a vector, `/repo/cml/vector/writable_vector.tpp:192-204`: `draw k` is the number that the
distribution delivers at its `k`-th call. -/
def vRandom (triv : Bool) (s : State E) (x : Nat) (draw : Nat → E) : Out (State E) :=
  storeLoop triv s x fun _ i => .ok (draw i)

/-- Carry a counter along: `f` gets the number of earlier calls. -/
def Out.counted {σ : Type} (f : Nat → σ → Out σ) (c : Nat × σ) : Out (Nat × σ) :=
  match f c.1 c.2 with
  | .ok s => .ok (c.1 + 1, s)
  | .throw e s => .throw e (c.1 + 1, s)
  | .ub u => .ub u

/-- Forget the counter. -/
def Out.uncounted {σ : Type} (o : Out (Nat × σ)) : Out σ :=
  match o with
  | .ok c => .ok c.2
  | .throw e c => .throw e c.2
  | .ub u => .ub u

/-- `random(low, high)` of a matrix, `/repo/cml/matrix/writable_matrix.tpp:186-200`: `detail::generate` visits the
elements in the order of the layout (`/repo/cml/matrix/detail/generate.h:14-33`); the counter is the number of calls
of the distribution made so far. -/
def mRandom (triv : Bool) (s : State E) (x : Nat) (draw : Nat → E) : Out (State E) :=
  .withVal (s.mobj x) s fun m =>
    let step (i j : Nat) (c : Nat × State E) := Out.counted (fun n s => mPut triv s x i j (draw n)) c
    (if m.colMajor then
      Out.loop (fun j c => Out.loop (fun i c => step i j c) 0 m.rows c) 0 m.cols (0, s)
    else Out.loop (fun i c => Out.loop (fun j c => step i j c) 0 m.cols c) 0 m.rows (0, s)).uncounted

end CML
