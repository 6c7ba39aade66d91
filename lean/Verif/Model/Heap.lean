import Verif.Model.Core
import Verif.Model.Promotion

/-!
Memory, vector objects and matrix objects.

A memory block is a list of cells; a cell is `some v` (holds an element with a value) or `none`
(allocated storage without a value: never initialised, or destroyed).  The element type is described
by a flag `triv`: `true` for trivial (implicit-lifetime, trivially destructible) types such as
`double` and `int`, `false` for class types with constructors and destructors.

Simplifications: block identifiers are never reused (so an access through a stale pointer is always
visible as an access to a dead block); addresses in different blocks never coincide;
`deallocate(nullptr, 0)` is a no-op.
-/

namespace CML

/-- Memory: live blocks, the next fresh block identifier, and an allocation-failure oracle
(`fail k` tells whether the `k`-th allocation request fails; `tick` counts requests). -/
structure Heap (E : Type u) where
  blk : Nat → Option (List (Option E))
  next : Nat
  tick : Nat
  fail : Nat → Bool

namespace Heap
variable {E : Type u}

/-- Replace the content of block `b`. -/
def setBlk (h : Heap E) (b : Nat) (c : Option (List (Option E))) : Heap E :=
  { h with blk := fun x => if x = b then c else h.blk x }

/-- Lvalue-to-rvalue conversion of `data[o]` (`m_data[i]`, e.g.
`/repo/cml/vector/dynamic_allocated.tpp:264`). -/
def read (h : Heap E) (b o : Nat) : Res E :=
  match h.blk b with
  | none => .ub .dead
  | some l =>
    match l[o]? with
    | none => .ub .oob
    | some none => .ub .uninit
    | some (some v) => .ok v

/-- `data[o] = v` (`/repo/cml/vector/dynamic_allocated.tpp:281`).  For a non-trivial element type the
assignment operator needs an existing object. -/
def write (triv : Bool) (h : Heap E) (b o : Nat) (v : E) : Res (Heap E) :=
  match h.blk b with
  | none => .ub .dead
  | some l =>
    match l[o]? with
    | none => .ub .oob
    | some c =>
      if triv || c.isSome then .ok (h.setBlk b (some (l.set o (some v)))) else .ub .raw

/-- `allocator_traits::allocate(allocator, n)`; `none` is the `bad_alloc` case. -/
def alloc (h : Heap E) (n : Nat) : Heap E × Option Nat :=
  if h.fail h.tick then ({ h with tick := h.tick + 1 }, none)
  else
    ({ h.setBlk h.next (some (List.replicate n none)) with next := h.next + 1, tick := h.tick + 1 },
      some h.next)

/-- `allocator_traits::deallocate(allocator, p, n)` for a possibly null `p`. -/
def free (h : Heap E) (p : Option Nat) (n : Nat) : Res (Heap E) :=
  match p with
  | none => .ok h
  | some b =>
    match h.blk b with
    | none => .ub .dead
    | some l => if l.length = n then .ok (h.setBlk b none) else .ub .badFree

/-- `destruct(data, n, ...)`, `/repo/cml/vector/dynamic_allocated.tpp:229-249` and
`/repo/cml/matrix/dynamic_allocated.tpp:259-279`: nothing for trivially destructible types and for
null, otherwise every element is destroyed.  Simplification: destroying a cell that holds no object
(technically undefined behaviour, possible after `resize_fast`) is not flagged. -/
def destruct (triv : Bool) (h : Heap E) (p : Option Nat) : Heap E :=
  if triv then h
  else
    match p with
    | none => h
    | some b => h.setBlk b ((h.blk b).map fun l => l.map fun _ => none)

/-- `allocator_traits::construct(allocator, dst, *src)` of one element,
`/repo/cml/vector/dynamic_allocated.tpp:159`.  Simplification: for trivial types copying an
uninitialised element leaves the copy uninitialised (like `memcpy`). -/
def copyCell (triv : Bool) (h : Heap E) (src dst o : Nat) : Res (Heap E) :=
  match h.blk src, h.blk dst with
  | some ls, some ld =>
    match ls[o]?, ld[o]? with
    | some c, some _ =>
      if triv || c.isSome then .ok (h.setBlk dst (some (ld.set o c))) else .ub .raw
    | _, _ => .ub .oob
  | _, _ => .ub .dead

end Heap

/-- How a vector or matrix object holds its elements: in the object itself (`compiled`), in an owned
heap array (`allocated`), or in caller-provided memory (`external`). -/
inductive Storage | compiled | allocated | external
  deriving DecidableEq, Repr

/-- A vector object: `/repo/cml/vector/fixed_compiled.h`, `dynamic_allocated.h`,
`fixed_external.h`, `dynamic_external.h` (members `m_data`, `m_size`).  `data = none` is a null
pointer.  `fixed` tells whether the size is a template parameter.  For external storage `data`
points `off` elements into a block. -/
structure VObj where
  storage : Storage
  fixed : Bool
  data : Option Nat
  off : Nat
  size : Nat
  deriving DecidableEq, Repr

/-- A matrix object: members `m_data`, `m_rows`, `m_cols` and the basis and layout tags. -/
structure MObj where
  storage : Storage
  fixed : Bool
  data : Option Nat
  off : Nat
  rows : Nat
  cols : Nat
  colMajor : Bool
  colBasis : Bool
  deriving DecidableEq, Repr

/-- Program state: memory and the live vector and matrix variables. -/
structure State (E : Type u) where
  heap : Heap E
  vec : Nat → Option VObj
  mat : Nat → Option MObj

namespace State
variable {E : Type u}

/-- Set or destroy vector variable `x`. -/
def setVec (s : State E) (x : Nat) (v : Option VObj) : State E :=
  { s with vec := fun y => if y = x then v else s.vec y }

/-- Set or destroy matrix variable `x`. -/
def setMat (s : State E) (x : Nat) (m : Option MObj) : State E :=
  { s with mat := fun y => if y = x then m else s.mat y }

end State

namespace VObj
variable {E : Type u}

/-- `i_get(i)`, `/repo/cml/vector/dynamic_allocated.tpp:262-265`, `dynamic_external.tpp:121-124`,
`fixed_external.tpp:94-97`, `fixed_compiled.tpp`: `m_data[i]`.  An index outside of the vector is
undefined behaviour even if the memory there belongs to something else. -/
def get (h : Heap E) (v : VObj) (i : Nat) : Res E :=
  match v.data with
  | none => .ub .dead
  | some b => if i < v.size then h.read b (v.off + i) else .ub .oob

/-- `i_put(i, v)`, `/repo/cml/vector/dynamic_allocated.tpp:279-283` and siblings. -/
def put (triv : Bool) (h : Heap E) (v : VObj) (i : Nat) (e : E) : Res (Heap E) :=
  match v.data with
  | none => .ub .dead
  | some b => if i < v.size then h.write triv b (v.off + i) e else .ub .oob

end VObj

namespace MObj
variable {E : Type u}

/-- `s_access`, `/repo/cml/matrix/dynamic_allocated.h:275-287`: linear index of element `(i,j)`.
Fixed-size matrices use nested arrays `m_data[i][j]` / `m_data[j][i]`
(`/repo/cml/matrix/fixed_compiled.h:218-230`, `fixed_external.h:201-213`), which have the same
linear layout. -/
def index (m : MObj) (i j : Nat) : Nat :=
  if m.colMajor then j * m.rows + i else i * m.cols + j

/-- `i_get(i,j)`, `/repo/cml/matrix/dynamic_allocated.tpp:297-302`. -/
def get (h : Heap E) (m : MObj) (i j : Nat) : Res E :=
  match m.data with
  | none => .ub .dead
  | some b => if i < m.rows ∧ j < m.cols then h.read b (m.off + m.index i j) else .ub .oob

/-- `i_put(i,j,v)`, `/repo/cml/matrix/dynamic_allocated.tpp:313-321`. -/
def put (triv : Bool) (h : Heap E) (m : MObj) (i j : Nat) (e : E) : Res (Heap E) :=
  match m.data with
  | none => .ub .dead
  | some b => if i < m.rows ∧ j < m.cols then h.write triv b (m.off + m.index i j) e else .ub .oob

end MObj

end CML
