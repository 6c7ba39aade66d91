import Verif.Model.VecOps

/-!
Matrix statements: resizing, assignment, compound assignment, element-wise mutators, rows, columns and
basis vectors, in-place transpose, comparison, trace, constructors and destructor.  They act on the
program state (variables + memory); `triv` tells whether the element type is trivial (see `Heap.lean`).
-/

namespace CML

section Storage
variable {E : Type}

/-- `resize(rows, cols)` (`copy = true`), `/repo/cml/matrix/dynamic_allocated.tpp:146-193`, and
`resize_fast(rows, cols)` (`copy = false`), lines 195-234.  If the number of elements stays the same,
only the dimensions are changed; otherwise the first elements *in storage order* are copied.
Simplifications: element copy constructors do not throw; `rows * cols` does not overflow (see `Int32.lean`). -/
def mResizeWith (copy triv : Bool) (s : State E) (x : Nat) (r c : Int) : Out (State E) :=
  .withVal (s.mobj x) s fun m =>
    if r < 0 then .throw .invalidArgument s
    else if c < 0 then .throw .invalidArgument s
    else if r.toNat * c.toNat = m.rows * m.cols then
      .ok (s.setMat x (some { m with rows := r.toNat, cols := c.toNat }))
    else
      match s.heap.alloc (r.toNat * c.toNat) with
      | (h, none) => .throw .badAlloc { s with heap := h }
      | (h, some b) =>
        let h := h.destruct triv m.data
        .withVal (if copy then copyOld triv h m.data b (min (m.rows * m.cols) (r.toNat * c.toNat))
            else .ok h) s fun h =>
          .withVal (h.free m.data (m.rows * m.cols)) s fun h =>
            .ok ({ s with heap := h }.setMat x
              (some { m with data := some b, rows := r.toNat, cols := c.toNat }))

/-- `resize(rows, cols)`. -/
def mResize (triv : Bool) (s : State E) (x : Nat) (r c : Int) : Out (State E) :=
  mResizeWith true triv s x r c

/-- `resize_fast(rows, cols)`. -/
def mResizeFast (triv : Bool) (s : State E) (x : Nat) (r c : Int) : Out (State E) :=
  mResizeWith false triv s x r c

/-- `put(i, j, e)` on matrix variable `x`, `/repo/cml/matrix/writable_matrix.tpp:67-73`. -/
def mPut (triv : Bool) (s : State E) (x i j : Nat) (e : E) : Out (State E) :=
  .withVal (s.mobj x) s fun m =>
    .withVal (m.put triv s.heap i j e) s fun h => .ok { s with heap := h }

/-- Default constructor of a dynamic matrix, `/repo/cml/matrix/dynamic_allocated.tpp:17-22`; layout and
basis are template parameters. -/
def mDefault (colMajor colBasis : Bool) (s : State E) (x : Nat) : State E :=
  s.setMat x (some ⟨.allocated, false, none, 0, 0, 0, colMajor, colBasis⟩)

/-- If a constructor body throws, the variable never comes into existence (and its destructor does not
run). -/
def mctor (x : Nat) (o : Out (State E)) : Out (State E) :=
  match o with
  | .throw e s => .throw e (s.setMat x none)
  | o => o

/-- `matrix(int rows, int cols)`, `/repo/cml/matrix/dynamic_allocated.tpp:24-31`. -/
def mNew (triv colMajor colBasis : Bool) (s : State E) (x : Nat) (r c : Int) : Out (State E) :=
  mctor x (mResizeFast triv (mDefault colMajor colBasis s x) x r c)

/-- Move assignment `operator=(matrix_type&&)`, `/repo/cml/matrix/dynamic_allocated.tpp:244-255`:
exchange of arrays and dimensions (both sides have the same type, hence the same layout and basis). -/
def mMoveAssign (s : State E) (x y : Nat) : Out (State E) :=
  .withVal (s.mobj x) s fun v =>
    .withVal (s.mobj y) s fun w =>
      .ok ((s.setMat x (some { v with data := w.data, rows := w.rows, cols := w.cols })).setMat y
        (some { w with data := v.data, rows := v.rows, cols := v.cols }))

/-- Move constructor, `/repo/cml/matrix/dynamic_allocated.tpp:42-49`: the new matrix has the layout and
basis of the source (same type). -/
def mMoveNew (s : State E) (x y : Nat) : Out (State E) :=
  .withVal (s.mobj y) s fun w =>
    mctor x (mMoveAssign (mDefault w.colMajor w.colBasis s x) x y)

/-- Destructor, `/repo/cml/matrix/dynamic_allocated.tpp:104-114`. -/
def mDestroy (triv : Bool) (s : State E) (x : Nat) : Out (State E) :=
  .withVal (s.mobj x) s fun m =>
    .withVal ((s.heap.destruct triv m.data).free m.data (m.rows * m.cols)) s fun h =>
      .ok ({ s with heap := h }.setMat x none)

/-- `resize(rows, cols)` of `matrix<E, external<>>`, `/repo/cml/matrix/dynamic_external.tpp:84-94`: the view
gets other dimensions with the same number of elements; memory is not touched.  The size check is
`check_linear_size`, `/repo/cml/matrix/size_checking.tpp:130-139`. -/
def mReshape (s : State E) (x : Nat) (r c : Int) : Out (State E) :=
  .withVal (s.mobj x) s fun m =>
    if r < 0 then .throw .invalidArgument s
    else if c < 0 then .throw .invalidArgument s
    else if m.rows * m.cols = r.toNat * c.toNat then
      .ok (s.setMat x (some { m with rows := r.toNat, cols := c.toNat }))
    else .throw .matSize s

/-- `matrix<E, external<>>(p, rows, cols)` and `(rows, cols, p)`, `/repo/cml/matrix/dynamic_external.tpp:21-39`:
`p` points `off` elements into block `b`.  Negative dimensions are rejected; the object then does not exist. -/
def mView (colMajor colBasis : Bool) (s : State E) (x b off : Nat) (r c : Int) : Out (State E) :=
  if r < 0 then .throw .invalidArgument (s.setMat x none)
  else if c < 0 then .throw .invalidArgument (s.setMat x none)
  else .ok (s.setMat x (some ⟨.external, false, some b, off, r.toNat, c.toNat, colMajor, colBasis⟩))

/-- `matrix<E, external<>>(array)` for `array` of type `Other[N1][N2]`,
`/repo/cml/matrix/dynamic_external.tpp:41-47`: the first dimension of the array is the number of rows of a
row-major and the number of columns of a column-major matrix. -/
def mViewArray (colMajor colBasis : Bool) (s : State E) (x b off n1 n2 : Nat) : Out (State E) :=
  .ok (s.setMat x (some ⟨.external, false, some b, off, if colMajor then n2 else n1,
    if colMajor then n1 else n2, colMajor, colBasis⟩))

/-- `matrix<E, external<R,C>>(p)` and `(array)`, `/repo/cml/matrix/fixed_external.tpp:19-27`; the array has
type `E[R][C]` or, for column-major matrices, `E[C][R]` (`fixed_external.h:87-88`). -/
def mViewFixed (colMajor colBasis : Bool) (s : State E) (x b off r c : Nat) : Out (State E) :=
  .ok (s.setMat x (some ⟨.external, true, some b, off, r, c, colMajor, colBasis⟩))

/-- A view without memory: null pointer and, unless they are template parameters, dimensions 0. -/
def MObj.nulled (m : MObj) : MObj :=
  { m with data := none, off := 0, rows := if m.fixed then m.rows else 0, cols := if m.fixed then m.cols else 0 }

/-- `reset()` of `matrix<E, external<>>`, `/repo/cml/matrix/dynamic_external.tpp:96-102`. -/
def mViewReset (s : State E) (x : Nat) : Out (State E) :=
  .withVal (s.mobj x) s fun m => .ok (s.setMat x (some m.nulled))

/-- Move assignment of external matrices, `/repo/cml/matrix/dynamic_external.tpp:112-123`,
`fixed_external.tpp:75-82`: rebinds the destination, then clears the source. -/
def mViewMove (s : State E) (x y : Nat) : Out (State E) :=
  .withVal (s.mobj x) s fun m =>
    .withVal (s.mobj y) s fun w =>
      .ok ((s.setMat x (some { m with data := w.data, off := w.off, rows := w.rows, cols := w.cols })).setMat y
        (some w.nulled))

/-- Move constructor of external matrices, `/repo/cml/matrix/dynamic_external.tpp:49-53`,
`fixed_external.tpp:29-33`: all members of the new object are set by the move assignment. -/
def mViewMoveNew (s : State E) (x y : Nat) : Out (State E) :=
  .withVal (s.mobj y) s fun w => .ok ((s.setMat x (some w)).setMat y (some w.nulled))

/-- `std::swap(x, y)` of external matrices: move construction of the temporary `t` and two move assignments;
the destructor of the temporary does nothing. -/
def mViewSwap (s : State E) (x y t : Nat) : Out (State E) :=
  (mViewMoveNew s t x).andThen fun s => (mViewMove s x y).andThen fun s =>
    (mViewMove s y t).andThen fun s => .ok (s.setMat t none)

end Storage

section Ops
variable {E : Type} [Add E] [Sub E] [Mul E] [Div E] [Neg E]

/-- `detail::check_or_resize(*this, other)`, `/repo/cml/matrix/detail/check_or_resize.h:14-32`: matrices
that have `resize` (allocated ones and views whose dimensions are not template parameters) are resized, all
others are checked (`check_same_size`, `/repo/cml/matrix/size_checking.tpp:141-168`). -/
def mCheckOrResize (triv : Bool) (s : State E) (x : Nat) (e : MNode E) : Out (State E) :=
  .withVal (s.mobj x) s fun m =>
    match m.storage with
    | .allocated => .withVal (e.dims s) s fun d => mResize triv s x d.1 d.2
    | .compiled => .withVal (checkSameDims s (.var x) e) s fun _ => .ok s
    | .external =>
      if m.fixed then .withVal (checkSameDims s (.var x) e) s fun _ => .ok s
      else .withVal (e.dims s) s fun d => mReshape s x d.1 d.2

/-- One iteration `left.put(i, j, f(i, j))` where `f(i,j)` is read in the current state. -/
def mStep (triv : Bool) (x : Nat) (f : State E → Nat → Nat → Res E) (i j : Nat) (s : State E) :
    Out (State E) :=
  .withVal (f s i j) s fun v => mPut triv s x i j v

/-- The two loop nests of `detail::generate`, `detail::copy` and `detail::apply`
(`/repo/cml/matrix/detail/generate.h:15-37`, `copy.h:15-35`, `apply.h:15-39`): rows outside for
row-major, columns outside for column-major destinations. -/
def mStore (triv : Bool) (s : State E) (x : Nat) (f : State E → Nat → Nat → Res E) : Out (State E) :=
  .withVal (s.mobj x) s fun m =>
    if m.colMajor then
      Out.loop (fun j s => Out.loop (fun i s => mStep triv x f i j s) 0 m.rows s) 0 m.cols s
    else
      Out.loop (fun i s => Out.loop (fun j s => mStep triv x f i j s) 0 m.cols s) 0 m.rows s

/-- `assign(other)`, `/repo/cml/matrix/writable_matrix.tpp:415-423`; with a temporary as source also the
two-dimensional array overload, lines 438-446. -/
def mAssign (triv : Bool) (s : State E) (x : Nat) (e : MNode E) : Out (State E) :=
  (mCheckOrResize triv s x e).andThen fun s => mStore triv s x fun s i j => e.get s i j

/-- `operator+=` and `operator-=`, `/repo/cml/matrix/writable_matrix.tpp:329-337`, `348-356`. -/
def mOpAssign (triv : Bool) (o : BinOp) (s : State E) (x : Nat) (e : MNode E) : Out (State E) :=
  (mCheckOrResize triv s x e).andThen fun s => mStore triv s x fun s i j => do
    let a ← (MNode.var x : MNode E).get s i j
    let b ← e.get s i j
    pure (o.apply a b)

/-- A scalar argument passed by const reference to a matrix function: a plain value, or a reference to an
element of matrix `y`. -/
inductive MScalarRef (E : Type)
  | val (c : E)
  | elem (y i j : Nat)

/-- The value the reference has at the moment. -/
def MScalarRef.read (s : State E) : MScalarRef E → Res E
  | .val c => .ok c
  | .elem y i j => (MNode.var y : MNode E).get s i j

/-- `operator*=(const ScalarT&)`, `operator/=(const ScalarT&)`,
`/repo/cml/matrix/writable_matrix.tpp:368-399`, `detail/apply.h`, `detail/get.h`: the reference is read
again in every iteration. -/
def mScalAssign (triv : Bool) (o : ScalOp) (s : State E) (x : Nat) (c : MScalarRef E) : Out (State E) :=
  mStore triv s x fun s i j => do
    let a ← (MNode.var x : MNode E).get s i j
    let b ← c.read s
    pure (o.apply a b)

/-- `fill(const_reference v)`, `/repo/cml/matrix/writable_matrix.tpp:210-217`. -/
def mFill (triv : Bool) (s : State E) (x : Nat) (c : MScalarRef E) : Out (State E) :=
  mStore triv s x fun s _ _ => c.read s

/-- `zero()`, `/repo/cml/matrix/writable_matrix.tpp:151-158`. -/
def mZero [Zero E] (triv : Bool) (s : State E) (x : Nat) : Out (State E) :=
  mStore triv s x fun _ _ _ => .ok 0

/-- `identity()`, `/repo/cml/matrix/writable_matrix.tpp:169-176` (`value_type(i == j)`). -/
def mIdentity [Zero E] [One E] (triv : Bool) (s : State E) (x : Nat) : Out (State E) :=
  mStore triv s x fun _ i j => .ok (if i = j then 1 else 0)

/-- `set_row(i, v)`, `/repo/cml/matrix/writable_matrix.tpp:112-120` (`check_same_col_size`,
`size_checking.tpp:227-258`). -/
def mSetRow (triv : Bool) (s : State E) (x i : Nat) (v : VNode E) : Out (State E) :=
  .withVal (s.mobj x) s fun m =>
    .withVal (v.fixed s) s fun f =>
      .withVal (v.chkSize s (m.fixed && f)) s fun n =>
        .withVal (Res.require ((m.cols : Int) == n)
            (if m.fixed && f then .staticAssert else .matIncompatible)) s fun _ =>
          Out.loop (fun j s => .withVal (v.get s j) s fun e => mPut triv s x i j e) 0 m.cols s

/-- `set_col(j, v)`, `/repo/cml/matrix/writable_matrix.tpp:131-139` (`check_same_row_size`,
`size_checking.tpp:194-225`). -/
def mSetCol (triv : Bool) (s : State E) (x j : Nat) (v : VNode E) : Out (State E) :=
  .withVal (s.mobj x) s fun m =>
    .withVal (v.fixed s) s fun f =>
      .withVal (v.chkSize s (m.fixed && f)) s fun n =>
        .withVal (Res.require ((m.rows : Int) == n)
            (if m.fixed && f then .staticAssert else .matIncompatible)) s fun _ =>
          Out.loop (fun i s => .withVal (v.get s i) s fun e => mPut triv s x i j e) 0 m.rows s

/-- `basis_element(i, j)` of a named matrix, `/repo/cml/matrix/readable_matrix.tpp:57-62`, `99-113`. -/
def mBasisElement (s : State E) (x i j : Nat) : Res E := do
  let m ← s.mobj x
  if m.colBasis then (MNode.var x : MNode E).get s j i else (MNode.var x : MNode E).get s i j

/-- `basis_count()` and `basis_size()`, `/repo/cml/matrix/readable_matrix.tpp:64-76`, `115-141`. -/
def mBasisDims (s : State E) (x : Nat) : Res (Nat × Nat) := do
  let m ← s.mobj x
  pure (if m.colBasis then (m.cols, m.rows) else (m.rows, m.cols))

/-- `set_basis_element(i, j, v)`, `/repo/cml/matrix/writable_matrix.tpp:93-100`, `487-501`. -/
def mSetBasisElement (triv : Bool) (s : State E) (x i j : Nat) (e : E) : Out (State E) :=
  .withVal (s.mobj x) s fun m => if m.colBasis then mPut triv s x j i e else mPut triv s x i j e

/-- `check_linear_2D(m)` (`n = 2`), `check_linear_3D(m)` (`n = 3`),
`/repo/cml/mathlib/matrix/size_checking.tpp:118-129`, via `check_minimum_size`
(`/repo/cml/matrix/size_checking.tpp:322-349`). -/
def checkLinear (m : MObj) (n : Nat) : Res Unit :=
  Res.require (decide (n ≤ m.rows) && decide (n ≤ m.cols)) (if m.fixed then .staticAssert else .matMinimum)

/-- `matrix_set_basis_vector_2D(m, i, v)` (`n = 2`) and `matrix_set_basis_vector(m, i, v)` (`n = 3`),
`/repo/cml/mathlib/matrix/basis.tpp:17-28`, `167-179`; with `transposed` the functions
`matrix_set_transposed_basis_vector(_2D)`, lines 55-66 and the 3D sibling. -/
def mSetBasisVector (triv transposed : Bool) (n : Nat) (s : State E) (x : Nat) (i : Int) (v : VNode E) :
    Out (State E) :=
  .withVal (s.mobj x) s fun m =>
    .withVal (checkLinear m n) s fun _ =>
      .withVal (v.fixed s) s fun f =>
        .withVal (v.chkSize s f) s fun k =>
          .withVal (checkSizeC f k n) s fun _ =>
            .withVal (Res.require (decide (0 ≤ i) && decide (i ≤ n - 1)) .invalidArgument) s fun _ =>
              Out.loop (fun k s => .withVal (v.get s k) s fun e =>
                if transposed then mSetBasisElement triv s x k i.toNat e
                else mSetBasisElement triv s x i.toNat k e) 0 n s

/-- `matrix_get_basis_vector_2D(m, i)` (`n = 2`) and `matrix_get_basis_vector(m, i)` (`n = 3`),
`/repo/cml/mathlib/matrix/basis.tpp:93-102` and the 3D sibling; with `transposed` the functions
`matrix_get_transposed_basis_vector(_2D)`, lines 129-138. -/
def mGetBasisVector (transposed : Bool) (n : Nat) (s : State E) (x : Nat) (i : Int) : Res (List E) := do
  let m ← s.mobj x
  checkLinear m n
  Res.require (decide (0 ≤ i) && decide (i ≤ n - 1)) .invalidArgument
  Res.loop (fun k acc => do
    let e ← if transposed then mBasisElement s x k i.toNat else mBasisElement s x i.toNat k
    pure (acc ++ [e])) 0 n []

/-- The `matrix_basis_node` object over a named matrix: `/repo/cml/matrix/basis_node.tpp:15-21` (the
constructor rejects negative indices only) and `i_size`, lines 39-45. -/
def mBasisNode (s : State E) (x : Nat) (i : Int) : Res Nat := do
  Res.require (decide (0 ≤ i)) .invalidArgument
  let d ← mBasisDims s x
  pure d.2

/-- The constant `array_size` of a `matrix_basis_node` over a fixed-size matrix,
`/repo/cml/matrix/basis_node.h:26-27`: always the number of columns. -/
def basisNodeArraySize (m : MObj) : Nat := m.cols

/-- Ways to pass a flat sequence of elements whose length is checked. -/
inductive ListKind
  /-- `assign_elements(eN...)`, `/repo/cml/matrix/writable_matrix.tpp:22-49`, `472-485` -/
  | elements
  /-- one-dimensional array, lines 425-436 -/
  | array
  /-- `std::initializer_list`, lines 458-470 -/
  | initList
  deriving DecidableEq, Repr

/-- The failure of the linear size check, `/repo/cml/matrix/size_checking.tpp:85-139`: a compile-time error
if matrix and sequence have a compile-time size. -/
def ListKind.err (fixed : Bool) : ListKind → Err
  | .elements => if fixed then .staticAssert else .matSize
  | .array => if fixed then .staticAssert else .matIncompatible
  | .initList => .matIncompatible

/-- Assignment from a flat sequence, see `ListKind`: value `k` goes to element `(k / cols, k % cols)`. -/
def mAssignList (triv : Bool) (kind : ListKind) (s : State E) (x : Nat) (xs : List E) :
    Out (State E) :=
  .withVal (s.mobj x) s fun m =>
    .withVal (Res.require (m.rows * m.cols == xs.length) (kind.err m.fixed)) s fun _ =>
      Out.loop (fun k s => .withVal ((VNode.temp true xs).get s k) s fun v =>
        mPut triv s x (k / m.cols) (k % m.cols) v) 0 xs.length s

/-- `assign(const Pointer&)`, `/repo/cml/matrix/writable_matrix.tpp:448-456`: no size check possible; `xs`
is the memory behind the pointer. -/
def mAssignPtr (triv : Bool) (s : State E) (x : Nat) (xs : List E) : Out (State E) :=
  .withVal (s.mobj x) s fun m =>
    Out.loop (fun k s => .withVal ((VNode.temp true xs).get s k) s fun v =>
      mPut triv s x (k / m.cols) (k % m.cols) v) 0 (m.rows * m.cols) s

/-- `matrix(rows, cols, array)`, `/repo/cml/matrix/dynamic_allocated.tpp:61-70`. -/
def mNewArray (triv colMajor colBasis : Bool) (s : State E) (x : Nat) (r c : Int) (xs : List E) :
    Out (State E) :=
  mctor x ((mResizeFast triv (mDefault colMajor colBasis s x) x r c).andThen fun s =>
    mAssignList triv .array s x xs)

/-- Copy constructor of a dynamic matrix and construction from an expression,
`/repo/cml/matrix/dynamic_allocated.tpp:33-40`, `51-59`. -/
def mCopyNew (triv colMajor colBasis : Bool) (s : State E) (x : Nat) (e : MNode E) : Out (State E) :=
  mctor x (mAssign triv (mDefault colMajor colBasis s x) x e)

/-- `std::swap(M.get(i,j), M.get(j,i))`, `/repo/cml/matrix/detail/transpose.h:22`. -/
def mSwap (triv : Bool) (s : State E) (x i j : Nat) : Out (State E) :=
  .withVal ((MNode.var x : MNode E).get s i j) s fun a =>
    .withVal ((MNode.var x : MNode E).get s j i) s fun b =>
      (mPut triv s x i j b).andThen fun s => mPut triv s x j i a

/-- `transpose()` of a fixed-size matrix, `/repo/cml/matrix/detail/transpose.h:14-23`; non-square matrices
are rejected at compile time. -/
def mTransposeFixed (triv : Bool) (s : State E) (x : Nat) : Out (State E) :=
  .withVal (s.mobj x) s fun m =>
    .withVal (Res.require (m.rows == m.cols) .staticAssert) s fun _ =>
      Out.loop (fun i s => Out.loop (fun j s => mSwap triv s x i j) 0 i s) 1 (m.rows - 1) s

/-- `transpose()` of a resizable matrix, `/repo/cml/matrix/detail/transpose.h:26-33`: via the temporary
`t` (a variable not otherwise in use), which is destroyed at the end. -/
def mTransposeDyn (triv : Bool) (s : State E) (x t : Nat) : Out (State E) :=
  .withVal (s.mobj x) s fun m =>
    (mCopyNew triv m.colMajor m.colBasis s t (.var x)).andThen fun s =>
      (mAssign triv s x (.transpose (.var t))).andThen fun s => mDestroy triv s t

/-- The comparison loops of `operator==`, `/repo/cml/matrix/comparison.tpp:13-29`. -/
def mEqRow [LT E] [DecidableLT E] (a b : Nat → Res E) : Nat → Nat → Res Bool
  | _, 0 => .ok true
  | lo, n + 1 => do
    let x ← a lo
    let y ← b lo
    if x < y then pure false else if y < x then pure false else mEqRow a b (lo + 1) n

@[inherit_doc mEqRow]
def mEqRows [LT E] [DecidableLT E] (a b : Nat → Nat → Res E) (c : Nat) : Nat → Nat → Res Bool
  | _, 0 => .ok true
  | lo, n + 1 => do
    let r ← mEqRow (a lo) (b lo) 0 c
    if r then mEqRows a b c (lo + 1) n else pure false

/-- `operator==`, `/repo/cml/matrix/comparison.tpp:13-29`. -/
def mEq [LT E] [DecidableLT E] (s : State E) (a b : MNode E) : Res Bool := do
  let n ← a.dims s
  let k ← b.dims s
  if n ≠ k then pure false
  else mEqRows (fun i j => a.get s i j) (fun i j => b.get s i j) n.2.toNat 0 n.1.toNat

/-- `operator!=`, `/repo/cml/matrix/comparison.tpp:31-37`. -/
def mNe [LT E] [DecidableLT E] (s : State E) (a b : MNode E) : Res Bool := do
  let r ← mEq s a b; pure !r

/-- `trace()`, `/repo/cml/matrix/readable_matrix.tpp:87-95` (`check_square`,
`/repo/cml/matrix/size_checking.tpp:351-375`). -/
def mTrace (s : State E) (a : MNode E) : Res E := do
  let f ← a.fixed s
  let d ← a.chkDims s f
  Res.require (d.1 == d.2) (if f then .staticAssert else .nonSquare)
  let d ← a.dims s
  let x ← a.get s 0 0
  Res.loop (fun i acc => do let y ← a.get s i i; pure (acc + y)) 1 (d.1.toNat - 1) x

/-- `trace_2x2(m)`, `/repo/cml/mathlib/matrix/misc.tpp:15-21`. -/
def mTrace2 (s : State E) (a : MNode E) : Res E := do
  let f ← a.fixed s
  let d ← a.chkDims s f
  Res.require (decide (2 ≤ d.1) && decide (2 ≤ d.2)) (if f then .staticAssert else .matMinimum)
  let x ← a.get s 0 0
  let y ← a.get s 1 1
  pure (x + y)

/-- `trace_3x3(m)`, `/repo/cml/mathlib/matrix/misc.tpp:23-29`. -/
def mTrace3 (s : State E) (a : MNode E) : Res E := do
  let f ← a.fixed s
  let d ← a.chkDims s f
  Res.require (decide (3 ≤ d.1) && decide (3 ≤ d.2)) (if f then .staticAssert else .matMinimum)
  let x ← a.get s 0 0
  let y ← a.get s 1 1
  let z ← a.get s 2 2
  pure (x + y + z)

end Ops

end CML
