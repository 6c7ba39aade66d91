import Verif.Model.MatOps

/-!
The places where the storage code does arithmetic with `int` sizes, with the limited range of `int` made
explicit.  The rest of the model computes sizes without limit; `Props/Int32.lean` relates the two.

`IntArith` stands for what a compiler makes of `int` arithmetic: exact results are returned as they are;
what happens to results that are not representable is left to the instance (`strict`: undefined behaviour,
as in the language standard; `wrapping`: reduction modulo `2^32`, what common compilers do).
-/

namespace CML

/-- The largest value of a 32-bit `int`. -/
def intMax : Int := 2 ^ 31 - 1

/-- `z` is representable in a 32-bit `int`. -/
def InInt (z : Int) : Prop := -2 ^ 31 ≤ z ∧ z ≤ intMax

instance (z : Int) : Decidable (InInt z) := by unfold InInt; infer_instance

/-- Behaviour of `int` arithmetic: from the mathematical result of an operation to its outcome. -/
structure IntArith where
  op : Int → Res Int
  exact : ∀ z, InInt z → op z = .ok z

/-- The language standard: an unrepresentable result is undefined behaviour. -/
def IntArith.strict : IntArith where
  op z := if InInt z then .ok z else .ub .overflow
  exact z h := by simp [h]

/-- Two's complement wrap-around. -/
def IntArith.wrapping : IntArith where
  op z := .ok (Int.bmod z (2 ^ 32))
  exact z h := by
    unfold InInt intMax at h
    rw [Int.bmod_eq_of_le] <;> omega

section
variable {E : Type}

/-- `resize` (`copy = true`) and `resize_fast` (`copy = false`) of a dynamic matrix with `int` arithmetic,
`/repo/cml/matrix/dynamic_allocated.tpp:146-234`: `n_old` (lines 153, 202) and `n_new` (lines 154, 203) are
products of `int`s; `n_new` is converted to `size_t` in the call of `allocate` (lines 167, 216), a negative
one to a value no allocator can satisfy. -/
def mResizeI (A : IntArith) (copy triv : Bool) (s : State E) (x : Nat) (r c : Int) : Out (State E) :=
  .withVal (s.mobj x) s fun m =>
    if r < 0 then .throw .invalidArgument s
    else if c < 0 then .throw .invalidArgument s
    else
      .withVal (A.op (m.rows * m.cols)) s fun nOld =>
      .withVal (A.op (r * c)) s fun nNew =>
        if nNew = nOld then .ok (s.setMat x (some { m with rows := r.toNat, cols := c.toNat }))
        else if nNew < 0 then .throw .badAlloc s
        else
          match s.heap.alloc nNew.toNat with
          | (h, none) => .throw .badAlloc { s with heap := h }
          | (h, some b) =>
            let h := h.destruct triv m.data
            .withVal (if copy then copyOld triv h m.data b (min nOld.toNat nNew.toNat) else .ok h) s fun h =>
              .withVal (h.free m.data nOld.toNat) s fun h =>
                .ok ({ s with heap := h }.setMat x
                  (some { m with data := some b, rows := r.toNat, cols := c.toNat }))

/-- `matrix(rows, cols)` with `int` arithmetic, `/repo/cml/matrix/dynamic_allocated.tpp:24-31`. -/
def mNewI (A : IntArith) (triv colMajor colBasis : Bool) (s : State E) (x : Nat) (r c : Int) :
    Out (State E) :=
  mctor x (mResizeI A false triv (mDefault colMajor colBasis s x) x r c)

/-- Destructor of a dynamic matrix with `int` arithmetic, `/repo/cml/matrix/dynamic_allocated.tpp:104-114`
(`n`, line 108). -/
def mDestroyI (A : IntArith) (triv : Bool) (s : State E) (x : Nat) : Out (State E) :=
  .withVal (s.mobj x) s fun m =>
    .withVal (A.op (m.rows * m.cols)) s fun n =>
      .withVal ((s.heap.destruct triv m.data).free m.data n.toNat) s fun h =>
        .ok ({ s with heap := h }.setMat x none)

/-- `resize` of a view with `int` arithmetic, `/repo/cml/matrix/dynamic_external.tpp:84-94` and
`size_checking.tpp:130-139`: the product of the new dimensions (line 91) is compared with the product of the
old ones. -/
def mReshapeI (A : IntArith) (s : State E) (x : Nat) (r c : Int) : Out (State E) :=
  .withVal (s.mobj x) s fun m =>
    if r < 0 then .throw .invalidArgument s
    else if c < 0 then .throw .invalidArgument s
    else
      .withVal (A.op (r * c)) s fun n =>
      .withVal (A.op (m.rows * m.cols)) s fun old =>
        if old = n then .ok (s.setMat x (some { m with rows := r.toNat, cols := c.toNat }))
        else .throw .matSize s

/-- The index expression of `s_access` for matrices with run-time dimensions,
`/repo/cml/matrix/dynamic_allocated.h:275-287`, `dynamic_external.h:225-237`: a product, then a sum. -/
def MObj.indexI (A : IntArith) (m : MObj) (i j : Int) : Res Int := do
  if m.colMajor then
    let p ← A.op (j * m.rows)
    A.op (p + i)
  else
    let p ← A.op (i * m.cols)
    A.op (p + j)

/-- `get(i, j)` of a matrix with run-time dimensions, with `int` arithmetic,
`/repo/cml/matrix/dynamic_allocated.tpp:297-302`, `dynamic_external.tpp:144-149`. -/
def MObj.getI (A : IntArith) (h : Heap E) (m : MObj) (i j : Nat) : Res E := do
  let k ← m.indexI A i j
  match m.data with
  | none => .ub .dead
  | some b => if i < m.rows ∧ j < m.cols then
      (if 0 ≤ k then h.read b (m.off + k.toNat) else .ub .oob) else .ub .oob

/-- `put(i, j, e)` of a matrix with run-time dimensions, with `int` arithmetic,
`/repo/cml/matrix/dynamic_allocated.tpp:313-321`, `dynamic_external.tpp:153-176`. -/
def MObj.putI (A : IntArith) (triv : Bool) (h : Heap E) (m : MObj) (i j : Nat) (e : E) : Res (Heap E) := do
  let k ← m.indexI A i j
  match m.data with
  | none => .ub .dead
  | some b => if i < m.rows ∧ j < m.cols then
      (if 0 ≤ k then h.write triv b (m.off + k.toNat) e else .ub .oob) else .ub .oob

/-- `put(i, j, e)` on matrix variable `x`; matrices with compile-time dimensions are nested arrays and need no
index arithmetic (`/repo/cml/matrix/fixed_compiled.h:218-230`, `fixed_external.h:201-213`). -/
def mPutI (A : IntArith) (triv : Bool) (s : State E) (x i j : Nat) (e : E) : Out (State E) :=
  .withVal (s.mobj x) s fun m =>
    .withVal (if m.fixed then m.put triv s.heap i j e else m.putI A triv s.heap i j e) s fun h =>
      .ok { s with heap := h }

section Ops
variable [Add E] [Sub E] [Mul E] [Div E] [Neg E]

/-- `detail::check_or_resize` with `int` arithmetic, `/repo/cml/matrix/detail/check_or_resize.h:14-32`. -/
def mCheckOrResizeI (A : IntArith) (triv : Bool) (s : State E) (x : Nat) (e : MNode E) : Out (State E) :=
  .withVal (s.mobj x) s fun m =>
    match m.storage with
    | .allocated => .withVal (e.dims s) s fun d => mResizeI A true triv s x d.1 d.2
    | .compiled => .withVal (checkSameDims s (.var x) e) s fun _ => .ok s
    | .external =>
      if m.fixed then .withVal (checkSameDims s (.var x) e) s fun _ => .ok s
      else .withVal (e.dims s) s fun d => mReshapeI A s x d.1 d.2

/-- The loop nests of `/repo/cml/matrix/detail/copy.h:15-35` with `int` arithmetic in the writes.  The reads
`f` are those of the unbounded model. -/
def mStoreI (A : IntArith) (triv : Bool) (s : State E) (x : Nat) (f : State E → Nat → Nat → Res E) :
    Out (State E) :=
  let step := fun i j s => Out.withVal (f s i j) s fun v => mPutI A triv s x i j v
  .withVal (s.mobj x) s fun m =>
    if m.colMajor then Out.loop (fun j s => Out.loop (fun i s => step i j s) 0 m.rows s) 0 m.cols s
    else Out.loop (fun i s => Out.loop (fun j s => step i j s) 0 m.cols s) 0 m.rows s

/-- `assign(other)` with `int` arithmetic, `/repo/cml/matrix/writable_matrix.tpp:415-423`. -/
def mAssignI (A : IntArith) (triv : Bool) (s : State E) (x : Nat) (e : MNode E) : Out (State E) :=
  (mCheckOrResizeI A triv s x e).andThen fun s => mStoreI A triv s x fun s i j => e.get s i j

/-- `assign(const Pointer&)` with `int` arithmetic, `/repo/cml/matrix/writable_matrix.tpp:448-456`: the bound
`rows * cols` (line 454) is a product of `int`s. -/
def mAssignPtrI (A : IntArith) (triv : Bool) (s : State E) (x : Nat) (xs : List E) : Out (State E) :=
  .withVal (s.mobj x) s fun m =>
    .withVal (A.op (m.rows * m.cols)) s fun n =>
      Out.loop (fun k s => .withVal ((VNode.temp true xs).get s k) s fun v =>
        mPutI A triv s x (k / m.cols) (k % m.cols) v) 0 n.toNat s

/-- `matrix(rows, cols, pointer)` and `matrix(pointer, rows, cols)`,
`/repo/cml/matrix/dynamic_allocated.tpp:82-102`. -/
def mNewPtrI (A : IntArith) (triv colMajor colBasis : Bool) (s : State E) (x : Nat) (r c : Int)
    (xs : List E) : Out (State E) :=
  mctor x ((mResizeI A false triv (mDefault colMajor colBasis s x) x r c).andThen fun s =>
    mAssignPtrI A triv s x xs)

end Ops

/-- `combined_size_of(sub, elements...)` for a vector with run-time size,
`/repo/cml/vector/detail/combined_size_of.h:27-39`. -/
def combinedSizeI (A : IntArith) (size count : Nat) : Res Int := A.op (size + count)

end

end CML
