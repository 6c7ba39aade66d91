import Verif.Model.Heap

/-!
Expression templates.  The C++ type of an expression is a tree of node classes whose leaves are
references to named vectors/matrices or temporaries held by value.  `VNode`/`MNode` are these trees;
`VExpr`/`MExpr` are the expressions written by the user, and `build` runs the operator functions and
node constructors (size checks; products are evaluated into temporaries at this point).

The scalar operations are arbitrary functions on the element type: nothing here depends on
arithmetic laws, so the model also describes floating-point element types.

Simplification: mixed element types and the resulting conversions are not modelled.
-/

namespace CML


/-- `op::binary_plus`, `binary_minus`, `binary_multiply`, `/repo/cml/scalar/binary_ops.h:23-30`
(`mul` is used by `hadamard`, `/repo/cml/vector/hadamard_product.h`). -/
inductive BinOp | plus | minus | mul
  deriving DecidableEq, Repr

/-- `op::binary_multiply`, `binary_divide` with a scalar right operand,
`/repo/cml/vector/scalar_ops.h:39-71`. -/
inductive ScalOp | mul | div
  deriving DecidableEq, Repr

/-- `apply` of the binary operators, `/repo/cml/scalar/binary_ops.h:13-21`. -/
def BinOp.apply {E : Type} [Add E] [Sub E] [Mul E] : BinOp → E → E → E
  | .plus, a, b => a + b
  | .minus, a, b => a - b
  | .mul, a, b => a * b

/-- `apply` of the scalar operators, `/repo/cml/scalar/binary_ops.h:13-21`. -/
def ScalOp.apply {E : Type} [Mul E] [Div E] : ScalOp → E → E → E
  | .mul, a, c => a * c
  | .div, a, c => a / c

/-- A matrix temporary: result of an eagerly evaluated product, or a matrix prvalue in the source.
Elements are kept in row-major order (which layout the temporary has is not observable through its
element accessor, see C24). -/
structure MTemp (E : Type) where
  fixed : Bool
  rows : Nat
  cols : Nat
  elems : List E

/-- Element access of a matrix temporary. -/
def MTemp.get {E : Type} (t : MTemp E) (i j : Nat) : Res E :=
  if i < t.rows ∧ j < t.cols then
    match t.elems[i * t.cols + j]? with
    | some v => .ok v
    | none => .ub .oob
  else .ub .oob

mutual
/-- Vector expression nodes (objects). -/
inductive VNode (E : Type)
  /-- lvalue operand: stored as a reference, `/repo/cml/vector/binary_node.h` (`left_wrap_type`) -/
  | var (x : Nat)
  /-- rvalue vector operand: stored by value -/
  | temp (fixed : Bool) (xs : List E)
  /-- `vector_binary_node`, `/repo/cml/vector/binary_node.tpp` -/
  | bin (o : BinOp) (a b : VNode E)
  /-- `vector_scalar_node`, `/repo/cml/vector/scalar_node.tpp` (scalar stored by value,
  `scalar_node.h:105`) -/
  | scal (o : ScalOp) (a : VNode E) (c : E)
  /-- `vector_unary_node` with `unary_minus`, `/repo/cml/vector/unary_node.tpp` -/
  | neg (a : VNode E)
  /-- `vector_cross_node`, `/repo/cml/vector/cross_node.tpp` -/
  | cross (a b : VNode E)
  /-- `subvector_node`, `/repo/cml/vector/subvector_node.tpp` -/
  | sub (a : VNode E) (skip : Int)
  /-- `matrix_row_node<Sub,-1>`, `/repo/cml/matrix/row_node.tpp` -/
  | row (m : MNode E) (i : Nat)
  /-- `matrix_col_node<Sub,-1>`, `/repo/cml/matrix/col_node.tpp` -/
  | col (m : MNode E) (j : Nat)
/-- Matrix expression nodes (objects). -/
inductive MNode (E : Type)
  | var (x : Nat)
  | temp (t : MTemp E)
  /-- `matrix_binary_node`, `/repo/cml/matrix/binary_node.tpp` -/
  | bin (o : BinOp) (a b : MNode E)
  /-- `matrix_scalar_node`, `/repo/cml/matrix/scalar_node.tpp` -/
  | scal (o : ScalOp) (a : MNode E) (c : E)
  /-- `matrix_unary_node`, `/repo/cml/matrix/unary_node.tpp` -/
  | neg (a : MNode E)
  /-- `matrix_transpose_node`, `/repo/cml/matrix/transpose_node.tpp` -/
  | transpose (a : MNode E)
  /-- `outer_product_node`, `/repo/cml/vector/outer_product_node.tpp` -/
  | outer (a b : VNode E)
end

section Nodes
variable {E : Type}

/-- Access to a live vector variable. -/
def State.vobj (s : State E) (x : Nat) : Res VObj :=
  match s.vec x with
  | some v => .ok v
  | none => .ub .dead

/-- Access to a live matrix variable. -/
def State.mobj (s : State E) (x : Nat) : Res MObj :=
  match s.mat x with
  | some m => .ok m
  | none => .ub .dead

mutual
/-- `size()` of a vector node: `i_size` in `/repo/cml/vector/binary_node.tpp`, `scalar_node.tpp`,
`unary_node.tpp`, `cross_node.tpp:40-45`, `subvector_node.tpp:36-41`, `matrix/row_node.tpp:35-40`,
`matrix/col_node.tpp:35-40`. -/
def VNode.size (s : State E) : VNode E → Res Int
  | .var x => do let v ← s.vobj x; pure (v.size : Int)
  | .temp _ xs => pure (xs.length : Int)
  | .bin _ a _ => a.size s
  | .scal _ a _ => a.size s
  | .neg a => a.size s
  | .cross _ _ => pure 3
  | .sub a _ => do let n ← a.size s; pure (n - 1)
  | .row m _ => do let d ← m.dims s; pure d.2
  | .col m _ => do let d ← m.dims s; pure d.1
/-- `rows()` and `cols()` of a matrix node: `i_rows`, `i_cols` in the matrix node classes and
`/repo/cml/vector/outer_product_node.tpp:36-48`. -/
def MNode.dims (s : State E) : MNode E → Res (Int × Int)
  | .var x => do let m ← s.mobj x; pure ((m.rows : Int), (m.cols : Int))
  | .temp t => pure ((t.rows : Int), (t.cols : Int))
  | .bin _ a _ => a.dims s
  | .scal _ a _ => a.dims s
  | .neg a => a.dims s
  | .transpose a => do let d ← a.dims s; pure (d.2, d.1)
  | .outer a b => do let n ← a.size s; let k ← b.size s; pure (n, k)
end

mutual
/-- `array_size` of a vector node type: `/repo/cml/vector/promotion.h:34-37` (binary nodes and
`vector_cross_node`: the larger of the two), `scalar_node.h:31`, `unary_node.h:27`,
`subvector_node.h:28-46`, `matrix/row_node.h:27`, `matrix/col_node.h:27`.  -1 stands for a size only
known at run time.  The storage type of a vector node always has this size. -/
def VNode.csize (s : State E) : VNode E → Res Int
  | .var x => do let v ← s.vobj x; pure (if v.fixed then (v.size : Int) else -1)
  | .temp f xs => pure (if f then (xs.length : Int) else -1)
  | .bin _ a b => do let m ← a.csize s; let n ← b.csize s; pure (if m > n then m else n)
  | .scal _ a _ => a.csize s
  | .neg a => a.csize s
  | .cross a b => do let m ← a.csize s; let n ← b.csize s; pure (if m > n then m else n)
  | .sub a _ => do let n ← a.csize s; pure (if n - 1 > 0 then n - 1 else -1)
  | .row m _ => do let d ← m.cdims s; pure d.2
  | .col m _ => do let d ← m.cdims s; pure d.1
/-- `array_rows`, `array_cols` of a matrix node type: `/repo/cml/matrix/binary_node.h:35-42` (taken
from the promoted storage type), `scalar_node.h:33-36`, `unary_node.h:30-33`,
`transpose_node.h:36-39`, `/repo/cml/vector/outer_product_node.h:37-47`. -/
def MNode.cdims (s : State E) : MNode E → Res (Int × Int)
  | .var x => do
    let m ← s.mobj x
    pure (if m.fixed then ((m.rows : Int), (m.cols : Int)) else (-1, -1))
  | .temp t => pure (if t.fixed then ((t.rows : Int), (t.cols : Int)) else (-1, -1))
  | .bin _ a b => do
    let m ← a.sdims s
    let n ← b.sdims s
    pure (if m.1 > n.1 then m.1 else n.1, if m.2 > n.2 then m.2 else n.2)
  | .scal _ a _ => a.cdims s
  | .neg a => a.cdims s
  | .transpose a => do let d ← a.cdims s; pure (d.2, d.1)
  | .outer a b => do let m ← a.csize s; let n ← b.csize s; pure (m, n)
/-- `array_rows`, `array_cols` of the `storage_type` of a matrix node type:
`/repo/cml/matrix/promotion.h:36-51`, `scalar_node.h:28`, `unary_node.h:25`, `transpose_node.h:24`
(the storage type of the operand, *not* transposed), `matrix/promotion.h:188-209`. -/
def MNode.sdims (s : State E) : MNode E → Res (Int × Int)
  | .var x => do
    let m ← s.mobj x
    pure (if m.fixed then ((m.rows : Int), (m.cols : Int)) else (-1, -1))
  | .temp t => pure (if t.fixed then ((t.rows : Int), (t.cols : Int)) else (-1, -1))
  | .bin _ a b => do
    let m ← a.sdims s
    let n ← b.sdims s
    pure (if m.1 > n.1 then m.1 else n.1, if m.2 > n.2 then m.2 else n.2)
  | .scal _ a _ => a.sdims s
  | .neg a => a.sdims s
  | .transpose a => a.sdims s
  | .outer a b => do let m ← a.csize s; let n ← b.csize s; pure (m, n)
end

mutual
/-- Whether the storage selector of the node type is `compiled<>`: it prevails over the others in
`storage_promote` (`/repo/cml/storage/promotion.h:38-70` with `PreferDynamic = false`), and resizing keeps
it (`/repo/cml/storage/compiled_selector.h:37-46`).  Temporaries of fixed size are compiled, the others
allocated. -/
def VNode.compiled (s : State E) : VNode E → Res Bool
  | .var x => do let v ← s.vobj x; pure (v.storage == .compiled && v.fixed)
  | .temp f _ => pure f
  | .bin _ a b => do let f ← a.compiled s; let g ← b.compiled s; pure (f || g)
  | .scal _ a _ => a.compiled s
  | .neg a => a.compiled s
  | .cross a b => do let f ← a.compiled s; let g ← b.compiled s; pure (f || g)
  | .sub a _ => a.compiled s
  | .row m _ => m.compiled s
  | .col m _ => m.compiled s
@[inherit_doc VNode.compiled]
def MNode.compiled (s : State E) : MNode E → Res Bool
  | .var x => do let m ← s.mobj x; pure (m.storage == .compiled && m.fixed)
  | .temp t => pure t.fixed
  | .bin _ a b => do let f ← a.compiled s; let g ← b.compiled s; pure (f || g)
  | .scal _ a _ => a.compiled s
  | .neg a => a.compiled s
  | .transpose a => a.compiled s
  | .outer a b => do let f ← a.compiled s; let g ← b.compiled s; pure (f || g)
end

mutual
/-- Whether the `size_tag` of the node type is `fixed_size_tag`: promotion in
`/repo/cml/vector/promotion.h:22-44`, `matrix/promotion.h:25-51`, `188-209`; a storage type with the
`compiled<>` selector is always of fixed size (`/repo/cml/storage/compiled_selector.h:48-64`), the others are
unless all their sizes are -1 (`allocated_selector.h:58-147`, `external_selector.h:45-122`). -/
def VNode.fixed (s : State E) : VNode E → Res Bool
  | .var x => do let v ← s.vobj x; pure v.fixed
  | .temp f _ => pure f
  | .bin _ a b => do let f ← a.fixed s; let g ← b.fixed s; pure (f || g)
  | .scal _ a _ => a.fixed s
  | .neg a => a.fixed s
  | .cross a b => do let f ← a.fixed s; let g ← b.fixed s; pure (f || g)
  | .sub a _ => do let c ← a.compiled s; let n ← a.csize s; pure (c || decide (n - 1 > 0))
  | .row m _ => do let c ← m.compiled s; let d ← m.cdims s; pure (c || decide (d.2 ≠ -1))
  | .col m _ => do let c ← m.compiled s; let d ← m.cdims s; pure (c || decide (d.1 ≠ -1))
@[inherit_doc VNode.fixed]
def MNode.fixed (s : State E) : MNode E → Res Bool
  | .var x => do let m ← s.mobj x; pure m.fixed
  | .temp t => pure t.fixed
  | .bin _ a b => do let f ← a.fixed s; let g ← b.fixed s; pure (f || g)
  | .scal _ a _ => a.fixed s
  | .neg a => a.fixed s
  | .transpose a => a.fixed s
  | .outer a b => do let f ← a.fixed s; let g ← b.fixed s; pure (f || g)
end

/-- The size a size check sees: the constant for fixed-size types, `size()` otherwise (the `fixed_size_tag`
and `dynamic_size_tag` overloads of `/repo/cml/vector/size_checking.tpp:16-130`). -/
def VNode.chkSize (s : State E) (x : VNode E) (fixed : Bool) : Res Int :=
  if fixed then x.csize s else x.size s

/-- The dimensions a size check sees (`/repo/cml/matrix/size_checking.tpp:85-375`). -/
def MNode.chkDims (s : State E) (x : MNode E) (fixed : Bool) : Res (Int × Int) :=
  if fixed then x.cdims s else x.dims s

mutual
/-- `size()` of a vector node *after it has been moved from*.  References keep referring to the
variable; a moved-from dynamic vector is empty (`/repo/cml/vector/dynamic_allocated.tpp:38-44`,
`215-225`), a moved-from fixed-size vector keeps its size. -/
def VNode.movedSize (s : State E) : VNode E → Res Int
  | .var x => do let v ← s.vobj x; pure (v.size : Int)
  | .temp f xs => pure (if f then (xs.length : Int) else 0)
  | .bin _ a _ => a.movedSize s
  | .scal _ a _ => a.movedSize s
  | .neg a => a.movedSize s
  | .cross _ _ => pure 3
  | .sub a _ => do let n ← a.movedSize s; pure (n - 1)
  | .row m _ => do let d ← m.movedDims s; pure d.2
  | .col m _ => do let d ← m.movedDims s; pure d.1
/-- `rows()`, `cols()` of a moved-from matrix node
(`/repo/cml/matrix/dynamic_allocated.tpp:42-49`, `244-255`). -/
def MNode.movedDims (s : State E) : MNode E → Res (Int × Int)
  | .var x => do let m ← s.mobj x; pure ((m.rows : Int), (m.cols : Int))
  | .temp t => pure (if t.fixed then ((t.rows : Int), (t.cols : Int)) else (0, 0))
  | .bin _ a _ => a.movedDims s
  | .scal _ a _ => a.movedDims s
  | .neg a => a.movedDims s
  | .transpose a => do let d ← a.movedDims s; pure (d.2, d.1)
  | .outer a b => do let n ← a.movedSize s; let k ← b.movedSize s; pure (n, k)
end

/-- The size `vector_cross_node`'s constructor sees for its parameter, which has already been moved
from (`/repo/cml/vector/cross_node.tpp:15-25`): the compile-time constant if there is one. -/
def VNode.ctorSize (s : State E) (x : VNode E) (fixed : Bool) : Res Int :=
  if fixed then x.csize s else x.movedSize s

variable [Add E] [Sub E] [Mul E] [Div E] [Neg E]

mutual
/-- `get(i)` of a vector node (lazy evaluation): `i_get` in `/repo/cml/vector/binary_node.tpp`,
`scalar_node.tpp`, `unary_node.tpp`, `cross_node.tpp:47-56`, `subvector_node.tpp:43-48`,
`matrix/row_node.tpp:42-47`, `matrix/col_node.tpp:42-47`. -/
def VNode.get (s : State E) : VNode E → Nat → Res E
  | .var x, i => do let v ← s.vobj x; v.get s.heap i
  | .temp _ xs, i =>
    match xs[i]? with
    | some v => .ok v
    | none => .ub .oob
  | .bin o a b, i => do let p ← a.get s i; let q ← b.get s i; pure (o.apply p q)
  | .scal o a c, i => do let p ← a.get s i; pure (o.apply p c)
  | .neg a, i => do let p ← a.get s i; pure (-p)
  | .cross a b, i => do
    let i0 := (i + 1) % 3
    let i1 := (i + 2) % 3
    let p ← a.get s i0
    let q ← b.get s i1
    let p' ← a.get s i1
    let q' ← b.get s i0
    pure (p * q - p' * q')
  | .sub a skip, i => a.get s (if (i : Int) < skip then i else i + 1)
  | .row m i, j => m.get s i j
  | .col m j, i => m.get s i j
/-- `get(i,j)` of a matrix node. -/
def MNode.get (s : State E) : MNode E → Nat → Nat → Res E
  | .var x, i, j => do let m ← s.mobj x; m.get s.heap i j
  | .temp t, i, j => t.get i j
  | .bin o a b, i, j => do let p ← a.get s i j; let q ← b.get s i j; pure (o.apply p q)
  | .scal o a c, i, j => do let p ← a.get s i j; pure (o.apply p c)
  | .neg a, i, j => do let p ← a.get s i j; pure (-p)
  | .transpose a, i, j => a.get s j i
  | .outer a b, i, j => do let p ← a.get s i; let q ← b.get s j; pure (p * q)
end

/-- `check_same_size(left, right)` for vectors, `/repo/cml/vector/size_checking.tpp` (front end and
`detail` overloads): the constants are compared at compile time if both types have a fixed size, the sizes
at run time otherwise. -/
def checkSameSize (s : State E) (a b : VNode E) : Res Unit := do
  let f ← a.fixed s
  let g ← b.fixed s
  let n ← a.chkSize s (f && g)
  let k ← b.chkSize s (f && g)
  Res.require (n == k) (if f && g then .staticAssert else .vecIncompatible)

/-- `check_size(left, int_c<N>())`, `/repo/cml/vector/size_checking.tpp`, given the size the operand
has at the time of the check. -/
def checkSizeC (fixed : Bool) (n : Int) (N : Int) : Res Unit :=
  Res.require (n == N) (if fixed then .staticAssert else .vecSize)

/-- `check_same_size(left, right)` for matrices, `/repo/cml/matrix/size_checking.tpp:141-168`. -/
def checkSameDims (s : State E) (a b : MNode E) : Res Unit := do
  let f ← a.fixed s
  let g ← b.fixed s
  let n ← a.chkDims s (f && g)
  let k ← b.chkDims s (f && g)
  Res.require (n == k) (if f && g then .staticAssert else .matIncompatible)

/-- `check_same_inner_size(left, right)`, `/repo/cml/matrix/size_checking.tpp:260-289`, given the inner
sizes that are compared. -/
def checkInner (f g : Bool) (n k : Int) : Res Unit :=
  Res.require (n == k) (if f && g then .staticAssert else .matIncompatible)

/-- The inner loop of the products: `m = p(0) * q(0); for(k = 1; k < n; ++k) m += p(k) * q(k)`,
`/repo/cml/matrix/matrix_product.tpp:30-31`, `vector_product.tpp:30-31`, `53-54`. -/
def innerLoop (p q : Nat → Res E) (n : Nat) : Res E := do
  let a ← p 0
  let b ← q 0
  Res.loop (fun k m => do let x ← p k; let y ← q k; pure (m + x * y)) 1 (n - 1) (a * b)

/-- The type of the result of `operator*(matrix, matrix)`, `/repo/cml/matrix/promotion.h:81-103`: fixed
size?, rows, columns.  `r`, `c` are the rows of the left and the columns of the right storage type, `rows`
and `cols` the dimensions the result is resized to if it is dynamic (`matrix_product.tpp:27`).  If both
operands have the fixed-size tag but one of the sizes is unknown, the temporary would be a
`compiled<-1,-1>` matrix, which is rejected (`fixed_compiled.h:44-50`). -/
def productDims (f g : Bool) (r c rows cols : Int) : Res (Bool × Nat × Nat) :=
  if 0 < r ∧ 0 < c then .ok (true, r.toNat, c.toNat)
  else if f && g then .throw .staticAssert
  else .ok (false, rows.toNat, cols.toNat)

/-- `operator*(matrix, matrix)`, `/repo/cml/matrix/matrix_product.tpp:13-36`.  The result is a
temporary. -/
def matMul (s : State E) (a b : MNode E) : Res (MTemp E) := do
  let f ← a.fixed s
  let g ← b.fixed s
  let n ← a.chkDims s (f && g)
  let k ← b.chkDims s (f && g)
  checkInner f g n.2 k.1
  let da ← a.dims s
  let db ← b.dims s
  let sa ← a.sdims s
  let sb ← b.sdims s
  let t ← productDims f g sa.1 sb.2 da.1 db.2
  let elems ← Res.loop (fun i acc =>
    Res.loop (fun j acc => do
      let m ← innerLoop (fun k => a.get s i k) (fun k => b.get s k j) da.2.toNat
      pure (acc ++ [m])) 0 t.2.2 acc) 0 t.2.1 []
  pure ⟨t.1, t.2.1, t.2.2, elems⟩

/-- The type of the result of the matrix/vector products, `/repo/cml/matrix/promotion.h:143-177`: fixed
size?, size.  `N` is the number of rows (columns) of the storage type of the matrix, `vc` tells whether the
vector has compiled storage, `f` whether the matrix has the fixed-size tag; with both but an unknown size
the temporary would be a `compiled<-1>` vector, which is rejected. -/
def productSize (vc f : Bool) (N size : Int) : Res (Bool × Int) :=
  if 0 < N then .ok (true, N)
  else if vc && f then .throw .staticAssert
  else .ok (false, size)

/-- Storing elements `0, ..., n-1` into the result vector of size `N`: with `N < n` elements are written
behind the end; with `n < N` elements remain uninitialised (modelled as undefined behaviour at once
instead of when they are read). -/
def productRoom (N n : Int) : Res Unit :=
  if N < n then .ub .oob else if n < N then .ub .uninit else .ok ()

/-- `operator*(matrix, vector)`, `/repo/cml/matrix/vector_product.tpp:14-35`: pair of (fixed-size?,
elements) of the temporary. -/
def matVec (s : State E) (a : MNode E) (v : VNode E) : Res (Bool × List E) := do
  let f ← a.fixed s
  let g ← v.fixed s
  let n ← a.chkDims s (f && g)
  let k ← v.chkSize s (f && g)
  checkInner f g n.2 k
  let da ← a.dims s
  let n ← v.size s
  let vc ← v.compiled s
  let sa ← a.sdims s
  let t ← productSize vc f sa.1 da.1
  productRoom t.2 da.1
  let elems ← Res.loop (fun i acc => do
    let m ← innerLoop (fun k => a.get s i k) (fun k => v.get s k) n.toNat
    pure (acc ++ [m])) 0 da.1.toNat []
  pure (t.1, elems)

/-- `operator*(vector, matrix)`, `/repo/cml/matrix/vector_product.tpp:37-58`. -/
def vecMat (s : State E) (v : VNode E) (b : MNode E) : Res (Bool × List E) := do
  let f ← v.fixed s
  let g ← b.fixed s
  let k ← v.chkSize s (f && g)
  let n ← b.chkDims s (f && g)
  checkInner f g k n.1
  let n ← v.size s
  let db ← b.dims s
  let vc ← v.compiled s
  let sb ← b.sdims s
  let t ← productSize vc g sb.2 db.2
  productRoom t.2 db.2
  let elems ← Res.loop (fun j acc => do
    let m ← innerLoop (fun k => v.get s k) (fun k => b.get s k j) n.toNat
    pure (acc ++ [m])) 0 db.2.toNat []
  pure (t.1, elems)

end Nodes

mutual
/-- Vector expressions as written by the user.  `var` is a named vector, `temp` a vector prvalue
(e.g. `vectord(1,2,3)`); products are `operator*`. -/
inductive VExpr (E : Type)
  | var (x : Nat)
  | temp (fixed : Bool) (xs : List E)
  | bin (o : BinOp) (a b : VExpr E)
  | scal (o : ScalOp) (a : VExpr E) (c : E)
  | neg (a : VExpr E)
  | cross (a b : VExpr E)
  | sub (a : VExpr E) (skip : Int)
  | row (m : MExpr E) (i : Int)
  | col (m : MExpr E) (j : Int)
  | mulMV (m : MExpr E) (v : VExpr E)
  | mulVM (v : VExpr E) (m : MExpr E)
/-- Matrix expressions as written by the user. -/
inductive MExpr (E : Type)
  | var (x : Nat)
  | temp (t : MTemp E)
  | bin (o : BinOp) (a b : MExpr E)
  | scal (o : ScalOp) (a : MExpr E) (c : E)
  | neg (a : MExpr E)
  | transpose (a : MExpr E)
  | outer (a b : VExpr E)
  | mul (a b : MExpr E)
end

section Build
variable {E : Type} [Add E] [Sub E] [Mul E] [Div E] [Neg E]

mutual
/-- Evaluate a vector expression to its node object: operator functions and node constructors.
Simplification: operands are evaluated left to right (C++ leaves the order open; it only affects
which of several errors is reported).  An operand that is itself an expression is an rvalue and is
moved into the node. -/
def VExpr.build (s : State E) : VExpr E → Res (VNode E)
  | .var x => pure (.var x)
  | .temp f xs => pure (.temp f xs)
  -- `/repo/cml/vector/binary_node.tpp:15-24`: sizes of the stored operands are compared
  | .bin o a b => do
    let a ← a.build s
    let b ← b.build s
    checkSameSize s a b
    pure (.bin o a b)
  | .scal o a c => do let a ← a.build s; pure (.scal o a c)
  | .neg a => do let a ← a.build s; pure (.neg a)
  -- `/repo/cml/vector/cross_node.tpp:15-26`: the constructor parameters are checked *after* they
  -- have been moved into the members (a compile-time size is not affected by the move)
  | .cross a b => do
    let a ← a.build s
    let b ← b.build s
    let f ← a.fixed s
    let n ← a.ctorSize s f
    checkSizeC f n 3
    let g ← b.fixed s
    let k ← b.ctorSize s g
    checkSizeC g k 3
    pure (.cross a b)
  -- `/repo/cml/vector/subvector_node.tpp:13-17`: no check
  | .sub a skip => do let a ← a.build s; pure (.sub a skip)
  -- `/repo/cml/matrix/row_node.tpp:13-19`: only negative indices are rejected
  | .row m i => do
    let m ← m.build s
    Res.require (decide (0 ≤ i)) .invalidArgument
    pure (.row m i.toNat)
  | .col m j => do
    let m ← m.build s
    Res.require (decide (0 ≤ j)) .invalidArgument
    pure (.col m j.toNat)
  | .mulMV m v => do
    let m ← m.build s
    let v ← v.build s
    let t ← matVec s m v
    pure (.temp t.1 t.2)
  | .mulVM v m => do
    let v ← v.build s
    let m ← m.build s
    let t ← vecMat s v m
    pure (.temp t.1 t.2)
/-- Evaluate a matrix expression to its node object. -/
def MExpr.build (s : State E) : MExpr E → Res (MNode E)
  | .var x => pure (.var x)
  | .temp t => pure (.temp t)
  -- `/repo/cml/matrix/binary_node.tpp:15-24`
  | .bin o a b => do
    let a ← a.build s
    let b ← b.build s
    checkSameDims s a b
    pure (.bin o a b)
  | .scal o a c => do let a ← a.build s; pure (.scal o a c)
  | .neg a => do let a ← a.build s; pure (.neg a)
  | .transpose a => do let a ← a.build s; pure (.transpose a)
  | .outer a b => do let a ← a.build s; let b ← b.build s; pure (.outer a b)
  | .mul a b => do
    let a ← a.build s
    let b ← b.build s
    let t ← matMul s a b
    pure (.temp t)
end

end Build

end CML
