import Verif.Model.Core
import Mathlib.Algebra.Order.Floor.Ring
import Mathlib.Algebra.Order.Field.Basic

/-!
Vectors with different element types in one expression: `std::common_type` as the element type of a node,
the arithmetic of the language inside of a node, and the conversion to the element type of the destination.

Simplifications.  The element types are the integers of 8, 16, 32 and 64 bits, signed and unsigned, and one
floating-point type with exact arithmetic (values in an ordered field `K`); `int` has 32 bits.  The operands of
a node have the same size (size checks are in `Model/Expr.lean`) and are read by element, so that a vector is a
function of the index.
-/

namespace CML

/-- Element types. -/
inductive ETy
  | i8 | u8 | i16 | u16 | i32 | u32 | i64 | u64 | real
  deriving DecidableEq, Repr

/-- A value of an element type: an integer or a number of the floating-point type. -/
inductive Num (K : Type)
  | int (z : ℤ)
  | real (x : K)
  deriving DecidableEq

namespace ETy

/-- Number of bits; the floating-point type has none of interest. -/
def bits : ETy → Nat
  | i8 | u8 => 8
  | i16 | u16 => 16
  | i32 | u32 => 32
  | i64 | u64 => 64
  | real => 0

/-- `std::is_signed` for the integral types. -/
def signed : ETy → Bool
  | i8 | i16 | i32 | i64 => true
  | _ => false

/-- Integral promotion: what is smaller than `int` becomes `int` (the language, [conv.prom]). -/
def promote : ETy → ETy
  | i8 | u8 | i16 | u16 => i32
  | t => t

/-- The type in which an operator of the language combines two operands: the usual arithmetic conversions
([expr.arith.conv]).  Used wherever the library writes `a + b` and the like for elements. -/
def arith (a b : ETy) : ETy :=
  let p := a.promote
  let q := b.promote
  if p = real ∨ q = real then real
  else if p = q then p
  else if p.bits < q.bits then q
  else if q.bits < p.bits then p
  else if p.signed then q else p

/-- `scalar_promote_t`, i.e. `std::common_type_t`, `/repo/cml/scalar/promotion.h:12-22`: equal types stay as
they are, different ones have the type of the conditional operator. -/
def common (a b : ETy) : ETy := if a = b then a else arith a b

/-- Smallest value of an integral type. -/
def lo (t : ETy) : ℤ := if t.signed then -2 ^ (t.bits - 1) else 0

/-- Largest value of an integral type. -/
def hi (t : ETy) : ℤ := if t.signed then 2 ^ (t.bits - 1) - 1 else 2 ^ t.bits - 1

/-- Reduction to an integral type: modulo `2^bits`.  For signed types C++17 leaves the conversion of values
out of range to the implementation; this is what all compilers in use (and C++20) do. -/
def wrap (t : ETy) (z : ℤ) : ℤ := if t.signed then z.bmod (2 ^ t.bits) else z % 2 ^ t.bits

end ETy

section
variable {K : Type} [Field K] [LinearOrder K] [FloorRing K]

/-- The fractional part is discarded, [conv.fpint]. -/
def truncZ (x : K) : ℤ := if 0 ≤ x then ⌊x⌋ else ⌈x⌉

/-- Conversion `T(v)` to the element type `t`: the language, [conv.integral], [conv.fpint]; a floating-point
value whose integral part does not fit is undefined. -/
def Num.conv (t : ETy) (v : Num K) : Res (Num K) :=
  match t, v with
  | .real, .int z => .ok (.real z)
  | .real, .real x => .ok (.real x)
  | t, .int z => .ok (.int (t.wrap z))
  | t, .real x => if t.lo ≤ truncZ x ∧ truncZ x ≤ t.hi then .ok (.int (truncZ x)) else .ub .overflow

/-- The result of integer arithmetic in the type `t`: modulo `2^bits` for unsigned types, undefined for signed
ones if it is not representable ([expr.pre]). -/
def ETy.result (t : ETy) (z : ℤ) : Res (Num K) :=
  if t.signed then (if t.lo ≤ z ∧ z ≤ t.hi then .ok (.int z) else .ub .overflow)
  else .ok (.int (t.wrap z))

/-- The operators of `/repo/cml/scalar/binary_ops.h:23-32`. -/
inductive AOp
  | add | sub | mul | div
  deriving DecidableEq, Repr

/-- The built-in operators on two operands of the same type `t` (after the usual arithmetic conversions). -/
def AOp.raw (o : AOp) (t : ETy) (a b : Num K) : Res (Num K) :=
  match a, b with
  | .real x, .real y =>
    match o with
    | .add => .ok (.real (x + y))
    | .sub => .ok (.real (x - y))
    | .mul => .ok (.real (x * y))
    | .div => if y = 0 then .ub .divZero else .ok (.real (x / y))
  | .int x, .int y =>
    match o with
    | .add => t.result (x + y)
    | .sub => t.result (x - y)
    | .mul => t.result (x * y)
    | .div => if y = 0 then .ub .divZero else t.result (x.tdiv y)
  | _, _ => .ub .uninit

/-- `a op b` for operands of the types `s` and `t`. -/
def AOp.builtin (o : AOp) (s t : ETy) (a b : Num K) : Res (Num K) := do
  let x ← a.conv (s.arith t)
  let y ← b.conv (s.arith t)
  o.raw (s.arith t) x y

/-- `op::binary_…<Scalar1, Scalar2>::apply`, `/repo/cml/scalar/binary_ops.h:13-21`: the operator, then
`result_type(…)`. -/
def AOp.apply (o : AOp) (s t : ETy) (a b : Num K) : Res (Num K) := do
  let r ← o.builtin s t a b
  r.conv (s.common t)

/-- `op::unary_minus<Scalar>::apply`, `/repo/cml/scalar/unary_ops.h:14-20`: the result type is the type of the
expression `-v`, i.e. the promoted one. -/
def negApply (t : ETy) (a : Num K) : Res (Num K) := do
  match ← a.conv t.promote with
  | .real x => .ok (.real (-x))
  | .int z => t.promote.result (-z)

/-- Element-wise vector expressions over operands of different element types. -/
inductive TVec (K : Type) (n : Nat)
  | leaf (t : ETy) (x : Fin n → Num K)
  | bin (o : AOp) (l r : TVec K n)
  | scal (o : AOp) (l : TVec K n) (t : ETy) (c : Num K)
  | neg (l : TVec K n)

namespace TVec
variable {n : Nat}

/-- `value_type` of a node, `/repo/cml/vector/binary_node.h:25-26`, `scalar_node.h:24-25`,
`unary_node.h:20-21`. -/
def ty : TVec K n → ETy
  | leaf t _ => t
  | bin _ l r => l.ty.common r.ty
  | scal _ l t _ => l.ty.common t
  | neg l => l.ty.promote

/-- `i_get` of the nodes: `/repo/cml/vector/binary_node.tpp:50-55`, `scalar_node.tpp:44-49`,
`unary_node.tpp:40-45`.  `hadamard` and the operators `+`, `-` create the node `bin`, `* scalar` and
`/ scalar` the node `scal` (`/repo/cml/vector/hadamard_product.h:14-21`, `binary_ops.h`, `scalar_ops.h:39-71`;
a scalar on the left hand side becomes the right operand of the node, lines 50-60). -/
def get : TVec K n → Fin n → Res (Num K)
  | leaf _ x, i => .ok (x i)
  | bin o l r, i => do
    let a ← l.get i
    let b ← r.get i
    o.apply l.ty r.ty a b
  | scal o l t c, i => do
    let a ← l.get i
    o.apply l.ty t a c
  | neg l, i => do
    let a ← l.get i
    negApply l.ty a

end TVec

/-- Fill the elements one by one. -/
def fillT {n : Nat} (f : Fin n → Res (Num K)) (x : Fin n → Num K) : Res (Fin n → Num K) :=
  Res.loop (fun i y => if h : i < n then do
      let v ← f ⟨i, h⟩
      .ok (Function.update y ⟨i, h⟩ v)
    else .ub .oob) 0 n x

/-- `v = e` for a destination of element type `d` that is not an operand of `e`:
`/repo/cml/vector/writable_vector.tpp:392-400` with `i_put`, `fixed_compiled.tpp:113-119`
(`m_data[i] = value_type(v)`). -/
def assignT {n : Nat} (d : ETy) (e : TVec K n) (x : Fin n → Num K) : Res (Fin n → Num K) :=
  fillT (fun i => do
    let v ← e.get i
    v.conv d) x

/-- `v *= c` and `v /= c`, `/repo/cml/vector/writable_vector.tpp:348-357` and 370-379: the operator of the node
`v * c`, element by element, and `put`. -/
def scalAssignT {n : Nat} (d : ETy) (o : AOp) (t : ETy) (c : Num K) (x : Fin n → Num K) :
    Res (Fin n → Num K) :=
  Res.loop (fun i y => if h : i < n then do
      let v ← o.apply d t (y ⟨i, h⟩) c
      let v ← v.conv d
      .ok (Function.update y ⟨i, h⟩ v)
    else .ub .oob) 0 n x

/-- `v += e` and `v -= e`, `/repo/cml/vector/writable_vector.tpp:306-337`, for an `e` that does not refer to
`v`. -/
def binAssignT {n : Nat} (d : ETy) (o : AOp) (e : TVec K n) (x : Fin n → Num K) : Res (Fin n → Num K) :=
  Res.loop (fun i y => if h : i < n then do
      let b ← e.get ⟨i, h⟩
      let v ← o.apply d e.ty (y ⟨i, h⟩) b
      let v ← v.conv d
      .ok (Function.update y ⟨i, h⟩ v)
    else .ub .oob) 0 n x

/-- `dot(left, right)` of two vectors of `n + 1` elements, `/repo/cml/vector/dot.tpp:14-27`: each product is
converted to `result_type`, and so is the accumulator after each addition (`accum += …`). -/
def dotT {n : Nat} (s t : ETy) (x y : Fin (n + 1) → Num K) : Res (Num K) := do
  let a ← AOp.mul.apply s t (x 0) (y 0)
  Res.loop (fun i acc => if h : i < n + 1 then do
      let p ← AOp.mul.apply s t (x ⟨i, h⟩) (y ⟨i, h⟩)
      AOp.add.apply (s.common t) (s.common t) acc p
    else .ub .oob) 1 n a

/-- One element of a matrix product, `/repo/cml/matrix/matrix_product.tpp:30-34`, `vector_product.tpp:29-33` and
52-56: the accumulator `auto m` has the type of the product of two elements, `m += …` stays in this type, and
only the assignment to the element of the result converts to the common type. -/
def innerT {n : Nat} (s t : ETy) (x y : Fin (n + 1) → Num K) : Res (Num K) := do
  let a ← AOp.mul.builtin s t (x 0) (y 0)
  let m ← Res.loop (fun i acc => if h : i < n + 1 then do
      let p ← AOp.mul.builtin s t (x ⟨i, h⟩) (y ⟨i, h⟩)
      AOp.add.builtin (s.arith t) (s.arith t) acc p
    else .ub .oob) 1 n a
  m.conv (s.common t)

/-- `a < b` for operands of the types `s` and `t`. -/
def ltT (s t : ETy) (a b : Num K) : Res Bool := do
  match ← a.conv (s.arith t), ← b.conv (s.arith t) with
  | .int x, .int y => .ok (decide (x < y))
  | .real x, .real y => .ok (decide (x < y))
  | _, _ => .ub .uninit

/-- `left == right` for vectors of the same size, `/repo/cml/vector/comparison.tpp:45-59`. -/
def eqT {n : Nat} (s t : ETy) (x y : Fin n → Num K) : Res Bool :=
  Res.loop (fun i r => if h : i < n then
      if r then do
        if ← ltT s t (x ⟨i, h⟩) (y ⟨i, h⟩) then .ok false
        else do
          if ← ltT t s (y ⟨i, h⟩) (x ⟨i, h⟩) then .ok false else .ok true
      else .ok r
    else .ub .oob) 0 n true

/-- One iteration of `operator<`, `/repo/cml/vector/comparison.tpp:18-23`; the accumulator is the decision, if any. -/
def ltStepT {n : Nat} (s t : ETy) (x y : Fin n → Num K) (i : Nat) (r : Option Bool) : Res (Option Bool) :=
  if h : i < n then
    match r with
    | some b => .ok (some b)
    | none => do
      if ← ltT s t (x ⟨i, h⟩) (y ⟨i, h⟩) then .ok (some true)
      else do
        if ← ltT t s (y ⟨i, h⟩) (x ⟨i, h⟩) then .ok (some false) else .ok none
  else .ub .oob

/-- `left < right` for vectors of the same size, `/repo/cml/vector/comparison.tpp:14-27`; without a decision the
sizes, here equal, decide (line 26). -/
def ltVecT {n : Nat} (s t : ETy) (x y : Fin n → Num K) : Res Bool := do
  let r ← Res.loop (ltStepT s t x y) 0 n none
  match r with
  | some b => .ok b
  | none => .ok false

end

end CML
