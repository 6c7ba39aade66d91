import Verif.Model.Mat

/-!
Quaternions, `/repo/cml/quaternion/`.  The only storage of a quaternion is an array of four elements
(`fixed<>`, `/repo/cml/quaternion/fixed_compiled.h`), so a state maps every quaternion variable and
index to an element or to "never given a value".  All quaternion variables are alive; their type
(order and cross) is part of the name, as in the source program.
-/

namespace CML

/-- `real_first`, `imaginary_first`, `/repo/cml/quaternion/order_tags.h:11-33`. -/
inductive QOrder | realFirst | imagFirst
  deriving DecidableEq, Repr

namespace QOrder
/-- Index of the real part, `/repo/cml/quaternion/order_tags.h:16`, `31`. -/
def W : QOrder → Nat | realFirst => 0 | imagFirst => 3
/-- Index of the first imaginary part, `/repo/cml/quaternion/order_tags.h:17`, `28`. -/
def X : QOrder → Nat | realFirst => 1 | imagFirst => 0
/-- Index of the second imaginary part, `/repo/cml/quaternion/order_tags.h:18`, `29`. -/
def Y : QOrder → Nat | realFirst => 2 | imagFirst => 1
/-- Index of the third imaginary part, `/repo/cml/quaternion/order_tags.h:19`, `30`. -/
def Z : QOrder → Nat | realFirst => 3 | imagFirst => 2
end QOrder

/-- `positive_cross`, `negative_cross`, `/repo/cml/quaternion/cross_tags.h:9-15`. -/
inductive QCross | positive | negative
  deriving DecidableEq, Repr

/-- A quaternion variable: its name and the part of its type that matters,
`quaternion<E, fixed<>, Order, Cross>`, `/repo/cml/quaternion/fixed_compiled.h`.  Simplification: all
quaternions of a program have the same element type. -/
structure QVar where
  id : Nat
  order : QOrder
  cross : QCross
  deriving DecidableEq, Repr

/-- `value_type m_data[4]`, `/repo/cml/quaternion/fixed_compiled.h`; `none` is an element that was
never given a value (the default constructor leaves them uninitialised). -/
abbrev QArr (E : Type) := Nat → Option E

/-- The elements of all quaternion variables, by name and index. -/
abbrev QState (E : Type) := Nat → QArr E

/-- `i_get(i)`, `/repo/cml/quaternion/fixed_compiled.tpp:113-118`. -/
def QArr.get {E : Type} (a : QArr E) (i : Nat) : Res E :=
  if i < 4 then
    match a i with
    | some v => .ok v
    | none => .ub .uninit
  else .ub .oob

/-- `put(i, v)`, `/repo/cml/quaternion/writable_quaternion.tpp:41-55`,
`/repo/cml/quaternion/fixed_compiled.tpp:129-137`. -/
def qPut {E : Type} (s : QState E) (x i : Nat) (v : E) : Out (QState E) :=
  if i < 4 then .ok fun y j => if y = x ∧ j = i then some v else s y j else .ub .oob

/-- Unary plus and minus, `/repo/cml/quaternion/unary_ops.h:31-45`. -/
inductive QUn | pos | neg
  deriving DecidableEq, Repr

/-- Sum and difference, `/repo/cml/quaternion/binary_ops.h:37-57`. -/
inductive QBin | add | sub
  deriving DecidableEq, Repr

/-- Multiplication with and division by a scalar, `/repo/cml/quaternion/scalar_ops.h`. -/
inductive QScal | mul | div
  deriving DecidableEq, Repr

/-- The C++ type of a quaternion expression, as far as it can differ: the class template and the types
of the operands, with the information whether an operand is held by reference (a named quaternion) or
by value (a temporary).  Simplification: operands that are themselves nodes are taken to be
temporaries, and `const` is ignored. -/
inductive QTy
  | quat (o : QOrder) (c : QCross)
  | un (op : QUn) (ref : Bool) (t : QTy)
  | bin (op : QBin) (ref1 : Bool) (t1 : QTy) (ref2 : Bool) (t2 : QTy)
  | scal (op : QScal) (ref : Bool) (t : QTy)
  | conj (ref : Bool) (t : QTy)
  | inv (ref : Bool) (t : QTy)
  deriving DecidableEq, Repr

/-- `order_type` of an expression type: that of the (first) operand,
`/repo/cml/quaternion/binary_node.h:42-43`, `unary_node.h:36`, `scalar_node.h:38`,
`conjugate_node.h:34`, `inverse_node.h:34`. -/
def QTy.order : QTy → QOrder
  | .quat o _ => o
  | .un _ _ t => t.order
  | .bin _ _ t _ _ => t.order
  | .scal _ _ t => t.order
  | .conj _ t => t.order
  | .inv _ t => t.order

/-- `cross_type` of an expression type, `/repo/cml/quaternion/binary_node.h:46-47`,
`unary_node.h:37`, `scalar_node.h:39`, `conjugate_node.h:35`, `inverse_node.h:35`. -/
def QTy.cross : QTy → QCross
  | .quat _ c => c
  | .un _ _ t => t.cross
  | .bin _ _ t _ _ => t.cross
  | .scal _ _ t => t.cross
  | .conj _ t => t.cross
  | .inv _ t => t.cross

/-- Expression objects at run time.  A named quaternion is held by reference, a temporary by value;
scalars and the cached inverse norm are held by value (`/repo/cml/quaternion/scalar_node.h:104-107`,
`inverse_node.h`). -/
inductive QNode (E : Type)
  | var (v : QVar)
  | tmp (o : QOrder) (c : QCross) (el : QArr E)
  | un (op : QUn) (a : QNode E)
  | bin (op : QBin) (a b : QNode E)
  | scal (op : QScal) (a : QNode E) (k : E)
  | conj (a : QNode E)
  | inv (a : QNode E) (n : E)

namespace QNode
variable {E : Type}

/-- Is the object a named quaternion (bound by reference when used as an operand)? -/
def isRef : QNode E → Bool
  | .var _ => true
  | _ => false

/-- The type of an expression object. -/
def ty : QNode E → QTy
  | .var v => .quat v.order v.cross
  | .tmp o c _ => .quat o c
  | .un op a => .un op a.isRef a.ty
  | .bin op a b => .bin op a.isRef a.ty b.isRef b.ty
  | .scal op a _ => .scal op a.isRef a.ty
  | .conj a => .conj a.isRef a.ty
  | .inv a _ => .inv a.isRef a.ty

/-- `order_type` of an expression object. -/
def order (a : QNode E) : QOrder := a.ty.order

/-- `cross_type` of an expression object. -/
def cross (a : QNode E) : QCross := a.ty.cross

variable [Zero E] [One E] [Add E] [Sub E] [Mul E] [Neg E] [Div E] [DecidableEq E]

/-- `get(i)` of an expression object: `fixed_compiled.tpp:113-118`, `unary_node.tpp:39-44`,
`binary_node.tpp:39-44`, `scalar_node.tpp:39-44`, `conjugate_node.tpp:35-42`,
`inverse_node.tpp:37-45`, all in `/repo/cml/quaternion/`. -/
def get (s : QState E) : QNode E → Nat → Res E
  | .var v, i => QArr.get (s v.id) i
  | .tmp _ _ el, i => QArr.get el i
  | .un .pos a, i => get s a i
  | .un .neg a, i => do pure (-(← get s a i))
  | .bin .add a b, i => do pure ((← get s a i) + (← get s b i))
  | .bin .sub a b, i => do pure ((← get s a i) - (← get s b i))
  | .scal .mul a k, i => do pure ((← get s a i) * k)
  | .scal .div a k, i => do divR (← get s a i) k
  | .conj a, i =>
      if i = a.order.W then get s a i else do pure (-(← get s a i))
  | .inv a n, i =>
      if i = a.order.W then do pure (n * (← get s a i)) else do pure (n * -(← get s a i))

end QNode

section
variable {E : Type} [Zero E] [One E] [Add E] [Sub E] [Mul E] [Neg E] [Div E] [DecidableEq E]

/-- `q.w()`, `q.real()`, `/repo/cml/quaternion/readable_quaternion.tpp:38-43`, `73-78`. -/
def qReal (s : QState E) (a : QNode E) : Res E := a.get s a.order.W

/-- Element `i` of `q.imaginary()`, `/repo/cml/quaternion/imaginary_node.tpp:41-48`. -/
def qImag (s : QState E) (a : QNode E) (i : Nat) : Res E := a.get s (a.order.X + i)

/-- `length_squared()`, `/repo/cml/quaternion/readable_quaternion.tpp:94-101`. -/
def qLengthSquared (s : QState E) (a : QNode E) : Res E := do
  let x ← a.get s 0
  Res.loop (fun i acc => do let y ← a.get s i; pure (acc + y * y)) 1 3 (x * x)

/-- `norm()`, `/repo/cml/quaternion/readable_quaternion.tpp:110-115`. -/
def qNorm (s : QState E) (a : QNode E) : Res E := qLengthSquared s a

/-- `dot(left, right)`, `/repo/cml/quaternion/dot.tpp:14-28`. -/
def qDot (s : QState E) (a b : QNode E) : Res E :=
  if a.order = b.order then do
    let x0 ← a.get s 0
    let y0 ← b.get s 0
    let x1 ← a.get s 1
    let y1 ← b.get s 1
    let x2 ← a.get s 2
    let y2 ← b.get s 2
    let x3 ← a.get s 3
    let y3 ← b.get s 3
    pure (x0 * y0 + x1 * y1 + x2 * y2 + x3 * y3)
  else .throw .staticAssert

/-- `operator==`, `/repo/cml/quaternion/comparison.tpp:53-66`. -/
def qEq (s : QState E) (a b : QNode E) : Res Bool :=
  if a.order = b.order then
    Res.loop (fun i r => if r then do
      let x ← a.get s i
      let y ← b.get s i
      pure (decide (x = y))
    else .ok r) 0 4 true
  else .throw .staticAssert

/-- Element `i` of `cross(v1, v2)` of the imaginary parts, `/repo/cml/vector/cross_node.tpp:55-63`. -/
def qCross (s : QState E) (a b : QNode E) (i : Nat) : Res E := do
  let l0 ← qImag s a ((i + 1) % 3)
  let r1 ← qImag s b ((i + 2) % 3)
  let l1 ← qImag s a ((i + 2) % 3)
  let r0 ← qImag s b ((i + 1) % 3)
  pure (l0 * r1 - l1 * r0)

/-- `dot(v1, v2)` of the imaginary parts, `/repo/cml/vector/dot.tpp:13-32`. -/
def qImagDot (s : QState E) (a b : QNode E) : Res E := do
  let x ← qImag s a 0
  let y ← qImag s b 0
  Res.loop (fun i acc => do
    let x ← qImag s a i
    let y ← qImag s b i
    pure (acc + x * y)) 1 2 (x * y)

/-- The four elements written by `assign(vector, e0)` to a new quaternion,
`/repo/cml/quaternion/writable_quaternion.tpp:444-455`. -/
def qMake (o : QOrder) (w x y z : E) : QArr E := fun i =>
  if i = o.W then some w else if i = o.X then some x else if i = o.Y then some y
  else if i = o.Z then some z else none

/-- `sub1 * sub2`, `/repo/cml/quaternion/product.tpp:16-53`.  The order and the cross have to agree
(`order_tags.h:70-81`, `cross_tags.h:53-64`).  The two branches of the conditional operator in lines
44-46 are `cross(sub1.imaginary(), sub2.imaginary())` and
`cross(sub2.imaginary(), sub1.imaginary())`; they have the same type only if the operands have, and
there is no conversion between node types, so other operands are rejected at compile time. -/
def qMul (s : QState E) (a b : QNode E) : Res (QNode E) :=
  if a.order = b.order ∧ a.cross = b.cross ∧ a.ty = b.ty then do
    let w1 ← a.get s a.order.W
    let w2 ← b.get s a.order.W
    let d ← qImagDot s a b
    let c := fun (i : Nat) => if a.cross = .positive then qCross s a b i else qCross s b a i
    let im := fun (i : Nat) => (do
      let v2 ← qImag s b i
      let v1 ← qImag s a i
      let k ← c i
      pure (w1 * v2 + w2 * v1 + k) : Res E)
    let x ← im 0
    let y ← im 1
    let z ← im 2
    pure (.tmp a.order a.cross (qMake a.order (w1 * w2 - d) x y z))
  else .throw .staticAssert

/-- `-q`, `+q`, `/repo/cml/quaternion/unary_ops.h:31-45`. -/
def qUn (op : QUn) (a : QNode E) : Res (QNode E) := pure (.un op a)

/-- `q + r`, `q - r`, `/repo/cml/quaternion/binary_ops.h:37-57`: order and cross have to agree
(`binary_node.h:42-47`). -/
def qBin (op : QBin) (a b : QNode E) : Res (QNode E) :=
  if a.order = b.order ∧ a.cross = b.cross then pure (.bin op a b) else .throw .staticAssert

/-- `q * k`, `k * q`, `q / k`, `/repo/cml/quaternion/scalar_ops.h`. -/
def qScal (op : QScal) (a : QNode E) (k : E) : Res (QNode E) := pure (.scal op a k)

/-- `conjugate(q)`, `/repo/cml/quaternion/conjugate_ops.tpp:13-25`. -/
def qConj (a : QNode E) : Res (QNode E) := pure (.conj a)

/-- `inverse(q)`, `/repo/cml/quaternion/inverse_ops.tpp:13-25`: the node computes `1 / norm` when it is
built, `/repo/cml/quaternion/inverse_node.tpp:15-19`. -/
def qInv (s : QState E) (a : QNode E) : Res (QNode E) := do
  let n ← qNorm s a
  let k ← divR 1 n
  pure (.inv a k)

/-- A quaternion expression as written in the program. -/
inductive QExp (E : Type)
  | var (v : QVar)
  | un (op : QUn) (a : QExp E)
  | bin (op : QBin) (a b : QExp E)
  | scal (op : QScal) (a : QExp E) (k : E)
  | conj (a : QExp E)
  | inv (a : QExp E)
  | mul (a b : QExp E)

/-- Evaluation of an expression to an expression object: products and inverse norms are computed, the
rest is delayed. -/
def QExp.build (s : QState E) : QExp E → Res (QNode E)
  | .var v => .ok (.var v)
  | .un op a => do qUn op (← a.build s)
  | .bin op a b => do
      let x ← a.build s
      let y ← b.build s
      qBin op x y
  | .scal op a k => do qScal op (← a.build s) k
  | .conj a => do qConj (← a.build s)
  | .inv a => do qInv s (← a.build s)
  | .mul a b => do
      let x ← a.build s
      let y ← b.build s
      qMul s x y

/-- `put(i, value)` with a value that is read from the current state. -/
def qPutRes (s : QState E) (x i : Nat) (r : Res E) : Out (QState E) :=
  .withVal r s fun v => qPut s x i v

/-- `assign(other)`, `/repo/cml/quaternion/writable_quaternion.tpp:432-442` (also used by the
constructor and the copy and move assignment, `fixed_compiled.tpp:15-20`, `91-109`): the indices are
those of `*this` for both quaternions. -/
def qAssign (s : QState E) (v : QVar) (a : QNode E) : Out (QState E) :=
  (qPutRes s v.id v.order.W (a.get s v.order.W)).andThen fun s =>
  (qPutRes s v.id v.order.X (a.get s v.order.X)).andThen fun s =>
  (qPutRes s v.id v.order.Y (a.get s v.order.Y)).andThen fun s =>
  qPutRes s v.id v.order.Z (a.get s v.order.Z)

/-- `q = e` for an expression of the program. -/
def qRun (s : QState E) (v : QVar) (e : QExp E) : Out (QState E) :=
  .withVal (e.build s) s fun a => qAssign s v a

/-- `assign(vector, e0)` and `set(...)`, `/repo/cml/quaternion/writable_quaternion.tpp:234-275`,
`444-455`: `n` is the size of the vector (checked to be 3), `f` reads its elements lazily.
`fixed` says whether the size is known at compile time. -/
def qAssignVec (s : QState E) (v : QVar) (fixed : Bool) (n : Nat) (f : QState E → Nat → Res E)
    (e0 : E) : Out (QState E) :=
  if n = 3 then
    (qPut s v.id v.order.W e0).andThen fun s =>
    (qPutRes s v.id v.order.X (f s 0)).andThen fun s =>
    (qPutRes s v.id v.order.Y (f s 1)).andThen fun s =>
    qPutRes s v.id v.order.Z (f s 2)
  else .throw (if fixed then .staticAssert else .vecSize) s

/-- `assign(l)` for an initializer list (`/repo/cml/quaternion/writable_quaternion.tpp:497-511`), and
for an array or four separate values (`457-469`, `513-524`), where a wrong number of elements is
rejected at compile time (`fixed`). -/
def qAssignList (s : QState E) (v : QVar) (fixed : Bool) (l : List E) : Out (QState E) :=
  if l.length = 4 then
    let at' := fun i => match l[i]? with
      | some e => Res.ok e
      | none => .ub .oob
    (qPutRes s v.id v.order.W (at' v.order.W)).andThen fun s =>
    (qPutRes s v.id v.order.X (at' v.order.X)).andThen fun s =>
    (qPutRes s v.id v.order.Y (at' v.order.Y)).andThen fun s =>
    qPutRes s v.id v.order.Z (at' v.order.Z)
  else .throw (if fixed then .staticAssert else .quatSize) s

/-- `q += other`, `q -= other`, `/repo/cml/quaternion/writable_quaternion.tpp:326-355`: element by
element in storage order; the orders are not compared. -/
def qOpAssign (op : QBin) (s : QState E) (v : QVar) (a : QNode E) : Out (QState E) :=
  Out.loop (fun i s => qPutRes s v.id i (do
    let x ← QNode.get s (.var v) i
    let y ← a.get s i
    pure (match op with | .add => x + y | .sub => x - y))) 0 4 s

/-- The scalar operand of a compound assignment: a value, or a reference to an element of a
quaternion. -/
inductive QScalar (E : Type)
  | val (k : E)
  | elem (y : Nat) (j : Nat)

/-- The current value of a scalar operand. -/
def QScalar.read (s : QState E) : QScalar E → Res E
  | .val k => .ok k
  | .elem y j => QArr.get (s y) j

/-- `q *= k`, `q /= k`, `/repo/cml/quaternion/writable_quaternion.tpp:384-417`; `k` is taken by
reference and read in every iteration. -/
def qScalAssign (op : QScal) (s : QState E) (v : QVar) (k : QScalar E) : Out (QState E) :=
  Out.loop (fun i s => qPutRes s v.id i (do
    let x ← QNode.get s (.var v) i
    let y ← k.read s
    match op with
    | .mul => pure (x * y)
    | .div => divR x y)) 0 4 s

/-- `q *= other`, `/repo/cml/quaternion/writable_quaternion.tpp:366-373`. -/
def qMulAssign (s : QState E) (v : QVar) (a : QNode E) : Out (QState E) :=
  .withVal (qMul s (.var v) a) s fun t => qAssign s v t

/-- `zero()`, `/repo/cml/quaternion/writable_quaternion.tpp:99-105`. -/
def qZero (s : QState E) (v : QVar) : Out (QState E) :=
  Out.loop (fun i s => qPut s v.id i 0) 0 4 s

/-- `identity()`, `/repo/cml/quaternion/writable_quaternion.tpp:115-124`. -/
def qIdentity (s : QState E) (v : QVar) : Out (QState E) :=
  (qPut s v.id v.order.W 1).andThen fun s =>
  (qPut s v.id v.order.X 0).andThen fun s =>
  (qPut s v.id v.order.Y 0).andThen fun s =>
  qPut s v.id v.order.Z 0

/-- `conjugate()` in place, `/repo/cml/quaternion/writable_quaternion.tpp:134-143`. -/
def qConjugate (s : QState E) (v : QVar) : Out (QState E) :=
  let g := fun (s : QState E) i => QArr.get (s v.id) i
  let neg := fun (r : Res E) => r.bind fun x => .ok (-x)
  (qPutRes s v.id v.order.W (g s v.order.W)).andThen fun s =>
  (qPutRes s v.id v.order.X (neg (g s v.order.X))).andThen fun s =>
  (qPutRes s v.id v.order.Y (neg (g s v.order.Y))).andThen fun s =>
  qPutRes s v.id v.order.Z (neg (g s v.order.Z))

/-- `inverse()` in place, `/repo/cml/quaternion/writable_quaternion.tpp:153-166`. -/
def qInverse (s : QState E) (v : QVar) : Out (QState E) :=
  .withVal (qNorm s (.var v)) s fun n =>
  let g := fun (s : QState E) i => QArr.get (s v.id) i
  let neg := fun (r : Res E) => r.bind fun x => divR (-x) n
  (qPutRes s v.id v.order.W ((g s v.order.W).bind fun x => divR x n)).andThen fun s =>
  (qPutRes s v.id v.order.X (neg (g s v.order.X))).andThen fun s =>
  (qPutRes s v.id v.order.Y (neg (g s v.order.Y))).andThen fun s =>
  qPutRes s v.id v.order.Z (neg (g s v.order.Z))

end

section
variable {E : Type} [Zero E] [One E] [Add E] [Sub E] [Mul E] [Neg E] [Div E] [LinearOrder E]

/-- `operator<`, `/repo/cml/quaternion/comparison.tpp:13-31`; the loop state is the result of the early
`return`. -/
def qLt (s : QState E) (a b : QNode E) : Res Bool :=
  if a.order = b.order then do
    let r ← Res.loop (fun i (r : Option Bool) =>
      match r with
      | some r => .ok (some r)
      | none => do
        let x ← a.get s i
        let y ← b.get s i
        if x < y then pure (some true) else if x > y then pure (some false) else pure none)
      0 4 none
    match r with
    | some r => pure r
    | none => pure false
  else .throw .staticAssert

/-- `operator>`, `/repo/cml/quaternion/comparison.tpp:33-51`. -/
def qGt (s : QState E) (a b : QNode E) : Res Bool :=
  if a.order = b.order then do
    let r ← Res.loop (fun i (r : Option Bool) =>
      match r with
      | some r => .ok (some r)
      | none => do
        let x ← a.get s i
        let y ← b.get s i
        if x > y then pure (some true) else if x < y then pure (some false) else pure none)
      0 4 none
    match r with
    | some r => pure r
    | none => pure false
  else .throw .staticAssert

/-- `operator<=`, `/repo/cml/quaternion/comparison.tpp:68-74`. -/
def qLe (s : QState E) (a b : QNode E) : Res Bool := do pure (!(← qGt s a b))

/-- `operator>=`, `/repo/cml/quaternion/comparison.tpp:76-82`. -/
def qGe (s : QState E) (a b : QNode E) : Res Bool := do pure (!(← qLt s a b))

/-- `operator!=`, `/repo/cml/quaternion/comparison.tpp:84-90`. -/
def qNe (s : QState E) (a b : QNode E) : Res Bool := do pure (!(← qEq s a b))

end

end CML
