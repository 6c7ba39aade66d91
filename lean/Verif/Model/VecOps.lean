import Verif.Model.Expr

/-!
Vector statements: resizing, assignment, compound assignment, element-wise mutators, constructors and
destructor.  They act on the program state (variables + memory).  `triv` tells whether the element
type is trivial (see `Heap.lean`).
-/

namespace CML

section Storage
variable {E : Type}

/-- The copying part of `resize`, `/repo/cml/vector/dynamic_allocated.tpp:156-160`: copy the first
`k` elements of the old array (if any) to the new one. -/
def copyOld (triv : Bool) (h : Heap E) (src : Option Nat) (dst k : Nat) : Res (Heap E) :=
  match src with
  | none => .ok h
  | some b => Res.loop (fun o h => h.copyCell triv b dst o) 0 k h

/-- `resize(n)` (`copy = true`), `/repo/cml/vector/dynamic_allocated.tpp:134-173`, and
`resize_fast(n)` (`copy = false`), lines 175-206.  The old elements are destroyed *before* they are
copied.  Simplification: element copy constructors do not throw. -/
def vResizeWith (copy triv : Bool) (s : State E) (x : Nat) (n : Int) : Out (State E) :=
  .withVal (s.vobj x) s fun v =>
    if n < 0 then .throw .invalidArgument s
    else if n.toNat = v.size then .ok s
    else
      match s.heap.alloc n.toNat with
      | (h, none) => .throw .badAlloc { s with heap := h }
      | (h, some b) =>
        let h := h.destruct triv v.data
        .withVal (if copy then copyOld triv h v.data b (min v.size n.toNat) else .ok h) s fun h =>
          .withVal (h.free v.data v.size) s fun h =>
            .ok ({ s with heap := h }.setVec x (some { v with data := some b, size := n.toNat }))

/-- `resize(n)`. -/
def vResize (triv : Bool) (s : State E) (x : Nat) (n : Int) : Out (State E) :=
  vResizeWith true triv s x n

/-- `resize_fast(n)`. -/
def vResizeFast (triv : Bool) (s : State E) (x : Nat) (n : Int) : Out (State E) :=
  vResizeWith false triv s x n

/-- `put(i, e)` on vector variable `x`, `/repo/cml/vector/writable_vector.tpp:86-92`. -/
def vPut (triv : Bool) (s : State E) (x i : Nat) (e : E) : Out (State E) :=
  .withVal (s.vobj x) s fun v =>
    .withVal (v.put triv s.heap i e) s fun h => .ok { s with heap := h }

/-- Default constructor of a dynamic vector, `/repo/cml/vector/dynamic_allocated.tpp:15-19`. -/
def vDefault (s : State E) (x : Nat) : State E :=
  s.setVec x (some ⟨.allocated, false, none, 0, 0⟩)

/-- If a constructor body throws, the variable never comes into existence (and its destructor does
not run). -/
def ctor (x : Nat) (o : Out (State E)) : Out (State E) :=
  match o with
  | .throw e s => .throw e (s.setVec x none)
  | o => o

/-- `vector(Int size)`, `/repo/cml/vector/dynamic_allocated.tpp:21-28`. -/
def vNew (triv : Bool) (s : State E) (x : Nat) (n : Int) : Out (State E) :=
  ctor x (vResizeFast triv (vDefault s x) x n)

/-- Move assignment `operator=(vector_type&&)`, `/repo/cml/vector/dynamic_allocated.tpp:215-225`:
exchange of the arrays and sizes. -/
def vMoveAssign (s : State E) (x y : Nat) : Out (State E) :=
  .withVal (s.vobj x) s fun v =>
    .withVal (s.vobj y) s fun w =>
      .ok ((s.setVec x (some { v with data := w.data, size := w.size })).setVec y
        (some { w with data := v.data, size := v.size }))

/-- Move constructor, `/repo/cml/vector/dynamic_allocated.tpp:38-44`. -/
def vMoveNew (s : State E) (x y : Nat) : Out (State E) :=
  ctor x (vMoveAssign (vDefault s x) x y)

/-- Destructor, `/repo/cml/vector/dynamic_allocated.tpp:93-102`. -/
def vDestroy (triv : Bool) (s : State E) (x : Nat) : Out (State E) :=
  .withVal (s.vobj x) s fun v =>
    .withVal ((s.heap.destruct triv v.data).free v.data v.size) s fun h =>
      .ok ({ s with heap := h }.setVec x none)

/-- Construction of a view `vector<E, external<>>(p, n)`,
`/repo/cml/vector/dynamic_external.tpp:22-36`: `p` points `off` elements into block `b`. -/
def vView (s : State E) (x b off : Nat) (n : Int) : Out (State E) :=
  if 0 ≤ n then .ok (s.setVec x (some ⟨.external, false, some b, off, n.toNat⟩))
  else .throw .invalidArgument (s.setVec x none)

/-- Copy constructor of `vector<E, external<>>`, `/repo/cml/vector/dynamic_external.tpp:38-42`, and of
`vector<E, external<N>>`, `fixed_external.tpp:24-28`: the copy refers to the same memory. -/
def vViewCopy (s : State E) (x y : Nat) : Out (State E) :=
  .withVal (s.vobj y) s fun w => .ok (s.setVec x (some w))

/-- Move assignment of external vectors, `/repo/cml/vector/dynamic_external.tpp:97-106`,
`fixed_external.tpp:74-81`: rebinds the destination and clears the source (a size that is a template
parameter stays). -/
def vViewMove (s : State E) (x y : Nat) : Out (State E) :=
  .withVal (s.vobj x) s fun v =>
    .withVal (s.vobj y) s fun w =>
      .ok ((s.setVec x (some { v with data := w.data, off := w.off, size := w.size })).setVec y
        (some { w with data := none, off := 0, size := if w.fixed then w.size else 0 }))

end Storage

section Ops
variable {E : Type} [Add E] [Sub E] [Mul E] [Div E] [Neg E]

/-- `detail::check_or_resize(*this, other)`, `/repo/cml/vector/detail/check_or_resize.h:16-31` and
`78-97`: vectors that have `resize` are resized, all others are checked. -/
def checkOrResize (triv : Bool) (s : State E) (x : Nat) (e : VNode E) : Out (State E) :=
  .withVal (s.vobj x) s fun v =>
    match v.storage with
    | .allocated => .withVal (e.size s) s fun n => vResize triv s x n
    | _ => .withVal (checkSameSize s (.var x) e) s fun _ => .ok s

/-- `detail::check_or_resize(*this, N)`, `/repo/cml/vector/detail/check_or_resize.h:33-73` (`cst` for
the compile-time constant overloads). -/
def checkOrResizeN (triv cst : Bool) (s : State E) (x : Nat) (n : Nat) : Out (State E) :=
  .withVal (s.vobj x) s fun v =>
    match v.storage with
    | .allocated => vResize triv s x n
    | _ => .withVal (checkSizeC (v.fixed && cst) v.size n) s fun _ => .ok s

/-- One iteration `this->put(i, f(i))` where `f(i)` is read in the current state. -/
def storeStep (triv : Bool) (x : Nat) (f : State E → Nat → Res E) (i : Nat) (s : State E) :
    Out (State E) :=
  .withVal (f s i) s fun v => vPut triv s x i v

/-- `for(int i = 0; i < this->size(); ++i) this->put(i, f(i))`. -/
def storeLoop (triv : Bool) (s : State E) (x : Nat) (f : State E → Nat → Res E) : Out (State E) :=
  .withVal (s.vobj x) s fun v => Out.loop (storeStep triv x f) 0 v.size s

/-- `assign(other)`, `/repo/cml/vector/writable_vector.tpp:394-402`. -/
def vAssign (triv : Bool) (s : State E) (x : Nat) (e : VNode E) : Out (State E) :=
  (checkOrResize triv s x e).andThen fun s => storeLoop triv s x fun s i => e.get s i

/-- `operator+=` and `operator-=`, `/repo/cml/vector/writable_vector.tpp:306-316`, `327-337`. -/
def vOpAssign (triv : Bool) (o : BinOp) (s : State E) (x : Nat) (e : VNode E) : Out (State E) :=
  (checkOrResize triv s x e).andThen fun s => storeLoop triv s x fun s i => do
    let a ← (VNode.var x : VNode E).get s i
    let b ← e.get s i
    pure (o.apply a b)

/-- A scalar argument passed by const reference: a plain value, or a reference to element `i` of
vector `y`. -/
inductive ScalarRef (E : Type)
  | val (c : E)
  | elem (y i : Nat)

/-- The value the reference has at the moment. -/
def ScalarRef.read (s : State E) : ScalarRef E → Res E
  | .val c => .ok c
  | .elem y i => (VNode.var y : VNode E).get s i

/-- `operator*=(const ScalarT&)`, `operator/=(const ScalarT&)`,
`/repo/cml/vector/writable_vector.tpp:348-358`, `370-380`: the reference is read again in every
iteration. -/
def vScalAssign (triv : Bool) (o : ScalOp) (s : State E) (x : Nat) (c : ScalarRef E) : Out (State E) :=
  storeLoop triv s x fun s i => do
    let a ← (VNode.var x : VNode E).get s i
    let b ← c.read s
    pure (o.apply a b)

/-- `fill(const_reference v)`, `/repo/cml/vector/writable_vector.tpp:214-220`. -/
def vFill (triv : Bool) (s : State E) (x : Nat) (c : ScalarRef E) : Out (State E) :=
  storeLoop triv s x fun s _ => c.read s

/-- `assign_elements`, array and initializer-list assignment,
`/repo/cml/vector/writable_vector.tpp:16-51`, `404-413`, `424-435`, `448-457`. -/
def vAssignList (triv cst : Bool) (s : State E) (x : Nat) (xs : List E) : Out (State E) :=
  (checkOrResizeN triv cst s x xs.length).andThen fun s =>
    Out.loop (fun i s => .withVal ((VNode.temp true xs).get s i) s fun v => vPut triv s x i v)
      0 xs.length s

/-- `assign(other, eN...)`, `/repo/cml/vector/writable_vector.tpp:437-446` (size
`combined_size_of`). -/
def vAssignAppend (triv : Bool) (s : State E) (x : Nat) (e : VNode E) (xs : List E) :
    Out (State E) :=
  .withVal (e.size s) s fun n =>
    (checkOrResizeN triv false s x (n.toNat + xs.length)).andThen fun s =>
      .withVal (e.size s) s fun n =>
        (Out.loop (fun i s => .withVal (e.get s i) s fun v => vPut triv s x i v) 0 n.toNat s).andThen
          fun s =>
            Out.loop (fun i s => .withVal ((VNode.temp true xs).get s i) s fun v =>
              vPut triv s x (n.toNat + i) v) 0 xs.length s

/-- Copy constructor of a dynamic vector and construction from an expression,
`/repo/cml/vector/dynamic_allocated.tpp:30-36`, `46-53`. -/
def vCopyNew (triv : Bool) (s : State E) (x : Nat) (e : VNode E) : Out (State E) :=
  ctor x (vAssign triv (vDefault s x) x e)

/-- `minimize(other)` (`lower = true`) and `maximize(other)` (`lower = false`),
`/repo/cml/vector/writable_vector.tpp:150-160`, `171-181`; `std::min(a,b)` is `b < a ? b : a` and
`std::max(a,b)` is `a < b ? b : a`. -/
def vExtremize [LT E] [DecidableLT E] (triv lower : Bool) (s : State E) (x : Nat) (e : VNode E) :
    Out (State E) :=
  .withVal (checkSameSize s (.var x) e) s fun _ =>
    storeLoop triv s x fun s i => do
      let a ← (VNode.var x : VNode E).get s i
      let b ← e.get s i
      pure (if lower then (if b < a then b else a) else (if a < b then b else a))

end Ops

section Readers
variable {E : Type} [Add E] [Sub E] [Mul E] [Div E] [Neg E]

/-- `check_minimum_size(v, int_c<N>())`, `/repo/cml/vector/size_checking.tpp:45-69`. -/
def checkMin (fixed : Bool) (n N : Int) : Res Unit :=
  Res.require (decide (N ≤ n)) (if fixed then .staticAssert else .vecMinimum)

/-- `dot(left, right)`, `/repo/cml/vector/dot.tpp:14-27`. -/
def vDot (s : State E) (a b : VNode E) : Res E := do
  let f ← a.fixed s
  let n ← a.chkSize s f
  checkMin f n 1
  let g ← b.fixed s
  let k ← b.chkSize s g
  checkMin g k 1
  checkSameSize s a b
  let n ← a.size s
  innerLoop (fun i => a.get s i) (fun i => b.get s i) n.toNat

/-- `length_squared()`, `/repo/cml/vector/readable_vector.tpp:55-63` (`sqr(x) = x*x`,
`/repo/cml/scalar/functions.h`). -/
def vLengthSquared (s : State E) (a : VNode E) : Res E := do
  let f ← a.fixed s
  let n ← a.chkSize s f
  checkMin f n 1
  let n ← a.size s
  let x ← a.get s 0
  Res.loop (fun i acc => do let y ← a.get s i; pure (acc + y * y)) 1 (n.toNat - 1) (x * x)

/-- `perp_dot(left, right)`, `/repo/cml/vector/perp_dot.tpp:14-23`. -/
def vPerpDot (s : State E) (a b : VNode E) : Res E := do
  let f ← a.fixed s
  let n ← a.chkSize s f
  checkSizeC f n 2
  let g ← b.fixed s
  let k ← b.chkSize s g
  checkSizeC g k 2
  let a0 ← a.get s 0
  let b1 ← b.get s 1
  let a1 ← a.get s 1
  let b0 ← b.get s 0
  pure (a0 * b1 - a1 * b0)

/-- `triple_product(a, b, c)`, `/repo/cml/vector/triple_product.tpp:14-23`: `dot(a, cross(b, c))`;
the arguments are named references inside, so the cross node holds references. -/
def vTriple (s : State E) (a b c : VNode E) : Res E := do
  let fa ← a.fixed s
  let na ← a.chkSize s fa
  checkSizeC fa na 3
  let fb ← b.fixed s
  let nb ← b.chkSize s fb
  checkSizeC fb nb 3
  let fc ← c.fixed s
  let nc ← c.chkSize s fc
  checkSizeC fc nc 3
  vDot s a (.cross b c)

/-- The comparison loops of `/repo/cml/vector/comparison.tpp:13-59`: the first differing element of
the first `n` decides (`some true`: left smaller, `some false`: right smaller). -/
def cmpLoop [LT E] [DecidableLT E] (a b : Nat → Res E) : Nat → Nat → Res (Option Bool)
  | _, 0 => .ok none
  | lo, n + 1 => do
    let x ← a lo
    let y ← b lo
    if x < y then pure (some true)
    else if y < x then pure (some false)
    else cmpLoop a b (lo + 1) n

/-- `operator<`, `/repo/cml/vector/comparison.tpp:13-27`. -/
def vLt [LT E] [DecidableLT E] (s : State E) (a b : VNode E) : Res Bool := do
  let n ← a.size s
  let k ← b.size s
  let r ← cmpLoop (fun i => a.get s i) (fun i => b.get s i) 0 (min n k).toNat
  match r with
  | some lt => pure lt
  | none => pure (decide (n < k))

/-- `operator>`, `/repo/cml/vector/comparison.tpp:29-43`. -/
def vGt [LT E] [DecidableLT E] (s : State E) (a b : VNode E) : Res Bool := do
  let n ← a.size s
  let k ← b.size s
  let r ← cmpLoop (fun i => a.get s i) (fun i => b.get s i) 0 (min n k).toNat
  match r with
  | some lt => pure (!lt)
  | none => pure (decide (n > k))

/-- `operator==`, `/repo/cml/vector/comparison.tpp:45-59`. -/
def vEq [LT E] [DecidableLT E] (s : State E) (a b : VNode E) : Res Bool := do
  let n ← a.size s
  let k ← b.size s
  if n ≠ k then pure false
  else do
    let r ← cmpLoop (fun i => a.get s i) (fun i => b.get s i) 0 n.toNat
    match r with
    | some _ => pure false
    | none => pure true

/-- `operator<=`, `operator>=`, `operator!=`, `/repo/cml/vector/comparison.tpp:61-83`. -/
def vLe [LT E] [DecidableLT E] (s : State E) (a b : VNode E) : Res Bool := do
  let r ← vGt s a b; pure !r
@[inherit_doc vLe]
def vGe [LT E] [DecidableLT E] (s : State E) (a b : VNode E) : Res Bool := do
  let r ← vLt s a b; pure !r
@[inherit_doc vLe]
def vNe [LT E] [DecidableLT E] (s : State E) (a b : VNode E) : Res Bool := do
  let r ← vEq s a b; pure !r

/-- `operator<<(os, v)`, `/repo/cml/util/vector_print.tpp:14-21`: `os << v[0]`, then the other
elements each preceded by a space; `none` stands for the separator. -/
def vPrint (s : State E) (a : VNode E) : Res (List (Option E)) := do
  let n ← a.size s
  let x ← a.get s 0
  Res.loop (fun i acc => do let y ← a.get s i; pure (acc ++ [none, some y])) 1 (n - 1).toNat [some x]

end Readers

end CML
