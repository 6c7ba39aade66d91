import Verif.Model.MatOps

/-!
Move assignment of objects whose elements are members of the object (`compiled` storage).  A fixed-size matrix
keeps its elements in a nested C array; its move assignment subscripts that array directly, whatever the
layout is.
-/

namespace CML

variable {E : Type}

/-- How a subscript `a[i][j]` of an array `E a[n1][n2]` is understood.  `strict`: as in the language standard, a
subscript that is not below its bound is undefined behaviour.  `flat`: as in the code that compilers produce,
element `i * n2 + j` counted from the start of the whole array is accessed; only an access outside of the
whole array is undefined behaviour. -/
inductive Subscript | strict | flat
  deriving DecidableEq, Repr

/-- Distance of `a[i][j]` from the start of the array `E a[n1][n2]`. -/
def Subscript.at (m : Subscript) (n1 n2 i j : Nat) : Res Nat :=
  match m with
  | .strict => if i < n1 ∧ j < n2 then .ok (i * n2 + j) else .ub .oob
  | .flat => if i * n2 + j < n1 * n2 then .ok (i * n2 + j) else .ub .oob

/-- `m_data[i][j]` of a fixed-size matrix: the type of `m_data` is `value_type[Rows][Cols]` for row-major and
`value_type[Cols][Rows]` for column-major matrices, `/repo/cml/matrix/fixed_compiled.h:234-239`. -/
def MObj.rawAt (m : Subscript) (d : MObj) (i j : Nat) : Res Nat :=
  m.at (if d.colMajor then d.cols else d.rows) (if d.colMajor then d.rows else d.cols) i j

/-- `m_data[i][j] = e` where `m_data[i][j]` is the element at distance `k` from the start. -/
def MObj.rawPut (triv : Bool) (h : Heap E) (d : MObj) (k : Nat) (e : E) : Res (Heap E) :=
  match d.data with
  | none => .ub .dead
  | some b => h.write triv b (d.off + k) e

/-- Value of the element at distance `k` from the start of `m_data`. -/
def MObj.rawGet (h : Heap E) (d : MObj) (k : Nat) : Res E :=
  match d.data with
  | none => .ub .dead
  | some b => h.read b (d.off + k)

/-- The loop of `operator=(matrix_type&&)` of a fixed-size matrix, `/repo/cml/matrix/fixed_compiled.tpp:85-95`:
`for i < R, j < C: m_data[i][j] = std::move(other.m_data[i][j])`; `src` reads the element of `other` at a given
distance from the start of its array (both arrays have the same type, so the distance is the same).
Simplification: moving an element leaves the source element as it is (for arithmetic types a move is a
copy). -/
def mMoveFrom (m : Subscript) (triv : Bool) (s : State E) (x : Nat) (src : State E → Nat → Res E) :
    Out (State E) :=
  .withVal (s.mobj x) s fun d =>
    Out.loop (fun i s => Out.loop (fun j s =>
      .withVal (d.rawAt m i j) s fun k =>
        .withVal (src s k) s fun e =>
          .withVal (d.rawPut triv s.heap k e) s fun h => .ok { s with heap := h }) 0 d.cols s) 0 d.rows s

/-- `x = std::move(y)` for two fixed-size matrices of the same type, `/repo/cml/matrix/fixed_compiled.tpp:85-95`
(the second and third assignment of `std::swap(x, y)` are of this form, too). -/
def mMoveFixed (m : Subscript) (triv : Bool) (s : State E) (x y : Nat) : Out (State E) :=
  .withVal (s.mobj y) s fun w => mMoveFrom m triv s x fun s k => w.rawGet s.heap k

/-- Element of a temporary at distance `k` from the start of its array, if the temporary has the layout of `d`.
(Temporaries are kept as row-major lists in the model, see `MTemp`.) -/
def MTemp.rawGet (t : MTemp E) (d : MObj) (k : Nat) : Res E :=
  if d.colMajor then t.get (k % t.rows) (k / t.rows) else t.get (k / t.cols) (k % t.cols)

/-- `x = a * b` where the product (a temporary, `/repo/cml/matrix/matrix_product.tpp:12-36`) has exactly the type
of the fixed-size matrix `x`: overload resolution selects the move assignment,
`/repo/cml/matrix/fixed_compiled.tpp:85-95`, and not the assignment from a `readable_matrix`. -/
def mAssignMove [Add E] [Sub E] [Mul E] [Div E] [Neg E] (m : Subscript) (triv : Bool) (s : State E) (x : Nat)
    (a b : MExpr E) : Out (State E) :=
  .withVal (s.mobj x) s fun d =>
    .withVal ((MExpr.mul a b).build s) s fun n =>
      match n with
      | .temp t => mMoveFrom m triv s x fun _ k => t.rawGet d k
      | _ => .ub .raw

/-- `x = std::move(y)` for two fixed-size vectors of the same type, `/repo/cml/vector/fixed_compiled.tpp:78-84`:
`m_data[i] = std::move(other.m_data[i])`. -/
def vMoveFixed (triv : Bool) (s : State E) (x y : Nat) : Out (State E) :=
  .withVal (s.vobj x) s fun d =>
    .withVal (s.vobj y) s fun w =>
      Out.loop (fun i s => .withVal (w.get s.heap i) s fun e => vPut triv s x i e) 0 d.size s

end CML
