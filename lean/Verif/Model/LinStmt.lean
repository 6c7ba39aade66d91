import Verif.Model.MatMem

/-!
Linear algebra as statements of a program: the free functions `lu`, `lu_pivot` and `lu_solve` on named dynamic
matrices and vectors, with the temporaries they make, and an element assigned from a determinant.
-/

namespace CML

section
variable {K : Type}

/-- The end of the scope of the temporary `t`: its destructor runs when the scope is left normally and also when
it is left by an exception (which then continues), e.g. for the local `result` of
`/repo/cml/matrix/lu.tpp:20-22` when the caller's full expression ends. -/
def Out.scoped (triv : Bool) (t : Nat) : Out (State K) → Out (State K)
  | .ok s => mDestroy triv s t
  | .throw e s => (mDestroy triv s t).andThen fun s => .throw e s
  | .ub u => .ub u

end

section
variable {K : Type} [Zero K] [One K] [Add K] [Sub K] [Mul K] [Div K] [Neg K] [LinearOrder K] [Fabs K]

/-- `auto t = lu(x);` for a matrix variable `x` with run-time dimensions, `/repo/cml/matrix/lu.tpp:33-41`.
Simplification: the returned object is `LU` itself (the copy is elided or a move). -/
def mLuNew (triv : Bool) (s : State K) (x t : Nat) : Out (State K) :=
  .withVal (s.mobj x) s fun d =>
    .withVal (memCheckSquare d) s fun _ =>
      (mCopyNew triv d.colMajor d.colBasis s t (.var x)).andThen fun s => mLuInplace triv s t

/-- `lu_solve(lup, x, b)` for a decomposition object with member `lu` = matrix `m`,
`/repo/cml/matrix/lu.tpp:102-140`.  Note that `m` is not checked to be square.  Simplification: the
temporary `y` is a value (as for `mLuSolve`). -/
def mLuPivotSolve (triv : Bool) (s : State K) (m : Nat) (order : Nat → Nat) (sign : Int) (x b : Nat) :
    Out (State K) :=
  .withVal (s.mobj m) s fun d =>
    .withVal (s.vobj x) s fun vx =>
      .withVal (s.vobj b) s fun vb =>
        .withVal (do
          Res.require (decide (d.cols = vx.size)) (if d.fixed && vx.fixed then .staticAssert else .matIncompatible)
          Res.require (decide (d.cols = vb.size)) (if d.fixed && vb.fixed then .staticAssert else .matIncompatible)
          Res.require (decide (sign ≠ 0)) .invalidArgument
          let y ← memForward d order vb s.heap
          memBackward triv d vx y vb.size s.heap) s fun h => .ok { s with heap := h }

/-- The construction `lu_pivot_result<…> result(M)`, `/repo/cml/matrix/lu.tpp:20`, `/repo/cml/matrix/lu.h:44-47`:
the parameter of the constructor is a matrix, not an expression, so that `M` is first converted to the
temporary `u`, which is copied to the member `lu` (here `t`) and then destroyed.  Simplification: the
allocation of `order` is not modelled. -/
def mPivotResult (triv : Bool) (s : State K) (d : MObj) (m t u : Nat) : Out (State K) :=
  (mCopyNew triv d.colMajor d.colBasis s u (.var m)).andThen fun s =>
    Out.scoped triv u (mCopyNew triv d.colMajor d.colBasis s t (.var u))

/-- The statement `lu_solve(lu_pivot(m), x, b);` for a matrix variable `m` with run-time dimensions,
`/repo/cml/matrix/lu.tpp:15-23`, `102-140`; `t` and `u` are the temporaries. -/
def mPivotSolve (triv : Bool) (eps : K) (s : State K) (m x b t u : Nat) : Out (State K) :=
  .withVal (s.mobj m) s fun d =>
    .withVal (memCheckSquare d) s fun _ =>
      (mPivotResult triv s d m t u).andThen fun s =>
        Out.scoped triv t (.withVal (mLuPivot triv eps s t) s fun r => mLuPivotSolve triv r.1 t r.2.1 r.2.2 x b)

/-- The statement `x[i] = determinant(m);`, `/repo/cml/matrix/readable_matrix.tpp:79-85`, with the temporary `t`.
Simplification: if the determinant cannot be computed for lack of memory, the state is the one before. -/
def vPutDet [IntCast K] (triv : Bool) (eps : K) (s : State K) (x i m t : Nat) : Out (State K) :=
  .withVal (mDeterminant triv eps s m t) s fun r => vPut triv r.1 x i r.2

end

end CML
