import Verif.Model.Mat
import Verif.Model.MatOps

/-!
The in-place algorithms of `Mat.lean` once more, this time on matrices in memory: `d` is the matrix object (kind
of storage, layout, position), every `M(i,j)` is a read of memory and every assignment a write.  The
definitions follow the code like those of `Mat.lean`; `Props/MatMem.lean` proves that both do the same.

Simplifications: the 3×3 and 4×4 formulas read every element once, at the beginning (the code reads some of
them several times, always before the first write); `row_index`, `col_index`, `pivoted` and `order` are values,
their allocation (which may throw for dynamic matrices, before anything is written) is not modelled.
-/

namespace CML

section Lu
variable {K : Type} [Zero K] [Add K] [Sub K] [Mul K] [Div K] [DecidableEq K]

/-- `sum += M(i, p) * M(p, j)`, `/repo/cml/matrix/detail/lu.tpp:23-24`, `30-31`. -/
def memLuSum (d : MObj) (h : Heap K) (i j k : Nat) : Res K :=
  Res.loop (fun p sum => do
    let a ← d.get h i p
    let b ← d.get h p j
    pure (sum + a * b)) 0 k 0

/-- One step of the upper triangle loop, `/repo/cml/matrix/detail/lu.tpp:22-26`. -/
def memLuUpper (triv : Bool) (d : MObj) (k j : Nat) (h : Heap K) : Res (Heap K) := do
  let sum ← memLuSum d h k j k
  let x ← d.get h k j
  d.put triv h k j (x - sum)

/-- One step of the lower triangle loop, `/repo/cml/matrix/detail/lu.tpp:29-33`. -/
def memLuLower (triv : Bool) (d : MObj) (k i : Nat) (h : Heap K) : Res (Heap K) := do
  let sum ← memLuSum d h i k k
  let x ← d.get h i k
  let y ← d.get h k k
  let q ← divR (x - sum) y
  d.put triv h i k q

/-- `lu_inplace(M)`, `/repo/cml/matrix/detail/lu.tpp:13-35`. -/
def memLuInplace (triv : Bool) (d : MObj) (h : Heap K) : Res (Heap K) :=
  Res.loop (fun k h => do
    let h ← Res.loop (memLuUpper triv d k) k (d.rows - k) h
    Res.loop (memLuLower triv d k) (k + 1) (d.rows - (k + 1)) h) 0 d.rows h

end Lu

section Swap
variable {K : Type}

/-- `for(i = 0; i < N; ++i) std::swap(M(a, i), M(b, i))`, `/repo/cml/matrix/detail/lu.tpp:69`,
`inverse.h:192`. -/
def memSwapRows (triv : Bool) (d : MObj) (h : Heap K) (a b : Nat) : Res (Heap K) :=
  Res.loop (fun j h => do
    let x ← d.get h a j
    let y ← d.get h b j
    let h ← d.put triv h a j y
    d.put triv h b j x) 0 d.rows h

/-- `for(j = 0; j < N; ++j) std::swap(M(j, a), M(j, b))`, `/repo/cml/matrix/detail/inverse.h:216-217`. -/
def memSwapCols (triv : Bool) (d : MObj) (h : Heap K) (a b : Nat) : Res (Heap K) :=
  Res.loop (fun i h => do
    let x ← d.get h i a
    let y ← d.get h i b
    let h ← d.put triv h i a y
    d.put triv h i b x) 0 d.rows h

/-- The column swaps at the end, `/repo/cml/matrix/detail/inverse.h:212-218`. -/
def memUndoSwaps (triv : Bool) (d : MObj) (h : Heap K) : List (Nat × Nat) → Res (Heap K)
  | [] => pure h
  | (r, c) :: l => do
    let h ← (if r = c then pure h else memSwapCols triv d h r c)
    memUndoSwaps triv d h l

end Swap

section LuPivot
variable {K : Type} [Zero K] [Sub K] [Mul K] [Div K] [LinearOrder K] [Fabs K]

/-- Search of the pivot row, `/repo/cml/matrix/detail/lu.tpp:52-60`. -/
def memPivotSearch (d : MObj) (h : Heap K) (k : Nat) : Res (Nat × K) := do
  let m0 ← d.get h k k
  Res.loop (fun i (r : Nat × K) => do
    let x ← d.get h i k
    pure (if Fabs.fabs x > r.2 then (i, Fabs.fabs x) else r)) (k + 1) (d.rows - (k + 1)) (k, m0)

/-- `M(i,k) /= M(k,k)` and the rest of the row, `/repo/cml/matrix/detail/lu.tpp:75-76`. -/
def memSchurRow (triv : Bool) (d : MObj) (k i : Nat) (h : Heap K) : Res (Heap K) := do
  let x ← d.get h i k
  let y ← d.get h k k
  let q ← divR x y
  let h ← d.put triv h i k q
  Res.loop (fun j h => do
    let x ← d.get h i j
    let l ← d.get h i k
    let u ← d.get h k j
    d.put triv h i j (x - l * u)) (k + 1) (d.rows - (k + 1)) h

/-- Memory, row order and sign during the pivoted decomposition, `/repo/cml/matrix/lu.h:18-52`.
Simplification: `order` (an array of `int` owned by the caller) is a function. -/
structure MemLuPivot (K : Type) where
  heap : Heap K
  order : Nat → Nat
  sign : Int

/-- One iteration of the column loop, `/repo/cml/matrix/detail/lu.tpp:50-78`; `Sum.inr` is the early return. -/
def memLuPivotStep (triv : Bool) (d : MObj) (eps : K) (k : Nat) (r : MemLuPivot K) :
    Res (MemLuPivot K ⊕ MemLuPivot K) := do
  let p ← memPivotSearch d r.heap k
  if p.2 < eps then pure (.inr { r with sign := 0 })
  else do
    let r ← (if p.1 ≠ k then do
      let h ← memSwapRows triv d r.heap k p.1
      pure { heap := h, order := swapOrder r.order k p.1, sign := -r.sign }
    else pure r)
    let h ← Res.loop (memSchurRow triv d k) (k + 1) (d.rows - (k + 1)) r.heap
    pure (.inl { r with heap := h })

/-- Body of the column loop, `/repo/cml/matrix/detail/lu.tpp:50-78`: nothing happens after the early return. -/
def memLuPivotBody (triv : Bool) (d : MObj) (eps : K) (k : Nat) :
    MemLuPivot K ⊕ MemLuPivot K → Res (MemLuPivot K ⊕ MemLuPivot K)
  | .inl r => memLuPivotStep triv d eps k r
  | .inr r => .ok (.inr r)

/-- `lu_pivot_inplace(M, order)`, `/repo/cml/matrix/detail/lu.tpp:37-82`. -/
def memLuPivotInplace (triv : Bool) (d : MObj) (eps : K) (h : Heap K) : Res (MemLuPivot K) := do
  let r ← Res.loop (memLuPivotBody triv d eps) 0 (d.rows - 1) (.inl ⟨h, fun i => i, 1⟩)
  pure (r.elim id id)

end LuPivot

section Inv
variable {K : Type} [Zero K] [Add K] [Sub K] [Mul K] [Div K] [Neg K] [DecidableEq K]

/-- 2×2 inverse, `/repo/cml/matrix/detail/inverse.h:14-29`. -/
def memInverse2 (triv : Bool) (d : MObj) (h : Heap K) : Res (Heap K) := do
  let m00 ← d.get h 0 0
  let m01 ← d.get h 0 1
  let m10 ← d.get h 1 0
  let m11 ← d.get h 1 1
  let D := m00 * m11 - m01 * m10
  let a ← divR m11 D
  let h ← d.put triv h 0 0 a
  let a ← divR (-m01) D
  let h ← d.put triv h 0 1 a
  let a ← divR (-m10) D
  let h ← d.put triv h 1 0 a
  let a ← divR m00 D
  d.put triv h 1 1 a

/-- 3×3 inverse, `/repo/cml/matrix/detail/inverse.h:31-62`. -/
def memInverse3 (triv : Bool) (d : MObj) (h : Heap K) : Res (Heap K) := do
  let m00 ← d.get h 0 0
  let m01 ← d.get h 0 1
  let m02 ← d.get h 0 2
  let m10 ← d.get h 1 0
  let m11 ← d.get h 1 1
  let m12 ← d.get h 1 2
  let m20 ← d.get h 2 0
  let m21 ← d.get h 2 1
  let m22 ← d.get h 2 2
  let m_00 := m11 * m22 - m12 * m21
  let m_01 := m12 * m20 - m10 * m22
  let m_02 := m10 * m21 - m11 * m20
  let m_10 := m02 * m21 - m01 * m22
  let m_11 := m00 * m22 - m02 * m20
  let m_12 := m01 * m20 - m00 * m21
  let m_20 := m01 * m12 - m02 * m11
  let m_21 := m02 * m10 - m00 * m12
  let m_22 := m00 * m11 - m01 * m10
  let D := m00 * m_00 + m01 * m_01 + m02 * m_02
  let a ← divR m_00 D
  let h ← d.put triv h 0 0 a
  let a ← divR m_10 D
  let h ← d.put triv h 0 1 a
  let a ← divR m_20 D
  let h ← d.put triv h 0 2 a
  let a ← divR m_01 D
  let h ← d.put triv h 1 0 a
  let a ← divR m_11 D
  let h ← d.put triv h 1 1 a
  let a ← divR m_21 D
  let h ← d.put triv h 1 2 a
  let a ← divR m_02 D
  let h ← d.put triv h 2 0 a
  let a ← divR m_12 D
  let h ← d.put triv h 2 1 a
  let a ← divR m_22 D
  d.put triv h 2 2 a

/-- Reading the elements of a 4×4 matrix, `/repo/cml/matrix/detail/inverse.h:69-147`,
`determinant.tpp:53-75`. -/
def memEls4 (d : MObj) (h : Heap K) : Res (Els4 K) := do
  let m00 ← d.get h 0 0
  let m01 ← d.get h 0 1
  let m02 ← d.get h 0 2
  let m03 ← d.get h 0 3
  let m10 ← d.get h 1 0
  let m11 ← d.get h 1 1
  let m12 ← d.get h 1 2
  let m13 ← d.get h 1 3
  let m20 ← d.get h 2 0
  let m21 ← d.get h 2 1
  let m22 ← d.get h 2 2
  let m23 ← d.get h 2 3
  let m30 ← d.get h 3 0
  let m31 ← d.get h 3 1
  let m32 ← d.get h 3 2
  let m33 ← d.get h 3 3
  pure ⟨m00, m01, m02, m03, m10, m11, m12, m13, m20, m21, m22, m23, m30, m31, m32, m33⟩

/-- 4×4 inverse, `/repo/cml/matrix/detail/inverse.h:64-147`. -/
def memInverse4 (triv : Bool) (d : MObj) (h : Heap K) : Res (Heap K) := do
  let ⟨m00, m01, m02, m03, m10, m11, m12, m13, m20, m21, m22, m23, m30, m31, m32, m33⟩ ← memEls4 d h
  let m_22_33_23_32 := m22 * m33 - m23 * m32
  let m_23_30_20_33 := m23 * m30 - m20 * m33
  let m_20_31_21_30 := m20 * m31 - m21 * m30
  let m_21_32_22_31 := m21 * m32 - m22 * m31
  let m_23_31_21_33 := m23 * m31 - m21 * m33
  let m_20_32_22_30 := m20 * m32 - m22 * m30
  let d00 := m11 * m_22_33_23_32 + m12 * m_23_31_21_33 + m13 * m_21_32_22_31
  let d01 := m10 * m_22_33_23_32 + m12 * m_23_30_20_33 + m13 * m_20_32_22_30
  let d02 := m10 * -m_23_31_21_33 + m11 * m_23_30_20_33 + m13 * m_20_31_21_30
  let d03 := m10 * m_21_32_22_31 + m11 * -m_20_32_22_30 + m12 * m_20_31_21_30
  let d10 := m01 * m_22_33_23_32 + m02 * m_23_31_21_33 + m03 * m_21_32_22_31
  let d11 := m00 * m_22_33_23_32 + m02 * m_23_30_20_33 + m03 * m_20_32_22_30
  let d12 := m00 * -m_23_31_21_33 + m01 * m_23_30_20_33 + m03 * m_20_31_21_30
  let d13 := m00 * m_21_32_22_31 + m01 * -m_20_32_22_30 + m02 * m_20_31_21_30
  let m_02_13_03_12 := m02 * m13 - m03 * m12
  let m_03_10_00_13 := m03 * m10 - m00 * m13
  let m_00_11_01_10 := m00 * m11 - m01 * m10
  let m_01_12_02_11 := m01 * m12 - m02 * m11
  let m_03_11_01_13 := m03 * m11 - m01 * m13
  let m_00_12_02_10 := m00 * m12 - m02 * m10
  let d20 := m31 * m_02_13_03_12 + m32 * m_03_11_01_13 + m33 * m_01_12_02_11
  let d21 := m30 * m_02_13_03_12 + m32 * m_03_10_00_13 + m33 * m_00_12_02_10
  let d22 := m30 * -m_03_11_01_13 + m31 * m_03_10_00_13 + m33 * m_00_11_01_10
  let d23 := m30 * m_01_12_02_11 + m31 * -m_00_12_02_10 + m32 * m_00_11_01_10
  let d30 := m21 * m_02_13_03_12 + m22 * m_03_11_01_13 + m23 * m_01_12_02_11
  let d31 := m20 * m_02_13_03_12 + m22 * m_03_10_00_13 + m23 * m_00_12_02_10
  let d32 := m20 * -m_03_11_01_13 + m21 * m_03_10_00_13 + m23 * m_00_11_01_10
  let d33 := m20 * m_01_12_02_11 + m21 * -m_00_12_02_10 + m22 * m_00_11_01_10
  let D := m00 * d00 - m01 * d01 + m02 * d02 - m03 * d03
  let a ← divR d00 D
  let h ← d.put triv h 0 0 a
  let a ← divR (-d10) D
  let h ← d.put triv h 0 1 a
  let a ← divR d20 D
  let h ← d.put triv h 0 2 a
  let a ← divR (-d30) D
  let h ← d.put triv h 0 3 a
  let a ← divR (-d01) D
  let h ← d.put triv h 1 0 a
  let a ← divR d11 D
  let h ← d.put triv h 1 1 a
  let a ← divR (-d21) D
  let h ← d.put triv h 1 2 a
  let a ← divR d31 D
  let h ← d.put triv h 1 3 a
  let a ← divR d02 D
  let h ← d.put triv h 2 0 a
  let a ← divR (-d12) D
  let h ← d.put triv h 2 1 a
  let a ← divR d22 D
  let h ← d.put triv h 2 2 a
  let a ← divR (-d32) D
  let h ← d.put triv h 2 3 a
  let a ← divR (-d03) D
  let h ← d.put triv h 3 0 a
  let a ← divR d13 D
  let h ← d.put triv h 3 1 a
  let a ← divR (-d23) D
  let h ← d.put triv h 3 2 a
  let a ← divR d33 D
  d.put triv h 3 3 a

end Inv

section InvPivot
variable {K : Type} [Zero K] [One K] [Add K] [Sub K] [Mul K] [Div K] [Neg K] [LinearOrder K] [Fabs K]

/-- Search of the pivot, `/repo/cml/matrix/detail/inverse.h:166-182`. -/
def memInvSearch (d : MObj) (h : Heap K) (pivoted : Nat → Bool) : Res (Nat × Nat × K) := do
  let x ← d.get h 0 0
  Res.loop (fun j r =>
    if pivoted j then pure r
    else Res.loop (fun k (r : Nat × Nat × K) =>
      if pivoted k then pure r
      else do
        let x ← d.get h j k
        pure (if Fabs.fabs x > r.2.2 then (j, k, Fabs.fabs x) else r)) 0 d.rows r) 0 d.rows (0, 0, Fabs.fabs x)

/-- Pivot row, `/repo/cml/matrix/detail/inverse.h:195-200`. -/
def memInvPivotRow (triv : Bool) (d : MObj) (h : Heap K) (col : Nat) : Res (Heap K) := do
  let pivot ← d.get h col col
  let h ← d.put triv h col col 1
  let s ← divR 1 pivot
  Res.loop (fun j h => do
    let x ← d.get h col j
    d.put triv h col j (x * s)) 0 d.rows h

/-- One of the other rows, `/repo/cml/matrix/detail/inverse.h:204-208`. -/
def memInvOtherRow (triv : Bool) (d : MObj) (col j : Nat) (h : Heap K) : Res (Heap K) :=
  if j = col then pure h
  else do
    let x ← d.get h j col
    let mult := -x
    let h ← d.put triv h j col 0
    Res.loop (fun k h => do
      let x ← d.get h j k
      let y ← d.get h col k
      d.put triv h j k (x + mult * y)) 0 d.rows h

/-- Memory, chosen pivots and markers of the pivoting inverse, `/repo/cml/matrix/detail/inverse.h:155-158`. -/
structure MemInvState (K : Type) where
  heap : Heap K
  idx : List (Nat × Nat)
  pivoted : Nat → Bool

/-- One iteration, `/repo/cml/matrix/detail/inverse.h:165-210`. -/
def memInvStep (triv : Bool) (d : MObj) (s : MemInvState K) : Res (MemInvState K) := do
  let p ← memInvSearch d s.heap s.pivoted
  let row := p.1
  let col := p.2.1
  let h ← (if row ≠ col then memSwapRows triv d s.heap row col else pure s.heap)
  let h ← memInvPivotRow triv d h col
  let h ← Res.loop (memInvOtherRow triv d col) 0 d.rows h
  pure ⟨h, s.idx ++ [(row, col)], fun i => if i = col then true else s.pivoted i⟩

/-- `inverse_pivot(M, …)`, `/repo/cml/matrix/detail/inverse.h:155-219`. -/
def memInversePivot (triv : Bool) (d : MObj) (h : Heap K) : Res (Heap K) := do
  let s ← Res.loop (fun _ s => memInvStep triv d s) 0 d.rows ⟨h, [], fun _ => false⟩
  memUndoSwaps triv d s.heap s.idx

/-- `check_square(*this)`, `/repo/cml/matrix/size_checking.tpp:351-375`. -/
def memCheckSquare (d : MObj) : Res Unit :=
  Res.require (decide (d.rows = d.cols)) (if d.fixed then .staticAssert else .nonSquare)

/-- `detail::inverse(*this, …)`, dispatch in `/repo/cml/matrix/detail/inverse.h:229-278`. -/
def memInverse (triv : Bool) (d : MObj) (h : Heap K) : Res (Heap K) := do
  memCheckSquare d
  match d.rows with
  | 2 => memInverse2 triv d h
  | 3 => memInverse3 triv d h
  | 4 => memInverse4 triv d h
  | _ => memInversePivot triv d h

/-- The statement `x.inverse();`, `/repo/cml/matrix/writable_matrix.tpp:227-234`. -/
def mInverse (triv : Bool) (s : State K) (x : Nat) : Out (State K) :=
  .withVal (s.mobj x) s fun d =>
    .withVal (memInverse triv d s.heap) s fun h => .ok { s with heap := h }

/-- The statement `lu_pivot(result);` for a `lu_pivot_result` whose member `lu` is `x`: order and sign are
returned, `/repo/cml/matrix/lu.tpp:25-31`. -/
def mLuPivot (triv : Bool) (eps : K) (s : State K) (x : Nat) : Res (State K × (Nat → Nat) × Int) := do
  let d ← s.mobj x
  memCheckSquare d
  let r ← memLuPivotInplace triv d eps s.heap
  pure ({ s with heap := r.heap }, r.order, r.sign)

end InvPivot

section LuStmt
variable {K : Type} [Zero K] [Add K] [Sub K] [Mul K] [Div K] [DecidableEq K]

/-- `detail::lu_inplace(x)` after `check_square`, `/repo/cml/matrix/lu.tpp:33-41` (there `x` is a temporary copy
of the argument). -/
def mLuInplace (triv : Bool) (s : State K) (x : Nat) : Out (State K) :=
  .withVal (s.mobj x) s fun d =>
    .withVal (memCheckSquare d) s fun _ =>
      .withVal (memLuInplace triv d s.heap) s fun h => .ok { s with heap := h }

/-- Forward substitution with `LU` and `b` in memory, `/repo/cml/matrix/lu.tpp:71-77`, `122-128`; the temporary
`y` is a value. -/
def memForward (d : MObj) (P : Nat → Nat) (b : VObj) (h : Heap K) : Res (Vec K) :=
  Res.loop (fun i y => do
    let sum ← Res.loop (fun j sum => do
      let l ← d.get h i j
      let z ← Vec.get y j
      pure (sum + l * z)) 0 i 0
    let v ← b.get h (P i)
    Vec.put y i (v - sum)) 0 b.size (Vec.fresh b.size)

/-- Backward substitution with `LU` and `x` in memory, `/repo/cml/matrix/lu.tpp:82-86`, `133-137`. -/
def memBackward (triv : Bool) (d : MObj) (x : VObj) (y : Vec K) (N : Nat) (h : Heap K) : Res (Heap K) :=
  Res.loop (fun t h => do
    let i := N - 1 - t
    let sum ← Res.loop (fun j sum => do
      let u ← d.get h i j
      let z ← x.get h j
      pure (sum + u * z)) (i + 1) (N - (i + 1)) 0
    let v ← y.get i
    let e ← d.get h i i
    let q ← divR (v - sum) e
    x.put triv h i q) 0 N h

/-- The statement `lu_solve(LU, x, b);` for a matrix variable `LU` and vector variables `x`, `b`,
`/repo/cml/matrix/lu.tpp:54-89`.  Simplification: as for `luSolve`. -/
def mLuSolve (triv : Bool) (s : State K) (LU x b : Nat) : Out (State K) :=
  .withVal (s.mobj LU) s fun d =>
    .withVal (s.vobj x) s fun vx =>
      .withVal (s.vobj b) s fun vb =>
        .withVal (do
          memCheckSquare d
          Res.require (decide (d.cols = vx.size)) (if d.fixed && vx.fixed then .staticAssert else .matIncompatible)
          Res.require (decide (d.cols = vb.size)) (if d.fixed && vb.fixed then .staticAssert else .matIncompatible)
          let y ← memForward d (fun i => i) vb s.heap
          memBackward triv d vx y vb.size s.heap) s fun h => .ok { s with heap := h }

end LuStmt

section DetMem
variable {K : Type}

/-- 2×2 determinant, `/repo/cml/matrix/detail/determinant.tpp:27-34`. -/
def memDet2 [Mul K] [Sub K] (d : MObj) (h : Heap K) : Res K := do
  let m00 ← d.get h 0 0
  let m11 ← d.get h 1 1
  let m10 ← d.get h 1 0
  let m01 ← d.get h 0 1
  pure (m00 * m11 - m10 * m01)

/-- 3×3 determinant, `/repo/cml/matrix/detail/determinant.tpp:36-45`. -/
def memDet3 [Mul K] [Sub K] [Add K] (d : MObj) (h : Heap K) : Res K := do
  let m00 ← d.get h 0 0
  let m01 ← d.get h 0 1
  let m02 ← d.get h 0 2
  let m10 ← d.get h 1 0
  let m11 ← d.get h 1 1
  let m12 ← d.get h 1 2
  let m20 ← d.get h 2 0
  let m21 ← d.get h 2 1
  let m22 ← d.get h 2 2
  pure (m00 * (m11 * m22 - m12 * m21) + m01 * (m12 * m20 - m10 * m22)
    + m02 * (m10 * m21 - m11 * m20))

/-- `diagonal_product(A)`, `/repo/cml/matrix/detail/determinant.tpp:16-23`. -/
def memDiagonal [Mul K] (d : MObj) (h : Heap K) : Res K := do
  let x ← d.get h 0 0
  Res.loop (fun i p => do let x ← d.get h i i; pure (p * x)) 1 (d.rows - 1) x

/-- 4×4 determinant, `/repo/cml/matrix/detail/determinant.tpp:47-78`. -/
def memDet4 [Mul K] [Sub K] [Add K] [Neg K] (d : MObj) (h : Heap K) : Res K := do
  let ⟨m00, m01, m02, m03, m10, m11, m12, m13, m20, m21, m22, m23, m30, m31, m32, m33⟩ ← memEls4 d h
  let m_22_33_23_32 := m22 * m33 - m23 * m32
  let m_23_30_20_33 := m23 * m30 - m20 * m33
  let m_20_31_21_30 := m20 * m31 - m21 * m30
  let m_21_32_22_31 := m21 * m32 - m22 * m31
  let m_23_31_21_33 := m23 * m31 - m21 * m33
  let m_20_32_22_30 := m20 * m32 - m22 * m30
  let d00 := m00 * (m11 * m_22_33_23_32 + m12 * m_23_31_21_33 + m13 * m_21_32_22_31)
  let d01 := m01 * (m10 * m_22_33_23_32 + m12 * m_23_30_20_33 + m13 * m_20_32_22_30)
  let d02 := m02 * (m10 * -m_23_31_21_33 + m11 * m_23_30_20_33 + m13 * m_20_31_21_30)
  let d03 := m03 * (m10 * m_21_32_22_31 + m11 * -m_20_32_22_30 + m12 * m_20_31_21_30)
  pure (d00 - d01 + d02 - d03)

/-- The part of the general determinant after the copy `A(M)` has been made: decomposition of the temporary `A`
(object `d`) and product of its diagonal, `/repo/cml/matrix/detail/determinant.tpp:86-97`, `120-127`; the memory
afterwards and the value. -/
def memDetLu [Zero K] [Sub K] [Mul K] [Div K] [IntCast K] [LinearOrder K] [Fabs K] (triv : Bool) (eps : K)
    (d : MObj) (h : Heap K) : Res (Heap K × K) := do
  let r ← memLuPivotInplace triv d eps h
  let p ← memDiagonal d r.heap
  pure (r.heap, (r.sign : K) * p)

/-- The outcome of a statement without the state after an exception. -/
def Out.res {σ : Type} : Out σ → Res σ
  | .ok s => .ok s
  | .throw e _ => .throw e
  | .ub u => .ub u

section
variable [Zero K] [One K] [Add K] [Sub K] [Mul K] [Div K] [Neg K] [LinearOrder K] [Fabs K]

/-- `determinant(x)` of a matrix variable with run-time dimensions, `/repo/cml/matrix/readable_matrix.tpp:79-85`,
`/repo/cml/matrix/detail/determinant.tpp:106-127`: the state afterwards and the value.  The temporary `A` is the
otherwise unused variable `t`, destroyed at the end.  Simplification: the temporary of a view is a dynamic
matrix, too (`/repo/cml/matrix/temporary.h:15-33`). -/
def mDeterminant [IntCast K] (triv : Bool) (eps : K) (s : State K) (x t : Nat) : Res (State K × K) := do
  let d ← s.mobj x
  memCheckSquare d
  match d.rows with
  | 2 => do let v ← memDet2 d s.heap; pure (s, v)
  | 3 => do let v ← memDet3 d s.heap; pure (s, v)
  | 4 => do let v ← memDet4 d s.heap; pure (s, v)
  | _ => do
    let s ← (mCopyNew triv d.colMajor d.colBasis s t (.var x)).res
    let a ← s.mobj t
    let r ← memDetLu triv eps a s.heap
    let s ← (mDestroy triv { s with heap := r.1 } t).res
    pure (s, r.2)

/-- `t = inverse(x)`, `/repo/cml/matrix/inverse.h:13-19`, for a matrix variable `x` with run-time dimensions: the
new matrix `t` (the returned temporary) starts as a copy and is inverted in place. -/
def mInverseNew (triv : Bool) (s : State K) (x t : Nat) : Out (State K) :=
  .withVal (s.mobj x) s fun d =>
    .withVal (memCheckSquare d) s fun _ =>
      (mCopyNew triv d.colMajor d.colBasis s t (.var x)).andThen fun s => mInverse triv s t

end

end DetMem

end CML
