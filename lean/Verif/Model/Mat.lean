import Verif.Model.Core
import Mathlib.Algebra.Order.Field.Basic

/-!
Matrices as used by the numerical algorithms (determinant, inverse, LU): a shape and the elements by
(row, column).  Every access is checked against the shape; an access outside is undefined behaviour.
How the elements are stored (layout, kind of storage) is the subject of the memory model
(`Heap.lean`); the layout theorems (C24, C25) say that only the (row, column) content matters.
Arithmetic is exact; dividing by zero is a distinct outcome.
-/

namespace CML

/-- A matrix value, `/repo/cml/matrix/matrix.h`. -/
structure Mat (K : Type) where
  rows : Nat
  cols : Nat
  el : Nat → Nat → K

namespace Mat
variable {K : Type}

/-- `M(i, j)`, `/repo/cml/matrix/readable_matrix.tpp:36-55`. -/
def get (M : Mat K) (i j : Nat) : Res K :=
  if i < M.rows ∧ j < M.cols then .ok (M.el i j) else .ub .oob

/-- The matrix with one element replaced. -/
def set (M : Mat K) (i j : Nat) (v : K) : Mat K :=
  { M with el := fun a b => if a = i ∧ b = j then v else M.el a b }

/-- `M(i, j) = v`, `/repo/cml/matrix/writable_matrix.tpp:53-90`. -/
def put (M : Mat K) (i j : Nat) (v : K) : Res (Mat K) :=
  if i < M.rows ∧ j < M.cols then .ok (M.set i j v) else .ub .oob

end Mat

/-- `a / b` in exact arithmetic. -/
def divR {K : Type} [Zero K] [Div K] [DecidableEq K] (a b : K) : Res K :=
  if b = 0 then .ub .divZero else .ok (a / b)

/-- `check_square(M)`, `/repo/cml/matrix/size_checking.tpp:351-375`: a compile-time assertion for
fixed-size matrices, otherwise an exception. -/
def checkSquare {K : Type} (fixed : Bool) (M : Mat K) : Res Unit :=
  Res.require (decide (M.rows = M.cols)) (if fixed then .staticAssert else .nonSquare)

section Lu
variable {K : Type} [Zero K] [Add K] [Sub K] [Mul K] [Div K] [DecidableEq K]

/-- `value_type sum(0); for(p = 0; p < k; ++p) sum += M(i, p) * M(p, j);`,
`/repo/cml/matrix/detail/lu.tpp:23-24`, `30-31`. -/
def luSum (M : Mat K) (i j k : Nat) : Res K :=
  Res.loop (fun p sum => do
    let a ← M.get i p
    let b ← M.get p j
    pure (sum + a * b)) 0 k 0

/-- One step of the upper triangle loop, `/repo/cml/matrix/detail/lu.tpp:22-26`. -/
def luUpperStep (k j : Nat) (M : Mat K) : Res (Mat K) := do
  let sum ← luSum M k j k
  let x ← M.get k j
  M.put k j (x - sum)

/-- One step of the lower triangle loop, `/repo/cml/matrix/detail/lu.tpp:29-33`. -/
def luLowerStep (k i : Nat) (M : Mat K) : Res (Mat K) := do
  let sum ← luSum M i k k
  let x ← M.get i k
  let d ← M.get k k
  let q ← divR (x - sum) d
  M.put i k q

/-- `lu_inplace(M)` (Doolittle), `/repo/cml/matrix/detail/lu.tpp:13-35`. -/
def luInplace (M : Mat K) : Res (Mat K) :=
  let N := M.rows
  Res.loop (fun k M => do
    let M ← Res.loop (luUpperStep k) k (N - k) M
    Res.loop (luLowerStep k) (k + 1) (N - (k + 1)) M) 0 N M

/-- `lu(M)`, `/repo/cml/matrix/lu.tpp:33-41`. -/
def lu (fixed : Bool) (M : Mat K) : Res (Mat K) := do
  checkSquare fixed M
  luInplace M

end Lu

/-- `fabs(x)` of an element (`value_type_trait_of_t<…>::fabs`, `/repo/cml/scalar/traits.h:24-235`). -/
class Fabs (K : Type) where
  fabs : K → K

/-- The absolute value of an ordered type. -/
instance {K : Type} [Lattice K] [AddGroup K] : Fabs K := ⟨fun x => |x|⟩

@[simp] theorem fabs_eq {K : Type} [Lattice K] [AddGroup K] (x : K) : Fabs.fabs x = |x| := rfl

section LuPivot
variable {K : Type} [Zero K] [Sub K] [Mul K] [Div K] [LinearOrder K] [Fabs K]

/-- Result of the pivoted decomposition, `lu_pivot_result`, `/repo/cml/matrix/lu.h:18-52`. -/
structure LuPivot (K : Type) where
  lu : Mat K
  order : Nat → Nat
  sign : Int

/-- Search of the pivot row, `/repo/cml/matrix/detail/lu.tpp:52-60`.  Note that `max` starts with
`M(k,k)`, not with its magnitude. -/
def pivotSearch (M : Mat K) (k : Nat) : Res (Nat × K) := do
  let m0 ← M.get k k
  Res.loop (fun i (r : Nat × K) => do
    let x ← M.get i k
    pure (if Fabs.fabs x > r.2 then (i, Fabs.fabs x) else r)) (k + 1) (M.rows - (k + 1)) (k, m0)

/-- `for(i = 0; i < N; ++i) std::swap(M(a, i), M(b, i))`,
`/repo/cml/matrix/detail/lu.tpp:69` and `/repo/cml/matrix/detail/inverse.h:192`. -/
def swapRows (M : Mat K) (a b : Nat) : Res (Mat K) :=
  Res.loop (fun j M => do
    let x ← M.get a j
    let y ← M.get b j
    let M ← M.put a j y
    M.put b j x) 0 M.rows M

/-- `std::swap(order[a], order[b])`, `/repo/cml/matrix/detail/lu.tpp:68`.  Simplification: `order`
has as many elements as the matrix has rows by construction (`/repo/cml/matrix/lu.h`), its indices
are not checked. -/
def swapOrder (o : Nat → Nat) (a b : Nat) : Nat → Nat :=
  fun i => if i = a then o b else if i = b then o a else o i

/-- `M(i,k) /= M(k,k); for(j = k+1; …) M(i,j) -= M(i,k) * M(k,j);`,
`/repo/cml/matrix/detail/lu.tpp:75-76`. -/
def schurRow (k i : Nat) (M : Mat K) : Res (Mat K) := do
  let x ← M.get i k
  let d ← M.get k k
  let q ← divR x d
  let M ← M.put i k q
  Res.loop (fun j M => do
    let x ← M.get i j
    let l ← M.get i k
    let u ← M.get k j
    M.put i j (x - l * u)) (k + 1) (M.rows - (k + 1)) M

/-- One iteration of the column loop, `/repo/cml/matrix/detail/lu.tpp:50-78`, with `eps` =
`value_traits::epsilon()`.  `Sum.inr` is the early `return 0`. -/
def luPivotStep (eps : K) (k : Nat) (r : LuPivot K) : Res (LuPivot K ⊕ LuPivot K) := do
  let p ← pivotSearch r.lu k
  if p.2 < eps then pure (.inr { r with sign := 0 })
  else do
    let r ← (if p.1 ≠ k then do
      let M ← swapRows r.lu k p.1
      pure { lu := M, order := swapOrder r.order k p.1, sign := -r.sign }
    else pure r)
    let M ← Res.loop (schurRow k) (k + 1) (r.lu.rows - (k + 1)) r.lu
    pure (.inl { r with lu := M })

/-- Body of the column loop: nothing happens after the early return. -/
def luPivotBody (eps : K) (k : Nat) : LuPivot K ⊕ LuPivot K → Res (LuPivot K ⊕ LuPivot K)
  | .inl r => luPivotStep eps k r
  | .inr r => .ok (.inr r)

/-- `lu_pivot_inplace(M, order)`, `/repo/cml/matrix/detail/lu.tpp:37-82`. -/
def luPivotInplace (eps : K) (M : Mat K) : Res (LuPivot K) := do
  let r ← Res.loop (luPivotBody eps) 0 (M.rows - 1) (.inl ⟨M, fun i => i, 1⟩)
  pure (r.elim id id)

/-- `lu_pivot(M)`, `/repo/cml/matrix/lu.tpp:15-31`. -/
def luPivot (fixed : Bool) (eps : K) (M : Mat K) : Res (LuPivot K) := do
  checkSquare fixed M
  luPivotInplace eps M

end LuPivot

section Det
variable {K : Type}

/-- 2×2 determinant, `/repo/cml/matrix/detail/determinant.tpp:27-34`. -/
def det2 [Mul K] [Sub K] (M : Mat K) : Res K := do
  let a ← M.get 0 0
  let d ← M.get 1 1
  let c ← M.get 1 0
  let b ← M.get 0 1
  pure (a * d - c * b)

/-- 3×3 determinant, `/repo/cml/matrix/detail/determinant.tpp:36-45`. -/
def det3 [Mul K] [Sub K] [Add K] (M : Mat K) : Res K := do
  let m00 ← M.get 0 0
  let m01 ← M.get 0 1
  let m02 ← M.get 0 2
  let m10 ← M.get 1 0
  let m11 ← M.get 1 1
  let m12 ← M.get 1 2
  let m20 ← M.get 2 0
  let m21 ← M.get 2 1
  let m22 ← M.get 2 2
  pure (m00 * (m11 * m22 - m12 * m21) + m01 * (m12 * m20 - m10 * m22)
    + m02 * (m10 * m21 - m11 * m20))

/-- The sixteen elements of a 4×4 matrix, read as in `/repo/cml/matrix/detail/determinant.tpp:53-75`
and `/repo/cml/matrix/detail/inverse.h:69-147`. -/
structure Els4 (K : Type) where
  (m00 m01 m02 m03 m10 m11 m12 m13 m20 m21 m22 m23 m30 m31 m32 m33 : K)

/-- Reading the elements of a 4×4 matrix. -/
def els4 (M : Mat K) : Res (Els4 K) := do
  let m00 ← M.get 0 0
  let m01 ← M.get 0 1
  let m02 ← M.get 0 2
  let m03 ← M.get 0 3
  let m10 ← M.get 1 0
  let m11 ← M.get 1 1
  let m12 ← M.get 1 2
  let m13 ← M.get 1 3
  let m20 ← M.get 2 0
  let m21 ← M.get 2 1
  let m22 ← M.get 2 2
  let m23 ← M.get 2 3
  let m30 ← M.get 3 0
  let m31 ← M.get 3 1
  let m32 ← M.get 3 2
  let m33 ← M.get 3 3
  pure ⟨m00, m01, m02, m03, m10, m11, m12, m13, m20, m21, m22, m23, m30, m31, m32, m33⟩

/-- 4×4 determinant, `/repo/cml/matrix/detail/determinant.tpp:47-78`. -/
def det4 [Mul K] [Sub K] [Add K] [Neg K] (M : Mat K) : Res K := do
  let ⟨m00, m01, m02, m03, m10, m11, m12, m13, m20, m21, m22, m23, m30, m31, m32, m33⟩ ← els4 M
  let m_22_33_23_32 := m22 * m33 - m23 * m32
  let m_23_30_20_33 := m23 * m30 - m20 * m33
  let m_20_31_21_30 := m20 * m31 - m21 * m30
  let m_21_32_22_31 := m21 * m32 - m22 * m31
  let m_23_31_21_33 := m23 * m31 - m21 * m33
  let m_20_32_22_30 := m20 * m32 - m22 * m30
  let d00 := m00 * (m11 * m_22_33_23_32 + m12 * m_23_31_21_33 + m13 * m_21_32_22_31)
  let d01 := m01 * (m10 * m_22_33_23_32 + m12 * m_23_30_20_33 + m13 * m_20_32_22_30)
  let d02 := m02 * (m10 * -m_23_31_21_33 + m11 * m_23_30_20_33 + m13 * m_20_31_21_30)
  let d03 := m03 * (m10 * m_21_32_22_31 + m11 * -m_20_32_22_30 + m12 * m_20_31_21_30)
  pure (d00 - d01 + d02 - d03)

/-- `diagonal_product(A)`, `/repo/cml/matrix/detail/determinant.tpp:16-23`. -/
def diagonalProduct [Mul K] (A : Mat K) : Res K := do
  let d ← A.get 0 0
  Res.loop (fun i d => do let x ← A.get i i; pure (d * x)) 1 (A.rows - 1) d

/-- General determinant by pivoted LU, `/repo/cml/matrix/detail/determinant.tpp:86-97` and
`120-127`. -/
def detLu [Zero K] [Sub K] [Mul K] [Div K] [IntCast K] [LinearOrder K] [Fabs K] (eps : K) (M : Mat K) : Res K := do
  let r ← luPivotInplace eps M
  let d ← diagonalProduct r.lu
  pure ((r.sign : K) * d)

/-- `M.determinant()` / `determinant(M)`, `/repo/cml/matrix/readable_matrix.tpp:78-85`,
`/repo/cml/matrix/determinant.tpp:13-19`, dispatch in `/repo/cml/matrix/detail/determinant.tpp:106-127`
(overload resolution on `int_c<N>` for fixed-size matrices selects the same functions). -/
def determinant [Zero K] [Add K] [Sub K] [Mul K] [Div K] [Neg K] [IntCast K] [LinearOrder K] [Fabs K]
    (fixed : Bool) (eps : K) (M : Mat K) : Res K := do
  checkSquare fixed M
  match M.rows with
  | 2 => det2 M
  | 3 => det3 M
  | 4 => det4 M
  | _ => detLu eps M

end Det

section Inv
variable {K : Type} [Zero K] [Add K] [Sub K] [Mul K] [Div K] [Neg K] [DecidableEq K]

/-- 2×2 inverse, `/repo/cml/matrix/detail/inverse.h:14-29`. -/
def inverse2 (M : Mat K) : Res (Mat K) := do
  let m00 ← M.get 0 0
  let m01 ← M.get 0 1
  let m10 ← M.get 1 0
  let m11 ← M.get 1 1
  let D := m00 * m11 - m01 * m10
  let a ← divR m11 D
  let M ← M.put 0 0 a
  let a ← divR (-m01) D
  let M ← M.put 0 1 a
  let a ← divR (-m10) D
  let M ← M.put 1 0 a
  let a ← divR m00 D
  M.put 1 1 a

/-- 3×3 inverse, `/repo/cml/matrix/detail/inverse.h:31-62`. -/
def inverse3 (M : Mat K) : Res (Mat K) := do
  let m00 ← M.get 0 0
  let m01 ← M.get 0 1
  let m02 ← M.get 0 2
  let m10 ← M.get 1 0
  let m11 ← M.get 1 1
  let m12 ← M.get 1 2
  let m20 ← M.get 2 0
  let m21 ← M.get 2 1
  let m22 ← M.get 2 2
  let m_00 := m11 * m22 - m12 * m21
  let m_01 := m12 * m20 - m10 * m22
  let m_02 := m10 * m21 - m11 * m20
  let m_10 := m02 * m21 - m01 * m22
  let m_11 := m00 * m22 - m02 * m20
  let m_12 := m01 * m20 - m00 * m21
  let m_20 := m01 * m12 - m02 * m11
  let m_21 := m02 * m10 - m00 * m12
  let m_22 := m00 * m11 - m01 * m10
  let D := m00 * m_00 + m01 * m_01 + m02 * m_02
  let a ← divR m_00 D
  let M ← M.put 0 0 a
  let a ← divR m_10 D
  let M ← M.put 0 1 a
  let a ← divR m_20 D
  let M ← M.put 0 2 a
  let a ← divR m_01 D
  let M ← M.put 1 0 a
  let a ← divR m_11 D
  let M ← M.put 1 1 a
  let a ← divR m_21 D
  let M ← M.put 1 2 a
  let a ← divR m_02 D
  let M ← M.put 2 0 a
  let a ← divR m_12 D
  let M ← M.put 2 1 a
  let a ← divR m_22 D
  M.put 2 2 a

/-- 4×4 inverse, `/repo/cml/matrix/detail/inverse.h:64-147`. -/
def inverse4 (M : Mat K) : Res (Mat K) := do
  let ⟨m00, m01, m02, m03, m10, m11, m12, m13, m20, m21, m22, m23, m30, m31, m32, m33⟩ ← els4 M
  let m_22_33_23_32 := m22 * m33 - m23 * m32
  let m_23_30_20_33 := m23 * m30 - m20 * m33
  let m_20_31_21_30 := m20 * m31 - m21 * m30
  let m_21_32_22_31 := m21 * m32 - m22 * m31
  let m_23_31_21_33 := m23 * m31 - m21 * m33
  let m_20_32_22_30 := m20 * m32 - m22 * m30
  let d00 := m11 * m_22_33_23_32 + m12 * m_23_31_21_33 + m13 * m_21_32_22_31
  let d01 := m10 * m_22_33_23_32 + m12 * m_23_30_20_33 + m13 * m_20_32_22_30
  let d02 := m10 * -m_23_31_21_33 + m11 * m_23_30_20_33 + m13 * m_20_31_21_30
  let d03 := m10 * m_21_32_22_31 + m11 * -m_20_32_22_30 + m12 * m_20_31_21_30
  let d10 := m01 * m_22_33_23_32 + m02 * m_23_31_21_33 + m03 * m_21_32_22_31
  let d11 := m00 * m_22_33_23_32 + m02 * m_23_30_20_33 + m03 * m_20_32_22_30
  let d12 := m00 * -m_23_31_21_33 + m01 * m_23_30_20_33 + m03 * m_20_31_21_30
  let d13 := m00 * m_21_32_22_31 + m01 * -m_20_32_22_30 + m02 * m_20_31_21_30
  let m_02_13_03_12 := m02 * m13 - m03 * m12
  let m_03_10_00_13 := m03 * m10 - m00 * m13
  let m_00_11_01_10 := m00 * m11 - m01 * m10
  let m_01_12_02_11 := m01 * m12 - m02 * m11
  let m_03_11_01_13 := m03 * m11 - m01 * m13
  let m_00_12_02_10 := m00 * m12 - m02 * m10
  let d20 := m31 * m_02_13_03_12 + m32 * m_03_11_01_13 + m33 * m_01_12_02_11
  let d21 := m30 * m_02_13_03_12 + m32 * m_03_10_00_13 + m33 * m_00_12_02_10
  let d22 := m30 * -m_03_11_01_13 + m31 * m_03_10_00_13 + m33 * m_00_11_01_10
  let d23 := m30 * m_01_12_02_11 + m31 * -m_00_12_02_10 + m32 * m_00_11_01_10
  let d30 := m21 * m_02_13_03_12 + m22 * m_03_11_01_13 + m23 * m_01_12_02_11
  let d31 := m20 * m_02_13_03_12 + m22 * m_03_10_00_13 + m23 * m_00_12_02_10
  let d32 := m20 * -m_03_11_01_13 + m21 * m_03_10_00_13 + m23 * m_00_11_01_10
  let d33 := m20 * m_01_12_02_11 + m21 * -m_00_12_02_10 + m22 * m_00_11_01_10
  let D := m00 * d00 - m01 * d01 + m02 * d02 - m03 * d03
  let a ← divR d00 D
  let M ← M.put 0 0 a
  let a ← divR (-d10) D
  let M ← M.put 0 1 a
  let a ← divR d20 D
  let M ← M.put 0 2 a
  let a ← divR (-d30) D
  let M ← M.put 0 3 a
  let a ← divR (-d01) D
  let M ← M.put 1 0 a
  let a ← divR d11 D
  let M ← M.put 1 1 a
  let a ← divR (-d21) D
  let M ← M.put 1 2 a
  let a ← divR d31 D
  let M ← M.put 1 3 a
  let a ← divR d02 D
  let M ← M.put 2 0 a
  let a ← divR (-d12) D
  let M ← M.put 2 1 a
  let a ← divR d22 D
  let M ← M.put 2 2 a
  let a ← divR (-d32) D
  let M ← M.put 2 3 a
  let a ← divR (-d03) D
  let M ← M.put 3 0 a
  let a ← divR d13 D
  let M ← M.put 3 1 a
  let a ← divR (-d23) D
  let M ← M.put 3 2 a
  let a ← divR d33 D
  M.put 3 3 a

end Inv

section InvPivot
variable {K : Type} [Zero K] [One K] [Add K] [Sub K] [Mul K] [Div K] [Neg K] [LinearOrder K] [Fabs K]

/-- Search of the pivot, `/repo/cml/matrix/detail/inverse.h:166-182`.  Note that `pivot` starts with
`|M(0,0)|` also when row/column 0 has been used already. -/
def invSearch (M : Mat K) (pivoted : Nat → Bool) : Res (Nat × Nat × K) := do
  let x ← M.get 0 0
  Res.loop (fun j r =>
    if pivoted j then pure r
    else Res.loop (fun k (r : Nat × Nat × K) =>
      if pivoted k then pure r
      else do
        let x ← M.get j k
        pure (if Fabs.fabs x > r.2.2 then (j, k, Fabs.fabs x) else r)) 0 M.rows r) 0 M.rows (0, 0, Fabs.fabs x)

/-- Pivot row, `/repo/cml/matrix/detail/inverse.h:195-200`. -/
def invPivotRow (M : Mat K) (col : Nat) : Res (Mat K) := do
  let pivot ← M.get col col
  let M ← M.put col col 1
  let s ← divR 1 pivot
  Res.loop (fun j M => do
    let x ← M.get col j
    M.put col j (x * s)) 0 M.rows M

/-- One of the other rows, `/repo/cml/matrix/detail/inverse.h:204-208`. -/
def invOtherRow (col j : Nat) (M : Mat K) : Res (Mat K) :=
  if j = col then pure M
  else do
    let x ← M.get j col
    let mult := -x
    let M ← M.put j col 0
    Res.loop (fun k M => do
      let x ← M.get j k
      let y ← M.get col k
      M.put j k (x + mult * y)) 0 M.rows M

/-- State of the pivoting inverse: matrix, chosen (row, col) so far (latest last), and markers. -/
structure InvState (K : Type) where
  m : Mat K
  idx : List (Nat × Nat)
  pivoted : Nat → Bool

/-- One iteration, `/repo/cml/matrix/detail/inverse.h:165-210`. -/
def invStep (s : InvState K) : Res (InvState K) := do
  let p ← invSearch s.m s.pivoted
  let row := p.1
  let col := p.2.1
  let M ← (if row ≠ col then swapRows s.m row col else pure s.m)
  let M ← invPivotRow M col
  let M ← Res.loop (invOtherRow col) 0 M.rows M
  pure ⟨M, s.idx ++ [(row, col)], fun i => if i = col then true else s.pivoted i⟩

/-- `for(j = 0; j < N; ++j) std::swap(M(j, a), M(j, b))`, `/repo/cml/matrix/detail/inverse.h:216-217`. -/
def swapCols (M : Mat K) (a b : Nat) : Res (Mat K) :=
  Res.loop (fun i M => do
    let x ← M.get i a
    let y ← M.get i b
    let M ← M.put i a y
    M.put i b x) 0 M.rows M

/-- The column swaps, `/repo/cml/matrix/detail/inverse.h:212-218`: in the order in which the row swaps
were made. -/
def undoSwaps (M : Mat K) : List (Nat × Nat) → Res (Mat K)
  | [] => pure M
  | (r, c) :: l => do
    let M ← (if r = c then pure M else swapCols M r c)
    undoSwaps M l

/-- `inverse_pivot(M, …)`, `/repo/cml/matrix/detail/inverse.h:155-219`. -/
def inversePivot (M : Mat K) : Res (Mat K) := do
  let s ← Res.loop (fun _ s => invStep s) 0 M.rows ⟨M, [], fun _ => false⟩
  undoSwaps s.m s.idx

/-- `M.inverse()` / `inverse(M)`, `/repo/cml/matrix/writable_matrix.tpp:227-234`,
`/repo/cml/matrix/inverse.h:12-19`, dispatch in `/repo/cml/matrix/detail/inverse.h:229-278`. -/
def inverse (fixed : Bool) (M : Mat K) : Res (Mat K) := do
  checkSquare fixed M
  match M.rows with
  | 2 => inverse2 M
  | 3 => inverse3 M
  | 4 => inverse4 M
  | _ => inversePivot M

end InvPivot

section Solve
variable {K : Type} [Zero K] [Add K] [Sub K] [Mul K] [Div K] [DecidableEq K]

/-- A vector argument of `lu_solve`: size and elements (`none`: never given a value); accesses are
checked. -/
structure Vec (K : Type) where
  size : Nat
  el : Nat → Option K

/-- `v[i]`, `/repo/cml/vector/readable_vector.tpp:38-53`. -/
def Vec.get (v : Vec K) (i : Nat) : Res K :=
  if i < v.size then
    match v.el i with
    | some x => .ok x
    | none => .ub .uninit
  else .ub .oob

/-- `v[i] = x`, `/repo/cml/vector/writable_vector.tpp:53-84`. -/
def Vec.put (v : Vec K) (i : Nat) (x : K) : Res (Vec K) :=
  if i < v.size then .ok { v with el := fun k => if k = i then some x else v.el k } else .ub .oob

/-- A new temporary of size `n` (`temporary_of_t<…> y; check_or_resize(y, b)`): its elements have no
value. -/
def Vec.fresh (n : Nat) : Vec K := ⟨n, fun _ => none⟩

/-- Forward substitution, `/repo/cml/matrix/lu.tpp:71-77`, `122-128` (`P` is the identity for the
former).  `N = b.size()`. -/
def forwardSubst (LU : Mat K) (P : Nat → Nat) (b : Vec K) : Res (Vec K) :=
  Res.loop (fun i y => do
    let sum ← Res.loop (fun j sum => do
      let l ← LU.get i j
      let z ← Vec.get y j
      pure (sum + l * z)) 0 i 0
    let v ← b.get (P i)
    Vec.put y i (v - sum)) 0 b.size (Vec.fresh b.size)

/-- Backward substitution, `/repo/cml/matrix/lu.tpp:82-86`, `133-137`:
`for(i = N - 1; i >= 0; --i)`; iteration number `t` works on `i = N - 1 - t`. -/
def backwardSubst (LU : Mat K) (y x : Vec K) (N : Nat) : Res (Vec K) :=
  Res.loop (fun t x => do
    let i := N - 1 - t
    let sum ← Res.loop (fun j sum => do
      let u ← LU.get i j
      let z ← Vec.get x j
      pure (sum + u * z)) (i + 1) (N - (i + 1)) 0
    let v ← y.get i
    let d ← LU.get i i
    let q ← divR (v - sum) d
    Vec.put x i q) 0 N x

/-- `lu_solve(LU, x, b)`, `/repo/cml/matrix/lu.tpp:54-89`.  `x` is the destination before the call.
It may be the same vector as `b`, because `b` is only read before `x` is written.  `fx`, `fb` say
whether the sizes of `LU` and `x` (`b`) are all known at compile time (`check_same_inner_size` is
then a compile-time assertion).  Simplification: `y` always has the size of `b` (`check_or_resize`
of a fixed-size `y` checks this again, but `x` and `b` were both compared with `LU` before). -/
def luSolve (fixed fx fb : Bool) (LU : Mat K) (x b : Vec K) : Res (Vec K) := do
  checkSquare fixed LU
  Res.require (decide (LU.cols = x.size)) (if fx then .staticAssert else .matIncompatible)
  Res.require (decide (LU.cols = b.size)) (if fb then .staticAssert else .matIncompatible)
  let y ← forwardSubst LU (fun i => i) b
  backwardSubst LU y x b.size

/-- `lu_solve(LU, b)`, `/repo/cml/matrix/lu.tpp:43-52`: the result is a new vector. -/
def luSolveNew (fixed fb : Bool) (LU : Mat K) (b : Vec K) : Res (Vec K) :=
  luSolve fixed fb fb LU (Vec.fresh b.size) b

/-- `lu_solve(lup, x, b)`, `/repo/cml/matrix/lu.tpp:102-140`.  Note that `lup.lu` is not checked to be
square. -/
def luPivotSolve (fx fb : Bool) (lup : LuPivot K) (x b : Vec K) : Res (Vec K) := do
  Res.require (decide (lup.lu.cols = x.size)) (if fx then .staticAssert else .matIncompatible)
  Res.require (decide (lup.lu.cols = b.size)) (if fb then .staticAssert else .matIncompatible)
  Res.require (decide (lup.sign ≠ 0)) .invalidArgument
  let y ← forwardSubst lup.lu lup.order b
  backwardSubst lup.lu y x b.size

/-- `lu_solve(lup, b)`, `/repo/cml/matrix/lu.tpp:91-100`. -/
def luPivotSolveNew (fb : Bool) (lup : LuPivot K) (b : Vec K) : Res (Vec K) :=
  luPivotSolve fb fb lup (Vec.fresh b.size) b

end Solve

end CML
