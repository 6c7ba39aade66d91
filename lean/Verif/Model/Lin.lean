import Verif.Model.Mat
import Verif.Model.Scalar
import Verif.Model.Orders
import Verif.Model.Promotion

/-!
Matrices as linear and affine transforms, `/repo/cml/mathlib/matrix/` and
`/repo/cml/mathlib/vector/transform.tpp`: everything that needs only the four basic operations.

Simplifications common to the whole file.  A matrix is its shape, its basis orientation and its
elements by (row, column); how elements are stored is the subject of the memory model (C24, C25).  A
vector argument is its size and its elements; all its elements have values, and it does not share
memory with the matrix that is written, except where a parameter says so (`LinSrc`).  The state of the
target after an exception is not modelled.  Lazily evaluated operands are evaluated at once.
-/

namespace CML

/-- `row_basis`, `col_basis`, `/repo/cml/common/basis_tags.h`.  Simplification: the matrices of this
file have one of these two (`any_basis` occurs only for expressions mixing both). -/
inductive Basis | row | col
  deriving DecidableEq, Repr

/-- A matrix with its basis orientation; `fixed`: is its size known at compile time?
`/repo/cml/matrix/matrix.h`. -/
structure BMat (K : Type) extends Mat K where
  basis : Basis
  fixed : Bool

/-- A vector argument: size known at compile time?, size and elements. -/
structure AVec (K : Type) where
  fixed : Bool
  size : Nat
  el : Nat → K

namespace AVec
variable {K : Type}

/-- `v[i]`, `/repo/cml/vector/readable_vector.tpp:33-54`. -/
def get (v : AVec K) (i : Nat) : Res K := if i < v.size then .ok (v.el i) else .ub .oob

/-- `v[i] = x`, `/repo/cml/vector/writable_vector.tpp:53-84`. -/
def put (v : AVec K) (i : Nat) (x : K) : Res (AVec K) :=
  if i < v.size then .ok { v with el := fun k => if k = i then x else v.el k } else .ub .oob

/-- `check_size(v, int_c<n>())`, `/repo/cml/vector/size_checking.tpp:73-98`. -/
def checkSize (v : AVec K) (n : Nat) : Res Unit :=
  Res.require (decide (v.size = n)) (if v.fixed then .staticAssert else .vecSize)

/-- `check_size_range(v, int_c<lo>(), int_c<hi>())`, `/repo/cml/vector/size_checking.tpp:100-126`. -/
def checkSizeRange (v : AVec K) (lo hi : Nat) : Res Unit :=
  Res.require (decide (lo ≤ v.size ∧ v.size ≤ hi)) (if v.fixed then .staticAssert else .vecRange)

/-- `check_minimum_size(v, int_c<n>())`, `/repo/cml/vector/size_checking.tpp:45-70`. -/
def checkMinimumSize (v : AVec K) (n : Nat) : Res Unit :=
  Res.require (decide (n ≤ v.size)) (if v.fixed then .staticAssert else .vecMinimum)

/-- `check_same_size(a, b)`, `/repo/cml/vector/size_checking.tpp:17-43`, `131-140`. -/
def checkSameSize (a b : AVec K) : Res Unit :=
  Res.require (decide (a.size = b.size))
    (if a.fixed && b.fixed then .staticAssert else .vecIncompatible)

/-- The vector with elements `a`, `b` (`result_type(a, b)`). -/
def mk2 (fixed : Bool) (a b : K) : AVec K := ⟨fixed, 2, fun i => if i = 0 then a else b⟩

/-- The vector with elements `a`, `b`, `c` (`result_type(a, b, c)`). -/
def mk3 (fixed : Bool) (a b c : K) : AVec K :=
  ⟨fixed, 3, fun i => if i = 0 then a else if i = 1 then b else c⟩

/-- `a + b`, `/repo/cml/vector/binary_ops.h`, `/repo/cml/vector/binary_node.tpp:14-58`. -/
def add [Add K] (a b : AVec K) : Res (AVec K) := do
  checkSameSize a b
  pure ⟨a.fixed || b.fixed, a.size, fun i => a.el i + b.el i⟩

/-- `a - b`, `/repo/cml/vector/binary_ops.h`, `/repo/cml/vector/binary_node.tpp:14-58`. -/
def sub [Sub K] (a b : AVec K) : Res (AVec K) := do
  checkSameSize a b
  pure ⟨a.fixed || b.fixed, a.size, fun i => a.el i - b.el i⟩

/-- `k * v`, `/repo/cml/vector/scalar_ops.h`. -/
def smul [Mul K] (k : K) (v : AVec K) : AVec K := { v with el := fun i => k * v.el i }

/-- `-v`, `/repo/cml/vector/unary_ops.h`. -/
def neg [Neg K] (v : AVec K) : AVec K := { v with el := fun i => -v.el i }

/-- `v / k`, `/repo/cml/vector/scalar_ops.h`. -/
def sdiv [Zero K] [Div K] [DecidableEq K] (v : AVec K) (k : K) : Res (AVec K) :=
  if k = 0 then (if v.size = 0 then .ok v else .ub .divZero)
  else .ok { v with el := fun i => v.el i / k }

/-- `dot(a, b)`, `/repo/cml/vector/dot.tpp:14-27`. -/
def dot [Add K] [Mul K] (a b : AVec K) : Res K := do
  a.checkMinimumSize 1
  b.checkMinimumSize 1
  checkSameSize a b
  let x ← a.get 0
  let y ← b.get 0
  Res.loop (fun i acc => do
    let x ← a.get i
    let y ← b.get i
    pure (acc + x * y)) 1 (a.size - 1) (x * y)

/-- `length_squared()`, `/repo/cml/vector/readable_vector.tpp:56-64`. -/
def lengthSquared [Add K] [Mul K] (a : AVec K) : Res K := do
  a.checkMinimumSize 1
  let x ← a.get 0
  Res.loop (fun i acc => do
    let x ← a.get i
    pure (acc + x * x)) 1 (a.size - 1) (x * x)

/-- `cross(a, b)`, `/repo/cml/vector/cross_node.tpp:15-59` (operands that are not moved from, see
C79). -/
def cross [Sub K] [Mul K] (a b : AVec K) : Res (AVec K) := do
  a.checkSize 3
  b.checkSize 3
  pure ⟨a.fixed || b.fixed, 3, fun i =>
    let i0 := (i + 1) % 3
    let i1 := (i + 2) % 3
    a.el i0 * b.el i1 - a.el i1 * b.el i0⟩

/-- `perp_dot(a, b)`, `/repo/cml/vector/perp_dot.tpp:14-23`. -/
def perpDot [Sub K] [Mul K] (a b : AVec K) : Res K := do
  a.checkSize 2
  b.checkSize 2
  let a0 ← a.get 0
  let b1 ← b.get 1
  let a1 ← a.get 1
  let b0 ← b.get 0
  pure (a0 * b1 - a1 * b0)

end AVec

namespace BMat
variable {K : Type}

/-- `basis_element(i, j)`, `/repo/cml/matrix/readable_matrix.tpp:58-63`, `99-113`. -/
def bget (m : BMat K) (i j : Nat) : Res K :=
  match m.basis with
  | .row => m.toMat.get i j
  | .col => m.toMat.get j i

/-- `set_basis_element(i, j, v)`, `/repo/cml/matrix/writable_matrix.tpp:93-100`, `487-501`. -/
def bput (m : BMat K) (i j : Nat) (v : K) : Res (BMat K) :=
  match m.basis with
  | .row => do let M ← m.toMat.put i j v; pure { m with toMat := M }
  | .col => do let M ← m.toMat.put j i v; pure { m with toMat := M }

/-- `check_minimum_size(m, int_c<r>(), int_c<c>())`, `/repo/cml/matrix/size_checking.tpp:320-349`. -/
def checkMinimumSize (m : BMat K) (r c : Nat) : Res Unit :=
  Res.require (decide (r ≤ m.rows ∧ c ≤ m.cols)) (if m.fixed then .staticAssert else .matMinimum)

/-- `check_size(m, int_c<r>(), int_c<c>())`, `/repo/cml/matrix/size_checking.tpp:291-318`. -/
def checkSize (m : BMat K) (r c : Nat) : Res Unit :=
  Res.require (decide (m.rows = r ∧ m.cols = c)) (if m.fixed then .staticAssert else .matSize)

/-- `check_linear_2D(m)`, `/repo/cml/mathlib/matrix/size_checking.tpp:117-122`. -/
def checkLinear2D (m : BMat K) : Res Unit := m.checkMinimumSize 2 2

/-- `check_linear_3D(m)`, `/repo/cml/mathlib/matrix/size_checking.tpp:124-129`. -/
def checkLinear3D (m : BMat K) : Res Unit := m.checkMinimumSize 3 3

/-- `check_affine_2D(m)`, `/repo/cml/mathlib/matrix/size_checking.tpp:20-34`, `92-98`. -/
def checkAffine2D (m : BMat K) : Res Unit :=
  match m.basis with
  | .row => m.checkMinimumSize 3 2
  | .col => m.checkMinimumSize 2 3

/-- `check_affine_3D(m)`, `/repo/cml/mathlib/matrix/size_checking.tpp:42-56`, `100-106`. -/
def checkAffine3D (m : BMat K) : Res Unit :=
  match m.basis with
  | .row => m.checkMinimumSize 4 3
  | .col => m.checkMinimumSize 3 4

/-- `check_affine(m)`, `/repo/cml/mathlib/matrix/size_checking.tpp:58-88`, `108-115`
(`affine_matrix_size_error` is represented by `matSize`). -/
def checkAffine (m : BMat K) : Res Unit :=
  let M := match m.basis with | .row => m.rows | .col => m.cols
  let N := match m.basis with | .row => m.cols | .col => m.rows
  Res.require (decide (M = N ∨ M = N + 1)) (if m.fixed then .staticAssert else .matSize)

/-- `m.identity()`, `/repo/cml/matrix/writable_matrix.tpp:169-176` (the loop is verified in the memory
model, `midentity_spec`). -/
def identity [Zero K] [One K] (m : BMat K) : BMat K :=
  { m with el := fun i j => if i = j then 1 else 0 }

/-- `m.zero()`, `/repo/cml/matrix/writable_matrix.tpp:151-158`. -/
def zero [Zero K] (m : BMat K) : BMat K := { m with el := fun _ _ => 0 }

end BMat

section Basic
variable {K : Type}

/-- `matrix_set_basis_vector_2D(m, i, v)`, `/repo/cml/mathlib/matrix/basis.tpp:17-28`. -/
def setBasisVector2D (m : BMat K) (i : Int) (v : AVec K) : Res (BMat K) := do
  m.checkLinear2D
  v.checkSize 2
  Res.require (decide (0 ≤ i ∧ i ≤ 1)) .invalidArgument
  let a ← v.get 0
  let m ← m.bput i.toNat 0 a
  let a ← v.get 1
  m.bput i.toNat 1 a

/-- `matrix_set_basis_vectors_2D(m, x, y)`, `/repo/cml/mathlib/matrix/basis.tpp:30-53`. -/
def setBasisVectors2D (m : BMat K) (x y : AVec K) : Res (BMat K) := do
  let m ← setBasisVector2D m 0 x
  setBasisVector2D m 1 y

/-- `matrix_set_transposed_basis_vector_2D(m, i, v)`, `/repo/cml/mathlib/matrix/basis.tpp:55-66`. -/
def setTransposedBasisVector2D (m : BMat K) (i : Int) (v : AVec K) : Res (BMat K) := do
  m.checkLinear2D
  v.checkSize 2
  Res.require (decide (0 ≤ i ∧ i ≤ 1)) .invalidArgument
  let a ← v.get 0
  let m ← m.bput 0 i.toNat a
  let a ← v.get 1
  m.bput 1 i.toNat a

/-- `matrix_set_transposed_basis_vectors_2D(m, x, y)`, `/repo/cml/mathlib/matrix/basis.tpp:68-91`. -/
def setTransposedBasisVectors2D (m : BMat K) (x y : AVec K) : Res (BMat K) := do
  let m ← setTransposedBasisVector2D m 0 x
  setTransposedBasisVector2D m 1 y

/-- `matrix_get_basis_vector_2D(m, i)`, `/repo/cml/mathlib/matrix/basis.tpp:93-118`. -/
def getBasisVector2D (m : BMat K) (i : Int) : Res (AVec K) := do
  m.checkLinear2D
  Res.require (decide (0 ≤ i ∧ i ≤ 1)) .invalidArgument
  let a ← m.bget i.toNat 0
  let b ← m.bget i.toNat 1
  pure (.mk2 true a b)

/-- `matrix_set_basis_vector(m, i, v)`, `/repo/cml/mathlib/matrix/basis.tpp:167-179`. -/
def setBasisVector (m : BMat K) (i : Int) (v : AVec K) : Res (BMat K) := do
  m.checkLinear3D
  v.checkSize 3
  Res.require (decide (0 ≤ i ∧ i ≤ 2)) .invalidArgument
  let a ← v.get 0
  let m ← m.bput i.toNat 0 a
  let a ← v.get 1
  let m ← m.bput i.toNat 1 a
  let a ← v.get 2
  m.bput i.toNat 2 a

/-- `matrix_set_basis_vectors(m, x, y, z)`, `/repo/cml/mathlib/matrix/basis.tpp:181-214`. -/
def setBasisVectors (m : BMat K) (x y z : AVec K) : Res (BMat K) := do
  let m ← setBasisVector m 0 x
  let m ← setBasisVector m 1 y
  setBasisVector m 2 z

/-- `matrix_set_transposed_basis_vector(m, i, v)`, `/repo/cml/mathlib/matrix/basis.tpp:216-228`. -/
def setTransposedBasisVector (m : BMat K) (i : Int) (v : AVec K) : Res (BMat K) := do
  m.checkLinear3D
  v.checkSize 3
  Res.require (decide (0 ≤ i ∧ i ≤ 2)) .invalidArgument
  let a ← v.get 0
  let m ← m.bput 0 i.toNat a
  let a ← v.get 1
  let m ← m.bput 1 i.toNat a
  let a ← v.get 2
  m.bput 2 i.toNat a

/-- `matrix_set_transposed_basis_vectors(m, x, y, z)`, `/repo/cml/mathlib/matrix/basis.tpp:230-263`. -/
def setTransposedBasisVectors (m : BMat K) (x y z : AVec K) : Res (BMat K) := do
  let m ← setTransposedBasisVector m 0 x
  let m ← setTransposedBasisVector m 1 y
  setTransposedBasisVector m 2 z

/-- `matrix_get_basis_vector(m, i)`, `/repo/cml/mathlib/matrix/basis.tpp:265-298`. -/
def getBasisVector (m : BMat K) (i : Int) : Res (AVec K) := do
  m.checkLinear3D
  Res.require (decide (0 ≤ i ∧ i ≤ 2)) .invalidArgument
  let a ← m.bget i.toNat 0
  let b ← m.bget i.toNat 1
  let c ← m.bget i.toNat 2
  pure (.mk3 true a b c)

/-- `matrix_get_basis_vector_nD(m, i)`, `/repo/cml/mathlib/matrix/basis.tpp:357-384`: row `i` of a
row-basis matrix, column `i` of a column-basis matrix, copied to a new vector.  Simplification: the
index is non-negative; the copy of an element outside of the matrix is undefined. -/
def getBasisVectorND (m : BMat K) (i : Nat) : Res (AVec K) :=
  match m.basis with
  | .row => if i < m.rows ∨ m.cols = 0 then .ok ⟨m.fixed, m.cols, fun j => m.el i j⟩ else .ub .oob
  | .col => if i < m.cols ∨ m.rows = 0 then .ok ⟨m.fixed, m.rows, fun j => m.el j i⟩ else .ub .oob

/-- `matrix_set_translation_2D(m, e0, e1)`, `/repo/cml/mathlib/matrix/translation.tpp:14-57`. -/
def setTranslation2D (m : BMat K) (e0 e1 : K) : Res (BMat K) := do
  m.checkAffine2D
  let m ← m.bput 2 0 e0
  m.bput 2 1 e1

/-- `matrix_set_translation_2D(m, v)`, `/repo/cml/mathlib/matrix/translation.tpp:59-67`. -/
def setTranslation2DV (m : BMat K) (v : AVec K) : Res (BMat K) := do
  v.checkSize 2
  m.checkAffine2D
  let e0 ← v.get 0
  let e1 ← v.get 1
  let m ← m.bput 2 0 e0
  m.bput 2 1 e1

/-- `matrix_get_translation_2D(m)`, `/repo/cml/mathlib/matrix/translation.tpp:69-93`. -/
def getTranslation2D (m : BMat K) : Res (AVec K) := do
  m.checkAffine2D
  let a ← m.bget 2 0
  let b ← m.bget 2 1
  pure (.mk2 true a b)

/-- `matrix_translation_2D(m, e0, e1)`, `/repo/cml/mathlib/matrix/translation.tpp:95-101`. -/
def translation2D [Zero K] [One K] (m : BMat K) (e0 e1 : K) : Res (BMat K) :=
  setTranslation2D m.identity e0 e1

/-- `matrix_translation_2D(m, v)`, `/repo/cml/mathlib/matrix/translation.tpp:103-109`. -/
def translation2DV [Zero K] [One K] (m : BMat K) (v : AVec K) : Res (BMat K) :=
  setTranslation2DV m.identity v

/-- `matrix_set_translation(m, e0, e1, e2)`, `/repo/cml/mathlib/matrix/translation.tpp:113-120`. -/
def setTranslation (m : BMat K) (e0 e1 e2 : K) : Res (BMat K) := do
  m.checkAffine3D
  let m ← m.bput 3 0 e0
  let m ← m.bput 3 1 e1
  m.bput 3 2 e2

/-- `matrix_set_translation(m, e0, e1)`, `/repo/cml/mathlib/matrix/translation.tpp:122-129`. -/
def setTranslationXY [Zero K] (m : BMat K) (e0 e1 : K) : Res (BMat K) :=
  setTranslation m e0 e1 0

/-- `matrix_set_translation(m, v)`, `/repo/cml/mathlib/matrix/translation.tpp:131-140`. -/
def setTranslationV [Zero K] (m : BMat K) (v : AVec K) : Res (BMat K) := do
  v.checkSizeRange 2 3
  m.checkAffine3D
  let e0 ← v.get 0
  let e1 ← v.get 1
  let e2 ← (if v.size = 3 then v.get 2 else .ok 0)
  let m ← m.bput 3 0 e0
  let m ← m.bput 3 1 e1
  m.bput 3 2 e2

/-- `matrix_get_translation(m)`, `/repo/cml/mathlib/matrix/translation.tpp:142-168`. -/
def getTranslation (m : BMat K) : Res (AVec K) := do
  m.checkAffine3D
  let a ← m.bget 3 0
  let b ← m.bget 3 1
  let c ← m.bget 3 2
  pure (.mk3 true a b c)

/-- `matrix_translation(m, e0, e1, e2)`, `/repo/cml/mathlib/matrix/translation.tpp:170-177`. -/
def translation [Zero K] [One K] (m : BMat K) (e0 e1 e2 : K) : Res (BMat K) :=
  setTranslation m.identity e0 e1 e2

/-- `matrix_translation(m, v)`, `/repo/cml/mathlib/matrix/translation.tpp:179-185`. -/
def translationV [Zero K] [One K] (m : BMat K) (v : AVec K) : Res (BMat K) :=
  setTranslationV m.identity v

/-- `matrix_translation(m, e0, e1)`, `/repo/cml/mathlib/matrix/translation.tpp:187-193`. -/
def translationXY [Zero K] [One K] (m : BMat K) (e0 e1 : K) : Res (BMat K) :=
  setTranslationXY m.identity e0 e1

/-- `matrix_scale_2D(m, e0, e1)`, `/repo/cml/mathlib/matrix/scale.tpp:17-28`. -/
def scale2D [Zero K] [One K] (m : BMat K) (e0 e1 : K) : Res (BMat K) := do
  m.checkAffine2D
  let m := m.identity
  let m ← m.bput 0 0 e0
  m.bput 1 1 e1

/-- `matrix_scale_2D(m, v)`, `/repo/cml/mathlib/matrix/scale.tpp:30-36`. -/
def scale2DV [Zero K] [One K] (m : BMat K) (v : AVec K) : Res (BMat K) := do
  v.checkSize 2
  let a ← v.get 0
  let b ← v.get 1
  scale2D m a b

/-- `matrix_uniform_scale_2D(m, e0)`, `/repo/cml/mathlib/matrix/scale.tpp:38-43`. -/
def uniformScale2D [Zero K] [One K] (m : BMat K) (e0 : K) : Res (BMat K) := scale2D m e0 e0

/-- `matrix_inverse_scale_2D(m, e0, e1)`, `/repo/cml/mathlib/matrix/scale.tpp:45-50`. -/
def inverseScale2D [Field K] [DecidableEq K] (m : BMat K) (e0 e1 : K) : Res (BMat K) := do
  let a ← divR 1 e0
  let b ← divR 1 e1
  scale2D m a b

/-- `matrix_inverse_scale_2D(m, v)`, `/repo/cml/mathlib/matrix/scale.tpp:52-59`. -/
def inverseScale2DV [Field K] [DecidableEq K] (m : BMat K) (v : AVec K) : Res (BMat K) := do
  v.checkSize 2
  let a ← v.get 0
  let b ← v.get 1
  inverseScale2D m a b

/-- `matrix_scale(m, e0, e1, e2)`, `/repo/cml/mathlib/matrix/scale.tpp:63-76`. -/
def scale3D [Zero K] [One K] (m : BMat K) (e0 e1 e2 : K) : Res (BMat K) := do
  m.checkAffine3D
  let m := m.identity
  let m ← m.bput 0 0 e0
  let m ← m.bput 1 1 e1
  m.bput 2 2 e2

/-- `matrix_scale(m, v)`, `/repo/cml/mathlib/matrix/scale.tpp:78-84`. -/
def scale3DV [Zero K] [One K] (m : BMat K) (v : AVec K) : Res (BMat K) := do
  v.checkSize 3
  let a ← v.get 0
  let b ← v.get 1
  let c ← v.get 2
  scale3D m a b c

/-- `matrix_uniform_scale(m, e0)`, `/repo/cml/mathlib/matrix/scale.tpp:86-91`. -/
def uniformScale3D [Zero K] [One K] (m : BMat K) (e0 : K) : Res (BMat K) := scale3D m e0 e0 e0

/-- `matrix_inverse_scale(m, e0, e1, e2)`, `/repo/cml/mathlib/matrix/scale.tpp:93-99`. -/
def inverseScale3D [Field K] [DecidableEq K] (m : BMat K) (e0 e1 e2 : K) : Res (BMat K) := do
  let a ← divR 1 e0
  let b ← divR 1 e1
  let c ← divR 1 e2
  scale3D m a b c

/-- `matrix_inverse_scale(m, v)`, `/repo/cml/mathlib/matrix/scale.tpp:101-107`. -/
def inverseScale3DV [Field K] [DecidableEq K] (m : BMat K) (v : AVec K) : Res (BMat K) := do
  v.checkSize 3
  let a ← v.get 0
  let b ← v.get 1
  let c ← v.get 2
  inverseScale3D m a b c

/-- `trace_2x2(m)`, `/repo/cml/mathlib/matrix/misc.tpp:15-21`. -/
def trace2 [Add K] (m : BMat K) : Res K := do
  m.checkLinear2D
  let a ← m.toMat.get 0 0
  let b ← m.toMat.get 1 1
  pure (a + b)

/-- `trace_3x3(m)`, `/repo/cml/mathlib/matrix/misc.tpp:23-29`. -/
def trace3 [Add K] (m : BMat K) : Res K := do
  m.checkLinear3D
  let a ← m.toMat.get 0 0
  let b ← m.toMat.get 1 1
  let c ← m.toMat.get 2 2
  pure (a + b + c)

/-- `matrix_skew_symmetric(m, v)`, `/repo/cml/mathlib/matrix/misc.tpp:31-46`. -/
def skewSymmetric [Zero K] [Neg K] (m : BMat K) (v : AVec K) : Res (BMat K) := do
  m.checkLinear3D
  v.checkSize 3
  let m := m.zero
  let v0 ← v.get 0
  let v1 ← v.get 1
  let v2 ← v.get 2
  let m ← m.bput 1 2 v0
  let m ← m.bput 2 1 (-v0)
  let m ← m.bput 2 0 v1
  let m ← m.bput 0 2 (-v1)
  let m ← m.bput 0 1 v2
  m.bput 1 0 (-v2)

/-- `matrix_skew_symmetric_2D(m, s)`, `/repo/cml/mathlib/matrix/misc.tpp:48-57`. -/
def skewSymmetric2D [Zero K] [Neg K] (m : BMat K) (s : K) : Res (BMat K) := do
  m.checkLinear2D
  let m := m.zero
  let m ← m.bput 0 1 s
  m.bput 1 0 (-s)

/-- The source of `matrix_linear_transform`: another matrix, or the target itself (C72). -/
inductive LinSrc (K : Type)
  | other (l : BMat K)
  | own

/-- The matrix a source denotes while the target is `m`. -/
def LinSrc.mat (m : BMat K) : LinSrc K → BMat K
  | .other l => l
  | .own => m

/-- `matrix_linear_transform(m, l)`, `/repo/cml/mathlib/matrix/transform.tpp:65-82`: the elements of
`l` are read while `m` is being written. -/
def linearTransform [Zero K] [One K] (m : BMat K) (l : LinSrc K) : Res (BMat K) := do
  m.checkLinear3D
  (l.mat m).checkLinear3D
  Res.loop (fun i m => Res.loop (fun j m => do
    let e ← (l.mat m).bget i j
    m.bput i j e) 0 3 m) 0 3 m.identity

/-- `matrix_affine_transform(m, linear, translation)`, `/repo/cml/mathlib/matrix/transform.tpp:101-109`. -/
def affineTransform [Zero K] [One K] (m : BMat K) (l : LinSrc K) (t : AVec K) : Res (BMat K) := do
  m.checkAffine3D
  let m ← linearTransform m l
  setTranslationV m t

/-- `matrix_invert_RT_only_2D(m)`, `/repo/cml/mathlib/matrix/invert.tpp:11-25`. -/
def invertRTOnly2D [Add K] [Mul K] [Neg K] (m : BMat K) : Res (BMat K) := do
  m.checkAffine2D
  let x ← getBasisVector2D m 0
  let y ← getBasisVector2D m 1
  let m ← setTransposedBasisVectors2D m x y
  let p ← getTranslation2D m
  let px ← p.dot x
  let py ← p.dot y
  setTranslation2D m (-px) (-py)

/-- `matrix_invert_RT_only(m)`, `/repo/cml/mathlib/matrix/invert.tpp:27-42`. -/
def invertRTOnly [Add K] [Mul K] [Neg K] (m : BMat K) : Res (BMat K) := do
  m.checkAffine3D
  let x ← getBasisVector m 0
  let y ← getBasisVector m 1
  let z ← getBasisVector m 2
  let m ← setTransposedBasisVectors m x y z
  let p ← getTranslation m
  let px ← p.dot x
  let py ← p.dot y
  let pz ← p.dot z
  setTranslation m (-px) (-py) (-pz)

/-- The number `M` of `matrix_invert_RT`, `/repo/cml/mathlib/matrix/invert.tpp:50-55`.
Simplification: for a 0×0 matrix C++ computes `-1` and then asks for basis vector `-1`; here the
subtraction is cut off at 0, and asking for basis vector 0 of a 0×0 matrix gives an empty vector.
The theorems are about matrices with at least one row and column. -/
def invertRTSize (m : BMat K) : Nat :=
  if m.cols < m.rows then m.cols else if m.rows < m.cols then m.rows else m.rows - 1

/-- `matrix_invert_RT(m)`, `/repo/cml/mathlib/matrix/invert.tpp:44-76`. -/
def invertRT [Add K] [Mul K] [Neg K] (m : BMat K) : Res (BMat K) := do
  m.checkAffine
  let M := invertRTSize m
  let m ← Res.loop (fun i m => Res.loop (fun j m => do
    let eij ← m.bget i j
    let eji ← m.bget j i
    let m ← m.bput i j eji
    m.bput j i eij) (i + 1) (M - (i + 1)) m) 0 M m
  let T ← getBasisVectorND m M
  Res.loop (fun i m => do
    let b ← m.bget 0 i
    let t ← T.get 0
    let e ← Res.loop (fun j e => do
      let b ← m.bget j i
      let t ← T.get j
      pure (e + b * t)) 1 (M - 1) (b * t)
    m.bput M i (-e)) 0 M m

/-- `sub1 * sub2` of two matrices, `/repo/cml/matrix/matrix_product.tpp:13-36` (as in the memory model,
C29).  Simplification: the basis of the result is given, and it is taken to be fixed-size iff both
operands are. -/
def bMatMul [Zero K] [Add K] [Mul K] (basis : Basis) (a b : BMat K) : Res (BMat K) := do
  Res.require (decide (a.cols = b.rows))
    (if a.fixed && b.fixed then .staticAssert else .matIncompatible)
  Res.loop (fun i M => Res.loop (fun j (M : BMat K) => do
    let x ← a.toMat.get i 0
    let y ← b.toMat.get 0 j
    let e ← Res.loop (fun k e => do
      let x ← a.toMat.get i k
      let y ← b.toMat.get k j
      pure (e + x * y)) 1 (a.cols - 1) (x * y)
    let N ← M.toMat.put i j e
    pure { M with toMat := N }) 0 b.cols M) 0 a.rows
    ⟨⟨a.rows, b.cols, fun _ _ => 0⟩, basis, a.fixed && b.fixed⟩

/-- `matrix_concat(m1, m2)`, `/repo/cml/mathlib/matrix/concat.tpp:14-48`. -/
def matrixConcat [Zero K] [Add K] [Mul K] (m1 m2 : BMat K) : Res (BMat K) := do
  Res.require (decide (m1.basis = m2.basis)) .staticAssert
  checkSquare m1.fixed m1.toMat
  checkSquare m2.fixed m2.toMat
  match m1.basis with
  | .row => bMatMul .row m1 m2
  | .col => bMatMul .col m2 m1

/-- `m * v`, `/repo/cml/matrix/vector_product.tpp:14-35`. -/
def bMatVec [Zero K] [Add K] [Mul K] (m : BMat K) (v : AVec K) : Res (AVec K) := do
  Res.require (decide (m.cols = v.size))
    (if m.fixed && v.fixed then .staticAssert else .matIncompatible)
  Res.loop (fun i (r : AVec K) => do
    let x ← m.toMat.get i 0
    let y ← v.get 0
    let e ← Res.loop (fun k e => do
      let x ← m.toMat.get i k
      let y ← v.get k
      pure (e + x * y)) 1 (v.size - 1) (x * y)
    r.put i e) 0 m.rows ⟨m.fixed && v.fixed, m.rows, fun _ => 0⟩

/-- `v * m`, `/repo/cml/matrix/vector_product.tpp:37-58`. -/
def bVecMat [Zero K] [Add K] [Mul K] (v : AVec K) (m : BMat K) : Res (AVec K) := do
  Res.require (decide (v.size = m.rows))
    (if m.fixed && v.fixed then .staticAssert else .matIncompatible)
  Res.loop (fun j (r : AVec K) => do
    let x ← v.get 0
    let y ← m.toMat.get 0 j
    let e ← Res.loop (fun k e => do
      let x ← v.get k
      let y ← m.toMat.get k j
      pure (e + x * y)) 1 (v.size - 1) (x * y)
    r.put j e) 0 m.cols ⟨m.fixed && v.fixed, m.cols, fun _ => 0⟩

/-- `transform_vector_2D(m, v)`, `/repo/cml/mathlib/vector/transform.tpp:38-50`. -/
def transformVector2D [Add K] [Mul K] (m : BMat K) (v : AVec K) : Res (AVec K) := do
  m.checkMinimumSize 2 2
  v.checkSize 2
  let v0 ← v.get 0
  let v1 ← v.get 1
  let b00 ← m.bget 0 0
  let b10 ← m.bget 1 0
  let b01 ← m.bget 0 1
  let b11 ← m.bget 1 1
  pure (.mk2 v.fixed (b00 * v0 + b10 * v1) (b01 * v0 + b11 * v1))

/-- `transform_point_2D(m, v)`, `/repo/cml/mathlib/vector/transform.tpp:52-67`. -/
def transformPoint2D [Add K] [Mul K] (m : BMat K) (v : AVec K) : Res (AVec K) := do
  m.checkAffine2D
  v.checkSize 2
  let v0 ← v.get 0
  let v1 ← v.get 1
  let b00 ← m.bget 0 0
  let b10 ← m.bget 1 0
  let b20 ← m.bget 2 0
  let b01 ← m.bget 0 1
  let b11 ← m.bget 1 1
  let b21 ← m.bget 2 1
  pure (.mk2 v.fixed (b00 * v0 + b10 * v1 + b20) (b01 * v0 + b11 * v1 + b21))

/-- One component of `transform_vector`, e.g. `/repo/cml/mathlib/vector/transform.tpp:81-82`. -/
def linComp [Add K] [Mul K] (m : BMat K) (v : AVec K) (j : Nat) : Res K := do
  let b0 ← m.bget 0 j
  let v0 ← v.get 0
  let b1 ← m.bget 1 j
  let v1 ← v.get 1
  let b2 ← m.bget 2 j
  let v2 ← v.get 2
  pure (b0 * v0 + b1 * v1 + b2 * v2)

/-- One component of `transform_point`, e.g. `/repo/cml/mathlib/vector/transform.tpp:101-102`. -/
def affComp [Add K] [Mul K] (m : BMat K) (v : AVec K) (j : Nat) : Res K := do
  let l ← linComp m v j
  let b3 ← m.bget 3 j
  pure (l + b3)

/-- `transform_vector(m, v)`, `/repo/cml/mathlib/vector/transform.tpp:71-89`. -/
def transformVector [Add K] [Mul K] (m : BMat K) (v : AVec K) : Res (AVec K) := do
  m.checkMinimumSize 3 3
  v.checkSize 3
  let a ← linComp m v 0
  let b ← linComp m v 1
  let c ← linComp m v 2
  pure (.mk3 v.fixed a b c)

/-- `transform_point(m, v)`, `/repo/cml/mathlib/vector/transform.tpp:91-109`. -/
def transformPoint [Add K] [Mul K] (m : BMat K) (v : AVec K) : Res (AVec K) := do
  m.checkAffine3D
  v.checkSize 3
  let a ← affComp m v 0
  let b ← affComp m v 1
  let c ← affComp m v 2
  pure (.mk3 v.fixed a b c)

/-- `transform_vector_4D(m, v)`, `/repo/cml/mathlib/vector/transform.tpp:16-32`, `111-121`. -/
def transformVector4D [Zero K] [Add K] [Mul K] (m : BMat K) (v : AVec K) : Res (AVec K) := do
  m.checkSize 4 4
  v.checkSize 4
  match m.basis with
  | .col => bMatVec m v
  | .row => bVecMat v m

/-- `transform_point_4D(m, v)`, `/repo/cml/mathlib/vector/transform.tpp:123-150`. -/
def transformPoint4D [Add K] [Mul K] [Zero K] [Div K] [DecidableEq K] (m : BMat K) (v : AVec K) :
    Res (AVec K) := do
  m.checkSize 4 4
  v.checkSize 3
  let h0 ← affComp m v 0
  let h1 ← affComp m v 1
  let h2 ← affComp m v 2
  let h3 ← affComp m v 3
  let a ← divR h0 h3
  let b ← divR h1 h3
  let c ← divR h2 h3
  pure (.mk3 v.fixed a b c)

/-- `left_handed`, `right_handed`, `/repo/cml/mathlib/constants.h` (enumeration `AxisOrientation`). -/
inductive Handed | left | right
  deriving DecidableEq, Repr

/-- `z_clip_neg_one`, `z_clip_zero`, `/repo/cml/mathlib/constants.h` (enumeration `ZClip`). -/
inductive ZClip | negOne | zero
  deriving DecidableEq, Repr

/-- `E(handedness == left_handed ? 1 : -1)`, `/repo/cml/mathlib/matrix/projection.tpp:37`, `115`. -/
def Handed.s [One K] [Neg K] : Handed → K
  | .left => 1
  | .right => -1

/-- `matrix_orthographic(m, left, right, bottom, top, n, f, handedness, z_clip)`,
`/repo/cml/mathlib/matrix/projection.tpp:21-51`. -/
def orthographic [Field K] [DecidableEq K] (m : BMat K) (left right bottom top n f : K) (h : Handed)
    (zc : ZClip) : Res (BMat K) := do
  m.checkMinimumSize 4 4
  let m := m.identity
  let invWidth ← divR 1 (right - left)
  let invHeight ← divR 1 (top - bottom)
  let invDepth ← divR 1 (f - n)
  let s : K := h.s
  let m ← (match zc with
    | .negOne => do
      let m ← m.bput 2 2 (s * 2 * invDepth)
      m.bput 3 2 (-(f + n) * invDepth)
    | .zero => do
      let m ← m.bput 2 2 (s * invDepth)
      m.bput 3 2 (-n * invDepth))
  let m ← m.bput 0 0 (2 * invWidth)
  let m ← m.bput 1 1 (2 * invHeight)
  let m ← m.bput 3 0 (-(right + left) * invWidth)
  m.bput 3 1 (-(top + bottom) * invHeight)

/-- `matrix_orthographic(m, width, height, n, f, handedness, z_clip)`,
`/repo/cml/mathlib/matrix/projection.tpp:69-78`. -/
def orthographicWH [Field K] [DecidableEq K] (m : BMat K) (width height n f : K) (h : Handed)
    (zc : ZClip) : Res (BMat K) := do
  let hw ← divR width 2
  let hh ← divR height 2
  orthographic m (-hw) hw (-hh) hh n f h zc

/-- `matrix_perspective(m, left, right, bottom, top, n, f, handedness, z_clip)`,
`/repo/cml/mathlib/matrix/projection.tpp:98-131`. -/
def perspective [Field K] [DecidableEq K] (m : BMat K) (left right bottom top n f : K) (h : Handed)
    (zc : ZClip) : Res (BMat K) := do
  m.checkMinimumSize 4 4
  let m := m.identity
  let invWidth ← divR 1 (right - left)
  let invHeight ← divR 1 (top - bottom)
  let invDepth ← divR 1 (f - n)
  let near2 := 2 * n
  let s : K := h.s
  let m ← (match zc with
    | .negOne => do
      let m ← m.bput 2 2 (s * (f + n) * invDepth)
      m.bput 3 2 (-2 * f * n * invDepth)
    | .zero => do
      let m ← m.bput 2 2 (s * f * invDepth)
      let b ← m.bget 2 2
      m.bput 3 2 (-s * n * b))
  let m ← m.bput 0 0 (near2 * invWidth)
  let m ← m.bput 1 1 (near2 * invHeight)
  let m ← m.bput 2 0 (-s * (right + left) * invWidth)
  let m ← m.bput 2 1 (-s * (top + bottom) * invHeight)
  let m ← m.bput 2 3 s
  m.bput 3 3 0

/-- `matrix_perspective(m, width, height, n, f, handedness, z_clip)`,
`/repo/cml/mathlib/matrix/projection.tpp:149-158`. -/
def perspectiveWH [Field K] [DecidableEq K] (m : BMat K) (width height n f : K) (h : Handed)
    (zc : ZClip) : Res (BMat K) := do
  let hw ← divR width 2
  let hh ← divR height 2
  perspective m (-hw) hw (-hh) hh n f h zc

/-- The four coefficients of a plane. -/
structure Plane (K : Type) where
  (a b c d : K)
  deriving DecidableEq

/-- A plane from the columns of basis elements, combining element `(r, 3)` with `op` and element
`(r, j)`, `/repo/cml/mathlib/frustum.tpp:37-70`. -/
def planeOf (m : BMat K) (op : K → K → K) (j : Nat) : Res (Plane K) := do
  let a ← m.bget 0 3
  let a' ← m.bget 0 j
  let b ← m.bget 1 3
  let b' ← m.bget 1 j
  let c ← m.bget 2 3
  let c' ← m.bget 2 j
  let d ← m.bget 3 3
  let d' ← m.bget 3 j
  pure ⟨op a a', op b b', op c c', op d d'⟩

/-- `extract_near_frustum_plane(m, plane, z_clip)`, `/repo/cml/mathlib/frustum.tpp:84-104`. -/
def nearPlane [Add K] (m : BMat K) (zc : ZClip) : Res (Plane K) := do
  m.checkMinimumSize 4 4
  match zc with
  | .negOne => planeOf m (fun x y => x + y) 2
  | .zero => do
    let a ← m.bget 0 2
    let b ← m.bget 1 2
    let c ← m.bget 2 2
    let d ← m.bget 3 2
    pure ⟨a, b, c, d⟩

/-- The six planes of `extract_frustum_planes(m, planes, z_clip, false)`,
`/repo/cml/mathlib/frustum.tpp:25-70`, in the order left, right, bottom, top, near, far. -/
def frustumPlanes [Add K] [Sub K] (m : BMat K) (zc : ZClip) : Res (List (Plane K)) := do
  let near ← nearPlane m zc
  let left ← planeOf m (fun x y => x + y) 0
  let right ← planeOf m (fun x y => x - y) 0
  let bottom ← planeOf m (fun x y => x + y) 1
  let top ← planeOf m (fun x y => x - y) 1
  let far ← planeOf m (fun x y => x - y) 2
  pure [left, right, bottom, top, near, far]

/-- `extract_frustum_planes(modelview, projection, planes, z_clip, false)`,
`/repo/cml/mathlib/frustum.tpp:15-23`. -/
def frustumPlanes2 [Zero K] [Add K] [Sub K] [Mul K] (modelview projection : BMat K) (zc : ZClip) :
    Res (List (Plane K)) := do
  let m ← matrixConcat modelview projection
  frustumPlanes m zc

/-- `project_to_vector(u, v)`, `/repo/cml/mathlib/vector/misc.tpp:14-21`. -/
def projectToVector [Field K] [DecidableEq K] (u v : AVec K) : Res (AVec K) := do
  let d ← u.dot v
  let l ← v.lengthSquared
  let q ← divR d l
  pure (v.smul q)

/-- `project_to_hplane(v, n)`, `/repo/cml/mathlib/vector/misc.tpp:23-30`. -/
def projectToHplane [Field K] (v n : AVec K) : Res (AVec K) := do
  let d ← v.dot n
  v.sub (n.smul d)

/-- `perp(v)`, `/repo/cml/mathlib/vector/misc.tpp:32-42`. -/
def perp [Neg K] (v : AVec K) : Res (AVec K) := do
  v.checkSize 2
  let b ← v.get 1
  let a ← v.get 0
  pure (.mk2 v.fixed (-b) a)

/-- `manhattan_distance(v1, v2)`, `/repo/cml/mathlib/vector/misc.tpp:44-60`. -/
def manhattanDistance [Field K] [LinearOrder K] (v1 v2 : AVec K) : Res K := do
  v1.checkMinimumSize 1
  v2.checkMinimumSize 1
  AVec.checkSameSize v1 v2
  let x ← v1.get 0
  let y ← v2.get 0
  Res.loop (fun i acc => do
    let x ← v1.get i
    let y ← v2.get i
    pure (acc + |x - y|)) 1 (v1.size - 1) |x - y|

end Basic

end CML
