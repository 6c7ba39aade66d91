import Verif.Model.Basis
import Verif.Props.Builders
import Mathlib.LinearAlgebra.Matrix.RowCol

/-!
C89: setting and reading the basis vectors of a matrix.  Basis vector `i` is column `i` of the linear
part, in either orientation; the transposed functions use row `i`.
-/

namespace CML
open BMat Matrix

section
variable {K : Type}

/-- Nothing outside of the leading `n` x `n` block has changed. -/
def BMat.SameOutside (n : Nat) (m m' : BMat K) : Prop :=
  ∀ i j, ¬(i < n ∧ j < n) → m'.el i j = m.el i j

private theorem sameOutside_of {n : Nat} {m m' : BMat K} (hb : m'.basis = m.basis)
    (h : ∀ i j, ¬(i < n ∧ j < n) → m'.bel i j = m.bel i j) : m.SameOutside n m' := by
  intro i j hij
  unfold bel at h
  rw [hb] at h
  cases hm : m.basis <;> simp only [hm] at h
  · exact h i j hij
  · exact h j i (by omega)

/-! ### Setting one vector -/

/-- C89: `matrix_set_basis_vector` replaces column `i` of the linear part and nothing else. -/
theorem setBasisVector_spec {m : BMat K} (h : m.HasLin 3) (i : Fin 3) {v : AVec K} {x : Fin 3 → K}
    (hv : v.Is 3 x) :
    ∃ m', setBasisVector m (i : Nat) v = .ok m' ∧ m.SameShape m' ∧
      linOf m' 3 = (linOf m 3).updateCol i x ∧ m.SameOutside 3 m' := by
  have hb := (hasLin_iff m 3).1 h
  obtain ⟨hs, rfl⟩ := hv
  have hi := i.isLt
  have h0 : (0 : Int) ≤ (i : Nat) ∧ ((i : Nat) : Int) ≤ 2 := by omega
  simp only [setBasisVector, checkLinear3D_ok h, AVec.checkSize_ok hs, Res.require, decide_eq_true h0,
    if_true, Int.toNat_natCast]
  lin_run [Res.ok_bind]
  refine ⟨⟨by simp, by simp, by simp, by simp⟩, ?_, sameOutside_of (by simp) ?_⟩
  · ext r c
    rw [linOf_apply, updateCol_apply, linOf_apply]
    fin_cases i <;> fin_cases r <;> fin_cases c <;> simp [bel_bset, AVec.vec]
  · intro p q hpq
    simp only [bel_bset]
    repeat rw [if_neg (by omega)]

/-- C89: `matrix_set_transposed_basis_vector` replaces row `i` of the linear part and nothing else. -/
theorem setTransposedBasisVector_spec {m : BMat K} (h : m.HasLin 3) (i : Fin 3) {v : AVec K}
    {x : Fin 3 → K} (hv : v.Is 3 x) :
    ∃ m', setTransposedBasisVector m (i : Nat) v = .ok m' ∧ m.SameShape m' ∧
      linOf m' 3 = (linOf m 3).updateRow i x ∧ m.SameOutside 3 m' := by
  have hb := (hasLin_iff m 3).1 h
  obtain ⟨hs, rfl⟩ := hv
  have hi := i.isLt
  have h0 : (0 : Int) ≤ (i : Nat) ∧ ((i : Nat) : Int) ≤ 2 := by omega
  simp only [setTransposedBasisVector, checkLinear3D_ok h, AVec.checkSize_ok hs, Res.require,
    decide_eq_true h0, if_true, Int.toNat_natCast]
  lin_run [Res.ok_bind]
  refine ⟨⟨by simp, by simp, by simp, by simp⟩, ?_, sameOutside_of (by simp) ?_⟩
  · ext r c
    rw [linOf_apply, updateRow_apply, linOf_apply]
    fin_cases i <;> fin_cases r <;> fin_cases c <;> simp [bel_bset, AVec.vec]
  · intro p q hpq
    simp only [bel_bset]
    repeat rw [if_neg (by omega)]

/-- C89: the two-dimensional setters. -/
theorem setBasisVector2D_spec {m : BMat K} (h : m.HasLin 2) (i : Fin 2) {v : AVec K} {x : Fin 2 → K}
    (hv : v.Is 2 x) :
    (∃ m', setBasisVector2D m (i : Nat) v = .ok m' ∧ m.SameShape m' ∧
      linOf m' 2 = (linOf m 2).updateCol i x ∧ m.SameOutside 2 m') ∧
    (∃ m', setTransposedBasisVector2D m (i : Nat) v = .ok m' ∧ m.SameShape m' ∧
      linOf m' 2 = (linOf m 2).updateRow i x ∧ m.SameOutside 2 m') := by
  have hb := (hasLin_iff m 2).1 h
  obtain ⟨hs, rfl⟩ := hv
  have hi := i.isLt
  have h0 : (0 : Int) ≤ (i : Nat) ∧ ((i : Nat) : Int) ≤ 1 := by omega
  simp only [setBasisVector2D, setTransposedBasisVector2D, checkLinear2D_ok h, AVec.checkSize_ok hs,
    Res.require, decide_eq_true h0, if_true, Int.toNat_natCast]
  lin_run [Res.ok_bind]
  refine ⟨⟨⟨by simp, by simp, by simp, by simp⟩, ?_, sameOutside_of (by simp) ?_⟩,
    ⟨by simp, by simp, by simp, by simp⟩, ?_, sameOutside_of (by simp) ?_⟩
  · ext r c
    rw [linOf_apply, updateCol_apply, linOf_apply]
    fin_cases i <;> fin_cases r <;> fin_cases c <;> simp [bel_bset, AVec.vec]
  · intro p q hpq
    simp only [bel_bset]
    repeat rw [if_neg (by omega)]
  · ext r c
    rw [linOf_apply, updateRow_apply, linOf_apply]
    fin_cases i <;> fin_cases r <;> fin_cases c <;> simp [bel_bset, AVec.vec]
  · intro p q hpq
    simp only [bel_bset]
    repeat rw [if_neg (by omega)]

/-! ### Setting all vectors -/

private theorem SameOutside.trans {n : Nat} {a b c : BMat K} (h : a.SameOutside n b)
    (h' : b.SameOutside n c) : a.SameOutside n c := fun i j hij => (h' i j hij).trans (h i j hij)

/-- C89: `matrix_set_basis_vectors` makes the three vectors the columns of the linear part. -/
theorem setBasisVectors_spec {m : BMat K} (h : m.HasLin 3) {X Y Z : AVec K} {x y z : Fin 3 → K}
    (hx : X.Is 3 x) (hy : Y.Is 3 y) (hz : Z.Is 3 z) :
    ∃ m', setBasisVectors m X Y Z = .ok m' ∧ m.SameShape m' ∧
      linOf m' 3 = Matrix.of (fun r c => ![x, y, z] c r) ∧ m.SameOutside 3 m' := by
  obtain ⟨m1, a1, a2, a3, a4⟩ := setBasisVector_spec h 0 hx
  obtain ⟨m2, b1, b2, b3, b4⟩ := setBasisVector_spec (a2.hasLin h) 1 hy
  obtain ⟨m3, c1, c2, c3, c4⟩ := setBasisVector_spec ((a2.trans b2).hasLin h) 2 hz
  refine ⟨m3, ?_, (a2.trans b2).trans c2, ?_, SameOutside.trans (SameOutside.trans a4 b4) c4⟩
  · simp at a1 b1 c1
    rw [setBasisVectors, a1, Res.ok_bind, b1, Res.ok_bind, c1]
  · rw [c3, b3, a3]
    ext r c
    fin_cases c <;> simp [updateCol_apply]

/-- C89: `matrix_set_transposed_basis_vectors` makes the three vectors the rows of the linear part. -/
theorem setTransposedBasisVectors_spec {m : BMat K} (h : m.HasLin 3) {X Y Z : AVec K}
    {x y z : Fin 3 → K} (hx : X.Is 3 x) (hy : Y.Is 3 y) (hz : Z.Is 3 z) :
    ∃ m', setTransposedBasisVectors m X Y Z = .ok m' ∧ m.SameShape m' ∧
      linOf m' 3 = Matrix.of ![x, y, z] ∧ m.SameOutside 3 m' := by
  obtain ⟨m1, a1, a2, a3, a4⟩ := setTransposedBasisVector_spec h 0 hx
  obtain ⟨m2, b1, b2, b3, b4⟩ := setTransposedBasisVector_spec (a2.hasLin h) 1 hy
  obtain ⟨m3, c1, c2, c3, c4⟩ := setTransposedBasisVector_spec ((a2.trans b2).hasLin h) 2 hz
  refine ⟨m3, ?_, (a2.trans b2).trans c2, ?_, SameOutside.trans (SameOutside.trans a4 b4) c4⟩
  · simp at a1 b1 c1
    rw [setTransposedBasisVectors, a1, Res.ok_bind, b1, Res.ok_bind, c1]
  · rw [c3, b3, a3]
    ext r c
    fin_cases r <;> simp [updateRow_apply]

/-- C89: the two-dimensional versions. -/
theorem setBasisVectors2D_spec {m : BMat K} (h : m.HasLin 2) {X Y : AVec K} {x y : Fin 2 → K}
    (hx : X.Is 2 x) (hy : Y.Is 2 y) :
    (∃ m', setBasisVectors2D m X Y = .ok m' ∧ m.SameShape m' ∧
      linOf m' 2 = Matrix.of (fun r c => ![x, y] c r) ∧ m.SameOutside 2 m') ∧
    (∃ m', setTransposedBasisVectors2D m X Y = .ok m' ∧ m.SameShape m' ∧
      linOf m' 2 = Matrix.of ![x, y] ∧ m.SameOutside 2 m') := by
  obtain ⟨⟨m1, a1, a2, a3, a4⟩, m1', a1', a2', a3', a4'⟩ := setBasisVector2D_spec h 0 hx
  obtain ⟨m2, b1, b2, b3, b4⟩ := (setBasisVector2D_spec (a2.hasLin h) 1 hy).1
  obtain ⟨m2', b1', b2', b3', b4'⟩ := (setBasisVector2D_spec (a2'.hasLin h) 1 hy).2
  simp at a1 b1 a1' b1'
  refine ⟨⟨m2, ?_, a2.trans b2, ?_, SameOutside.trans a4 b4⟩,
    ⟨m2', ?_, a2'.trans b2', ?_, SameOutside.trans a4' b4'⟩⟩
  · rw [setBasisVectors2D, a1, Res.ok_bind, b1]
  · rw [b3, a3]
    ext r c
    fin_cases c <;> simp
  · rw [setTransposedBasisVectors2D, a1', Res.ok_bind, b1']
  · rw [b3', a3']
    ext r c
    fin_cases r <;> simp [updateRow_apply]

/-! ### Reading -/

/-- C89: `matrix_get_basis_vector` returns column `i`, the transposed version row `i` of the linear
part. -/
theorem getBasisVector_spec {m : BMat K} (h : m.HasLin 3) (i : Fin 3) :
    (∃ v, getBasisVector m (i : Nat) = .ok v ∧ v.Is 3 fun r => linOf m 3 r i) ∧
    (∃ v, getTransposedBasisVector m (i : Nat) = .ok v ∧ v.Is 3 fun c => linOf m 3 i c) := by
  have hb := (hasLin_iff m 3).1 h
  have hi := i.isLt
  have h0 : (0 : Int) ≤ (i : Nat) ∧ ((i : Nat) : Int) ≤ 2 := by omega
  simp only [getBasisVector, getTransposedBasisVector, checkLinear3D_ok h, Res.require,
    decide_eq_true h0, if_true, Int.toNat_natCast]
  lin_run [Res.ok_bind]
  constructor <;> refine ⟨rfl, ?_⟩ <;> funext r <;> rw [linOf_apply] <;> fin_cases r <;> rfl

/-- C89: the two-dimensional versions. -/
theorem getBasisVector2D_spec {m : BMat K} (h : m.HasLin 2) (i : Fin 2) :
    (∃ v, getBasisVector2D m (i : Nat) = .ok v ∧ v.Is 2 fun r => linOf m 2 r i) ∧
    (∃ v, getTransposedBasisVector2D m (i : Nat) = .ok v ∧ v.Is 2 fun c => linOf m 2 i c) := by
  have hb := (hasLin_iff m 2).1 h
  have hi := i.isLt
  have h0 : (0 : Int) ≤ (i : Nat) ∧ ((i : Nat) : Int) ≤ 1 := by omega
  simp only [getBasisVector2D, getTransposedBasisVector2D, checkLinear2D_ok h, Res.require,
    decide_eq_true h0, if_true, Int.toNat_natCast]
  lin_run [Res.ok_bind]
  constructor <;> refine ⟨rfl, ?_⟩ <;> funext r <;> rw [linOf_apply] <;> fin_cases r <;> rfl

/-- C89: reading all vectors. -/
theorem getBasisVectors_spec {m : BMat K} :
    (m.HasLin 3 → ∃ x y z, getBasisVectors m = .ok (x, y, z) ∧ (x.Is 3 fun r => linOf m 3 r 0) ∧
      (y.Is 3 fun r => linOf m 3 r 1) ∧ (z.Is 3 fun r => linOf m 3 r 2)) ∧
    (m.HasLin 3 → ∃ x y z, getTransposedBasisVectors m = .ok (x, y, z) ∧ (x.Is 3 fun c => linOf m 3 0 c) ∧
      (y.Is 3 fun c => linOf m 3 1 c) ∧ (z.Is 3 fun c => linOf m 3 2 c)) ∧
    (m.HasLin 2 → ∃ x y, getBasisVectors2D m = .ok (x, y) ∧ (x.Is 2 fun r => linOf m 2 r 0) ∧
      (y.Is 2 fun r => linOf m 2 r 1)) ∧
    (m.HasLin 2 → ∃ x y, getTransposedBasisVectors2D m = .ok (x, y) ∧ (x.Is 2 fun c => linOf m 2 0 c) ∧
      (y.Is 2 fun c => linOf m 2 1 c)) := by
  refine ⟨fun h => ?_, fun h => ?_, fun h => ?_, fun h => ?_⟩
  · obtain ⟨x, a1, a2⟩ := (getBasisVector_spec h 0).1
    obtain ⟨y, b1, b2⟩ := (getBasisVector_spec h 1).1
    obtain ⟨z, c1, c2⟩ := (getBasisVector_spec h 2).1
    simp at a1 b1 c1
    exact ⟨x, y, z, by rw [getBasisVectors, a1, Res.ok_bind, b1, Res.ok_bind, c1]; rfl, a2, b2, c2⟩
  · obtain ⟨x, a1, a2⟩ := (getBasisVector_spec h 0).2
    obtain ⟨y, b1, b2⟩ := (getBasisVector_spec h 1).2
    obtain ⟨z, c1, c2⟩ := (getBasisVector_spec h 2).2
    simp at a1 b1 c1
    exact ⟨x, y, z, by rw [getTransposedBasisVectors, a1, Res.ok_bind, b1, Res.ok_bind, c1]; rfl, a2, b2, c2⟩
  · obtain ⟨x, a1, a2⟩ := (getBasisVector2D_spec h 0).1
    obtain ⟨y, b1, b2⟩ := (getBasisVector2D_spec h 1).1
    simp at a1 b1
    exact ⟨x, y, by rw [getBasisVectors2D, a1, Res.ok_bind, b1]; rfl, a2, b2⟩
  · obtain ⟨x, a1, a2⟩ := (getBasisVector2D_spec h 0).2
    obtain ⟨y, b1, b2⟩ := (getBasisVector2D_spec h 1).2
    simp at a1 b1
    exact ⟨x, y, by rw [getTransposedBasisVectors2D, a1, Res.ok_bind, b1]; rfl, a2, b2⟩

/-- C89: `matrix_get_basis_vector_nD` copies the whole row (row basis) or column (column basis). -/
theorem getBasisVectorND_spec (m : BMat K) (i : Nat) :
    (m.basis = .row → i < m.rows → ∃ v, getBasisVectorND m i = .ok v ∧ v.Is m.cols fun j => m.el i j) ∧
    (m.basis = .col → i < m.cols → ∃ v, getBasisVectorND m i = .ok v ∧ v.Is m.rows fun j => m.el j i) := by
  constructor <;> intro hb hi <;> simp only [getBasisVectorND, hb] <;> rw [if_pos (.inl hi)] <;>
    exact ⟨_, rfl, rfl, rfl⟩

/-! ### Errors -/

/-- C89: an index outside of `0..2` throws, as does a matrix that is too small or a vector that does not
have three elements. -/
theorem basisVector_throws (m : BMat K) (i : Int) (v : AVec K) :
    (¬m.HasLin 3 → setBasisVector m i v = .throw m.minErr ∧ setTransposedBasisVector m i v = .throw m.minErr ∧
      getBasisVector m i = .throw m.minErr ∧ getTransposedBasisVector m i = .throw m.minErr) ∧
    (m.HasLin 3 → v.size ≠ 3 → setBasisVector m i v = .throw v.sizeErr ∧
      setTransposedBasisVector m i v = .throw v.sizeErr) ∧
    (m.HasLin 3 → (i < 0 ∨ 2 < i) →
      (v.size = 3 → setBasisVector m i v = .throw .invalidArgument ∧
        setTransposedBasisVector m i v = .throw .invalidArgument) ∧
      getBasisVector m i = .throw .invalidArgument ∧
      getTransposedBasisVector m i = .throw .invalidArgument) := by
  refine ⟨fun h => ?_, fun h hv => ?_, fun h hi => ?_⟩
  · simp only [setBasisVector, setTransposedBasisVector, getBasisVector, getTransposedBasisVector,
      checkLinear3D_throw h, Res.throw_bind, and_self]
  · simp only [setBasisVector, setTransposedBasisVector, checkLinear3D_ok h, AVec.checkSize_throw hv,
      Res.ok_bind, Res.throw_bind, and_self]
  · have : ¬(0 ≤ i ∧ i ≤ 2) := by omega
    refine ⟨fun hv => ?_, ?_⟩
    · simp only [setBasisVector, setTransposedBasisVector, checkLinear3D_ok h, AVec.checkSize_ok hv,
        Res.require, decide_eq_false this, Res.ok_bind, Bool.false_eq_true, if_false, Res.throw_bind,
        and_self]
    · simp only [getBasisVector, getTransposedBasisVector, checkLinear3D_ok h, Res.require,
        decide_eq_false this, Res.ok_bind, Bool.false_eq_true, if_false, Res.throw_bind, and_self]

/-- C89: the errors of the two-dimensional versions. -/
theorem basisVector2D_throws (m : BMat K) (i : Int) (v : AVec K) :
    (¬m.HasLin 2 → setBasisVector2D m i v = .throw m.minErr ∧
      setTransposedBasisVector2D m i v = .throw m.minErr ∧
      getBasisVector2D m i = .throw m.minErr ∧ getTransposedBasisVector2D m i = .throw m.minErr) ∧
    (m.HasLin 2 → v.size ≠ 2 → setBasisVector2D m i v = .throw v.sizeErr ∧
      setTransposedBasisVector2D m i v = .throw v.sizeErr) ∧
    (m.HasLin 2 → (i < 0 ∨ 1 < i) →
      (v.size = 2 → setBasisVector2D m i v = .throw .invalidArgument ∧
        setTransposedBasisVector2D m i v = .throw .invalidArgument) ∧
      getBasisVector2D m i = .throw .invalidArgument ∧
      getTransposedBasisVector2D m i = .throw .invalidArgument) := by
  refine ⟨fun h => ?_, fun h hv => ?_, fun h hi => ?_⟩
  · simp only [setBasisVector2D, setTransposedBasisVector2D, getBasisVector2D, getTransposedBasisVector2D,
      checkLinear2D_throw h, Res.throw_bind, and_self]
  · simp only [setBasisVector2D, setTransposedBasisVector2D, checkLinear2D_ok h, AVec.checkSize_throw hv,
      Res.ok_bind, Res.throw_bind, and_self]
  · have : ¬(0 ≤ i ∧ i ≤ 1) := by omega
    refine ⟨fun hv => ?_, ?_⟩
    · simp only [setBasisVector2D, setTransposedBasisVector2D, checkLinear2D_ok h, AVec.checkSize_ok hv,
        Res.require, decide_eq_false this, Res.ok_bind, Bool.false_eq_true, if_false, Res.throw_bind,
        and_self]
    · simp only [getBasisVector2D, getTransposedBasisVector2D, checkLinear2D_ok h, Res.require,
        decide_eq_false this, Res.ok_bind, Bool.false_eq_true, if_false, Res.throw_bind, and_self]

end

/- A row-basis 4x4 matrix and a vector: the second basis vector is stored in the second row. -/
example : (⟨⟨4, 4, fun i j => (4 * i + j : Int)⟩, .row, true⟩ : BMat Int).HasLin 3 :=
  ⟨by decide, by decide⟩
example : (match setBasisVector (⟨⟨4, 4, fun i j => (4 * i + j : Int)⟩, .row, true⟩ : BMat Int) 1
      (.mk3 true 7 8 9) with
    | .ok m => some (m.el 1 0, m.el 1 1, m.el 1 2, m.el 1 3, m.el 0 1)
    | _ => none) = some (7, 8, 9, 7, 1) := by decide

end CML

#print axioms CML.setBasisVector_spec
#print axioms CML.setTransposedBasisVector_spec
#print axioms CML.setBasisVector2D_spec
#print axioms CML.setBasisVectors_spec
#print axioms CML.setTransposedBasisVectors_spec
#print axioms CML.setBasisVectors2D_spec
#print axioms CML.getBasisVector_spec
#print axioms CML.getBasisVector2D_spec
#print axioms CML.getBasisVectors_spec
#print axioms CML.getBasisVectorND_spec
#print axioms CML.basisVector_throws
#print axioms CML.basisVector2D_throws
