import Verif.Lemmas.Lin
import Mathlib.Tactic.FieldSimp

/-!
C60, C61: applying a matrix to points and vectors, concatenation.
-/

namespace CML
open BMat

section
variable {K : Type}

/-! ### C61 -/

/-- C61: `transform_vector_2D` applies the linear part. -/
theorem transformVector2D_spec [CommRing K] {m : BMat K} {v : AVec K} {x : Fin 2 → K}
    (h : m.HasLin 2) (hv : v.Is 2 x) :
    ∃ w, transformVector2D m v = .ok w ∧ w.Is 2 ((linOf m 2).mulVec x) := by
  obtain ⟨hs, rfl⟩ := hv
  have hb := (hasLin_iff m 2).1 h
  lin_run [transformVector2D, checkMin22_ok h, AVec.checkSize_ok hs]
  refine ⟨rfl, ?_⟩
  funext i
  fin_cases i <;>
    simp [Matrix.mulVec, dotProduct, Fin.sum_univ_two, linOf_apply, AVec.vec, AVec.mk2]

/-- C61: `transform_point_2D` applies the affine map. -/
theorem transformPoint2D_spec [CommRing K] {m : BMat K} {v : AVec K} {x : Fin 2 → K}
    (h : m.HasAff 2) (hv : v.Is 2 x) :
    ∃ w, transformPoint2D m v = .ok w ∧ w.Is 2 (affOf m 2 x) := by
  obtain ⟨hs, rfl⟩ := hv
  have hb := (hasAff_iff m 2).1 h
  lin_run [transformPoint2D, checkAffine2D_ok h, AVec.checkSize_ok hs]
  refine ⟨rfl, ?_⟩
  funext i
  fin_cases i <;>
    simp [affOf, transOf_apply, Matrix.mulVec, dotProduct, Fin.sum_univ_two, linOf_apply, AVec.vec,
      AVec.mk2]

/-- C61: `transform_vector` applies the linear part, whatever the translation. -/
theorem transformVector_spec [CommRing K] {m : BMat K} {v : AVec K} {x : Fin 3 → K}
    (h : m.HasLin 3) (hv : v.Is 3 x) :
    ∃ w, transformVector m v = .ok w ∧ w.Is 3 ((linOf m 3).mulVec x) := by
  obtain ⟨hs, rfl⟩ := hv
  have hb := (hasLin_iff m 3).1 h
  lin_run [transformVector, linComp, checkMin33_ok h, AVec.checkSize_ok hs]
  refine ⟨rfl, ?_⟩
  funext i
  fin_cases i <;>
    simp [Matrix.mulVec, dotProduct, Fin.sum_univ_three, linOf_apply, AVec.vec, AVec.mk3]

/-- C61: `transform_point` applies the affine map. -/
theorem transformPoint_spec [CommRing K] {m : BMat K} {v : AVec K} {x : Fin 3 → K}
    (h : m.HasAff 3) (hv : v.Is 3 x) :
    ∃ w, transformPoint m v = .ok w ∧ w.Is 3 (affOf m 3 x) := by
  obtain ⟨hs, rfl⟩ := hv
  have hb := (hasAff_iff m 3).1 h
  lin_run [transformPoint, linComp, affComp, checkAffine3D_ok h, AVec.checkSize_ok hs]
  refine ⟨rfl, ?_⟩
  funext i
  fin_cases i <;>
    simp [affOf, transOf_apply, Matrix.mulVec, dotProduct, Fin.sum_univ_three, linOf_apply, AVec.vec,
      AVec.mk3]

/-- C61: `transform_point_4D` applies the homogeneous transform and divides by the fourth
component. -/
theorem transformPoint4D_spec [Field K] [DecidableEq K] {m : BMat K} {v : AVec K} {x : Fin 3 → K}
    (hr : m.rows = 4) (hc : m.cols = 4) (hv : v.Is 3 x)
    (h0 : (linOf m 4).mulVec ![x 0, x 1, x 2, 1] 3 ≠ 0) :
    ∃ w, transformPoint4D m v = .ok w ∧
      w.Is 3 (fun i => (linOf m 4).mulVec ![x 0, x 1, x 2, 1] i.castSucc /
        (linOf m 4).mulVec ![x 0, x 1, x 2, 1] 3) := by
  obtain ⟨hs, rfl⟩ := hv
  have hb := (hasLin_iff m 4).1 ⟨hr.ge, hc.ge⟩
  have hck : m.checkSize 4 4 = .ok () := by simp [BMat.checkSize, Res.require, hr, hc]
  have e : ∀ j : Fin 4, (linOf m 4).mulVec ![v.vec 3 0, v.vec 3 1, v.vec 3 2, 1] j =
      m.bel 0 j * v.el 0 + m.bel 1 j * v.el 1 + m.bel 2 j * v.el 2 + m.bel 3 j := by
    intro j
    simp [Matrix.mulVec, dotProduct, Fin.sum_univ_four, linOf_apply, AVec.vec]
  rw [e] at h0
  have h0' : ¬(m.bel 0 3 * v.el 0 + m.bel 1 3 * v.el 1 + m.bel 2 3 * v.el 2 + m.bel 3 3 = 0) := h0
  lin_run [transformPoint4D, linComp, affComp, hck, AVec.checkSize_ok hs, divR, if_neg h0']
  refine ⟨rfl, ?_⟩
  funext i
  simp only [e]
  fin_cases i <;> rfl

/-- C61: with a zero fourth component the perspective divide divides by zero. -/
theorem transformPoint4D_divZero [Field K] [DecidableEq K] {m : BMat K} {v : AVec K} {x : Fin 3 → K}
    (hr : m.rows = 4) (hc : m.cols = 4) (hv : v.Is 3 x)
    (h0 : (linOf m 4).mulVec ![x 0, x 1, x 2, 1] 3 = 0) : transformPoint4D m v = .ub .divZero := by
  obtain ⟨hs, rfl⟩ := hv
  have hb := (hasLin_iff m 4).1 ⟨hr.ge, hc.ge⟩
  have hck : m.checkSize 4 4 = .ok () := by simp [BMat.checkSize, Res.require, hr, hc]
  have h0' : m.bel 0 3 * v.el 0 + m.bel 1 3 * v.el 1 + m.bel 2 3 * v.el 2 + m.bel 3 3 = 0 := by
    rw [← h0]
    simp [Matrix.mulVec, dotProduct, Fin.sum_univ_four, linOf_apply, AVec.vec]
  lin_run [transformPoint4D, linComp, affComp, hck, AVec.checkSize_ok hs, divR, if_pos h0']
  rfl

/-- C61: `transform_vector_4D` applies the whole 4×4 matrix. -/
theorem transformVector4D_spec [CommRing K] {m : BMat K} {v : AVec K} {x : Fin 4 → K}
    (hr : m.rows = 4) (hc : m.cols = 4) (hv : v.Is 4 x) :
    ∃ w, transformVector4D m v = .ok w ∧ w.Is 4 ((linOf m 4).mulVec x) := by
  obtain ⟨hs, rfl⟩ := hv
  have hck : m.checkSize 4 4 = .ok () := by simp [BMat.checkSize, Res.require, hr, hc]
  simp only [transformVector4D, hck, AVec.checkSize_ok hs, Res.ok_bind]
  cases hb : m.basis
  · obtain ⟨w, h1, -, h3, h4⟩ := bVecMat_ok (m := m) (v := v) (by omega) (by omega)
    refine ⟨w, h1, by omega, ?_⟩
    funext i
    have := h4 i (by omega)
    simp only [AVec.vec, this, Matrix.mulVec, dotProduct, linOf, hb, Matrix.transpose, Matrix.of_apply,
      Mat.toMatrix]
    rw [hs]
    exact Finset.sum_congr rfl fun k _ => mul_comm _ _
  · obtain ⟨w, h1, -, h3, h4⟩ := bMatVec_ok (m := m) (v := v) (by omega) (by omega)
    refine ⟨w, h1, by omega, ?_⟩
    funext i
    have := h4 i (by omega)
    simp only [AVec.vec, this, Matrix.mulVec, dotProduct, linOf, hb, Mat.toMatrix]
    rw [hs]

/-- C61: too small matrices and wrong vector sizes are rejected. -/
theorem transform_throws [Field K] [DecidableEq K] (m : BMat K) (v : AVec K) :
    (¬m.HasLin 3 → transformVector m v = .throw m.minErr) ∧
    (m.HasLin 3 → v.size ≠ 3 → transformVector m v = .throw v.sizeErr) ∧
    (¬m.HasAff 3 → transformPoint m v = .throw m.minErr) ∧
    (m.HasAff 3 → v.size ≠ 3 → transformPoint m v = .throw v.sizeErr) ∧
    (¬m.HasLin 2 → transformVector2D m v = .throw m.minErr) ∧
    (m.HasLin 2 → v.size ≠ 2 → transformVector2D m v = .throw v.sizeErr) ∧
    (¬m.HasAff 2 → transformPoint2D m v = .throw m.minErr) ∧
    (m.HasAff 2 → v.size ≠ 2 → transformPoint2D m v = .throw v.sizeErr) ∧
    (¬(m.rows = 4 ∧ m.cols = 4) → transformVector4D m v =
      .throw (if m.fixed then .staticAssert else .matSize) ∧ transformPoint4D m v =
      .throw (if m.fixed then .staticAssert else .matSize)) ∧
    (m.rows = 4 ∧ m.cols = 4 → v.size ≠ 4 → transformVector4D m v = .throw v.sizeErr) ∧
    (m.rows = 4 ∧ m.cols = 4 → v.size ≠ 3 → transformPoint4D m v = .throw v.sizeErr) := by
  have a : ∀ h : ¬m.HasLin 3, m.checkMinimumSize 3 3 = .throw m.minErr := checkLinear3D_throw
  have a' : ∀ h : ¬m.HasLin 2, m.checkMinimumSize 2 2 = .throw m.minErr := checkLinear2D_throw
  refine ⟨?_, ?_, ?_, ?_, ?_, ?_, ?_, ?_, ?_, ?_, ?_⟩
  · intro h; simp only [transformVector, a h, Res.throw_bind]
  · intro h hv
    simp only [transformVector, checkMin33_ok h, AVec.checkSize_throw hv, Res.throw_bind, Res.ok_bind]
  · intro h; simp only [transformPoint, checkAffine3D_throw h, Res.throw_bind]
  · intro h hv
    simp only [transformPoint, checkAffine3D_ok h, AVec.checkSize_throw hv, Res.throw_bind, Res.ok_bind]
  · intro h; simp only [transformVector2D, a' h, Res.throw_bind]
  · intro h hv
    simp only [transformVector2D, checkMin22_ok h, AVec.checkSize_throw hv, Res.throw_bind, Res.ok_bind]
  · intro h; simp only [transformPoint2D, checkAffine2D_throw h, Res.throw_bind]
  · intro h hv
    simp only [transformPoint2D, checkAffine2D_ok h, AVec.checkSize_throw hv, Res.throw_bind, Res.ok_bind]
  · intro h
    have : m.checkSize 4 4 = .throw (if m.fixed then .staticAssert else .matSize) := by
      simp [BMat.checkSize, Res.require, h]
    simp only [transformVector4D, transformPoint4D, this, Res.throw_bind, and_self]
  · intro h hv
    have : m.checkSize 4 4 = .ok () := by simp [BMat.checkSize, Res.require, h]
    simp only [transformVector4D, this, AVec.checkSize_throw hv, Res.throw_bind, Res.ok_bind]
  · intro h hv
    have : m.checkSize 4 4 = .ok () := by simp [BMat.checkSize, Res.require, h]
    simp only [transformPoint4D, this, AVec.checkSize_throw hv, Res.throw_bind, Res.ok_bind]

/-- A row-basis 4×4 example: scale x by 2, swap y and z, translate by (5, 6, 7). -/
def mEx (b : Basis) : BMat ℚ :=
  BMat.of b true 4 4 fun i j => if j = 3 then (if i = 3 then 1 else 5 + i) else
    if i = 0 ∧ j = 0 then 2 else if i = 1 ∧ j = 2 then 1 else if i = 2 ∧ j = 1 then 1 else 0

/-- The hypotheses of the C61 theorems hold for concrete cases of both bases, with the expected
results. -/
example : AVec.list (transformPoint (mEx .row) (AVec.of true ![1, 2, 3])) = .ok [7, 9, 9] ∧
    AVec.list (transformPoint (mEx .col) (AVec.of true ![1, 2, 3])) = .ok [7, 9, 9] ∧
    AVec.list (transformVector (mEx .row) (AVec.of true ![1, 2, 3])) = .ok [2, 3, 2] ∧
    AVec.list (transformPoint4D (mEx .col) (AVec.of true ![1, 2, 3])) = .ok [7, 9, 9] ∧
    AVec.list (transformVector4D (mEx .row) (AVec.of true ![1, 2, 3, 1])) = .ok [7, 9, 9, 1] ∧
    (mEx .row).HasAff 3 ∧ (mEx .col).HasAff 3 ∧ (mEx .col).HasLin 3 ∧
    (linOf (mEx .col) 4).mulVec ![1, 2, 3, 1] 3 ≠ 0 := by
  refine ⟨by decide +kernel, by decide +kernel, by decide +kernel, by decide +kernel,
    by decide +kernel, ?_, ?_, ?_, by decide +kernel⟩ <;> simp [BMat.HasAff, BMat.HasLin, mEx, BMat.of]

/-! ### C60 -/

/-- C60: concatenating two `n × n` matrices of the same basis composes the linear maps, first
argument first. -/
theorem concat_linOf [CommRing K] {m1 m2 : BMat K} {n : Nat} (hr1 : m1.rows = n) (hc1 : m1.cols = n)
    (hr2 : m2.rows = n) (hc2 : m2.cols = n) (hb : m1.basis = m2.basis) :
    ∃ m, matrixConcat m1 m2 = .ok m ∧ m.rows = n ∧ m.cols = n ∧ m.basis = m1.basis ∧
      linOf m n = linOf m2 n * linOf m1 n := by
  have q0 : Res.require (decide (m1.basis = m2.basis)) .staticAssert = .ok () := by
    simp [Res.require, hb]
  have q1 : checkSquare m1.fixed m1.toMat = .ok () := by simp [checkSquare, Res.require, hr1, hc1]
  have q2 : checkSquare m2.fixed m2.toMat = .ok () := by simp [checkSquare, Res.require, hr2, hc2]
  simp only [matrixConcat, q0, q1, q2, Res.ok_bind]
  rcases Nat.eq_zero_or_pos n with h0 | h0
  · subst h0
    have hz : ∀ (a b : BMat K) (bs : Basis), a.rows = 0 → a.cols = 0 → b.rows = 0 → b.cols = 0 →
        ∃ m, bMatMul bs a b = .ok m ∧ m.rows = 0 ∧ m.cols = 0 ∧ m.basis = bs := by
      intro a b bs h1 h2 h3 h4
      simp only [bMatMul, h1, h2, h3, h4, Res.require, decide_true, if_true, Res.ok_bind, Res.loop]
      exact ⟨_, rfl, rfl, rfl, rfl⟩
    cases hb1 : m1.basis
    · obtain ⟨m, h1, h2, h3, h4⟩ := hz m1 m2 .row hr1 hc1 hr2 hc2
      exact ⟨m, h1, h2, h3, h4, Subsingleton.elim _ _⟩
    · obtain ⟨m, h1, h2, h3, h4⟩ := hz m2 m1 .col hr2 hc2 hr1 hc1
      exact ⟨m, h1, h2, h3, h4, Subsingleton.elim _ _⟩
  · cases hb1 : m1.basis
    · obtain ⟨m, h1, h2, h3, h4, -, h6⟩ := bMatMul_ok (a := m1) (b := m2) .row (by omega) (by omega)
      refine ⟨m, h1, by omega, by omega, h4, ?_⟩
      ext i j
      rw [Matrix.mul_apply]
      simp only [linOf, h4, ← hb, hb1, Matrix.transpose, Matrix.of_apply, Mat.toMatrix]
      rw [h6 j i (by omega) (by omega)]
      rw [hc1]
      exact Finset.sum_congr rfl fun k _ => mul_comm _ _
    · obtain ⟨m, h1, h2, h3, h4, -, h6⟩ := bMatMul_ok (a := m2) (b := m1) .col (by omega) (by omega)
      refine ⟨m, h1, by omega, by omega, h4, ?_⟩
      ext i j
      rw [Matrix.mul_apply]
      simp only [linOf, h4, ← hb, hb1, Mat.toMatrix]
      rw [h6 i j (by omega) (by omega)]
      rw [hc2]

/-- C60: concatenating two homogeneous `n`-dimensional affine transforms composes the affine maps,
first argument first, and gives a homogeneous transform. -/
theorem concat_affOf [CommRing K] {m1 m2 : BMat K} {n : Nat} (h1 : m1.Homogeneous n)
    (h2 : m2.Homogeneous n) (hb : m1.basis = m2.basis) :
    ∃ m, matrixConcat m1 m2 = .ok m ∧ m.basis = m1.basis ∧ m.Homogeneous n ∧
      (∀ x, affOf m n x = affOf m2 n (affOf m1 n x)) ∧ linOf m n = linOf m2 n * linOf m1 n := by
  obtain ⟨m, e1, e2, e3, e4, e5⟩ := concat_linOf h1.rows h1.cols h2.rows h2.cols hb
  obtain ⟨-, -, g1, g2⟩ := (homogeneous_iff m1 n).1 h1
  obtain ⟨-, -, g3, g4⟩ := (homogeneous_iff m2 n).1 h2
  have eb : ∀ i j : Fin (n + 1), m.bel i j = ∑ k : Fin (n + 1), m2.bel k j * m1.bel i k := by
    intro i j
    have := congrFun (congrFun e5 j) i
    rw [Matrix.mul_apply] at this
    simpa only [linOf_apply] using this
  have eb' : ∀ i j, i < n + 1 → j < n + 1 → m.bel i j =
      (∑ k : Fin n, m2.bel k j * m1.bel i k) + m2.bel n j * m1.bel i n := by
    intro i j hi hj
    have := eb ⟨i, hi⟩ ⟨j, hj⟩
    rw [Fin.sum_univ_castSucc] at this
    simpa using this
  refine ⟨m, e1, e4, ?_, ?_, ?_⟩
  · rw [homogeneous_iff]
    refine ⟨?_, ?_, ?_, ?_⟩
    · unfold bcount; split <;> omega
    · unfold bsize; split <;> omega
    · intro i hi
      rw [eb' i n (by omega) (by omega), g1 i hi, mul_zero, add_zero]
      exact Finset.sum_eq_zero fun k _ => by rw [g3 k k.2, zero_mul]
    · rw [eb' n n (by omega) (by omega), g2, g4, mul_one]
      rw [Finset.sum_eq_zero fun k _ => by rw [g3 k.1 k.2, zero_mul], zero_add]
  · intro x
    funext j
    simp only [affOf, Pi.add_apply, Matrix.mulVec, dotProduct, linOf_apply, transOf_apply]
    rw [eb' n j (by omega) (by omega), g2, mul_one]
    have : ∀ i : Fin n, m.bel i j * x i = ∑ k : Fin n, m2.bel k j * (m1.bel i k * x i) := by
      intro i
      rw [eb' i j (by omega) (by omega), g1 i i.2, mul_zero, add_zero, Finset.sum_mul]
      exact Finset.sum_congr rfl fun k _ => by ring
    rw [Finset.sum_congr rfl fun i _ => this i, Finset.sum_comm]
    simp only [mul_add, Finset.sum_add_distrib, Finset.mul_sum]
    ring
  · ext j i
    rw [Matrix.mul_apply]
    simp only [linOf_apply]
    rw [eb' i j (by omega) (by omega), g1 i i.2, mul_zero, add_zero]

/-- C60: `transform_point(matrix_concat(m1, m2), p) = transform_point(m2, transform_point(m1, p))` for
homogeneous 4×4 transforms of the same basis, and the same for vectors. -/
theorem concat_transform [CommRing K] {m1 m2 : BMat K} {v : AVec K} (h1 : m1.Homogeneous 3)
    (h2 : m2.Homogeneous 3) (hb : m1.basis = m2.basis) (hv : v.size = 3) :
    (∃ m p w y, matrixConcat m1 m2 = .ok m ∧ transformPoint m1 v = .ok p ∧ transformPoint m2 p = .ok w ∧
      w.Is 3 y ∧ ∃ w', transformPoint m v = .ok w' ∧ w'.Is 3 y) ∧
    (∃ m p w y, matrixConcat m1 m2 = .ok m ∧ transformVector m1 v = .ok p ∧
      transformVector m2 p = .ok w ∧
      w.Is 3 y ∧ ∃ w', transformVector m v = .ok w' ∧ w'.Is 3 y) := by
  obtain ⟨m, e1, e2, e3, e4, e5⟩ := concat_affOf h1 h2 hb
  have ha : ∀ m : BMat K, m.Homogeneous 3 → m.HasAff 3 := by
    intro m h
    rw [hasAff_iff]
    have := (homogeneous_iff m 3).1 h
    omega
  have hx : v.Is 3 (v.vec 3) := ⟨hv, rfl⟩
  constructor
  · obtain ⟨p, p1, p2⟩ := transformPoint_spec (ha _ h1) hx
    obtain ⟨w, w1, w2⟩ := transformPoint_spec (ha _ h2) p2
    obtain ⟨w', w1', w2'⟩ := transformPoint_spec (ha _ e3) hx
    exact ⟨m, p, w, _, e1, p1, w1, w2, w', w1', by rw [← e4]; exact w2'⟩
  · obtain ⟨p, p1, p2⟩ := transformVector_spec (ha _ h1).hasLin hx
    obtain ⟨w, w1, w2⟩ := transformVector_spec (ha _ h2).hasLin p2
    obtain ⟨w', w1', w2'⟩ := transformVector_spec (ha _ e3).hasLin hx
    refine ⟨m, p, w, _, e1, p1, w1, w2, w', w1', ?_⟩
    rw [e5, ← Matrix.mulVec_mulVec] at w2'
    exact w2'

/-- C60: the same for `transform_vector_4D`, with arbitrary 4×4 matrices. -/
theorem concat_transform4D [CommRing K] {m1 m2 : BMat K} {v : AVec K} (hr1 : m1.rows = 4)
    (hc1 : m1.cols = 4) (hr2 : m2.rows = 4) (hc2 : m2.cols = 4) (hb : m1.basis = m2.basis)
    (hv : v.size = 4) :
    ∃ m p w y, matrixConcat m1 m2 = .ok m ∧ transformVector4D m1 v = .ok p ∧
      transformVector4D m2 p = .ok w ∧ w.Is 4 y ∧
      ∃ w', transformVector4D m v = .ok w' ∧ w'.Is 4 y := by
  obtain ⟨m, e1, e2, e3, e4, e5⟩ := concat_linOf hr1 hc1 hr2 hc2 hb
  have hx : v.Is 4 (v.vec 4) := ⟨hv, rfl⟩
  obtain ⟨p, p1, p2⟩ := transformVector4D_spec hr1 hc1 hx
  obtain ⟨w, w1, w2⟩ := transformVector4D_spec hr2 hc2 p2
  obtain ⟨w', w1', w2'⟩ := transformVector4D_spec e2 e3 hx
  refine ⟨m, p, w, _, e1, p1, w1, w2, w', w1', ?_⟩
  rw [e5, ← Matrix.mulVec_mulVec] at w2'
  exact w2'

/-- C60: non-square operands, operands of different size and operands of different basis are
rejected. -/
theorem concat_throws [CommRing K] (m1 m2 : BMat K) :
    (m1.basis ≠ m2.basis → matrixConcat m1 m2 = .throw .staticAssert) ∧
    (m1.basis = m2.basis → m1.rows ≠ m1.cols → matrixConcat m1 m2 =
      .throw (if m1.fixed then .staticAssert else .nonSquare)) ∧
    (m1.basis = m2.basis → m1.rows = m1.cols → m2.rows ≠ m2.cols → matrixConcat m1 m2 =
      .throw (if m2.fixed then .staticAssert else .nonSquare)) ∧
    (m1.basis = m2.basis → m1.rows = m1.cols → m2.rows = m2.cols → m1.rows ≠ m2.rows →
      matrixConcat m1 m2 =
        .throw (if m1.fixed && m2.fixed then .staticAssert else .matIncompatible)) := by
  refine ⟨fun h => ?_, fun h1 h2 => ?_, fun h1 h2 h3 => ?_, fun h1 h2 h3 h4 => ?_⟩
  · simp [matrixConcat, Res.require, h]
  · simp [matrixConcat, checkSquare, Res.require, h1, h2]
  · simp [matrixConcat, checkSquare, Res.require, h1, h2, h3]
  · cases hb : m1.basis
    · simp [matrixConcat, checkSquare, Res.require, hb, ← h1, h2, h3, bMatMul,
        show m1.cols ≠ m2.cols by omega]
    · simp [matrixConcat, checkSquare, Res.require, hb, ← h1, h2, h3, bMatMul,
        show m2.cols ≠ m1.cols by omega, Bool.and_comm]

/-- The C60 hypotheses hold for concrete matrices of both bases; concatenation is not commutative. -/
example : (mEx .row).Homogeneous 3 ∧ (mEx .col).Homogeneous 3 ∧
    BMat.table (matrixConcat (mEx .col) (BMat.of .col false 4 4 fun i j =>
      if i = j then (if i = 3 then 1 else 3) else 0)) =
      .ok [[6, 0, 0, 15], [0, 0, 3, 18], [0, 3, 0, 21], [0, 0, 0, 1]] ∧
    BMat.table (matrixConcat (BMat.of .col false 4 4 fun i j =>
      if i = j then (if i = 3 then 1 else 3) else 0) (mEx .col)) =
      .ok [[6, 0, 0, 5], [0, 0, 3, 6], [0, 3, 0, 7], [0, 0, 0, 1]] := by
  refine ⟨⟨rfl, rfl, ?_, by decide +kernel⟩, ⟨rfl, rfl, ?_, by decide +kernel⟩, by decide +kernel,
    by decide +kernel⟩ <;>
  · intro i hi
    have : i = 0 ∨ i = 1 ∨ i = 2 := by omega
    rcases this with rfl | rfl | rfl <;> decide +kernel

end
end CML

#print axioms CML.transformVector2D_spec
#print axioms CML.transformPoint2D_spec
#print axioms CML.transformVector_spec
#print axioms CML.transformPoint_spec
#print axioms CML.transformPoint4D_spec
#print axioms CML.transformPoint4D_divZero
#print axioms CML.transformVector4D_spec
#print axioms CML.transform_throws
#print axioms CML.concat_linOf
#print axioms CML.concat_affOf
#print axioms CML.concat_transform
#print axioms CML.concat_transform4D
#print axioms CML.concat_throws
