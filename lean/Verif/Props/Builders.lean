import Verif.Props.Transform

/-!
C63, C71, C72: translation and scale builders, the skew-symmetric matrix, linear and affine transforms
from a matrix.
-/

namespace CML
open BMat

section
variable {K : Type}

/-! ### C63: translation -/

theorem transPos_iff (m : BMat K) (n i j : Nat) : m.TransPos n i j ↔
    (match m.basis with | .row => i | .col => j) = n ∧
    (match m.basis with | .row => j | .col => i) < n := by
  unfold TransPos; cases m.basis <;> rfl

theorem el_eq_of_bel {m m' : BMat K} (hb : m'.basis = m.basis) {n : Nat}
    (h : ∀ i j, ¬(i = n ∧ j < n) → m'.bel i j = m.bel i j) :
    ∀ i j, ¬m.TransPos n i j → m'.el i j = m.el i j := by
  intro i j hij
  unfold TransPos at hij
  unfold bel at h
  rw [hb] at h
  cases hm : m.basis <;> simp only [hm] at h hij
  · exact h i j hij
  · exact h j i hij

/-- C63: `matrix_set_translation` sets the translation and touches nothing else. -/
theorem setTranslation_spec {m : BMat K} (h : m.HasAff 3) (e0 e1 e2 : K) :
    ∃ m', setTranslation m e0 e1 e2 = .ok m' ∧ m.SameShape m' ∧ transOf m' 3 = ![e0, e1, e2] ∧
      ∀ i j, ¬m.TransPos 3 i j → m'.el i j = m.el i j := by
  have hb := (hasAff_iff m 3).1 h
  lin_run [setTranslation, checkAffine3D_ok h]
  refine ⟨⟨by simp, by simp, by simp, by simp⟩, ?_, el_eq_of_bel (by simp) ?_⟩
  · funext i
    fin_cases i <;> simp [transOf_apply, bel_bset]
  · intro i j hij
    simp only [bel_bset]
    repeat rw [if_neg (by omega)]

/-- C63: the versions with two scalars and with a vector of two or three elements set the same
translation, with a zero third component when only two are given. -/
theorem setTranslation_variants [Zero K] {m : BMat K} (h : m.HasAff 3) :
    (∀ e0 e1 : K, setTranslationXY m e0 e1 = setTranslation m e0 e1 0) ∧
    (∀ (v : AVec K) (x : Fin 3 → K), v.Is 3 x →
      setTranslationV m v = setTranslation m (x 0) (x 1) (x 2)) ∧
    (∀ (v : AVec K) (x : Fin 2 → K), v.Is 2 x →
      setTranslationV m v = setTranslation m (x 0) (x 1) 0) := by
  have hb := (hasAff_iff m 3).1 h
  refine ⟨fun _ _ => rfl, fun v x hv => ?_, fun v x hv => ?_⟩
  · obtain ⟨hs, rfl⟩ := hv
    have : v.checkSizeRange 2 3 = .ok () := by simp [AVec.checkSizeRange, Res.require, hs]
    lin_run [setTranslationV, setTranslation, checkAffine3D_ok h, this, if_pos hs]
    rfl
  · obtain ⟨hs, rfl⟩ := hv
    have : v.checkSizeRange 2 3 = .ok () := by simp [AVec.checkSizeRange, Res.require, hs]
    lin_run [setTranslationV, setTranslation, checkAffine3D_ok h, this, if_neg (show ¬v.size = 3 by omega)]
    rfl

/-- C63: `matrix_get_translation` returns the translation. -/
theorem getTranslation_spec {m : BMat K} (h : m.HasAff 3) :
    ∃ v, getTranslation m = .ok v ∧ v.Is 3 (transOf m 3) := by
  have hb := (hasAff_iff m 3).1 h
  lin_run [getTranslation, checkAffine3D_ok h]
  refine ⟨rfl, ?_⟩
  funext i
  fin_cases i <;> simp [transOf_apply, AVec.vec, AVec.mk3]

/-- C63: setting and then getting the translation returns what was set. -/
theorem set_get_translation {m : BMat K} (h : m.HasAff 3) (e0 e1 e2 : K) :
    ∃ m' v, setTranslation m e0 e1 e2 = .ok m' ∧ getTranslation m' = .ok v ∧ v.Is 3 ![e0, e1, e2] := by
  obtain ⟨m', h1, h2, h3, -⟩ := setTranslation_spec h e0 e1 e2
  obtain ⟨v, g1, g2⟩ := getTranslation_spec (h2.hasAff h)
  exact ⟨m', v, h1, g1, h3 ▸ g2⟩

theorem hasAff_identity [Zero K] [One K] {m : BMat K} {n : Nat} (h : m.HasAff n) :
    m.identity.HasAff n := (SameShape.identity m).hasAff h

/-- C63: `matrix_translation` gives the transform with the identity as linear part and the given
translation: points move by `t`, vectors stay. -/
theorem translation_spec [CommRing K] {m : BMat K} (h : m.HasAff 3) (e0 e1 e2 : K) :
    ∃ m', translation m e0 e1 e2 = .ok m' ∧ m.SameShape m' ∧ m'.IdOutsideAff 3 ∧
      linOf m' 3 = 1 ∧ (∀ x, affOf m' 3 x = x + ![e0, e1, e2]) ∧
      ∀ (p : AVec K) (x : Fin 3 → K), p.Is 3 x →
        (∃ q, transformPoint m' p = .ok q ∧ q.Is 3 (x + ![e0, e1, e2])) ∧
        ∃ q, transformVector m' p = .ok q ∧ q.Is 3 x := by
  obtain ⟨m', h1, h2, h3, h4⟩ := setTranslation_spec (hasAff_identity h) e0 e1 e2
  have hs : m.SameShape m' := (SameShape.identity m).trans h2
  have hl : linOf m' 3 = 1 := by
    ext r c
    have : ¬m.identity.TransPos 3 r c := by unfold TransPos; split <;> omega
    have h' : ¬m.identity.TransPos 3 c r := by unfold TransPos; split <;> omega
    unfold linOf
    cases hb : m'.basis
    · simp only [Matrix.transpose, Matrix.of_apply, Mat.toMatrix, h4 c r h', Matrix.one_apply,
        BMat.identity, Fin.ext_iff, eq_comm]
    · simp only [Mat.toMatrix, h4 r c this, Matrix.one_apply, BMat.identity, Fin.ext_iff]
  have ha : ∀ x, affOf m' 3 x = x + ![e0, e1, e2] := by
    intro x
    rw [affOf, hl, h3, Matrix.one_mulVec]
  refine ⟨m', h1, hs, ?_, hl, ha, fun p x hp => ⟨?_, ?_⟩⟩
  · intro i j hi hj hn ht
    have : ¬m.identity.TransPos 3 i j := by
      have hb : m'.basis = m.basis := hs.basis
      simpa only [TransPos, hb, basis_identity] using ht
    exact h4 i j this
  · obtain ⟨q, q1, q2⟩ := transformPoint_spec (hs.hasAff h) hp
    exact ⟨q, q1, ha x ▸ q2⟩
  · obtain ⟨q, q1, q2⟩ := transformVector_spec (hs.hasAff h).hasLin hp
    rw [hl, Matrix.one_mulVec] at q2
    exact ⟨q, q1, q2⟩

/-- C63: the other forms of `matrix_translation`. -/
theorem translation_variants [CommRing K] {m : BMat K} (h : m.HasAff 3) :
    (∀ e0 e1 : K, translationXY m e0 e1 = translation m e0 e1 0) ∧
    (∀ (v : AVec K) (x : Fin 3 → K), v.Is 3 x →
      translationV m v = translation m (x 0) (x 1) (x 2)) ∧
    (∀ (v : AVec K) (x : Fin 2 → K), v.Is 2 x →
      translationV m v = translation m (x 0) (x 1) 0) :=
  setTranslation_variants (hasAff_identity h)

/-- C63: too small matrices and vectors of the wrong size are rejected. -/
theorem setTranslation_throws [Zero K] (m : BMat K) :
    (¬m.HasAff 3 → ∀ e0 e1 e2, setTranslation m e0 e1 e2 = .throw m.minErr) ∧
    (¬m.HasAff 3 → getTranslation m = .throw m.minErr) ∧
    (∀ v : AVec K, ¬(2 ≤ v.size ∧ v.size ≤ 3) →
      setTranslationV m v = .throw (if v.fixed then .staticAssert else .vecRange)) ∧
    (¬m.HasAff 3 → ∀ v : AVec K, 2 ≤ v.size ∧ v.size ≤ 3 → setTranslationV m v = .throw m.minErr) := by
  refine ⟨fun h _ _ _ => ?_, fun h => ?_, fun v hv => ?_, fun h v hv => ?_⟩
  · simp only [setTranslation, checkAffine3D_throw h, Res.throw_bind]
  · simp only [getTranslation, checkAffine3D_throw h, Res.throw_bind]
  · simp [setTranslationV, AVec.checkSizeRange, Res.require, hv]
  · simp [setTranslationV, AVec.checkSizeRange, Res.require, hv, checkAffine3D_throw h]

/-- C63, two dimensions: `matrix_set_translation_2D` sets the translation and touches nothing else. -/
theorem setTranslation2D_spec {m : BMat K} (h : m.HasAff 2) (e0 e1 : K) :
    ∃ m', setTranslation2D m e0 e1 = .ok m' ∧ m.SameShape m' ∧ transOf m' 2 = ![e0, e1] ∧
      ∀ i j, ¬m.TransPos 2 i j → m'.el i j = m.el i j := by
  have hb := (hasAff_iff m 2).1 h
  lin_run [setTranslation2D, checkAffine2D_ok h]
  refine ⟨⟨by simp, by simp, by simp, by simp⟩, ?_, el_eq_of_bel (by simp) ?_⟩
  · funext i
    fin_cases i <;> simp [transOf_apply, bel_bset]
  · intro i j hij
    simp only [bel_bset]
    repeat rw [if_neg (by omega)]

/-- C63, two dimensions: `matrix_get_translation_2D` returns the translation. -/
theorem getTranslation2D_spec {m : BMat K} (h : m.HasAff 2) :
    ∃ v, getTranslation2D m = .ok v ∧ v.Is 2 (transOf m 2) := by
  have hb := (hasAff_iff m 2).1 h
  lin_run [getTranslation2D, checkAffine2D_ok h]
  refine ⟨rfl, ?_⟩
  funext i
  fin_cases i <;> simp [transOf_apply, AVec.vec, AVec.mk2]

/-- C63, two dimensions: `matrix_translation_2D` moves points by `t` and fixes vectors; its vector form
agrees. -/
theorem translation2D_spec [CommRing K] {m : BMat K} (h : m.HasAff 2) (e0 e1 : K) :
    ∃ m', translation2D m e0 e1 = .ok m' ∧ m.SameShape m' ∧ m'.IdOutsideAff 2 ∧
      linOf m' 2 = 1 ∧ (∀ x, affOf m' 2 x = x + ![e0, e1]) ∧
      ∀ v : AVec K, v.Is 2 ![e0, e1] → translation2DV m v = .ok m' := by
  obtain ⟨m', h1, h2, h3, h4⟩ := setTranslation2D_spec (hasAff_identity h) e0 e1
  have hs : m.SameShape m' := (SameShape.identity m).trans h2
  have hl : linOf m' 2 = 1 := by
    ext r c
    have : ¬m.identity.TransPos 2 r c := by unfold TransPos; split <;> omega
    have h' : ¬m.identity.TransPos 2 c r := by unfold TransPos; split <;> omega
    unfold linOf
    cases hb : m'.basis
    · simp only [Matrix.transpose, Matrix.of_apply, Mat.toMatrix, h4 c r h', Matrix.one_apply,
        BMat.identity, Fin.ext_iff, eq_comm]
    · simp only [Mat.toMatrix, h4 r c this, Matrix.one_apply, BMat.identity, Fin.ext_iff]
  refine ⟨m', h1, hs, ?_, hl, ?_, ?_⟩
  · intro i j hi hj hn ht
    have : ¬m.identity.TransPos 2 i j := by
      have hb : m'.basis = m.basis := hs.basis
      simpa only [TransPos, hb, basis_identity] using ht
    exact h4 i j this
  · intro x
    rw [affOf, hl, h3, Matrix.one_mulVec]
  · rintro v ⟨hv, hx⟩
    rw [← h1]
    have e0' : v.el 0 = e0 := by simpa [AVec.vec] using congrFun hx 0
    have e1' : v.el 1 = e1 := by simpa [AVec.vec] using congrFun hx 1
    have hb := (hasAff_iff m 2).1 h
    lin_run [translation2D, translation2DV, setTranslation2DV, setTranslation2D,
      AVec.checkSize_ok hv, checkAffine2D_ok (hasAff_identity h), e0', e1']

/-! ### C63: scale -/

theorem affOf_scale [CommRing K] {m' : BMat K} {n : Nat} {e : Fin n → K}
    (hl : linOf m' n = Matrix.diagonal e) (ht : transOf m' n = 0) (x : Fin n → K) :
    affOf m' n x = fun i => e i * x i := by
  funext i
  rw [affOf, hl, ht, add_zero, Matrix.mulVec_diagonal]

/-- C63: `matrix_scale` multiplies component-wise and is the identity outside of the linear part. -/
theorem scale3D_spec [CommRing K] {m : BMat K} (h : m.HasAff 3) (e0 e1 e2 : K) :
    ∃ m', scale3D m e0 e1 e2 = .ok m' ∧ m.SameShape m' ∧ m'.IdOutside 3 ∧
      linOf m' 3 = Matrix.diagonal ![e0, e1, e2] ∧
      (∀ x, affOf m' 3 x = ![e0 * x 0, e1 * x 1, e2 * x 2]) ∧
      ∀ (p : AVec K) (x : Fin 3 → K), p.Is 3 x →
        ∃ q, transformPoint m' p = .ok q ∧ q.Is 3 ![e0 * x 0, e1 * x 1, e2 * x 2] := by
  have hb := (hasAff_iff m 3).1 h
  obtain ⟨m', h1, h2, h3, h4, h5⟩ : ∃ m', scale3D m e0 e1 e2 = .ok m' ∧ m.SameShape m' ∧
      m'.IdOutside 3 ∧ linOf m' 3 = Matrix.diagonal ![e0, e1, e2] ∧ transOf m' 3 = 0 := by
    lin_run [scale3D, checkAffine3D_ok h]
    refine ⟨⟨by simp, by simp, by simp, by simp⟩, ?_, ?_, ?_⟩
    · rw [idOutside_iff]
      intro i j _ _ hn
      simp only [bel_bset, bel_identity]
      repeat rw [if_neg (show ¬(i = _ ∧ j = _) by omega)]
    · ext r c
      fin_cases r <;> fin_cases c <;> simp [linOf_apply, bel_bset, bel_identity, Matrix.diagonal]
    · funext i
      fin_cases i <;> simp [transOf_apply, bel_bset, bel_identity]
  have ha : ∀ x, affOf m' 3 x = ![e0 * x 0, e1 * x 1, e2 * x 2] := by
    intro x
    rw [affOf_scale h4 h5]
    funext i
    fin_cases i <;> simp
  refine ⟨m', h1, h2, h3, h4, ha, fun p x hp => ?_⟩
  obtain ⟨q, q1, q2⟩ := transformPoint_spec (h2.hasAff h) hp
  exact ⟨q, q1, ha x ▸ q2⟩

/-- C63: the vector and uniform forms of `matrix_scale`; `matrix_inverse_scale` scales by the
reciprocals and undoes `matrix_scale`, and divides by zero if a factor is zero. -/
theorem inverseScale3D_spec [Field K] [DecidableEq K] {m : BMat K} (h : m.HasAff 3) (e0 e1 e2 : K) :
    uniformScale3D m e0 = scale3D m e0 e0 e0 ∧
    (∀ v : AVec K, v.Is 3 ![e0, e1, e2] → scale3DV m v = scale3D m e0 e1 e2 ∧
      inverseScale3DV m v = inverseScale3D m e0 e1 e2) ∧
    (e0 ≠ 0 → e1 ≠ 0 → e2 ≠ 0 → ∃ m1 m2, scale3D m e0 e1 e2 = .ok m1 ∧
      inverseScale3D m e0 e1 e2 = .ok m2 ∧ m.SameShape m2 ∧ m2.IdOutside 3 ∧
      ∀ x, affOf m2 3 (affOf m1 3 x) = x ∧ affOf m1 3 (affOf m2 3 x) = x) ∧
    ((e0 = 0 ∨ e1 = 0 ∨ e2 = 0) → inverseScale3D m e0 e1 e2 = .ub .divZero) := by
  refine ⟨rfl, ?_, ?_, ?_⟩
  · rintro v ⟨hs, hx⟩
    have a0 : v.el 0 = e0 := by simpa [AVec.vec] using congrFun hx 0
    have a1 : v.el 1 = e1 := by simpa [AVec.vec] using congrFun hx 1
    have a2 : v.el 2 = e2 := by simpa [AVec.vec] using congrFun hx 2
    constructor
    · lin_run [scale3DV, AVec.checkSize_ok hs, a0, a1, a2]
    · lin_run [inverseScale3DV, AVec.checkSize_ok hs, a0, a1, a2]
  · intro h0 h1 h2
    obtain ⟨m1, g1, -, -, -, g2, -⟩ := scale3D_spec h e0 e1 e2
    obtain ⟨m2, g3, g4, g5, -, g6, -⟩ := scale3D_spec h (1 / e0) (1 / e1) (1 / e2)
    refine ⟨m1, m2, g1, ?_, g4, g5, fun x => ⟨?_, ?_⟩⟩
    · simp [inverseScale3D, divR, h0, h1, h2]
      simpa using g3
    · rw [g6, g2]
      funext i
      fin_cases i <;> simp [h0, h1, h2]
    · rw [g2, g6]
      funext i
      fin_cases i <;> simp [h0, h1, h2]
  · intro h0
    unfold inverseScale3D divR
    by_cases a : e0 = 0
    · simp [a]
    · by_cases b : e1 = 0
      · simp [a, b]
      · simp [a, b, show e2 = 0 by tauto]

/-- C63, two dimensions: `matrix_scale_2D`. -/
theorem scale2D_spec [CommRing K] {m : BMat K} (h : m.HasAff 2) (e0 e1 : K) :
    ∃ m', scale2D m e0 e1 = .ok m' ∧ m.SameShape m' ∧ m'.IdOutside 2 ∧
      linOf m' 2 = Matrix.diagonal ![e0, e1] ∧ (∀ x, affOf m' 2 x = ![e0 * x 0, e1 * x 1]) := by
  have hb := (hasAff_iff m 2).1 h
  obtain ⟨m', h1, h2, h3, h4, h5⟩ : ∃ m', scale2D m e0 e1 = .ok m' ∧ m.SameShape m' ∧
      m'.IdOutside 2 ∧ linOf m' 2 = Matrix.diagonal ![e0, e1] ∧ transOf m' 2 = 0 := by
    lin_run [scale2D, checkAffine2D_ok h]
    refine ⟨⟨by simp, by simp, by simp, by simp⟩, ?_, ?_, ?_⟩
    · rw [idOutside_iff]
      intro i j _ _ hn
      simp only [bel_bset, bel_identity]
      repeat rw [if_neg (show ¬(i = _ ∧ j = _) by omega)]
    · ext r c
      fin_cases r <;> fin_cases c <;> simp [linOf_apply, bel_bset, bel_identity, Matrix.diagonal]
    · funext i
      fin_cases i <;> simp [transOf_apply, bel_bset, bel_identity]
  refine ⟨m', h1, h2, h3, h4, ?_⟩
  intro x
  rw [affOf_scale h4 h5]
  funext i
  fin_cases i <;> simp

/-- C63, two dimensions: the other forms of `matrix_scale_2D` and its inverse. -/
theorem inverseScale2D_spec [Field K] [DecidableEq K] {m : BMat K} (h : m.HasAff 2) (e0 e1 : K) :
    uniformScale2D m e0 = scale2D m e0 e0 ∧
    (∀ v : AVec K, v.Is 2 ![e0, e1] → scale2DV m v = scale2D m e0 e1 ∧
      inverseScale2DV m v = inverseScale2D m e0 e1) ∧
    (e0 ≠ 0 → e1 ≠ 0 → ∃ m1 m2, scale2D m e0 e1 = .ok m1 ∧
      inverseScale2D m e0 e1 = .ok m2 ∧ m.SameShape m2 ∧ m2.IdOutside 2 ∧
      ∀ x, affOf m2 2 (affOf m1 2 x) = x ∧ affOf m1 2 (affOf m2 2 x) = x) ∧
    ((e0 = 0 ∨ e1 = 0) → inverseScale2D m e0 e1 = .ub .divZero) := by
  refine ⟨rfl, ?_, ?_, ?_⟩
  · rintro v ⟨hs, hx⟩
    have a0 : v.el 0 = e0 := by simpa [AVec.vec] using congrFun hx 0
    have a1 : v.el 1 = e1 := by simpa [AVec.vec] using congrFun hx 1
    constructor
    · lin_run [scale2DV, AVec.checkSize_ok hs, a0, a1]
    · lin_run [inverseScale2DV, AVec.checkSize_ok hs, a0, a1]
  · intro h0 h1
    obtain ⟨m1, g1, -, -, -, g2⟩ := scale2D_spec h e0 e1
    obtain ⟨m2, g3, g4, g5, -, g6⟩ := scale2D_spec h (1 / e0) (1 / e1)
    refine ⟨m1, m2, g1, ?_, g4, g5, fun x => ⟨?_, ?_⟩⟩
    · simp [inverseScale2D, divR, h0, h1]
      simpa using g3
    · rw [g6, g2]
      funext i
      fin_cases i <;> simp [h0, h1]
    · rw [g2, g6]
      funext i
      fin_cases i <;> simp [h0, h1]
  · intro h0
    unfold inverseScale2D divR
    by_cases a : e0 = 0
    · simp [a]
    · simp [a, show e1 = 0 by tauto]

/-- C63: scale builders reject matrices without room for a translation (3×4 / 4×3), and vectors of the
wrong size. -/
theorem scale_throws [Zero K] [One K] (m : BMat K) :
    (¬m.HasAff 3 → ∀ e0 e1 e2, scale3D m e0 e1 e2 = .throw m.minErr) ∧
    (¬m.HasAff 2 → ∀ e0 e1, scale2D m e0 e1 = .throw m.minErr) ∧
    (∀ v : AVec K, v.size ≠ 3 → scale3DV m v = .throw v.sizeErr) ∧
    (∀ v : AVec K, v.size ≠ 2 → scale2DV m v = .throw v.sizeErr) := by
  refine ⟨fun h _ _ _ => ?_, fun h _ _ => ?_, fun v hv => ?_, fun v hv => ?_⟩
  · simp only [scale3D, checkAffine3D_throw h, Res.throw_bind]
  · simp only [scale2D, checkAffine2D_throw h, Res.throw_bind]
  · simp only [scale3DV, AVec.checkSize_throw hv, Res.throw_bind]
  · simp only [scale2DV, AVec.checkSize_throw hv, Res.throw_bind]

/-- Concrete cases for C63, both bases. -/
example : BMat.table (translation (mEx .row) 1 2 3) =
      .ok [[1, 0, 0, 0], [0, 1, 0, 0], [0, 0, 1, 0], [1, 2, 3, 1]] ∧
    BMat.table (translation (mEx .col) 1 2 3) =
      .ok [[1, 0, 0, 1], [0, 1, 0, 2], [0, 0, 1, 3], [0, 0, 0, 1]] ∧
    BMat.table (inverseScale3D (mEx .col) 2 4 (-1)) =
      .ok [[1/2, 0, 0, 0], [0, 1/4, 0, 0], [0, 0, -1, 0], [0, 0, 0, 1]] ∧
    BMat.table (scale2D (BMat.of .row false 3 2 fun _ _ => (7 : ℚ)) 2 3) =
      .ok [[2, 0], [0, 3], [0, 0]] := by
  refine ⟨by decide +kernel, by decide +kernel, by decide +kernel, by decide +kernel⟩

/-! ### C71 -/

/-- C71: `matrix_skew_symmetric` is zero outside of the 3×3 block, its linear part is antisymmetric, and
applying it is the cross product with `v`. -/
theorem skewSymmetric_spec [CommRing K] {m : BMat K} {v : AVec K} {x : Fin 3 → K} (h : m.HasLin 3)
    (hv : v.Is 3 x) :
    ∃ m', skewSymmetric m v = .ok m' ∧ m.SameShape m' ∧
      (∀ i j, ¬(i < 3 ∧ j < 3) → m'.el i j = 0) ∧
      (linOf m' 3).transpose = -linOf m' 3 ∧ (∀ u, (linOf m' 3).mulVec u = crossProduct x u) ∧
      ∀ (p : AVec K) (u : Fin 3 → K), p.Is 3 u →
        ∃ q, transformVector m' p = .ok q ∧ q.Is 3 (crossProduct x u) := by
  obtain ⟨hs, rfl⟩ := hv
  have hb := (hasLin_iff m 3).1 h
  obtain ⟨m', h1, h2, h3, h4⟩ : ∃ m', skewSymmetric m v = .ok m' ∧ m.SameShape m' ∧
      (∀ i j, ¬(i < 3 ∧ j < 3) → m'.bel i j = 0) ∧
      linOf m' 3 = !![0, -v.el 2, v.el 1; v.el 2, 0, -v.el 0; -v.el 1, v.el 0, 0] := by
    lin_run [skewSymmetric, checkLinear3D_ok h, AVec.checkSize_ok hs]
    refine ⟨⟨by simp, by simp, by simp, by simp⟩, ?_, ?_⟩
    · intro i j hij
      simp only [bel_bset, bel_zero]
      repeat rw [if_neg (show ¬(i = _ ∧ j = _) by omega)]
    · ext r c
      fin_cases r <;> fin_cases c <;> simp [linOf_apply, bel_bset, bel_zero]
  have hu : ∀ u, (linOf m' 3).mulVec u = crossProduct (v.vec 3) u := by
    intro u
    rw [h4, cross_apply]
    funext i
    fin_cases i <;> simp [Matrix.mulVec, dotProduct, Fin.sum_univ_three, AVec.vec] <;> ring
  refine ⟨m', h1, h2, ?_, ?_, hu, ?_⟩
  · intro i j hij
    unfold bel at h3
    cases hm : m'.basis <;> simp only [hm] at h3
    · exact h3 i j hij
    · exact h3 j i (by tauto)
  · rw [h4]
    ext r c
    fin_cases r <;> fin_cases c <;> simp
  · intro p u hp
    obtain ⟨q, q1, q2⟩ := transformVector_spec (h2.hasLin h) hp
    exact ⟨q, q1, hu u ▸ q2⟩

/-- C71, two dimensions: `matrix_skew_symmetric_2D(m, s)` maps `(a, b)` to `(-s b, s a)`. -/
theorem skewSymmetric2D_spec [CommRing K] {m : BMat K} (h : m.HasLin 2) (s : K) :
    ∃ m', skewSymmetric2D m s = .ok m' ∧ m.SameShape m' ∧
      (∀ i j, ¬(i < 2 ∧ j < 2) → m'.el i j = 0) ∧
      (linOf m' 2).transpose = -linOf m' 2 ∧ ∀ u, (linOf m' 2).mulVec u = ![-s * u 1, s * u 0] := by
  have hb := (hasLin_iff m 2).1 h
  obtain ⟨m', h1, h2, h3, h4⟩ : ∃ m', skewSymmetric2D m s = .ok m' ∧ m.SameShape m' ∧
      (∀ i j, ¬(i < 2 ∧ j < 2) → m'.bel i j = 0) ∧ linOf m' 2 = !![0, -s; s, 0] := by
    lin_run [skewSymmetric2D, checkLinear2D_ok h]
    refine ⟨⟨by simp, by simp, by simp, by simp⟩, ?_, ?_⟩
    · intro i j hij
      simp only [bel_bset, bel_zero]
      repeat rw [if_neg (show ¬(i = _ ∧ j = _) by omega)]
    · ext r c
      fin_cases r <;> fin_cases c <;> simp [linOf_apply, bel_bset, bel_zero]
  refine ⟨m', h1, h2, ?_, ?_, ?_⟩
  · intro i j hij
    unfold bel at h3
    cases hm : m'.basis <;> simp only [hm] at h3
    · exact h3 i j hij
    · exact h3 j i (by tauto)
  · rw [h4]
    ext r c
    fin_cases r <;> fin_cases c <;> simp
  · intro u
    rw [h4]
    funext i
    fin_cases i <;> simp [Matrix.mulVec, dotProduct, Fin.sum_univ_two]

/-- C71: size errors. -/
theorem skewSymmetric_throws [CommRing K] (m : BMat K) (v : AVec K) :
    (¬m.HasLin 3 → skewSymmetric m v = .throw m.minErr) ∧
    (m.HasLin 3 → v.size ≠ 3 → skewSymmetric m v = .throw v.sizeErr) ∧
    (¬m.HasLin 2 → ∀ s, skewSymmetric2D m s = .throw m.minErr) := by
  refine ⟨fun h => ?_, fun h hv => ?_, fun h s => ?_⟩
  · simp only [skewSymmetric, checkLinear3D_throw h, Res.throw_bind]
  · simp only [skewSymmetric, checkLinear3D_ok h, AVec.checkSize_throw hv, Res.throw_bind, Res.ok_bind]
  · simp only [skewSymmetric2D, checkLinear2D_throw h, Res.throw_bind]

/-- A concrete case for C71. -/
example : BMat.table (skewSymmetric (BMat.of .col true 3 3 fun _ _ => (9 : ℚ)) (AVec.of true ![1, 2, 3])) =
    .ok [[0, -3, 2], [3, 0, -1], [-2, 1, 0]] := by decide +kernel

/-! ### C72 -/

theorem linLoop_ok [Zero K] [One K] {m : BMat K} (h : m.HasLin 3) (g : Nat → Nat → K)
    (src : BMat K → Nat → Nat → Res K)
    (hsrc : ∀ M i j, M.SameShape m → i < 3 → j < 3 →
      (∀ p q, M.bel p q = if p < i ∧ q < 3 ∨ p = i ∧ q < j then g p q else
        if p = q then 1 else 0) → src M i j = .ok (g i j)) :
    ∃ m', Res.loop (fun i M => Res.loop (fun j (M : BMat K) => do
        let e ← src M i j
        M.bput i j e) 0 3 M) 0 3 m.identity = .ok m' ∧ m.SameShape m' ∧
      ∀ p q, m'.bel p q = if p < 3 ∧ q < 3 then g p q else if p = q then 1 else 0 := by
  have hb := (hasLin_iff m 3).1 h
  obtain ⟨m', h1, h2, h3⟩ := Res.loop_inv (lo := 0) (n := 3) (s := m.identity)
    (body := fun i M => Res.loop (fun j (M : BMat K) => do
        let e ← src M i j
        M.bput i j e) 0 3 M)
    (fun i M => m.SameShape M ∧ ∀ p q, M.bel p q = if p < i ∧ q < 3 then g p q else
      if p = q then 1 else 0)
    ⟨SameShape.identity m, fun p q => by simp [bel_identity]⟩
    (by
      rintro i M - hi ⟨hS, hM⟩
      rw [Nat.zero_add] at hi
      obtain ⟨M', g1, g2, g3⟩ := Res.loop_inv (lo := 0) (n := 3) (s := M)
        (body := fun j (M : BMat K) => do
          let e ← src M i j
          M.bput i j e)
        (fun j M => m.SameShape M ∧ ∀ p q, M.bel p q = if p < i ∧ q < 3 ∨ p = i ∧ q < j then g p q
          else if p = q then 1 else 0)
        ⟨hS, fun p q => by rw [hM]; simp⟩
        (by
          rintro j M - hj ⟨hS, hM⟩
          rw [Nat.zero_add] at hj
          have hS' := hS
          rw [hsrc M i j hS.symm hi hj hM, Res.ok_bind,
            bput_ok (by rw [hS.bcount]; omega) (by rw [hS.bsize]; omega)]
          refine ⟨_, rfl, hS'.trans (SameShape.bset _ _ _ _), fun p q => ?_⟩
          rw [bel_bset, hM]
          by_cases e : p = i ∧ q = j
          · rw [if_pos e, if_pos (by omega), e.1, e.2]
          · rw [if_neg e]
            by_cases e' : p < i ∧ q < 3 ∨ p = i ∧ q < j
            · rw [if_pos e', if_pos (by omega)]
            · rw [if_neg e', if_neg (show ¬(p < i ∧ q < 3 ∨ p = i ∧ q < j + 1) by omega)])
      refine ⟨M', g1, g2, fun p q => ?_⟩
      rw [g3]
      by_cases e' : p < i + 1 ∧ q < 3
      · rw [if_pos e', if_pos (by omega)]
      · rw [if_neg e', if_neg (by omega)])
  exact ⟨m', h1, h2, fun p q => by simpa using h3 p q⟩

/-- C72, the part that holds: `matrix_linear_transform(m, l)` with `l` another matrix gives the
transform with linear part `l`, and the identity elsewhere.  (Missing from C72: the case where `l` is
`m` itself, see `linearTransform_own_false`.) -/
theorem linearTransform_partial [Zero K] [One K] {m l : BMat K} (h : m.HasLin 3) (hl : l.HasLin 3) :
    ∃ m', linearTransform m (.other l) = .ok m' ∧ m.SameShape m' ∧ m'.IdOutside 3 ∧
      linOf m' 3 = linOf l 3 := by
  have hlb := (hasLin_iff l 3).1 hl
  obtain ⟨m', h1, h2, h3⟩ := linLoop_ok h (fun p q => l.bel p q) (fun _ i j => l.bget i j)
    (fun M i j _ hi hj _ => bget_ok (by omega) (by omega))
  refine ⟨m', ?_, h2, ?_, ?_⟩
  · simp only [linearTransform, LinSrc.mat, checkLinear3D_ok h, checkLinear3D_ok hl, Res.ok_bind]
    exact h1
  · rw [idOutside_iff]
    intro i j _ _ hn
    rw [h3, if_neg hn]
  · refine linOf_eq_of _ _ _ fun i j hi hj => ?_
    rw [h3, if_pos ⟨hi, hj⟩]

/-- C72 fails when the source is the target: `matrix_linear_transform(m, m)` gives the identity
transform, whatever `m` was. -/
theorem linearTransform_own [Zero K] [One K] {m : BMat K} (h : m.HasLin 3) :
    ∃ m', linearTransform m .own = .ok m' ∧ m.SameShape m' ∧ m'.IdOutside 3 ∧ linOf m' 3 = 1 := by
  have hb := (hasLin_iff m 3).1 h
  obtain ⟨m', h1, h2, h3⟩ := linLoop_ok h (fun p q => if p = q then 1 else 0) (fun M i j => M.bget i j)
    (fun M i j hS hi hj hM => by
      rw [bget_ok (by rw [hS.symm.bcount]; omega) (by rw [hS.symm.bsize]; omega), hM]
      simp)
  refine ⟨m', ?_, h2, ?_, ?_⟩
  · simp only [linearTransform, LinSrc.mat, checkLinear3D_ok h, Res.ok_bind]
    exact h1
  · rw [idOutside_iff]
    intro i j _ _ hn
    rw [h3, if_neg hn]
  · ext r c
    rw [linOf_apply, h3]
    simp [Matrix.one_apply, Fin.ext_iff, eq_comm]

/-- C72 is false: a matrix and its own linear transform with different linear parts. -/
theorem linearTransform_own_false :
    ¬∀ m : BMat ℚ, m.HasLin 3 → ∃ m', linearTransform m .own = .ok m' ∧ linOf m' 3 = linOf m 3 := by
  intro H
  have h : (mEx .col).HasLin 3 := by simp [BMat.HasLin, mEx, BMat.of]
  obtain ⟨m', e1, e2⟩ := H (mEx .col) h
  obtain ⟨m'', e3, -, -, e4⟩ := linearTransform_own h
  rw [e1] at e3
  cases e3
  rw [e2] at e4
  exact absurd (congrFun (congrFun e4 0) 0) (by decide +kernel)

/-- C72, the part that holds: `matrix_affine_transform(m, l, t)` with `l` another matrix gives the
affine map `x ↦ l x + t`.  (Missing: `l` the target itself.) -/
theorem affineTransform_partial [CommRing K] {m l : BMat K} {t : AVec K} {y : Fin 3 → K}
    (h : m.HasAff 3) (hl : l.HasLin 3) (ht : t.Is 3 y) :
    ∃ m', affineTransform m (.other l) t = .ok m' ∧ m.SameShape m' ∧ m'.IdOutsideAff 3 ∧
      ∀ x, affOf m' 3 x = (linOf l 3).mulVec x + y := by
  obtain ⟨m1, a1, a2, a3, a4⟩ := linearTransform_partial h.hasLin hl
  obtain ⟨m2, b1, b2, b3, b4⟩ := setTranslation_spec (a2.hasAff h) (y 0) (y 1) (y 2)
  have hbel : ∀ i j, ¬(i = 3 ∧ j < 3) → m2.bel i j = m1.bel i j := by
    intro i j hij
    have hb : m2.basis = m1.basis := b2.basis
    unfold bel
    rw [hb]
    cases hm : m1.basis
    · exact b4 i j (by unfold TransPos; rw [hm]; exact hij)
    · exact b4 j i (by unfold TransPos; rw [hm]; exact hij)
  refine ⟨m2, ?_, a2.trans b2, ?_, fun x => ?_⟩
  · simp only [affineTransform, checkAffine3D_ok h, a1, Res.ok_bind]
    rw [(setTranslation_variants (a2.hasAff h)).2.1 t y ht, b1]
  · rw [idOutsideAff_iff]
    intro i j hi hj hn hn'
    rw [hbel i j hn']
    rw [b2.bcount] at hi
    rw [b2.bsize] at hj
    exact (idOutside_iff m1 3).1 a3 i j hi hj hn
  · have : linOf m2 3 = linOf l 3 := by
      rw [← a4]
      exact linOf_eq_of _ _ _ fun i j hi hj => hbel i j (by omega)
    rw [affOf, this, b3]
    congr 1
    funext i
    fin_cases i <;> rfl

/-- C72 is false for `matrix_affine_transform(m, m, t)` too: only the translation survives. -/
theorem affineTransform_own_false :
    BMat.table (affineTransform (mEx .row) .own (AVec.of true ![1, 2, 3])) =
      .ok [[1, 0, 0, 0], [0, 1, 0, 0], [0, 0, 1, 0], [1, 2, 3, 1]] ∧
    linOf (mEx .row) 3 ≠ 1 := by
  refine ⟨by decide +kernel, fun h => ?_⟩
  exact absurd (congrFun (congrFun h 0) 0) (by decide +kernel)

/-- A concrete case for the partial theorems of C72. -/
example : BMat.table (affineTransform (mEx .row) (.other (mEx .col)) (AVec.of true ![1, 2, 3])) =
    .ok [[2, 0, 0, 0], [0, 0, 1, 0], [0, 1, 0, 0], [1, 2, 3, 1]] := by decide +kernel

end
end CML

#print axioms CML.setTranslation_spec
#print axioms CML.setTranslation_variants
#print axioms CML.getTranslation_spec
#print axioms CML.set_get_translation
#print axioms CML.translation_spec
#print axioms CML.translation_variants
#print axioms CML.setTranslation_throws
#print axioms CML.setTranslation2D_spec
#print axioms CML.getTranslation2D_spec
#print axioms CML.translation2D_spec
#print axioms CML.scale3D_spec
#print axioms CML.inverseScale3D_spec
#print axioms CML.scale2D_spec
#print axioms CML.inverseScale2D_spec
#print axioms CML.scale_throws
#print axioms CML.skewSymmetric_spec
#print axioms CML.skewSymmetric2D_spec
#print axioms CML.skewSymmetric_throws
#print axioms CML.linearTransform_partial
#print axioms CML.linearTransform_own
#print axioms CML.linearTransform_own_false
#print axioms CML.affineTransform_partial
#print axioms CML.affineTransform_own_false
