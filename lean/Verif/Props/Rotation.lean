import Verif.Lemmas.Rotation
import Verif.Props.Transform

/-!
C49 (rotation about a coordinate axis), C50 (axis and angle), C51 (Euler angles), C70 (rotation of a
vector).  Rotations are compared with Rodrigues' formula (`rodrigues`), whose properties are proved
here as well.
-/

namespace CML
open Matrix BMat

/-! ### Rodrigues' formula is what it should be -/

/-- For a unit axis, `rodrigues u θ` is a rotation that fixes `u`; a vector orthogonal to `u` is turned
by `θ`, counterclockwise seen against `u`; angles add; the trace is `1 + 2 cos θ`. -/
theorem rodrigues_spec {u : Fin 3 → ℝ} (hu : u ⬝ᵥ u = 1) (θ : ℝ) :
    IsRotation (rodrigues u θ) ∧ rodrigues u θ *ᵥ u = u ∧
    (∀ v, u ⬝ᵥ v = 0 → u ⬝ᵥ (rodrigues u θ *ᵥ v) = 0 ∧
      v ⬝ᵥ (rodrigues u θ *ᵥ v) = Real.cos θ * (v ⬝ᵥ v) ∧
      crossProduct v (rodrigues u θ *ᵥ v) = (Real.sin θ * (v ⬝ᵥ v)) • u) ∧
    (∀ φ, rodrigues u φ * rodrigues u θ = rodrigues u (φ + θ)) ∧
    (rodrigues u θ).trace = 1 + 2 * Real.cos θ := by
  refine ⟨rodrigues_isRotation hu θ, rodrigues_axis hu θ, fun v hv => ?_,
    fun φ => rodrigues_mul hu φ θ, rodrigues_trace hu θ⟩
  rw [rodrigues_mulVec, hv]
  refine ⟨?_, ?_, ?_⟩
  · simp [dotProduct_add, hv]
  · have : v ⬝ᵥ crossProduct u v = 0 := by
      simp [cross_apply, dotProduct, Fin.sum_univ_three]; ring
    simp [dotProduct_add, this]
  · simp only [map_add, map_smul, cross_self, mul_zero, zero_smul, smul_zero, zero_add, add_zero]
    simp only [dotProduct, Fin.sum_univ_three] at hv ⊢
    funext i
    fin_cases i <;> simp [cross_apply]
    · linear_combination (-Real.sin θ * v 0) * hv
    · linear_combination (-Real.sin θ * v 1) * hv
    · linear_combination (-Real.sin θ * v 2) * hv

example : (![3/5, 0, 4/5] : Fin 3 → ℝ) ⬝ᵥ ![3/5, 0, 4/5] = 1 := by norm_num

/-! ### C49 -/

/-- C49: `matrix_rotation_world_axis` stores the rotation about the coordinate axis, in either basis,
and the identity outside of the 3x3 block. -/
theorem rotationWorldAxis_spec {m : BMat ℝ} (h : m.HasLin 3) (axis : Fin 3) (a : ℝ) :
    ∃ m', rotationWorldAxis m axis a = .ok m' ∧ m.SameShape m' ∧ m'.IdOutside 3 ∧
      linOf m' 3 = rodrigues (unitVec axis) a := by
  have hb := (hasLin_iff m 3).1 h
  fin_cases axis
  · lin_run [rotationWorldAxis, checkLinear3D_ok h, show cyclicPermutation3 (Int.toNat ((0 : Nat) : Int)) = (0, 1, 2) from rfl,
      Res.require, show decide (0 ≤ ((0 : Nat) : Int) ∧ ((0 : Nat) : Int) ≤ 2) = true from rfl, if_true]
    refine ⟨by constructor <;> simp, ?_, ?_⟩
    · rw [idOutside_iff]
      intro i j _ _ hij
      simp only [bel_bset, bel_identity]
      repeat rw [if_neg (by omega)]
    · ext r c
      fin_cases r <;> fin_cases c <;> simp [linOf_apply, bel_bset, bel_identity, rodrigues_x]
  · lin_run [rotationWorldAxis, checkLinear3D_ok h, show cyclicPermutation3 (Int.toNat ((1 : Nat) : Int)) = (1, 2, 0) from rfl,
      Res.require, show decide (0 ≤ ((1 : Nat) : Int) ∧ ((1 : Nat) : Int) ≤ 2) = true from rfl, if_true]
    refine ⟨by constructor <;> simp, ?_, ?_⟩
    · rw [idOutside_iff]
      intro i j _ _ hij
      simp only [bel_bset, bel_identity]
      repeat rw [if_neg (by omega)]
    · ext r c
      fin_cases r <;> fin_cases c <;> simp [linOf_apply, bel_bset, bel_identity, rodrigues_y]
  · lin_run [rotationWorldAxis, checkLinear3D_ok h, show cyclicPermutation3 (Int.toNat ((2 : Nat) : Int)) = (2, 0, 1) from rfl,
      Res.require, show decide (0 ≤ ((2 : Nat) : Int) ∧ ((2 : Nat) : Int) ≤ 2) = true from rfl, if_true]
    refine ⟨by constructor <;> simp, ?_, ?_⟩
    · rw [idOutside_iff]
      intro i j _ _ hij
      simp only [bel_bset, bel_identity]
      repeat rw [if_neg (by omega)]
    · ext r c
      fin_cases r <;> fin_cases c <;> simp [linOf_apply, bel_bset, bel_identity, rodrigues_z]

example : (⟨⟨3, 4, fun _ _ => 0⟩, .col, true⟩ : BMat ℝ).HasLin 3 := by constructor <;> decide

/-- C49: the result is a rotation that fixes the axis. -/
theorem rotationWorldAxis_rotation {m : BMat ℝ} (h : m.HasLin 3) (axis : Fin 3) (a : ℝ) :
    ∃ m', rotationWorldAxis m axis a = .ok m' ∧ IsRotation (linOf m' 3) ∧
      linOf m' 3 *ᵥ Pi.single axis 1 = Pi.single axis 1 := by
  obtain ⟨m', h1, -, -, h4⟩ := rotationWorldAxis_spec h axis a
  refine ⟨m', h1, ?_, ?_⟩
  · rw [h4]; exact rodrigues_isRotation (unitVec_unit _) _
  · rw [h4]; exact rodrigues_axis (unitVec_unit _) _

/-- C49: concatenating two rotations about the same axis adds the angles: the result is the rotation by
the sum, element by element. -/
theorem rotationWorldAxis_concat {m1 m2 m3 : BMat ℝ} (hr1 : m1.rows = 3) (hc1 : m1.cols = 3)
    (hr2 : m2.rows = 3) (hc2 : m2.cols = 3) (h3 : m3.HasLin 3) (hb : m1.basis = m2.basis)
    (hb3 : m3.basis = m1.basis) (axis : Fin 3) (a b : ℝ) :
    ∃ m1' m2' m m3', rotationWorldAxis m1 axis a = .ok m1' ∧ rotationWorldAxis m2 axis b = .ok m2' ∧
      matrixConcat m1' m2' = .ok m ∧ rotationWorldAxis m3 axis (a + b) = .ok m3' ∧
      ∀ i j, i < 3 → j < 3 → m.el i j = m3'.el i j := by
  obtain ⟨m1', e1, s1, -, l1⟩ := rotationWorldAxis_spec (m := m1) ⟨hr1.ge, hc1.ge⟩ axis a
  obtain ⟨m2', e2, s2, -, l2⟩ := rotationWorldAxis_spec (m := m2) ⟨hr2.ge, hc2.ge⟩ axis b
  obtain ⟨m3', e3, s3, -, l3⟩ := rotationWorldAxis_spec h3 axis (a + b)
  obtain ⟨m, e4, -, -, hb', l4⟩ := concat_linOf (s1.rows.trans hr1) (s1.cols.trans hc1)
    (s2.rows.trans hr2) (s2.cols.trans hc2) (s1.basis.trans (hb.trans s2.basis.symm))
  refine ⟨m1', m2', m, m3', e1, e2, e4, e3, ?_⟩
  rw [l1, l2, rodrigues_mul (unitVec_unit _), add_comm, ← l3] at l4
  exact el_eq_of_linOf (by rw [hb', s1.basis, s3.basis, hb3]) l4

/-- C49: the functions named after an axis are the general one. -/
theorem rotationWorldXYZ (m : BMat ℝ) (a : ℝ) :
    rotationWorldX m a = rotationWorldAxis m (0 : Fin 3) a ∧
    rotationWorldY m a = rotationWorldAxis m (1 : Fin 3) a ∧
    rotationWorldZ m a = rotationWorldAxis m (2 : Fin 3) a := ⟨rfl, rfl, rfl⟩

/-- C49: a matrix that is too small is rejected (at compile time or with
`minimum_matrix_size_error`); other axes are rejected with `std::invalid_argument`. -/
theorem rotationWorldAxis_throws (m : BMat ℝ) (axis : Int) (a : ℝ) :
    (¬m.HasLin 3 → rotationWorldAxis m axis a =
      .throw (if m.fixed then .staticAssert else .matMinimum)) ∧
    (m.HasLin 3 → (axis < 0 ∨ 2 < axis) → rotationWorldAxis m axis a = .throw .invalidArgument) := by
  refine ⟨fun h => ?_, fun h ha => ?_⟩
  · rw [rotationWorldAxis, checkLinear3D_throw h]; rfl
  · rw [rotationWorldAxis, checkLinear3D_ok h]
    have : decide (0 ≤ axis ∧ axis ≤ 2) = false := by simp; omega
    simp [Res.require, this]

/-- C49: `matrix_rotation_2D` stores the counterclockwise rotation of the plane, a rotation. -/
theorem rotation2D_spec {m : BMat ℝ} (h : m.HasLin 2) (a : ℝ) :
    ∃ m', rotation2D m a = .ok m' ∧ m.SameShape m' ∧ m'.IdOutside 2 ∧ linOf m' 2 = planeRot a ∧
      IsRotation (linOf m' 2) := by
  have hb := (hasLin_iff m 2).1 h
  lin_run [rotation2D, checkLinear2D_ok h]
  have hl : linOf ((((m.identity.bset 0 0 (Real.cos a)).bset 0 1 (Real.sin a)).bset 1 0
      (-Real.sin a)).bset 1 1 (Real.cos a)) 2 = planeRot a := by
    ext r c
    fin_cases r <;> fin_cases c <;> simp [linOf_apply, bel_bset, bel_identity, planeRot]
  refine ⟨by constructor <;> simp, ?_, hl, ?_⟩
  · rw [idOutside_iff]
    intro i j _ _ hij
    simp only [bel_bset, bel_identity]
    repeat rw [if_neg (by omega)]
  · rw [hl]; exact planeRot_isRotation a

/-- C49: rotations of the plane add their angles under concatenation. -/
theorem rotation2D_concat {m1 m2 m3 : BMat ℝ} (hr1 : m1.rows = 2) (hc1 : m1.cols = 2)
    (hr2 : m2.rows = 2) (hc2 : m2.cols = 2) (h3 : m3.HasLin 2) (hb : m1.basis = m2.basis)
    (hb3 : m3.basis = m1.basis) (a b : ℝ) :
    ∃ m1' m2' m m3', rotation2D m1 a = .ok m1' ∧ rotation2D m2 b = .ok m2' ∧
      matrixConcat m1' m2' = .ok m ∧ rotation2D m3 (a + b) = .ok m3' ∧
      ∀ i j, i < 2 → j < 2 → m.el i j = m3'.el i j := by
  obtain ⟨m1', e1, s1, -, l1, -⟩ := rotation2D_spec (m := m1) ⟨hr1.ge, hc1.ge⟩ a
  obtain ⟨m2', e2, s2, -, l2, -⟩ := rotation2D_spec (m := m2) ⟨hr2.ge, hc2.ge⟩ b
  obtain ⟨m3', e3, s3, -, l3, -⟩ := rotation2D_spec h3 (a + b)
  obtain ⟨m, e4, -, -, hb', l4⟩ := concat_linOf (s1.rows.trans hr1) (s1.cols.trans hc1)
    (s2.rows.trans hr2) (s2.cols.trans hc2) (s1.basis.trans (hb.trans s2.basis.symm))
  refine ⟨m1', m2', m, m3', e1, e2, e4, e3, ?_⟩
  rw [l1, l2, planeRot_mul, add_comm, ← l3] at l4
  exact el_eq_of_linOf (by rw [hb', s1.basis, s3.basis, hb3]) l4

/-- C49: a matrix that is too small for a rotation of the plane is rejected. -/
theorem rotation2D_throws {m : BMat ℝ} (h : ¬m.HasLin 2) (a : ℝ) :
    rotation2D m a = .throw (if m.fixed then .staticAssert else .matMinimum) := by
  rw [rotation2D, checkLinear2D_throw h]; rfl

/-! ### C50, C70 -/

/-- C50: `matrix_rotation_axis_angle` stores Rodrigues' matrix of the axis and angle, for any axis
vector, in either basis, and the identity outside of the 3x3 block. -/
theorem rotationAxisAngle_spec {m : BMat ℝ} {v : AVec ℝ} {u : Fin 3 → ℝ} (h : m.HasLin 3)
    (hv : v.Is 3 u) (a : ℝ) :
    ∃ m', rotationAxisAngle m v a = .ok m' ∧ m.SameShape m' ∧ m'.IdOutside 3 ∧
      linOf m' 3 = rodrigues u a := by
  obtain ⟨hs, rfl⟩ := hv
  have hb := (hasLin_iff m 3).1 h
  have hi : m.identity.HasLin 3 := h
  lin_run [rotationAxisAngle, checkLinear3D_ok h, AVec.checkSize_ok hs]
  obtain ⟨m', e, s, o, h00, h01, h02, h10, h11, h12, h20, h21, h22⟩ := bput9_ok hi
    (i := 0) (j := 1) (k := 2) (by decide) (by decide) (by decide) (by decide) (by decide) (by decide)
    (v.el 0 * (v.el 0 * (1 - Real.cos a)) + Real.cos a)
    (v.el 0 * (v.el 1 * (1 - Real.cos a)) + v.el 2 * Real.sin a)
    (v.el 2 * (v.el 0 * (1 - Real.cos a)) - v.el 1 * Real.sin a)
    (v.el 0 * (v.el 1 * (1 - Real.cos a)) - v.el 2 * Real.sin a)
    (v.el 1 * (v.el 1 * (1 - Real.cos a)) + Real.cos a)
    (v.el 1 * (v.el 2 * (1 - Real.cos a)) + v.el 0 * Real.sin a)
    (v.el 2 * (v.el 0 * (1 - Real.cos a)) + v.el 1 * Real.sin a)
    (v.el 1 * (v.el 2 * (1 - Real.cos a)) - v.el 0 * Real.sin a)
    (v.el 2 * (v.el 2 * (1 - Real.cos a)) + Real.cos a)
  refine ⟨m', e, (SameShape.identity m).trans s, ?_, ?_⟩
  · rw [idOutside_iff]
    intro i j _ _ hij
    rw [o i j hij, bel_identity]
  · ext r c
    fin_cases r <;> fin_cases c <;>
      simp [linOf_apply, rodrigues_eq, AVec.vec, h00, h01, h02, h10, h11, h12, h20, h21, h22] <;> ring

/-- C50: for a unit axis the result is a rotation that fixes the axis, with trace `1 + 2 cos`. -/
theorem rotationAxisAngle_rotation {m : BMat ℝ} {v : AVec ℝ} {u : Fin 3 → ℝ} (h : m.HasLin 3)
    (hv : v.Is 3 u) (hu : u ⬝ᵥ u = 1) (a : ℝ) :
    ∃ m', rotationAxisAngle m v a = .ok m' ∧ IsRotation (linOf m' 3) ∧ linOf m' 3 *ᵥ u = u ∧
      trace3 m' = .ok (1 + 2 * Real.cos a) := by
  obtain ⟨m', h1, h2, -, h4⟩ := rotationAxisAngle_spec h hv a
  refine ⟨m', h1, ?_, ?_, ?_⟩
  · rw [h4]; exact rodrigues_isRotation hu a
  · rw [h4]; exact rodrigues_axis hu a
  · have ht := rodrigues_trace hu a
    rw [← h4, Matrix.trace_fin_three] at ht
    have hl := h2.hasLin h
    rw [trace3_ok hl, ht]

/-- C50: concatenating two rotations about the same unit axis adds the angles. -/
theorem rotationAxisAngle_concat {m1 m2 m3 : BMat ℝ} {v : AVec ℝ} {u : Fin 3 → ℝ} (hr1 : m1.rows = 3)
    (hc1 : m1.cols = 3) (hr2 : m2.rows = 3) (hc2 : m2.cols = 3) (h3 : m3.HasLin 3)
    (hb : m1.basis = m2.basis) (hb3 : m3.basis = m1.basis) (hv : v.Is 3 u) (hu : u ⬝ᵥ u = 1) (a b : ℝ) :
    ∃ m1' m2' m m3', rotationAxisAngle m1 v a = .ok m1' ∧ rotationAxisAngle m2 v b = .ok m2' ∧
      matrixConcat m1' m2' = .ok m ∧ rotationAxisAngle m3 v (a + b) = .ok m3' ∧
      ∀ i j, i < 3 → j < 3 → m.el i j = m3'.el i j := by
  obtain ⟨m1', e1, s1, -, l1⟩ := rotationAxisAngle_spec (m := m1) ⟨hr1.ge, hc1.ge⟩ hv a
  obtain ⟨m2', e2, s2, -, l2⟩ := rotationAxisAngle_spec (m := m2) ⟨hr2.ge, hc2.ge⟩ hv b
  obtain ⟨m3', e3, s3, -, l3⟩ := rotationAxisAngle_spec h3 hv (a + b)
  obtain ⟨m, e4, -, -, hb', l4⟩ := concat_linOf (s1.rows.trans hr1) (s1.cols.trans hc1)
    (s2.rows.trans hr2) (s2.cols.trans hc2) (s1.basis.trans (hb.trans s2.basis.symm))
  refine ⟨m1', m2', m, m3', e1, e2, e4, e3, ?_⟩
  rw [l1, l2, rodrigues_mul hu, add_comm, ← l3] at l4
  exact el_eq_of_linOf (by rw [hb', s1.basis, s3.basis, hb3]) l4

/-- C50: the size checks of `matrix_rotation_axis_angle`. -/
theorem rotationAxisAngle_throws (m : BMat ℝ) (v : AVec ℝ) (a : ℝ) :
    (¬m.HasLin 3 → rotationAxisAngle m v a =
      .throw (if m.fixed then .staticAssert else .matMinimum)) ∧
    (m.HasLin 3 → v.size ≠ 3 → rotationAxisAngle m v a =
      .throw (if v.fixed then .staticAssert else .vecSize)) := by
  refine ⟨fun h => ?_, fun h hv => ?_⟩
  · rw [rotationAxisAngle, checkLinear3D_throw h]; rfl
  · rw [rotationAxisAngle, checkLinear3D_ok h, AVec.checkSize_throw hv]; rfl

/-- C70: `rotate_vector` computes `cos θ (v - p) + sin θ n × v + p` with `p = (v · n) n`, for any `n`. -/
theorem rotateVector_ok {v n : AVec ℝ} {x u : Fin 3 → ℝ} (hv : v.Is 3 x) (hn : n.Is 3 u) (a : ℝ) :
    ∃ w, rotateVector v n a = .ok w ∧ w.Is 3 (Real.cos a • (x - (x ⬝ᵥ u) • u) +
      Real.sin a • crossProduct u x + (x ⬝ᵥ u) • u) := by
  obtain ⟨hs, rfl⟩ := hv
  obtain ⟨ht, rfl⟩ := hn
  have hsz : v.size = n.size := by omega
  simp only [rotateVector, AVec.checkSize_ok hs, AVec.checkSize_ok ht, AVec.dot3_ok hs ht, AVec.sub,
    AVec.cross, AVec.add, AVec.smul, AVec.checkSameSize, Res.require, hsz, ht, decide_true, if_true,
    Res.ok_bind, Res.pure_eq, Res.ok.injEq, exists_eq_left']
  refine ⟨rfl, ?_⟩
  funext i
  fin_cases i <;> simp [AVec.vec, dotProduct, Fin.sum_univ_three, cross_apply] <;> rfl

/-- C50, C70: for any vector and any axis, `rotate_vector` gives what Rodrigues' matrix does to the
vector. -/
theorem rotateVector_rodrigues {v n : AVec ℝ} {x u : Fin 3 → ℝ} (hv : v.Is 3 x) (hn : n.Is 3 u)
    (a : ℝ) : ∃ w, rotateVector v n a = .ok w ∧ w.Is 3 (rodrigues u a *ᵥ x) := by
  obtain ⟨w, h1, h2⟩ := rotateVector_ok hv hn a
  refine ⟨w, h1, ?_⟩
  rw [rodrigues_mulVec]
  convert h2 using 1
  rw [dotProduct_comm u x, smul_sub, sub_mul, one_mul, sub_smul, mul_smul]
  abel

/-- C50: rotating with the matrix and with `rotate_vector` is the same. -/
theorem rotationAxisAngle_rotateVector {m : BMat ℝ} {v n : AVec ℝ} {x u : Fin 3 → ℝ} (h : m.HasLin 3)
    (hv : v.Is 3 x) (hn : n.Is 3 u) (a : ℝ) :
    ∃ m' w, rotationAxisAngle m n a = .ok m' ∧ rotateVector v n a = .ok w ∧
      w.Is 3 (linOf m' 3 *ᵥ x) := by
  obtain ⟨m', h1, -, -, h4⟩ := rotationAxisAngle_spec h hn a
  obtain ⟨w, g1, g2⟩ := rotateVector_rodrigues hv hn a
  exact ⟨m', w, h1, g1, h4 ▸ g2⟩

/-- C70: for a unit axis, `rotate_vector` keeps scalar products (so lengths and angles), cross products
(orientation) and the component along the axis, and undoes its inverse. -/
theorem rotateVector_isometry {v w n : AVec ℝ} {x y u : Fin 3 → ℝ} (hv : v.Is 3 x) (hw : w.Is 3 y)
    (hn : n.Is 3 u) (hu : u ⬝ᵥ u = 1) (a : ℝ) :
    ∃ v' w' v'' p q, rotateVector v n a = .ok v' ∧ rotateVector w n a = .ok w' ∧ v'.Is 3 p ∧ w'.Is 3 q ∧
      p ⬝ᵥ q = x ⬝ᵥ y ∧ u ⬝ᵥ p = u ⬝ᵥ x ∧ rotateVector v' n (-a) = .ok v'' ∧ v''.Is 3 x := by
  obtain ⟨v', h1, h2⟩ := rotateVector_rodrigues hv hn a
  obtain ⟨w', h3, h4⟩ := rotateVector_rodrigues hw hn a
  obtain ⟨v'', h5, h6⟩ := rotateVector_rodrigues h2 hn (-a)
  have hr := (isRotation_iff'.1 (rodrigues_isRotation hu a)).1
  have hd : ∀ p q : Fin 3 → ℝ, (rodrigues u a *ᵥ p) ⬝ᵥ (rodrigues u a *ᵥ q) = p ⬝ᵥ q := by
    intro p q
    rw [Matrix.dotProduct_mulVec, ← Matrix.mulVec_transpose, Matrix.mulVec_mulVec, hr, Matrix.one_mulVec]
  refine ⟨v', w', v'', _, _, h1, h3, h2, h4, hd x y, ?_, h5, ?_⟩
  · have := hd u x
    rwa [rodrigues_axis hu] at this
  · rw [Matrix.mulVec_mulVec, ← rodrigues_transpose, hr, Matrix.one_mulVec] at h6
    exact h6

/-- C70: turning by `a` and then by `b` is turning by `a + b`; the normal stays where it is. -/
theorem rotateVector_add {v n : AVec ℝ} {x u : Fin 3 → ℝ} (hv : v.Is 3 x) (hn : n.Is 3 u)
    (hu : u ⬝ᵥ u = 1) (a b : ℝ) :
    ∃ w w' y n', rotateVector v n a = .ok w ∧ rotateVector w n b = .ok w' ∧
      (∃ w'', rotateVector v n (a + b) = .ok w'' ∧ w''.Is 3 y) ∧ w'.Is 3 y ∧
      rotateVector n n a = .ok n' ∧ n'.Is 3 u := by
  obtain ⟨w, h1, h2⟩ := rotateVector_rodrigues hv hn a
  obtain ⟨w', h3, h4⟩ := rotateVector_rodrigues h2 hn b
  obtain ⟨w'', h5, h6⟩ := rotateVector_rodrigues hv hn (a + b)
  obtain ⟨n', h7, h8⟩ := rotateVector_rodrigues hn hn a
  rw [rodrigues_axis hu] at h8
  rw [Matrix.mulVec_mulVec, rodrigues_mul hu, add_comm b a] at h4
  exact ⟨w, w', _, n', h1, h3, ⟨w'', h5, h6⟩, h4, h7, h8⟩

/-- C70: the size checks. -/
theorem rotateVector_throws (v n : AVec ℝ) (a : ℝ) :
    (v.size ≠ 3 → rotateVector v n a = .throw (if v.fixed then .staticAssert else .vecSize)) ∧
    (v.size = 3 → n.size ≠ 3 → rotateVector v n a =
      .throw (if n.fixed then .staticAssert else .vecSize)) := by
  refine ⟨fun h => ?_, fun h hn => ?_⟩
  · rw [rotateVector, AVec.checkSize_throw h]; rfl
  · rw [rotateVector, AVec.checkSize_ok h, AVec.checkSize_throw hn]; rfl

example : (AVec.of true ![3/5, 0, (4/5 : ℝ)]).Is 3 ![3/5, 0, 4/5] := AVec.of_is _ _

/-! ### C51 -/

/-- C51: `matrix_rotation_euler` rotates about the first named axis first, in all twelve orders and
either basis; outside of the 3x3 block the matrix is the identity. -/
theorem rotationEuler_spec {m : BMat ℝ} (h : m.HasLin 3) (a0 a1 a2 : ℝ) (o : EulerOrder) :
    ∃ m', rotationEuler m a0 a1 a2 o = .ok m' ∧ m.SameShape m' ∧ m'.IdOutside 3 ∧
      linOf m' 3 = eulerRot o a0 a1 a2 := by
  obtain ⟨-, -, -, hi, hj, hk, -, hr⟩ := o.perm_facts
  rw [rotationEuler, checkLinear3D_ok h, Res.ok_bind]
  simp only [hi, hj, hk, EulerOrder.sgn_mul, hr]
  by_cases hrep : o.repeats
  · simp only [hrep, decide_true, if_true]
    obtain ⟨m', e1, e2, e3, e4⟩ := bput9_perm h o.perm _ _ _ _ _ _ _ _ _
    refine ⟨m', e1, e2, e3, submatrix_perm_inj o.perm ?_⟩
    rw [e4, eulerRot_perm, eulerStd_eq, if_pos hrep]
  · simp only [hrep, decide_false, Bool.false_eq_true, if_false]
    obtain ⟨m', e1, e2, e3, e4⟩ := bput9_perm h o.perm _ _ _ _ _ _ _ _ _
    refine ⟨m', e1, e2, e3, submatrix_perm_inj o.perm ?_⟩
    rw [e4, eulerRot_perm, eulerStd_eq, if_neg hrep]

/-- C51: the Euler matrix is a rotation. -/
theorem rotationEuler_rotation {m : BMat ℝ} (h : m.HasLin 3) (a0 a1 a2 : ℝ) (o : EulerOrder) :
    ∃ m', rotationEuler m a0 a1 a2 o = .ok m' ∧ IsRotation (linOf m' 3) := by
  obtain ⟨m', h1, -, -, h4⟩ := rotationEuler_spec h a0 a1 a2 o
  exact ⟨m', h1, h4 ▸ eulerRot_isRotation o a0 a1 a2⟩

/-- C51: the Euler matrix is the concatenation of the three rotations about coordinate axes in the order
of the name, element by element. -/
theorem rotationEuler_concat {m m0 m1 m2 : BMat ℝ} (h : m.HasLin 3)
    (h0 : m0.rows = 3 ∧ m0.cols = 3 ∧ m0.basis = m.basis)
    (h1 : m1.rows = 3 ∧ m1.cols = 3 ∧ m1.basis = m.basis)
    (h2 : m2.rows = 3 ∧ m2.cols = 3 ∧ m2.basis = m.basis) (a0 a1 a2 : ℝ) (o : EulerOrder) :
    ∃ m' r0 r1 r2 p q, rotationEuler m a0 a1 a2 o = .ok m' ∧
      rotationWorldAxis m0 o.axes.1 a0 = .ok r0 ∧ rotationWorldAxis m1 o.axes.2.1 a1 = .ok r1 ∧
      rotationWorldAxis m2 o.axes.2.2 a2 = .ok r2 ∧ matrixConcat r0 r1 = .ok p ∧
      matrixConcat p r2 = .ok q ∧ ∀ i j, i < 3 → j < 3 → m'.el i j = q.el i j := by
  obtain ⟨m', e, s, -, l⟩ := rotationEuler_spec h a0 a1 a2 o
  obtain ⟨r0, e0, s0, -, l0⟩ := rotationWorldAxis_spec (m := m0) ⟨h0.1.ge, h0.2.1.ge⟩ o.axes.1 a0
  obtain ⟨r1, e1, s1, -, l1⟩ := rotationWorldAxis_spec (m := m1) ⟨h1.1.ge, h1.2.1.ge⟩ o.axes.2.1 a1
  obtain ⟨r2, e2, s2, -, l2⟩ := rotationWorldAxis_spec (m := m2) ⟨h2.1.ge, h2.2.1.ge⟩ o.axes.2.2 a2
  obtain ⟨p, e3, rp, cp, bp, lp⟩ := concat_linOf (s0.rows.trans h0.1) (s0.cols.trans h0.2.1)
    (s1.rows.trans h1.1) (s1.cols.trans h1.2.1)
    ((s0.basis.trans h0.2.2).trans (s1.basis.trans h1.2.2).symm)
  obtain ⟨q, e4, -, -, bq, lq⟩ := concat_linOf rp cp (s2.rows.trans h2.1) (s2.cols.trans h2.2.1)
    (bp.trans ((s0.basis.trans h0.2.2).trans (s2.basis.trans h2.2.2).symm))
  refine ⟨m', r0, r1, r2, p, q, e, e0, e1, e2, e3, e4, el_eq_of_linOf ?_ ?_⟩
  · rw [s.basis, bq, bp, s0.basis, h0.2.2]
  · rw [l, lq, lp, l0, l1, l2, eulerRot, Matrix.mul_assoc]

/-- C51: the overload that takes the angles from a vector. -/
theorem rotationEulerV_spec {v : AVec ℝ} {x : Fin 3 → ℝ} (m : BMat ℝ) (hv : v.Is 3 x)
    (o : EulerOrder) : rotationEulerV m v o = rotationEuler m (x 0) (x 1) (x 2) o := by
  obtain ⟨hs, rfl⟩ := hv
  lin_run [rotationEulerV, AVec.checkSize_ok hs]
  rfl

/-- C51: the size checks. -/
theorem rotationEuler_throws (m : BMat ℝ) (v : AVec ℝ) (a0 a1 a2 : ℝ) (o : EulerOrder) :
    (¬m.HasLin 3 → rotationEuler m a0 a1 a2 o =
      .throw (if m.fixed then .staticAssert else .matMinimum)) ∧
    (v.size ≠ 3 → rotationEulerV m v o = .throw (if v.fixed then .staticAssert else .vecSize)) := by
  refine ⟨fun h => ?_, fun hv => ?_⟩
  · rw [rotationEuler, checkLinear3D_throw h]; rfl
  · rw [rotationEulerV, AVec.checkSize_throw hv]; rfl

/-- The documentation (`/repo/cml/mathlib/matrix/rotation.h:135-137`) gives the opposite order; the two
differ, for instance for quarter turns about x and then y. -/
theorem eulerRot_order_matters : eulerRot .xyz (Real.pi / 2) (Real.pi / 2) 0 ≠
    eulerRot .zyx 0 (Real.pi / 2) (Real.pi / 2) := by
  intro h
  have := congrFun (congrFun h 0) 1
  simp [eulerRot, EulerOrder.axes, rodrigues_x, rodrigues_y, rodrigues_z, Matrix.mul_apply,
    Fin.sum_univ_three] at this

example : (⟨⟨4, 4, fun _ _ => 0⟩, .row, false⟩ : BMat ℝ).HasLin 3 ∧
    ¬(⟨⟨2, 4, fun _ _ => 0⟩, .row, false⟩ : BMat ℝ).HasLin 3 := by
  constructor
  · constructor <;> decide
  · rintro ⟨h, -⟩; revert h; decide

end CML

#print axioms CML.rodrigues_spec
#print axioms CML.rotationWorldAxis_spec
#print axioms CML.rotationWorldAxis_rotation
#print axioms CML.rotationWorldAxis_concat
#print axioms CML.rotationWorldXYZ
#print axioms CML.rotationWorldAxis_throws
#print axioms CML.rotation2D_spec
#print axioms CML.rotation2D_concat
#print axioms CML.rotation2D_throws
#print axioms CML.rotationAxisAngle_spec
#print axioms CML.rotationAxisAngle_rotation
#print axioms CML.rotationAxisAngle_concat
#print axioms CML.rotationAxisAngle_throws
#print axioms CML.rotateVector_ok
#print axioms CML.rotateVector_rodrigues
#print axioms CML.rotationAxisAngle_rotateVector
#print axioms CML.rotateVector_isometry
#print axioms CML.rotateVector_add
#print axioms CML.rotateVector_throws
#print axioms CML.rotationEuler_spec
#print axioms CML.rotationEuler_rotation
#print axioms CML.rotationEuler_concat
#print axioms CML.rotationEulerV_spec
#print axioms CML.rotationEuler_throws
#print axioms CML.eulerRot_order_matters
