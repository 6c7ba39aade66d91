import Verif.Lemmas.QuatRot
import Verif.Props.Rotation
import Verif.Props.Quat

/-!
C53 (matrix of a quaternion), C54 (quaternion builders), C55 (quaternion of a matrix), C75 (basis
vectors of a quaternion).  `quatMat h` is the matrix of `v ↦ h v h̄` (`quatMat_mulVec`).
-/

namespace CML
open Matrix BMat Quaternion

/-! ### C53 -/

/-- What `matrix_rotation_quaternion` stores, for any quaternion. -/
theorem rotationQuaternion_ok {s : QState ℝ} {m : BMat ℝ} {q : QNode ℝ} {h : ℍ[ℝ]} (hm : m.HasLin 3)
    (hq : QReads s q h) :
    ∃ m', rotationQuaternion s m q = .ok m' ∧ m.SameShape m' ∧ m'.IdOutside 3 ∧
      linOf m' 3 = quatMat h + (1 - normSq h) • (1 : Matrix (Fin 3) (Fin 3) ℝ) := by
  obtain ⟨hw, hx, hy, hz⟩ := qreads_iff.1 hq
  simp only [rotationQuaternion, checkLinear3D_ok hm, hw, hx, hy, hz, Res.ok_bind]
  obtain ⟨m', e1, e2, e3, e4⟩ := bput9_perm hm (Equiv.refl _) _ _ _ _ _ _ _ _ _
  refine ⟨m', e1, e2, e3, ?_⟩
  have : linOf m' 3 = (linOf m' 3).submatrix (Equiv.refl _) (Equiv.refl _) := rfl
  rw [this, e4, quatMat_eq, normSq_def']
  ext r c
  fin_cases r <;> fin_cases c <;> simp <;> ring

/-- C53: the matrix of a unit quaternion is a rotation, it rotates vectors as `v ↦ q v q⁻¹`, and it is
the identity outside of the 3x3 block. -/
theorem rotationQuaternion_spec {s : QState ℝ} {m : BMat ℝ} {q : QNode ℝ} {h : ℍ[ℝ]} (hm : m.HasLin 3)
    (hq : QReads s q h) (hu : normSq h = 1) :
    ∃ m', rotationQuaternion s m q = .ok m' ∧ m.SameShape m' ∧ m'.IdOutside 3 ∧
      IsRotation (linOf m' 3) ∧ ∀ v, linOf m' 3 *ᵥ v = imVec (h * pureQ v * h⁻¹) := by
  obtain ⟨m', h1, h2, h3, h4⟩ := rotationQuaternion_ok hm hq
  rw [hu, sub_self, zero_smul, add_zero] at h4
  refine ⟨m', h1, h2, h3, h4 ▸ quatMat_isRotation hu, fun v => ?_⟩
  rw [h4, quatMat_mulVec, qRotate, Quaternion.inv_def, hu, inv_one, one_smul]

/-- C53: `q` and `-q` have the same matrix. -/
theorem rotationQuaternion_neg {s : QState ℝ} {m : BMat ℝ} {q q' : QNode ℝ} {h : ℍ[ℝ]}
    (hm : m.HasLin 3) (hq : QReads s q h) (hq' : QReads s q' (-h)) :
    ∃ m1 m2, rotationQuaternion s m q = .ok m1 ∧ rotationQuaternion s m q' = .ok m2 ∧
      m1.SameMatrix m2 := by
  obtain ⟨m1, h1, h2, h3, h4⟩ := rotationQuaternion_ok hm hq
  obtain ⟨m2, g1, g2, g3, g4⟩ := rotationQuaternion_ok hm hq'
  refine ⟨m1, m2, h1, g1, SameMatrix.of_lin h2 g2 h3 g3 ?_⟩
  rw [h4, g4, quatMat_neg, normSq_neg]

/-- C53: the matrix of a product is the concatenation of the matrices.  With the positive cross product
the right factor is applied first, with the negative one the left factor. -/
theorem rotationQuaternion_mul {s : QState ℝ} {m m1 m2 : BMat ℝ} {a b : QNode ℝ} {p q : ℍ[ℝ]}
    (ha : QReads s a p) (hb : QReads s b q) (ht : a.ty = b.ty) (hp : normSq p = 1) (hq : normSq q = 1)
    (hm : m.HasLin 3) (h1 : m1.rows = 3 ∧ m1.cols = 3 ∧ m1.basis = m.basis)
    (h2 : m2.rows = 3 ∧ m2.cols = 3 ∧ m2.basis = m.basis) :
    ∃ ab mab ma mb c, qMul s a b = .ok ab ∧ rotationQuaternion s m ab = .ok mab ∧
      rotationQuaternion s m1 a = .ok ma ∧ rotationQuaternion s m2 b = .ok mb ∧
      (match a.cross with
        | .positive => matrixConcat mb ma
        | .negative => matrixConcat ma mb) = .ok c ∧
      ∀ i j, i < 3 → j < 3 → mab.el i j = c.el i j := by
  obtain ⟨ab, e1, -, r⟩ := qmul_hamilton ha hb ht
  obtain ⟨ma, e2, s2, -, l2⟩ := rotationQuaternion_ok (m := m1) ⟨h1.1.ge, h1.2.1.ge⟩ ha
  obtain ⟨mb, e3, s3, -, l3⟩ := rotationQuaternion_ok (m := m2) ⟨h2.1.ge, h2.2.1.ge⟩ hb
  obtain ⟨mab, e4, s4, -, l4⟩ := rotationQuaternion_ok hm r
  rw [hp, sub_self, zero_smul, add_zero] at l2
  rw [hq, sub_self, zero_smul, add_zero] at l3
  have ba := s2.basis.trans h1.2.2
  have bb := s3.basis.trans h2.2.2
  cases hc : a.cross <;> rw [hc] at l4 <;> simp only [map_mul, hp, hq, one_mul, sub_self, zero_smul,
    add_zero] at l4 ⊢
  · obtain ⟨c, e5, -, -, b5, l5⟩ := concat_linOf (s3.rows.trans h2.1) (s3.cols.trans h2.2.1)
      (s2.rows.trans h1.1) (s2.cols.trans h1.2.1) (bb.trans ba.symm)
    refine ⟨ab, mab, ma, mb, c, e1, e4, e2, e3, e5, el_eq_of_linOf ?_ ?_⟩
    · rw [s4.basis, b5, bb]
    · rw [l4, l5, l2, l3, quatMat_mul]
  · obtain ⟨c, e5, -, -, b5, l5⟩ := concat_linOf (s2.rows.trans h1.1) (s2.cols.trans h1.2.1)
      (s3.rows.trans h2.1) (s3.cols.trans h2.2.1) (ba.trans bb.symm)
    refine ⟨ab, mab, ma, mb, c, e1, e4, e2, e3, e5, el_eq_of_linOf ?_ ?_⟩
    · rw [s4.basis, b5, ba]
    · rw [l4, l5, l2, l3, quatMat_mul]

/-- C53: the size check. -/
theorem rotationQuaternion_throws {s : QState ℝ} {m : BMat ℝ} (q : QNode ℝ) (hm : ¬m.HasLin 3) :
    rotationQuaternion s m q = .throw (if m.fixed then .staticAssert else .matMinimum) := by
  rw [rotationQuaternion, checkLinear3D_throw hm]; rfl

/-- The unit quaternion (1/2, 1/2, 1/2, -1/2). -/
private noncomputable def q4 : ℍ[ℝ] := ⟨1/2, 1/2, 1/2, -1/2⟩

example : normSq q4 = 1 ∧ ∃ (s : QState ℝ) (v : QVar), QReads s (.var v) q4 := by
  refine ⟨by rw [normSq_def']; norm_num [q4], ?_⟩
  refine ⟨fun _ i => some (![1/2, 1/2, 1/2, -1/2] (Fin.ofNat 4 i)), ⟨0, .realFirst, .positive⟩, ?_⟩
  exact qreads_var (by refine ⟨rfl, rfl, rfl, rfl⟩)

/-! ### C75 -/

/-- C75: `quaternion_get_basis_vector(q, i)` is basis vector `i` of the matrix of `q`. -/
theorem quaternionGetBasisVector_ok {s : QState ℝ} {m : BMat ℝ} {q : QNode ℝ} {h : ℍ[ℝ]}
    (hm : m.HasLin 3) (hq : QReads s q h) (i : Fin 3) :
    ∃ m' b, rotationQuaternion s m q = .ok m' ∧ quaternionGetBasisVector s q i = .ok b ∧
      b.Is 3 (fun r => linOf m' 3 r i) := by
  obtain ⟨m', h1, -, -, h4⟩ := rotationQuaternion_ok hm hq
  refine ⟨m', ?_⟩
  rw [h4, quatMat_eq, normSq_def', Matrix.one_fin_three]
  obtain ⟨hw, hx, hy, hz⟩ := qreads_iff.1 hq
  have hY : q.order.X + 1 = q.order.Y := by cases q.order <;> rfl
  have hZ : q.order.X + 2 = q.order.Z := by cases q.order <;> rfl
  fin_cases i
  · simp [quaternionGetBasisVector, Res.require, hx, hy, hz, hw, hY, hZ, AVec.put, h1]
    refine ⟨rfl, ?_⟩
    funext r
    fin_cases r <;> simp [AVec.vec] <;> ring
  · simp [quaternionGetBasisVector, Res.require, hx, hy, hz, hw, hY, hZ, AVec.put, h1]
    refine ⟨rfl, ?_⟩
    funext r
    fin_cases r <;> simp [AVec.vec] <;> ring
  · simp [quaternionGetBasisVector, Res.require, hx, hy, hz, hw, hY, hZ, AVec.put, h1]
    refine ⟨rfl, ?_⟩
    funext r
    fin_cases r <;> simp [AVec.vec] <;> ring

/-- C75: for a unit quaternion, basis vector `i` is the rotated coordinate axis `i`. -/
theorem quaternionGetBasisVector_spec {s : QState ℝ} {q : QNode ℝ} {h : ℍ[ℝ]} (hq : QReads s q h)
    (hu : normSq h = 1) (i : Fin 3) :
    ∃ b, quaternionGetBasisVector s q i = .ok b ∧ b.Is 3 (imVec (h * pureQ (unitVec i) * h⁻¹)) := by
  obtain ⟨m', b, h1, h2, h3⟩ := quaternionGetBasisVector_ok (m := tmp33) ⟨le_refl _, le_refl _⟩ hq i
  obtain ⟨m'', g1, -, -, -, g5⟩ := rotationQuaternion_spec (m := tmp33) ⟨le_refl _, le_refl _⟩ hq hu
  obtain rfl : m' = m'' := by rw [h1] at g1; injection g1
  refine ⟨b, h2, ?_⟩
  rw [← g5, unitVec, Matrix.mulVec_single_one]
  exact h3

/-- C75: the three basis vectors of a unit quaternion are unit vectors, orthogonal to each other, and
right-handed. -/
theorem quaternionGetBasisVectors_frame {s : QState ℝ} {q : QNode ℝ} {h : ℍ[ℝ]} (hq : QReads s q h)
    (hu : normSq h = 1) :
    ∃ x y z, ∃ (a b c : Fin 3 → ℝ), quaternionGetBasisVectors s q = .ok (x, y, z) ∧ x.Is 3 a ∧
      y.Is 3 b ∧ z.Is 3 c ∧ a ⬝ᵥ a = 1 ∧ b ⬝ᵥ b = 1 ∧ c ⬝ᵥ c = 1 ∧ a ⬝ᵥ b = 0 ∧ b ⬝ᵥ c = 0 ∧ a ⬝ᵥ c = 0 ∧
      crossProduct a b = c := by
  obtain ⟨m1, x, h1, h2, h3⟩ := quaternionGetBasisVector_ok (m := tmp33) ⟨le_refl _, le_refl _⟩ hq 0
  obtain ⟨m2, y, g1, g2, g3⟩ := quaternionGetBasisVector_ok (m := tmp33) ⟨le_refl _, le_refl _⟩ hq 1
  obtain ⟨m3, z, k1, k2, k3⟩ := quaternionGetBasisVector_ok (m := tmp33) ⟨le_refl _, le_refl _⟩ hq 2
  obtain rfl : m1 = m2 := by rw [h1] at g1; injection g1
  obtain rfl : m1 = m3 := by rw [h1] at k1; injection k1
  obtain ⟨m', r1, -, -, r2, -⟩ := rotationQuaternion_spec (m := tmp33) ⟨le_refl _, le_refl _⟩ hq hu
  obtain rfl : m1 = m' := by rw [h1] at r1; injection r1
  refine ⟨x, y, z, _, _, _, ?_, h3, g3, k3, ?_⟩
  · simp only [quaternionGetBasisVectors, quaternionGetXBasisVector, quaternionGetYBasisVector,
      quaternionGetZBasisVector]
    rw [show quaternionGetBasisVector s q 0 = .ok x from h2,
      show quaternionGetBasisVector s q 1 = .ok y from g2,
      show quaternionGetBasisVector s q 2 = .ok z from k2]
    rfl
  · obtain ⟨n1, n2, n3, n4, n5, n6⟩ := r2.norms
    obtain ⟨d1, d2, d3, d4, d5, d6⟩ := r2.dots
    obtain ⟨c1, c2, c3, c4, c5, c6, c7, c8, c9⟩ := r2.cof
    simp only [dotProduct, Fin.sum_univ_three]
    refine ⟨by linarith, by linarith, by linarith, by linarith, by linarith, by linarith, ?_⟩
    funext i
    fin_cases i <;> simp [cross_apply] <;> linarith

/-- C75: other indices are rejected. -/
theorem quaternionGetBasisVector_throws {s : QState ℝ} (q : QNode ℝ) {i : Int} (hi : i < 0 ∨ 2 < i) :
    quaternionGetBasisVector s q i = .throw .invalidArgument := by
  have : ¬(0 ≤ i ∧ i ≤ 2) := by omega
  simp [quaternionGetBasisVector, Res.require, this]

/-! ### C54 -/

/-- C54: `quaternion_rotation_world_axis` gives a unit quaternion whose matrix is the one of
`matrix_rotation_world_axis`; no other quaternion changes. -/
theorem qRotationWorldAxis_spec (s : QState ℝ) (v : QVar) {m : BMat ℝ} (hm : m.HasLin 3) (axis : Fin 3)
    (a : ℝ) :
    ∃ s' h m1 m2, qRotationWorldAxis s v axis a = .ok s' ∧ (∀ y, y ≠ v.id → s' y = s y) ∧
      QIs s' v h ∧ normSq h = 1 ∧ rotationQuaternion s' m (.var v) = .ok m1 ∧
      rotationWorldAxis m axis a = .ok m2 ∧ m1.SameMatrix m2 := by
  have key : ∃ s', qRotationWorldAxis s v axis a = .ok s' ∧ (∀ y, y ≠ v.id → s' y = s y) ∧
      QIs s' v (axisQuat (unitVec axis) a) := by
    have hr : Res.require (decide (0 ≤ (axis.val : Int) ∧ (axis.val : Int) ≤ 2)) .invalidArgument = .ok () := by
      rw [Res.require, if_pos (by simp; omega)]
    have hx : v.order.X + axis.val < 4 := by
      have := axis.2
      cases v.order <;> simp [QOrder.X] <;> omega
    simp only [qRotationWorldAxis, hr, Out.withVal_ok, qIdentity, qPut, QOrder.W_lt, QOrder.X_lt,
      QOrder.Y_lt, QOrder.Z_lt, if_true, Out.ok_andThen, Int.toNat_natCast, hx]
    refine ⟨_, rfl, fun y hy => by funext j; simp [hy], ?_⟩
    unfold QIs
    fin_cases axis <;> cases v.order <;>
      simp [QHolds, QOrder.W, QOrder.X, QOrder.Y, QOrder.Z, axisQuat, unitVec]
  obtain ⟨s', e1, e2, e3⟩ := key
  obtain ⟨m1, f1, f2, f3, f4⟩ := rotationQuaternion_ok hm (qreads_var e3)
  obtain ⟨m2, g1, g2, g3, g4⟩ := rotationWorldAxis_spec hm axis a
  have hu := axisQuat_unit (unitVec_unit axis) a
  refine ⟨s', _, m1, m2, e1, e2, e3, hu, f1, g1, SameMatrix.of_lin f2 g2 f3 g3 ?_⟩
  rw [f4, g4, hu, sub_self, zero_smul, add_zero, quatMat_axisQuat (unitVec_unit axis)]

/-- C54: other axes are rejected and the quaternion keeps its value. -/
theorem qRotationWorldAxis_throws (s : QState ℝ) (v : QVar) {axis : Int} (h : axis < 0 ∨ 2 < axis)
    (a : ℝ) : qRotationWorldAxis s v axis a = .throw .invalidArgument s := by
  have : ¬(0 ≤ axis ∧ axis ≤ 2) := by omega
  simp [qRotationWorldAxis, Res.require, this]

/-- C54: the functions for the three axes. -/
theorem qRotationWorldXYZ (s : QState ℝ) (v : QVar) (a : ℝ) :
    qRotationWorldX s v a = qRotationWorldAxis s v (0 : Fin 3) a ∧
    qRotationWorldY s v a = qRotationWorldAxis s v (1 : Fin 3) a ∧
    qRotationWorldZ s v a = qRotationWorldAxis s v (2 : Fin 3) a := ⟨rfl, rfl, rfl⟩

/-- `quaternion_rotation_axis_angle` stores `cos (a/2) + sin (a/2) u`, for any vector `u`. -/
theorem qRotationAxisAngle_ok (s : QState ℝ) (v : QVar) {n : AVec ℝ} {u : Fin 3 → ℝ} (hn : n.Is 3 u)
    (a : ℝ) :
    ∃ s', qRotationAxisAngle s v n a = .ok s' ∧ (∀ y, y ≠ v.id → s' y = s y) ∧
      QIs s' v (axisQuat u a) := by
  obtain ⟨hs, rfl⟩ := hn
  simp only [qRotationAxisAngle, AVec.checkSize_ok hs, Out.withVal_ok]
  obtain ⟨s', e1, e2, e3⟩ := (qassign_vec s v n.fixed n.size
    (fun _ i => (n.smul (Real.sin (a / 2))).get i) (Real.cos (a / 2)) _ _ _
    (fun _ => AVec.get_ok (v := n.smul (Real.sin (a / 2))) (show 0 < n.size by omega))
    (fun _ => AVec.get_ok (v := n.smul (Real.sin (a / 2))) (show 1 < n.size by omega))
    (fun _ => AVec.get_ok (v := n.smul (Real.sin (a / 2))) (show 2 < n.size by omega))).1 hs
  refine ⟨s', e1, e3, ?_⟩
  have hq : axisQuat (n.vec 3) a = (⟨Real.cos (a / 2), (n.smul (Real.sin (a / 2))).el 0,
      (n.smul (Real.sin (a / 2))).el 1, (n.smul (Real.sin (a / 2))).el 2⟩ : ℍ[ℝ]) := by
    refine Quaternion.ext _ _ ?_ ?_ ?_ ?_ <;> simp [axisQuat, AVec.smul, AVec.vec] <;> ring
  rw [hq]
  exact e2

/-- C54: `quaternion_rotation_axis_angle` with a unit axis gives a unit quaternion whose matrix is the
one of `matrix_rotation_axis_angle`. -/
theorem qRotationAxisAngle_spec (s : QState ℝ) (v : QVar) {m : BMat ℝ} (hm : m.HasLin 3) {n : AVec ℝ}
    {u : Fin 3 → ℝ} (hn : n.Is 3 u) (hu : u ⬝ᵥ u = 1) (a : ℝ) :
    ∃ s' h m1 m2, qRotationAxisAngle s v n a = .ok s' ∧ (∀ y, y ≠ v.id → s' y = s y) ∧
      QIs s' v h ∧ normSq h = 1 ∧ rotationQuaternion s' m (.var v) = .ok m1 ∧
      rotationAxisAngle m n a = .ok m2 ∧ m1.SameMatrix m2 := by
  obtain ⟨s', e1, e2, e3⟩ := qRotationAxisAngle_ok s v hn a
  obtain ⟨m1, f1, f2, f3, f4⟩ := rotationQuaternion_ok hm (qreads_var e3)
  obtain ⟨m2, g1, g2, g3, g4⟩ := rotationAxisAngle_spec hm hn a
  have hu' := axisQuat_unit hu a
  refine ⟨s', _, m1, m2, e1, e2, e3, hu', f1, g1, SameMatrix.of_lin f2 g2 f3 g3 ?_⟩
  rw [f4, g4, hu', sub_self, zero_smul, add_zero, quatMat_axisQuat hu]

/-- C54: `quaternion_rotation_euler` gives, for all twelve orders, a unit quaternion whose matrix is the
one of `matrix_rotation_euler`. -/
theorem qRotationEuler_spec (s : QState ℝ) (v : QVar) {m : BMat ℝ} (hm : m.HasLin 3) (a0 a1 a2 : ℝ)
    (o : EulerOrder) :
    ∃ s' h m1 m2, qRotationEuler s v a0 a1 a2 o = .ok s' ∧ (∀ y, y ≠ v.id → s' y = s y) ∧
      QIs s' v h ∧ normSq h = 1 ∧ rotationQuaternion s' m (.var v) = .ok m1 ∧
      rotationEuler m a0 a1 a2 o = .ok m2 ∧ m1.SameMatrix m2 := by
  have key : ∃ s', qRotationEuler s v a0 a1 a2 o = .ok s' ∧ (∀ y, y ≠ v.id → s' y = s y) ∧
      QIs s' v (eulerQuat o a0 a1 a2) := by
    obtain ⟨-, -, -, hi, hj, hk, hodd, hr⟩ := o.perm_facts
    have hne : ∀ a b : Fin 3, a ≠ b → v.order.X + (o.perm a).val ≠ v.order.X + (o.perm b).val := by
      intro a b hab he
      exact hab (o.perm.injective (Fin.ext (by omega)))
    have n01 := hne 0 1 (by decide)
    have n02 := hne 0 2 (by decide)
    have n12 := hne 1 2 (by decide)
    have w0 := QOrder.X_add_ne v.order (o.perm 0)
    have w1 := QOrder.X_add_ne v.order (o.perm 1)
    have w2 := QOrder.X_add_ne v.order (o.perm 2)
    have hs1 : Real.sin ((if (unpackEulerOrder o.code).odd then -a1 else a1) / 2) =
        o.sgn * Real.sin (a1 / 2) := by
      rw [EulerOrder.sgn_mul]; unfold EulerOrder.sgn; split_ifs <;> simp [neg_div]
    have hc1 : Real.cos ((if (unpackEulerOrder o.code).odd then -a1 else a1) / 2) =
        Real.cos (a1 / 2) := by
      rw [EulerOrder.sgn_mul]; unfold EulerOrder.sgn; split_ifs <;> simp [neg_div]
    have parts := eulerQuat_parts o a0 a1 a2
    have hsgn : o.sgn = if (unpackEulerOrder o.code).odd then -1 else 1 := by
      rw [hodd]; unfold EulerOrder.sgn; by_cases he : o.even <;> simp [he]
    have hq := fun el => qholds_perm (o := v.order) (el := el) (h := eulerQuat o a0 a1 a2) o.perm
    have l0 := QOrder.X_add_lt v.order (o.perm 0)
    have l1 := QOrder.X_add_lt v.order (o.perm 1)
    have l2 := QOrder.X_add_lt v.order (o.perm 2)
    have lw := QOrder.W_lt v.order
    simp only [qRotationEuler, hs1, hc1, hi, hj, hk, hr]
    unfold QIs
    simp only [hq]
    clear hq hne hi hj hk hs1 hc1
    generalize v.order.X + (o.perm 0).val = i0 at *
    generalize v.order.X + (o.perm 1).val = i1 at *
    generalize v.order.X + (o.perm 2).val = i2 at *
    generalize v.order.W = iw at *
    simp only [qPut, l0, l1, l2, lw, if_true, Out.ok_andThen]
    by_cases hrep : o.repeats
    · rw [if_pos hrep] at parts
      obtain ⟨p1, p2, p3, p4⟩ := parts
      simp only [hrep, decide_true, if_true, Out.ok_andThen, p1, p2, p3, p4]
      by_cases ho : (unpackEulerOrder o.code).odd = true
      · simp only [ho, if_true] at hsgn ⊢
        simp only [QArr.get, l1, if_true, qPutRes, w1, and_false, if_false, n12, and_self,
          Res.ok_bind, Res.pure_eq, Out.withVal_ok, qPut, hsgn]
        refine ⟨_, rfl, fun y hy => by funext j; simp [hy], ?_⟩
        simp [w0, w1, w2, w0.symm, w1.symm, w2.symm, n01, n02, n12, n01.symm, n02.symm, n12.symm]
      · simp only [ho, if_false] at hsgn ⊢
        simp only [hsgn]
        refine ⟨_, rfl, fun y hy => by funext j; simp [hy], ?_⟩
        simp [w0, w1, w2, w0.symm, w1.symm, w2.symm, n01, n02, n12, n01.symm, n02.symm, n12.symm]
    · rw [if_neg hrep] at parts
      obtain ⟨p1, p2, p3, p4⟩ := parts
      simp only [hrep, decide_false, Bool.false_eq_true, if_false, Out.ok_andThen, p1, p2, p3, p4]
      by_cases ho : (unpackEulerOrder o.code).odd = true
      · simp only [ho, if_true] at hsgn ⊢
        simp only [QArr.get, l1, if_true, qPutRes, w1, and_false, if_false, n12, and_self,
          Res.ok_bind, Res.pure_eq, Out.withVal_ok, qPut, hsgn]
        refine ⟨_, rfl, fun y hy => by funext j; simp [hy], ?_⟩
        simp [w0, w1, w2, w0.symm, w1.symm, w2.symm, n01, n02, n12, n01.symm, n02.symm, n12.symm]
      · simp only [ho, if_false] at hsgn ⊢
        simp only [hsgn]
        refine ⟨_, rfl, fun y hy => by funext j; simp [hy], ?_⟩
        simp [w0, w1, w2, w0.symm, w1.symm, w2.symm, n01, n02, n12, n01.symm, n02.symm, n12.symm]
  obtain ⟨s', e1, e2, e3⟩ := key
  obtain ⟨m1, f1, f2, f3, f4⟩ := rotationQuaternion_ok hm (qreads_var e3)
  obtain ⟨m2, g1, g2, g3, g4⟩ := rotationEuler_spec hm a0 a1 a2 o
  have hu := eulerQuat_unit o a0 a1 a2
  refine ⟨s', _, m1, m2, e1, e2, e3, hu, f1, g1, SameMatrix.of_lin f2 g2 f3 g3 ?_⟩
  rw [f4, g4, hu, sub_self, zero_smul, add_zero, quatMat_eulerQuat]

/-- C54: the overload that takes the angles from a vector. -/
theorem qRotationEulerV_spec (s : QState ℝ) (v : QVar) {e : AVec ℝ} {x : Fin 3 → ℝ} (he : e.Is 3 x)
    (o : EulerOrder) : qRotationEulerV s v e o = qRotationEuler s v (x 0) (x 1) (x 2) o := by
  obtain ⟨hs, rfl⟩ := he
  simp only [qRotationEulerV, AVec.checkSize_ok hs, AVec.get_ok (v := e) (show 0 < e.size by omega),
    AVec.get_ok (v := e) (show 1 < e.size by omega), AVec.get_ok (v := e) (show 2 < e.size by omega),
    Res.ok_bind, Res.pure_eq, Out.withVal_ok]
  rfl

/-- C54: the size checks; the quaternion keeps its value. -/
theorem qRotation_throws (s : QState ℝ) (v : QVar) {e : AVec ℝ} (he : e.size ≠ 3) (a : ℝ)
    (o : EulerOrder) :
    qRotationAxisAngle s v e a = .throw (if e.fixed then .staticAssert else .vecSize) s ∧
    qRotationEulerV s v e o = .throw (if e.fixed then .staticAssert else .vecSize) s := by
  simp [qRotationAxisAngle, qRotationEulerV, AVec.checkSize_throw he, AVec.sizeErr]

/-! ### C55 -/

/-- The common part of all branches of `quaternion_rotation_matrix`. -/
private theorem qstep (s : QState ℝ) (x : Nat) {i0 i1 i2 i3 : Nat} (l0 : i0 < 4) (l1 : i1 < 4)
    (l2 : i2 < 4) (l3 : i3 < 4) (n01 : i0 ≠ i1) (n02 : i0 ≠ i2) (n03 : i0 ≠ i3) (n12 : i1 ≠ i2)
    (n13 : i1 ≠ i3) (n23 : i2 ≠ i3) {r0 : Res ℝ} {f1 f2 f3 : ℝ → Res ℝ} {d e1 e2 e3 : ℝ} (hd : d ≠ 0)
    (h0 : r0 = .ok d) (h1 : f1 (1 / 4 / d) = .ok e1) (h2 : f2 (1 / 4 / d) = .ok e2)
    (h3 : f3 (1 / 4 / d) = .ok e3) :
    ∃ s', ((qPutRes s x i0 r0).andThen fun s =>
        .withVal (do divR (1 / 4) (← QArr.get (s x) i0)) s fun r =>
        (qPutRes s x i1 (f1 r)).andThen fun s => (qPutRes s x i2 (f2 r)).andThen fun s =>
        qPutRes s x i3 (f3 r)) = .ok s' ∧ (∀ y, y ≠ x → s' y = s y) ∧ s' x i0 = some d ∧
      s' x i1 = some e1 ∧ s' x i2 = some e2 ∧ s' x i3 = some e3 := by
  simp only [qPutRes, h0, Out.withVal_ok, qPut, l0, l1, l2, l3, if_true, Out.ok_andThen, QArr.get,
    and_self, Res.ok_bind, divR, hd, if_false, h1, h2, h3]
  refine ⟨_, rfl, fun y hy => by funext j; simp [hy], ?_⟩
  simp [n01, n02, n03, n12, n13, n23]

/-- C55: for a rotation matrix, `quaternion_rotation_matrix` gives a unit quaternion that rotates as the
matrix does; in particular it never divides by zero.  No other quaternion changes. -/
theorem qRotationMatrix_ok (s : QState ℝ) (v : QVar) {m : BMat ℝ} (hm : m.HasLin 3)
    (hr : IsRotation (linOf m 3)) :
    ∃ s' h, qRotationMatrix s v m = .ok s' ∧ (∀ y, y ≠ v.id → s' y = s y) ∧ QIs s' v h ∧
      normSq h = 1 ∧ quatMat h = linOf m 3 := by
  obtain ⟨⟨b00, b01, b02⟩, ⟨b10, b11, b12⟩, ⟨b20, b21, b22⟩⟩ := bget_lin9 hm
  have hck : m.checkMinimumSize 3 3 = .ok () := checkLinear3D_ok hm
  have x0 := QOrder.X_add_lt v.order 0
  have x1 := QOrder.X_add_lt v.order 1
  have x2 := QOrder.X_add_lt v.order 2
  have w0 := QOrder.X_add_ne v.order 0
  have w1 := QOrder.X_add_ne v.order 1
  have w2 := QOrder.X_add_ne v.order 2
  have hY : v.order.Y = v.order.X + 1 := by cases v.order <;> rfl
  have hZ : v.order.Z = v.order.X + 2 := by cases v.order <;> rfl
  simp only [Fin.val_zero, Fin.val_one, Fin.val_two, add_zero] at x0 x1 x2 w0 w1 w2
  have lw := QOrder.W_lt v.order
  have hdiag := quatGram_diag (linOf m 3)
  have hg0 : quatGram (linOf m 3) 0 0 = linOf m 3 0 0 + linOf m 3 1 1 + linOf m 3 2 2 + 1 := by
    simp [quatGram]; ring
  have hg1 : quatGram (linOf m 3) 1 1 = linOf m 3 0 0 - linOf m 3 1 1 - linOf m 3 2 2 + 1 := by
    simp [quatGram]; ring
  have hg2 : quatGram (linOf m 3) 2 2 = linOf m 3 1 1 - linOf m 3 2 2 - linOf m 3 0 0 + 1 := by
    simp [quatGram]; ring
  have hg3 : quatGram (linOf m 3) 3 3 = linOf m 3 2 2 - linOf m 3 0 0 - linOf m 3 1 1 + 1 := by
    simp [quatGram]; ring
  -- what a branch with pivot `a` has to provide
  have fin : ∀ (a : Fin 4) (d : ℝ), 0 < quatGram (linOf m 3) a a →
      d = Real.sqrt (quatGram (linOf m 3) a a) / 2 → 0 < d ∧
      ∃ h : ℍ[ℝ], normSq h = 1 ∧ quatMat h = linOf m 3 ∧
        ∀ b, ![h.re, h.imI, h.imJ, h.imK] b = quatGram (linOf m 3) a b * (1 / 4 / d) ∧
          (b = a → ![h.re, h.imI, h.imJ, h.imK] b = d) := by
    rintro a d hp rfl
    have hs := Real.mul_self_sqrt hp.le
    have hs0 := Real.sqrt_pos.2 hp
    obtain ⟨q, hq⟩ := exists_parts fun b =>
      quatGram (linOf m 3) a b / (4 * (Real.sqrt (quatGram (linOf m 3) a a) / 2))
    obtain ⟨h1, h2⟩ := quatGram_extract hr (d := Real.sqrt (quatGram (linOf m 3) a a) / 2) (by positivity)
      (by linarith) hq
    refine ⟨by positivity, q, h1, h2, fun b => ⟨?_, ?_⟩⟩
    · rw [hq]; field_simp
    · rintro rfl
      rw [hq]
      generalize Real.sqrt (quatGram (linOf m 3) b b) = t at *
      rw [← hs]; field_simp; norm_num
  simp only [qRotationMatrix, hck, trace3_ok hm, Res.ok_bind, Out.withVal_ok, b00, b11, b22, b01, b02, b10,
    b12, b20, b21, Res.pure_eq]
  by_cases ht : linOf m 3 0 0 + linOf m 3 1 1 + linOf m 3 2 2 ≥ 0
  · rw [if_pos ht]
    obtain ⟨hd, h, u1, u2, u3⟩ := fin 0 _ (by linarith) rfl
    rw [hg0] at hd u3
    obtain ⟨s', e1, e2, e3, e4, e5, e6⟩ := qstep s v.id lw x0 x1 x2 w0.symm w1.symm w2.symm (by omega)
      (by omega) (by omega) (r0 := .ok (Real.sqrt (linOf m 3 0 0 + linOf m 3 1 1 + linOf m 3 2 2 + 1) / 2))
      (f1 := fun r => .ok ((linOf m 3 2 1 - linOf m 3 1 2) * r))
      (f2 := fun r => .ok ((linOf m 3 0 2 - linOf m 3 2 0) * r))
      (f3 := fun r => .ok ((linOf m 3 1 0 - linOf m 3 0 1) * r)) hd.ne' rfl rfl rfl rfl
    refine ⟨s', h, ?_, e2, ?_, u1, u2⟩
    · rw [hY, hZ]; exact e1
    · unfold QIs
      rw [qholds_iff, hY, hZ, e3, e4, e5, e6]
      exact ⟨congrArg some ((u3 0).2 rfl).symm, congrArg some (u3 1).1.symm, congrArg some (u3 2).1.symm,
        congrArg some (u3 3).1.symm⟩
  · rw [if_neg ht]
    rcases indexOfMax3_cases (linOf m 3 0 0) (linOf m 3 1 1) (linOf m 3 2 2) with ⟨hx, g1, g2⟩ |
      ⟨hx, g1, g2⟩ | ⟨hx, g1, g2⟩
    · rw [hx]
      obtain ⟨hd, h, u1, u2, u3⟩ := fin 1 _ (by linarith) rfl
      rw [hg1] at hd u3
      obtain ⟨s', e1, e2, e3, e4, e5, e6⟩ := qstep s v.id x0 x1 x2 lw (by omega) (by omega) w0
        (by omega) w1 w2
        (r0 := .ok (Real.sqrt (linOf m 3 0 0 - linOf m 3 1 1 - linOf m 3 2 2 + 1) / 2))
        (f1 := fun r => .ok ((linOf m 3 1 0 + linOf m 3 0 1) * r)) (f2 := fun r => .ok ((linOf m 3 2 0 + linOf m 3 0 2) * r))
        (f3 := fun r => .ok ((linOf m 3 2 1 - linOf m 3 1 2) * r)) hd.ne' rfl rfl rfl rfl
      refine ⟨s', h, ?_, e2, ?_, u1, u2⟩
      · simp only [show cyclicPermutation3 0 = (0, 1, 2) from rfl, b00, b11, b22, b01, b02, b10, b12,
          b20, b21, Res.ok_bind, add_zero]
        exact e1
      · unfold QIs
        rw [qholds_iff, hY, hZ, e3, e4, e5, e6]
        have v0 := (u3 0).1
        have v1 := (u3 2).1
        have v2 := (u3 3).1
        have v3 := (u3 1).2 rfl
        simp [quatGram] at v0 v1 v2 v3
        refine ⟨?_, ?_, ?_, ?_⟩ <;> congr 1 <;> simp only [v0, v1, v2, v3] <;> ring
    · rw [hx]
      obtain ⟨hd, h, u1, u2, u3⟩ := fin 2 _ (by linarith) rfl
      rw [hg2] at hd u3
      obtain ⟨s', e1, e2, e3, e4, e5, e6⟩ := qstep s v.id x1 x2 x0 lw (by omega) (by omega) w1
        (by omega) w2 w0
        (r0 := .ok (Real.sqrt (linOf m 3 1 1 - linOf m 3 2 2 - linOf m 3 0 0 + 1) / 2))
        (f1 := fun r => .ok ((linOf m 3 2 1 + linOf m 3 1 2) * r)) (f2 := fun r => .ok ((linOf m 3 0 1 + linOf m 3 1 0) * r))
        (f3 := fun r => .ok ((linOf m 3 0 2 - linOf m 3 2 0) * r)) hd.ne' rfl rfl rfl rfl
      refine ⟨s', h, ?_, e2, ?_, u1, u2⟩
      · simp only [show cyclicPermutation3 1 = (1, 2, 0) from rfl, b00, b11, b22, b01, b02, b10, b12,
          b20, b21, Res.ok_bind, add_zero]
        exact e1
      · unfold QIs
        rw [qholds_iff, hY, hZ, e5, e3, e4, e6]
        have v0 := (u3 0).1
        have v1 := (u3 3).1
        have v2 := (u3 1).1
        have v3 := (u3 2).2 rfl
        simp [quatGram] at v0 v1 v2 v3
        refine ⟨?_, ?_, ?_, ?_⟩ <;> congr 1 <;> simp only [v0, v1, v2, v3] <;> ring
    · rw [hx]
      obtain ⟨hd, h, u1, u2, u3⟩ := fin 3 _ (by linarith) rfl
      rw [hg3] at hd u3
      obtain ⟨s', e1, e2, e3, e4, e5, e6⟩ := qstep s v.id x2 x0 x1 lw (by omega) (by omega) w2
        (by omega) w0 w1
        (r0 := .ok (Real.sqrt (linOf m 3 2 2 - linOf m 3 0 0 - linOf m 3 1 1 + 1) / 2))
        (f1 := fun r => .ok ((linOf m 3 0 2 + linOf m 3 2 0) * r)) (f2 := fun r => .ok ((linOf m 3 1 2 + linOf m 3 2 1) * r))
        (f3 := fun r => .ok ((linOf m 3 1 0 - linOf m 3 0 1) * r)) hd.ne' rfl rfl rfl rfl
      refine ⟨s', h, ?_, e2, ?_, u1, u2⟩
      · simp only [show cyclicPermutation3 2 = (2, 0, 1) from rfl, b00, b11, b22, b01, b02, b10, b12,
          b20, b21, Res.ok_bind, add_zero]
        exact e1
      · unfold QIs
        rw [qholds_iff, hY, hZ, e4, e5, e3, e6]
        have v0 := (u3 0).1
        have v1 := (u3 1).1
        have v2 := (u3 2).1
        have v3 := (u3 3).2 rfl
        simp [quatGram] at v0 v1 v2 v3
        refine ⟨?_, ?_, ?_, ?_⟩ <;> congr 1 <;> simp only [v0, v1, v2, v3] <;> ring

/-- C55: the matrix of the quaternion of a rotation matrix is the rotation matrix. -/
theorem qRotationMatrix_spec (s : QState ℝ) (v : QVar) {m m0 : BMat ℝ} (hm : m.HasLin 3)
    (h0 : m0.HasLin 3) (hb : m0.basis = m.basis) (hr : IsRotation (linOf m 3)) :
    ∃ s' h m', qRotationMatrix s v m = .ok s' ∧ (∀ y, y ≠ v.id → s' y = s y) ∧ QIs s' v h ∧
      normSq h = 1 ∧ rotationQuaternion s' m0 (.var v) = .ok m' ∧ linOf m' 3 = linOf m 3 ∧
      ∀ i j, i < 3 → j < 3 → m'.el i j = m.el i j := by
  obtain ⟨s', h, e1, e2, e3, e4, e5⟩ := qRotationMatrix_ok s v hm hr
  obtain ⟨m', f1, f2, -, f4⟩ := rotationQuaternion_ok h0 (qreads_var e3)
  rw [e4, sub_self, zero_smul, add_zero, e5] at f4
  exact ⟨s', h, m', e1, e2, e3, e4, f1, f4, el_eq_of_linOf (f2.basis.trans hb) f4⟩

/-- C55, the other direction: converting the matrix of a unit quaternion back gives the quaternion or
its negative. -/
theorem qRotationMatrix_roundtrip (s : QState ℝ) (v : QVar) {m : BMat ℝ} (hm : m.HasLin 3) {q : QNode ℝ}
    {p : ℍ[ℝ]} (hq : QReads s q p) (hp : normSq p = 1) :
    ∃ m' s' h, rotationQuaternion s m q = .ok m' ∧ qRotationMatrix s v m' = .ok s' ∧ QIs s' v h ∧
      (h = p ∨ h = -p) := by
  obtain ⟨m', f1, f2, -, f4⟩ := rotationQuaternion_ok hm hq
  rw [hp, sub_self, zero_smul, add_zero] at f4
  obtain ⟨s', h, e1, -, e3, e4, e5⟩ := qRotationMatrix_ok s v (f2.hasLin hm)
    (f4 ▸ quatMat_isRotation hp)
  exact ⟨m', s', h, f1, e1, e3, quatMat_injective e4 hp (e5.trans f4)⟩

/-- C55: the size check. -/
theorem qRotationMatrix_throws (s : QState ℝ) (v : QVar) {m : BMat ℝ} (hm : ¬m.HasLin 3) :
    qRotationMatrix s v m = .throw (if m.fixed then .staticAssert else .matMinimum) s := by
  have hck : m.checkMinimumSize 3 3 = .throw (if m.fixed then .staticAssert else .matMinimum) :=
    checkLinear3D_throw hm
  simp [qRotationMatrix, hck]

/-- All branches of C55 occur: the trace is negative and each of the three diagonal elements is the
largest one for the half turns about the coordinate axes. -/
example (i : Fin 3) : IsRotation (rodrigues (unitVec i) Real.pi) ∧
    (rodrigues (unitVec i) Real.pi).trace = -1 ∧ rodrigues (unitVec i) Real.pi i i = 1 := by
  refine ⟨rodrigues_isRotation (unitVec_unit i) _, ?_, ?_⟩
  · rw [rodrigues_trace (unitVec_unit i)]; norm_num
  · fin_cases i <;> simp [rodrigues_x, rodrigues_y, rodrigues_z]

end CML

#print axioms CML.rotationQuaternion_ok
#print axioms CML.rotationQuaternion_spec
#print axioms CML.rotationQuaternion_neg
#print axioms CML.rotationQuaternion_mul
#print axioms CML.rotationQuaternion_throws
#print axioms CML.quaternionGetBasisVector_ok
#print axioms CML.quaternionGetBasisVector_spec
#print axioms CML.quaternionGetBasisVectors_frame
#print axioms CML.quaternionGetBasisVector_throws
#print axioms CML.qRotationWorldAxis_spec
#print axioms CML.qRotationWorldAxis_throws
#print axioms CML.qRotationWorldXYZ
#print axioms CML.qRotationAxisAngle_spec
#print axioms CML.qRotationEuler_spec
#print axioms CML.qRotationEulerV_spec
#print axioms CML.qRotation_throws
#print axioms CML.qRotationMatrix_ok
#print axioms CML.qRotationMatrix_spec
#print axioms CML.qRotationMatrix_roundtrip
#print axioms CML.qRotationMatrix_throws
