import Verif.Lemmas.IntAngle
import Verif.Props.QuatRot
import Verif.Props.Coord

/-!
C121: angles of integral type.  The functions that take an angle accept an `int` (for example the
literal `1`); the rotation should then be the rotation by that many radians.  It is not:
`scalar_traits<int>::cos` and `sin` truncate their results to integers, which makes both zero for every
angle other than zero.

`L.Inside n` says that the library functions give, for the angle `n`, a cosine and a sine of absolute
value less than one.  The exact functions do so for every integer other than zero (`exact_inside`); of
the `double` functions this may fail for huge angles that are very close to a multiple of `π / 2`.
-/

namespace CML
open Matrix BMat Quaternion

/-- Cosine and sine of the angle, and of the negated angle, are strictly between -1 and 1. -/
def Libm.Inside (L : Libm) (n : ℤ) : Prop :=
  |L.cos n| < 1 ∧ |L.sin n| < 1 ∧ |L.cos (-n)| < 1 ∧ |L.sin (-n)| < 1

/-- The library functions are right at zero. -/
def Libm.AtZero (L : Libm) : Prop := L.cos 0 = 1 ∧ L.sin 0 = 0

/-- The exact functions satisfy the assumptions for every angle other than zero. -/
theorem exact_inside {n : ℤ} (hn : n ≠ 0) : Libm.exact.Inside n := by
  have h1 := int_cos_sin_lt hn
  have h2 := int_cos_sin_lt (n := -n) (by omega)
  exact ⟨h1.1, h1.2, h2.1, h2.2⟩

theorem exact_atZero : Libm.exact.AtZero := by simp [Libm.AtZero, Libm.exact]

example : Libm.exact.Inside 1 ∧ Libm.exact.Inside (-90) := ⟨exact_inside (by decide), exact_inside (by decide)⟩

/-- C121: for real angles the functions with the traits as a parameter are the functions of the other
property files. -/
theorem realAngle_same :
    rotation2DT realAngle = rotation2D ∧ rotationWorldAxisT realAngle = rotationWorldAxis ∧
    rotationAxisAngleT realAngle = rotationAxisAngle ∧ rotationEulerT realAngle = rotationEuler ∧
    rotateVectorT realAngle = rotateVector ∧ qRotationWorldAxisT realAngle = qRotationWorldAxis ∧
    qRotationAxisAngleT realAngle = qRotationAxisAngle ∧ qRotationEulerT realAngle = qRotationEuler ∧
    polarToCartesianT realAngle = polarToCartesian ∧
    cylindricalToCartesianT realAngle = cylindricalToCartesian ∧
    sphericalToCartesianT realAngle = sphericalToCartesian :=
  ⟨rfl, rfl, rfl, rfl, rfl, rfl, rfl, rfl, rfl, rfl, rfl⟩

section
variable {L : Libm} {n : ℤ}

/-- C121: the integer cosine and sine of such an angle are zero. -/
theorem intAngle_zero (h : L.Inside n) : (intAngle L).cos n = 0 ∧ (intAngle L).sin n = 0 := by
  simp [intAngle, truncR_inside h.1, truncR_inside h.2.1]

private theorem inside_neg (h : L.Inside n) : L.Inside (-n) :=
  ⟨h.2.2.1, h.2.2.2, by simpa using h.1, by simpa using h.2.1⟩

private theorem intAngle_zero_ite (h : L.Inside n) (b : Bool) :
    (intAngle L).cos (if b then (intAngle L).neg n else n) = 0 ∧
    (intAngle L).sin (if b then (intAngle L).neg n else n) = 0 := by
  cases b
  · exact intAngle_zero h
  · exact intAngle_zero (inside_neg h)

private theorem not_rotation {k : Nat} {M : Matrix (Fin k) (Fin k) ℝ} (h : M.det = 0) :
    ¬IsRotation M := by
  intro hM
  unfold IsRotation at hM
  rw [Matrix.mem_specialOrthogonalGroup_iff] at hM
  rw [h] at hM
  exact zero_ne_one hM.2

/-! ### Matrices -/

/-- C121: `matrix_rotation_2D` with an integer angle other than zero stores the zero matrix, not a
rotation. -/
theorem rotation2D_int_false {m : BMat ℝ} (hm : m.HasLin 2) (h : L.Inside n) :
    ∃ m', rotation2DT (intAngle L) m n = .ok m' ∧ m.SameShape m' ∧ m'.IdOutside 2 ∧
      linOf m' 2 = 0 ∧ ¬IsRotation (linOf m' 2) := by
  obtain ⟨hc, hs⟩ := intAngle_zero h
  have hb := (hasLin_iff m 2).1 hm
  lin_run [rotation2DT, checkLinear2D_ok hm, hc, hs]
  have hl : linOf ((((m.identity.bset 0 0 0).bset 0 1 0).bset 1 0 (-0)).bset 1 1 (0 : ℝ)) 2 = 0 := by
    ext r c
    fin_cases r <;> fin_cases c <;> simp [linOf_apply, bel_bset, bel_identity]
  refine ⟨by constructor <;> simp, ?_, hl, ?_⟩
  · rw [idOutside_iff]
    intro i j _ _ hij
    simp only [bel_bset, bel_identity]
    repeat rw [if_neg (by omega)]
  · rw [hl]; exact not_rotation (by simp)

/-- C121: `matrix_rotation_axis_angle` with an integer angle other than zero stores `u uᵀ`, which
projects onto the axis, whatever the angle. -/
theorem rotationAxisAngle_int_false {m : BMat ℝ} {v : AVec ℝ} {u : Fin 3 → ℝ} (hm : m.HasLin 3)
    (hv : v.Is 3 u) (h : L.Inside n) :
    ∃ m', rotationAxisAngleT (intAngle L) m v n = .ok m' ∧ m.SameShape m' ∧ m'.IdOutside 3 ∧
      linOf m' 3 = Matrix.vecMulVec u u ∧ ¬IsRotation (linOf m' 3) := by
  obtain ⟨hc, hsn⟩ := intAngle_zero h
  obtain ⟨hs, rfl⟩ := hv
  have hb := (hasLin_iff m 3).1 hm
  have hi : m.identity.HasLin 3 := hm
  lin_run [rotationAxisAngleT, checkLinear3D_ok hm, AVec.checkSize_ok hs, hc, hsn]
  obtain ⟨m', e, s, o, h00, h01, h02, h10, h11, h12, h20, h21, h22⟩ := bput9_ok hi
    (i := 0) (j := 1) (k := 2) (by decide) (by decide) (by decide) (by decide) (by decide) (by decide)
    (v.el 0 * (v.el 0 * (1 - 0)) + 0)
    (v.el 0 * (v.el 1 * (1 - 0)) + v.el 2 * 0)
    (v.el 2 * (v.el 0 * (1 - 0)) - v.el 1 * 0)
    (v.el 0 * (v.el 1 * (1 - 0)) - v.el 2 * 0)
    (v.el 1 * (v.el 1 * (1 - 0)) + 0)
    (v.el 1 * (v.el 2 * (1 - 0)) + v.el 0 * 0)
    (v.el 2 * (v.el 0 * (1 - 0)) + v.el 1 * 0)
    (v.el 1 * (v.el 2 * (1 - 0)) - v.el 0 * 0)
    (v.el 2 * (v.el 2 * (1 - 0)) + 0)
  have hl : linOf m' 3 = Matrix.vecMulVec (v.vec 3) (v.vec 3) := by
    ext r c
    fin_cases r <;> fin_cases c <;>
      simp [linOf_apply, AVec.vec, vecMulVec_apply, h00, h01, h02, h10, h11, h12, h20, h21, h22] <;> ring
  refine ⟨m', e, (SameShape.identity m).trans s, ?_, hl, ?_⟩
  · rw [idOutside_iff]
    intro i j _ _ hij
    rw [o i j hij, bel_identity]
  · rw [hl]
    apply not_rotation
    rw [Matrix.det_fin_three]
    simp [vecMulVec_apply]
    ring

/-- C121: `matrix_rotation_world_axis` with an integer angle other than zero stores the projection onto
the axis. -/
theorem rotationWorldAxis_int_false {m : BMat ℝ} (hm : m.HasLin 3) (axis : Fin 3) (h : L.Inside n) :
    ∃ m', rotationWorldAxisT (intAngle L) m axis n = .ok m' ∧ m.SameShape m' ∧ m'.IdOutside 3 ∧
      linOf m' 3 = Matrix.vecMulVec (unitVec axis) (unitVec axis) ∧ ¬IsRotation (linOf m' 3) := by
  obtain ⟨hc, hsn⟩ := intAngle_zero h
  have hb := (hasLin_iff m 3).1 hm
  have hd : ∀ u : Fin 3 → ℝ, ¬IsRotation (Matrix.vecMulVec u u) := by
    intro u
    apply not_rotation
    rw [Matrix.det_fin_three]
    simp [vecMulVec_apply]
    ring
  have key : ∃ m', rotationWorldAxisT (intAngle L) m axis n = .ok m' ∧ m.SameShape m' ∧
      m'.IdOutside 3 ∧ linOf m' 3 = Matrix.vecMulVec (unitVec axis) (unitVec axis) := by
    fin_cases axis
    · lin_run [rotationWorldAxisT, checkLinear3D_ok hm, hc, hsn, show cyclicPermutation3 (Int.toNat ((0 : Nat) : Int)) = (0, 1, 2) from rfl,
        Res.require, show decide (0 ≤ ((0 : Nat) : Int) ∧ ((0 : Nat) : Int) ≤ 2) = true from rfl, if_true]
      refine ⟨by constructor <;> simp, ?_, ?_⟩
      · rw [idOutside_iff]
        intro i j _ _ hij
        simp only [bel_bset, bel_identity]
        repeat rw [if_neg (by omega)]
      · ext r c
        fin_cases r <;> fin_cases c <;> simp [linOf_apply, bel_bset, bel_identity, vecMulVec_apply, unitVec]
    · lin_run [rotationWorldAxisT, checkLinear3D_ok hm, hc, hsn, show cyclicPermutation3 (Int.toNat ((1 : Nat) : Int)) = (1, 2, 0) from rfl,
        Res.require, show decide (0 ≤ ((1 : Nat) : Int) ∧ ((1 : Nat) : Int) ≤ 2) = true from rfl, if_true]
      refine ⟨by constructor <;> simp, ?_, ?_⟩
      · rw [idOutside_iff]
        intro i j _ _ hij
        simp only [bel_bset, bel_identity]
        repeat rw [if_neg (by omega)]
      · ext r c
        fin_cases r <;> fin_cases c <;> simp [linOf_apply, bel_bset, bel_identity, vecMulVec_apply, unitVec]
    · lin_run [rotationWorldAxisT, checkLinear3D_ok hm, hc, hsn, show cyclicPermutation3 (Int.toNat ((2 : Nat) : Int)) = (2, 0, 1) from rfl,
        Res.require, show decide (0 ≤ ((2 : Nat) : Int) ∧ ((2 : Nat) : Int) ≤ 2) = true from rfl, if_true]
      refine ⟨by constructor <;> simp, ?_, ?_⟩
      · rw [idOutside_iff]
        intro i j _ _ hij
        simp only [bel_bset, bel_identity]
        repeat rw [if_neg (by omega)]
      · ext r c
        fin_cases r <;> fin_cases c <;> simp [linOf_apply, bel_bset, bel_identity, vecMulVec_apply, unitVec]
  obtain ⟨m', e1, e2, e3, e4⟩ := key
  exact ⟨m', e1, e2, e3, e4, e4 ▸ hd _⟩

/-- C121: `matrix_rotation_euler` with three integer angles other than zero stores the zero matrix, for
all twelve orders. -/
theorem rotationEuler_int_false {m : BMat ℝ} (hm : m.HasLin 3) {n0 n1 n2 : ℤ} (h0 : L.Inside n0)
    (h1 : L.Inside n1) (h2 : L.Inside n2) (o : EulerOrder) :
    ∃ m', rotationEulerT (intAngle L) m n0 n1 n2 o = .ok m' ∧ m.SameShape m' ∧ m'.IdOutside 3 ∧
      linOf m' 3 = 0 ∧ ¬IsRotation (linOf m' 3) := by
  have key : ∃ m', rotationEulerT (intAngle L) m n0 n1 n2 o = .ok m' ∧ m.SameShape m' ∧
      m'.IdOutside 3 ∧ linOf m' 3 = 0 := by
    obtain ⟨-, -, -, hi, hj, hk, -, hr⟩ := o.perm_facts
    rw [rotationEulerT, checkLinear3D_ok hm, Res.ok_bind]
    simp only [(intAngle_zero_ite h0 _).1, (intAngle_zero_ite h0 _).2, (intAngle_zero_ite h1 _).1,
      (intAngle_zero_ite h1 _).2, (intAngle_zero_ite h2 _).1, (intAngle_zero_ite h2 _).2, hi, hj, hk,
      mul_zero, neg_zero, add_zero, sub_zero, ite_self]
    obtain ⟨m', e1, e2, e3, e4⟩ := bput9_perm hm o.perm (0 : ℝ) 0 0 0 0 0 0 0 0
    refine ⟨m', e1, e2, e3, submatrix_perm_inj o.perm ?_⟩
    rw [e4]
    ext r c
    fin_cases r <;> fin_cases c <;> rfl
  obtain ⟨m', e1, e2, e3, e4⟩ := key
  exact ⟨m', e1, e2, e3, e4, e4 ▸ not_rotation (by simp)⟩

/-- C121: `rotate_vector` with an integer angle other than zero returns the component along the axis,
`(v · n) n`. -/
theorem rotateVector_int_false {v a : AVec ℝ} {x u : Fin 3 → ℝ} (hv : v.Is 3 x) (ha : a.Is 3 u)
    (h : L.Inside n) :
    ∃ w, rotateVectorT (intAngle L) v a n = .ok w ∧ w.Is 3 ((x ⬝ᵥ u) • u) := by
  obtain ⟨hc, hsn⟩ := intAngle_zero h
  obtain ⟨hs, rfl⟩ := hv
  obtain ⟨ht, rfl⟩ := ha
  have hsz : v.size = a.size := by omega
  simp only [rotateVectorT, AVec.checkSize_ok hs, AVec.checkSize_ok ht, AVec.dot3_ok hs ht, AVec.sub,
    AVec.cross, AVec.add, AVec.smul, AVec.checkSameSize, Res.require, hsz, ht, decide_true, if_true,
    Res.ok_bind, Res.pure_eq, Res.ok.injEq, exists_eq_left', hc, hsn]
  refine ⟨rfl, ?_⟩
  funext i
  fin_cases i <;> simp [AVec.vec, dotProduct, Fin.sum_univ_three]

/-! ### Quaternions: the angle is halved by integer division first -/

/-- C121: `quaternion_rotation_world_axis` with an integer angle of at least two in absolute value
stores the zero quaternion. -/
theorem qRotationWorldAxis_int_false (s : QState ℝ) (v : QVar) (axis : Fin 3)
    (h : L.Inside (n.tdiv 2)) :
    ∃ s', qRotationWorldAxisT (intAngle L) s v axis n = .ok s' ∧ (∀ y, y ≠ v.id → s' y = s y) ∧
      QIs s' v 0 := by
  obtain ⟨hc, hsn⟩ := intAngle_zero h
  have hc' : (intAngle L).cos ((intAngle L).half n) = 0 := hc
  have hs' : (intAngle L).sin ((intAngle L).half n) = 0 := hsn
  have hr : Res.require (decide (0 ≤ (axis.val : Int) ∧ (axis.val : Int) ≤ 2)) .invalidArgument = .ok () := by
    rw [Res.require, if_pos (by simp; omega)]
  have hx : v.order.X + axis.val < 4 := by
    have := axis.2
    cases v.order <;> simp [QOrder.X] <;> omega
  simp only [qRotationWorldAxisT, hr, Out.withVal_ok, qIdentity, qPut, QOrder.W_lt, QOrder.X_lt,
    QOrder.Y_lt, QOrder.Z_lt, if_true, Out.ok_andThen, Int.toNat_natCast, hx, hc', hs']
  refine ⟨_, rfl, fun y hy => by funext j; simp [hy], ?_⟩
  unfold QIs
  fin_cases axis <;> cases v.order <;>
    simp [QHolds, QOrder.W, QOrder.X, QOrder.Y, QOrder.Z]

/-- C121: likewise `quaternion_rotation_axis_angle`. -/
theorem qRotationAxisAngle_int_false (s : QState ℝ) (v : QVar) {a : AVec ℝ} {u : Fin 3 → ℝ}
    (ha : a.Is 3 u) (h : L.Inside (n.tdiv 2)) :
    ∃ s', qRotationAxisAngleT (intAngle L) s v a n = .ok s' ∧ (∀ y, y ≠ v.id → s' y = s y) ∧
      QIs s' v 0 := by
  obtain ⟨hc, hsn⟩ := intAngle_zero h
  have hc' : (intAngle L).cos ((intAngle L).half n) = 0 := hc
  have hs' : (intAngle L).sin ((intAngle L).half n) = 0 := hsn
  obtain ⟨hs, rfl⟩ := ha
  simp only [qRotationAxisAngleT, AVec.checkSize_ok hs, Out.withVal_ok, hc', hs']
  obtain ⟨s', e1, e2, e3⟩ := (qassign_vec s v a.fixed a.size
    (fun _ i => (a.smul 0).get i) 0 _ _ _
    (fun _ => AVec.get_ok (v := a.smul 0) (show 0 < a.size by omega))
    (fun _ => AVec.get_ok (v := a.smul 0) (show 1 < a.size by omega))
    (fun _ => AVec.get_ok (v := a.smul 0) (show 2 < a.size by omega))).1 hs
  refine ⟨s', e1, e3, ?_⟩
  have hq : (0 : ℍ[ℝ]) = ⟨0, (a.smul 0).el 0, (a.smul 0).el 1, (a.smul 0).el 2⟩ := by
    refine Quaternion.ext _ _ ?_ ?_ ?_ ?_ <;> simp [AVec.smul]
  rw [hq]
  exact e2

/-- C121: and `quaternion_rotation_euler`, for all twelve orders. -/
theorem qRotationEuler_int_false (s : QState ℝ) (v : QVar) {n0 n1 n2 : ℤ} (h0 : L.Inside (n0.tdiv 2))
    (h1 : L.Inside (n1.tdiv 2)) (h2 : L.Inside (n2.tdiv 2)) (o : EulerOrder) :
    ∃ s', qRotationEulerT (intAngle L) s v n0 n1 n2 o = .ok s' ∧ (∀ y, y ≠ v.id → s' y = s y) ∧
      QIs s' v 0 := by
  obtain ⟨-, -, -, hi, hj, hk, hodd, hr⟩ := o.perm_facts
  have hne : ∀ a b : Fin 3, a ≠ b → v.order.X + (o.perm a).val ≠ v.order.X + (o.perm b).val := by
    intro a b hab he
    exact hab (o.perm.injective (Fin.ext (by omega)))
  have n01 := hne 0 1 (by decide)
  have n02 := hne 0 2 (by decide)
  have n12 := hne 1 2 (by decide)
  have w0 := QOrder.X_add_ne v.order (o.perm 0)
  have w1 := QOrder.X_add_ne v.order (o.perm 1)
  have w2 := QOrder.X_add_ne v.order (o.perm 2)
  have c0 : (intAngle L).cos ((intAngle L).half n0) = 0 := (intAngle_zero h0).1
  have s0 : (intAngle L).sin ((intAngle L).half n0) = 0 := (intAngle_zero h0).2
  have c2 : (intAngle L).cos ((intAngle L).half n2) = 0 := (intAngle_zero h2).1
  have s2 : (intAngle L).sin ((intAngle L).half n2) = 0 := (intAngle_zero h2).2
  have hhalf : ∀ b : Bool, (intAngle L).half (if b then (intAngle L).neg n1 else n1) =
      if b then (intAngle L).neg (n1.tdiv 2) else n1.tdiv 2 := by
    intro b
    cases b <;> simp [intAngle, Int.neg_tdiv]
  have c1 := fun b => (intAngle_zero_ite h1 b).1
  have s1 := fun b => (intAngle_zero_ite h1 b).2
  have hq := fun el => qholds_perm (o := v.order) (el := el) (h := (0 : ℍ[ℝ])) o.perm
  have l0 := QOrder.X_add_lt v.order (o.perm 0)
  have l1 := QOrder.X_add_lt v.order (o.perm 1)
  have l2 := QOrder.X_add_lt v.order (o.perm 2)
  have lw := QOrder.W_lt v.order
  have him : ∀ i, imVec (0 : ℍ[ℝ]) i = 0 := by intro i; fin_cases i <;> simp [imVec]
  simp only [qRotationEulerT, hhalf, c0, s0, c1, s1, c2, s2, hi, hj, hk, mul_zero, add_zero, sub_zero,
    ite_self]
  unfold QIs
  simp only [hq, him]
  clear hq hne hi hj hk c0 s0 c1 s1 c2 s2 him
  generalize v.order.X + (o.perm 0).val = i0 at *
  generalize v.order.X + (o.perm 1).val = i1 at *
  generalize v.order.X + (o.perm 2).val = i2 at *
  generalize v.order.W = iw at *
  simp only [qPut, l0, l1, l2, lw, if_true, Out.ok_andThen]
  by_cases ho : (unpackEulerOrder o.code).odd = true
  · simp only [ho, if_true]
    simp only [QArr.get, l1, if_true, qPutRes, w1, and_false, if_false, n12, and_self,
      Res.ok_bind, Res.pure_eq, Out.withVal_ok, qPut]
    refine ⟨_, rfl, fun y hy => by funext j; simp [hy], ?_⟩
    simp [w0, w1, w2, w0.symm, w1.symm, w2.symm, n01, n02, n12, n01.symm, n02.symm, n12.symm]
  · simp only [ho]
    refine ⟨_, rfl, fun y hy => by funext j; simp [hy], ?_⟩
    simp [w0, w1, w2, w0.symm, w1.symm, w2.symm, n01, n02, n12, n01.symm, n02.symm, n12.symm]

/-! ### Points -/

/-- C121: with an integer angle other than zero `polar_to_cartesian` gives the origin, whatever the
radius. -/
theorem polarToCartesian_int_false {v : AVec ℝ} (hs : v.size = 2) (r : ℝ) (h : L.Inside n) :
    ∃ w, polarToCartesianT (intAngle L) v r n = .ok w ∧ w.Is 2 0 ∧ w.fixed = v.fixed := by
  obtain ⟨hc, hsn⟩ := intAngle_zero h
  simp [polarToCartesianT, AVec.checkSize_ok hs, AVec.put, hs, AVec.Is, AVec.vec, hc, hsn]
  funext i
  fin_cases i <;> rfl

private theorem perm_eq (i : Fin 3) : cyclicPermutation3 (((i : Nat) : Int).toNat) =
    ((i : Nat), ((i + 1 : Fin 3) : Nat), ((i + 2 : Fin 3) : Nat)) := by
  fin_cases i <;> rfl

private theorem axis_ok (i : Fin 3) : requireAxis ((i : Nat) : Int) = .ok () := by
  fin_cases i <;> rfl

private theorem put3 {v : AVec ℝ} (hs : v.size = 3) (i : Fin 3) (a b c : ℝ) :
    ∃ w x, (do
      let v ← v.put (i : Nat) a
      let v ← v.put ((i + 1 : Fin 3) : Nat) b
      v.put ((i + 2 : Fin 3) : Nat) c) = .ok w ∧ w.Is 3 x ∧ w.fixed = v.fixed ∧ x i = a ∧ x (i + 1) = b ∧
      x (i + 2) = c := by
  fin_cases i <;> simp [AVec.put, hs, AVec.Is, AVec.vec]

private theorem ext3 (i : Fin 3) {x y : Fin 3 → ℝ} (h0 : x i = y i) (h1 : x (i + 1) = y (i + 1))
    (h2 : x (i + 2) = y (i + 2)) : x = y := by
  funext j
  fin_cases i <;> fin_cases j <;> simp at h0 h1 h2 ⊢ <;> assumption

private theorem single3 (i : Fin 3) (r : ℝ) : (Pi.single i r : Fin 3 → ℝ) i = r ∧
    (Pi.single i r : Fin 3 → ℝ) (i + 1) = 0 ∧ (Pi.single i r : Fin 3 → ℝ) (i + 2) = 0 := by
  fin_cases i <;> simp

/-- C121: `cylindrical_to_cartesian` gives a point on the axis. -/
theorem cylindricalToCartesian_int_false {v : AVec ℝ} (hs : v.size = 3) (i : Fin 3) (r z : ℝ)
    (h : L.Inside n) :
    ∃ w, cylindricalToCartesianT (intAngle L) v (i : Nat) r n z = .ok w ∧ w.Is 3 (Pi.single i z) ∧
      w.fixed = v.fixed := by
  obtain ⟨hc, hsn⟩ := intAngle_zero h
  obtain ⟨w, x, e1, e2, e3, e4, e5, e6⟩ := put3 hs i z 0 0
  obtain ⟨p1, p2, p3⟩ := single3 i z
  have hx : x = Pi.single i z := ext3 i (by rw [e4, p1]) (by rw [e5, p2]) (by rw [e6, p3])
  refine ⟨w, ?_, hx ▸ e2, e3⟩
  simp only [cylindricalToCartesianT, axis_ok, AVec.checkSize_ok hs, Res.ok_bind, perm_eq, hc, hsn,
    zero_mul]
  exact e1

/-- C121: `spherical_to_cartesian` with an integer colatitude other than zero, or a latitude other than
one, gives the origin; the latitude one, for which `constants<int>::pi_over_2()` makes the colatitude
zero, gives the pole. -/
theorem sphericalToCartesian_int_false {v : AVec ℝ} (hs : v.size = 3) (i : Fin 3) (r : ℝ) (θ : ℤ) :
    (∀ φ : ℤ, L.Inside φ →
      ∃ w, sphericalToCartesianT (intAngle L) v (i : Nat) .colatitude r θ φ = .ok w ∧ w.Is 3 0 ∧
        w.fixed = v.fixed) ∧
    (∀ φ : ℤ, L.Inside (1 - φ) →
      ∃ w, sphericalToCartesianT (intAngle L) v (i : Nat) .latitude r θ φ = .ok w ∧ w.Is 3 0 ∧
        w.fixed = v.fixed) ∧
    (L.AtZero →
      ∃ w, sphericalToCartesianT (intAngle L) v (i : Nat) .latitude r θ 1 = .ok w ∧
        w.Is 3 (Pi.single i r) ∧ w.fixed = v.fixed) := by
  have e0 : ∃ w, (do
      let v ← v.put (i : Nat) (0 : ℝ)
      let v ← v.put ((i + 1 : Fin 3) : Nat) 0
      v.put ((i + 2 : Fin 3) : Nat) 0) = .ok w ∧ w.Is 3 0 ∧ w.fixed = v.fixed := by
    obtain ⟨w, x, e1, e2, e3, e4, e5, e6⟩ := put3 hs i 0 0 0
    have hx : x = 0 := ext3 i (by rw [e4]; rfl) (by rw [e5]; rfl) (by rw [e6]; rfl)
    exact ⟨w, e1, hx ▸ e2, e3⟩
  refine ⟨fun φ h => ?_, fun φ h => ?_, fun h => ?_⟩
  · obtain ⟨hc, hsn⟩ := intAngle_zero h
    simp only [sphericalToCartesianT, axis_ok, AVec.checkSize_ok hs, Res.ok_bind, perm_eq,
      reduceCtorEq, if_false, hc, hsn, zero_mul]
    exact e0
  · obtain ⟨hc, hsn⟩ := intAngle_zero h
    have hco : (intAngle L).coLat φ = 1 - φ := rfl
    simp only [sphericalToCartesianT, axis_ok, AVec.checkSize_ok hs, Res.ok_bind, perm_eq,
      if_true, hco, hc, hsn, zero_mul]
    exact e0
  · obtain ⟨w, x, e1, e2, e3, e4, e5, e6⟩ := put3 hs i r 0 0
    obtain ⟨p1, p2, p3⟩ := single3 i r
    have hx : x = Pi.single i r := ext3 i (by rw [e4, p1]) (by rw [e5, p2]) (by rw [e6, p3])
    refine ⟨w, ?_, hx ▸ e2, e3⟩
    have hco : (intAngle L).coLat 1 = 0 := rfl
    have hc : (intAngle L).cos 0 = 1 := by simp [intAngle, h.1]
    have hsn : (intAngle L).sin 0 = 0 := by simp [intAngle, h.2]
    simp only [sphericalToCartesianT, axis_ok, AVec.checkSize_ok hs, Res.ok_bind, perm_eq,
      if_true, hco, hc, hsn, zero_mul, one_mul]
    exact e1

/-! ### What holds -/

/-- C121, the part that holds: the integer angle zero is the real angle zero.  Missing: every other
integer (see the theorems above).  The quaternion builders take -1 and 1 for zero as well, which is
wrong. -/
theorem intAngle_partial (h : L.AtZero) :
    (∀ m, rotation2DT (intAngle L) m 0 = rotation2D m 0) ∧
    (∀ m axis, rotationWorldAxisT (intAngle L) m axis 0 = rotationWorldAxis m axis 0) ∧
    (∀ m v, rotationAxisAngleT (intAngle L) m v 0 = rotationAxisAngle m v 0) ∧
    (∀ m o, rotationEulerT (intAngle L) m 0 0 0 o = rotationEuler m 0 0 0 o) ∧
    (∀ v u, rotateVectorT (intAngle L) v u 0 = rotateVector v u 0) ∧
    (∀ v r, polarToCartesianT (intAngle L) v r 0 = polarToCartesian v r 0) ∧
    (∀ v axis r z, cylindricalToCartesianT (intAngle L) v axis r 0 z =
      cylindricalToCartesian v axis r 0 z) ∧
    (∀ v axis r, sphericalToCartesianT (intAngle L) v axis .colatitude r 0 0 =
      sphericalToCartesian v axis .colatitude r 0 0) := by
  have hc : (intAngle L).cos 0 = 1 := by simp [intAngle, h.1]
  have hsn : (intAngle L).sin 0 = 0 := by simp [intAngle, h.2]
  have hn : (intAngle L).neg 0 = 0 := rfl
  refine ⟨?_, ?_, ?_, ?_, ?_, ?_, ?_, ?_⟩ <;> intros <;>
    simp [rotation2DT, rotation2D, rotationWorldAxisT, rotationWorldAxis, rotationAxisAngleT,
      rotationAxisAngle, rotationEulerT, rotationEuler, rotateVectorT, rotateVector, polarToCartesianT,
      polarToCartesian, cylindricalToCartesianT, cylindricalToCartesian, sphericalToCartesianT,
      sphericalToCartesian, hc, hsn, hn]

/-- C121: the quaternion builders treat the angles -1, 0 and 1 as zero. -/
theorem qIntAngle_small (h : L.AtZero) (s : QState ℝ) (v : QVar) {n n0 n1 n2 : ℤ} (hn : |n| ≤ 1)
    (hn0 : |n0| ≤ 1) (hn1 : |n1| ≤ 1) (hn2 : |n2| ≤ 1) :
    (∀ axis, qRotationWorldAxisT (intAngle L) s v axis n = qRotationWorldAxis s v axis 0) ∧
    (∀ u, qRotationAxisAngleT (intAngle L) s v u n = qRotationAxisAngle s v u 0) ∧
    (∀ o, qRotationEulerT (intAngle L) s v n0 n1 n2 o = qRotationEuler s v 0 0 0 o) := by
  have hh : ∀ k : ℤ, |k| ≤ 1 → (intAngle L).half k = 0 := fun k hk => tdiv_two_eq_zero.2 hk
  have hc : (intAngle L).cos 0 = 1 := by simp [intAngle, h.1]
  have hsn : (intAngle L).sin 0 = 0 := by simp [intAngle, h.2]
  have h1' : ∀ b : Bool, (intAngle L).half (if b then (intAngle L).neg n1 else n1) = 0 := by
    intro b
    cases b
    · exact hh _ hn1
    · exact hh _ (by simpa [intAngle] using hn1)
  refine ⟨fun axis => ?_, fun u => ?_, fun o => ?_⟩
  · simp [qRotationWorldAxisT, qRotationWorldAxis, hh n hn, hc, hsn]
  · simp [qRotationAxisAngleT, qRotationAxisAngle, hh n hn, hc, hsn]
  · simp only [qRotationEulerT, qRotationEuler, hh n0 hn0, h1', hh n2 hn2, hc, hsn, neg_zero, ite_self,
      zero_div, Real.sin_zero, Real.cos_zero]

/-- C121: so the angles -1 and 1 about a coordinate axis give the identity quaternion. -/
theorem qRotationWorldAxis_int_one (h : L.AtZero) (s : QState ℝ) (v : QVar) (axis : Fin 3)
    (hn : |n| ≤ 1) :
    ∃ s', qRotationWorldAxisT (intAngle L) s v axis n = .ok s' ∧ QIs s' v 1 := by
  have hh : (intAngle L).half n = 0 := tdiv_two_eq_zero.2 hn
  have hc' : (intAngle L).cos 0 = 1 := by simp [intAngle, h.1]
  have hs' : (intAngle L).sin 0 = 0 := by simp [intAngle, h.2]
  have hr : Res.require (decide (0 ≤ (axis.val : Int) ∧ (axis.val : Int) ≤ 2)) .invalidArgument = .ok () := by
    rw [Res.require, if_pos (by simp; omega)]
  have hx : v.order.X + axis.val < 4 := by
    have := axis.2
    cases v.order <;> simp [QOrder.X] <;> omega
  simp only [qRotationWorldAxisT, hr, Out.withVal_ok, qIdentity, qPut, QOrder.W_lt, QOrder.X_lt,
    QOrder.Y_lt, QOrder.Z_lt, if_true, Out.ok_andThen, Int.toNat_natCast, hx, hh, hc', hs']
  refine ⟨_, rfl, ?_⟩
  unfold QIs
  fin_cases axis <;> cases v.order <;>
    simp [QHolds, QOrder.W, QOrder.X, QOrder.Y, QOrder.Z]

end

/-- C121: with exact library functions no integer angle other than zero gives the rotation by that
angle, for any builder of matrices; the quaternion builder for coordinate axes gives the wrong
quaternion for all of them as well. -/
theorem intAngle_false {n : ℤ} (hn : n ≠ 0) {m : BMat ℝ} (h2 : m.HasLin 2) (s : QState ℝ) (v : QVar)
    (axis : Fin 3) :
    (∀ m', rotation2DT (intAngle .exact) m n = .ok m' → linOf m' 2 ≠ planeRot n) ∧
    (m.HasLin 3 → ∀ m', rotationWorldAxisT (intAngle .exact) m axis n = .ok m' →
      linOf m' 3 ≠ rodrigues (unitVec axis) n) ∧
    (∀ a u m', m.HasLin 3 → a.Is 3 u → u ⬝ᵥ u = 1 →
      rotationAxisAngleT (intAngle .exact) m a n = .ok m' → linOf m' 3 ≠ rodrigues u n) ∧
    ∃ s' h, qRotationWorldAxisT (intAngle .exact) s v axis n = .ok s' ∧ QIs s' v h ∧
      h ≠ axisQuat (unitVec axis) n := by
  have hi := exact_inside hn
  refine ⟨fun m' e he => ?_, fun h3 m' e he => ?_, fun a u m' h3 ha hu e he => ?_, ?_⟩
  · obtain ⟨m1, e1, -, -, -, hr⟩ := rotation2D_int_false h2 hi
    rw [e] at e1
    cases e1
    exact hr (he ▸ planeRot_isRotation _)
  · obtain ⟨m1, e1, -, -, -, hr⟩ := rotationWorldAxis_int_false h3 axis hi
    rw [e] at e1
    cases e1
    exact hr (he ▸ rodrigues_isRotation (unitVec_unit _) _)
  · obtain ⟨m1, e1, -, -, -, hr⟩ := rotationAxisAngle_int_false h3 ha hi
    rw [e] at e1
    cases e1
    exact hr (he ▸ rodrigues_isRotation hu _)
  · by_cases hs : |n| ≤ 1
    · obtain ⟨s', e1, e2⟩ := qRotationWorldAxis_int_one exact_atZero s v axis hs
      refine ⟨s', 1, e1, e2, fun h => ?_⟩
      have hc : (1 : ℝ) = Real.cos ((n : ℝ) / 2) := congrArg (fun q : ℍ[ℝ] => q.re) h
      obtain ⟨k, hk⟩ := (Real.cos_eq_one_iff _).1 hc.symm
      apply int_mul_pi_half (k := 8 * k) hn
      push_cast
      linarith
    · have hn2 : n.tdiv 2 ≠ 0 := fun h => hs (tdiv_two_eq_zero.1 h)
      obtain ⟨s', e1, -, e3⟩ := qRotationWorldAxis_int_false s v axis (exact_inside hn2)
      refine ⟨s', 0, e1, e3, fun h => ?_⟩
      have := axisQuat_unit (unitVec_unit axis) n
      rw [← h] at this
      simp at this

/-- C121: `deg` of an integer multiplies by 57 and `rad` of an integer is zero. -/
theorem degrad_int_false (n : ℤ) : degZ n = 57 * n ∧ radZ n = 0 := by
  have h1 : truncR Consts.degPerRad = 57 := by
    unfold truncR Consts.degPerRad mPi
    rw [if_pos (by norm_num), Int.floor_eq_iff]
    constructor <;> norm_num
  have h2 : truncR Consts.radPerDeg = 0 := by
    unfold Consts.radPerDeg mPi
    apply truncR_inside
    rw [abs_lt]
    constructor <;> norm_num
  exact ⟨by rw [degZ, h1, mul_comm], by rw [radZ, h2, mul_zero]⟩

section Examples

private def exM : BMat ℝ := ⟨⟨3, 4, fun _ _ => 0⟩, .col, true⟩
private theorem exM_lin : exM.HasLin 3 := by constructor <;> decide

/-- The literal `1` as an angle about the axis (3/5, 0, 4/5): the projection onto that axis. -/
example := rotationAxisAngle_int_false (L := .exact) (n := 1) exM_lin
  (AVec.of_is true ![3/5, 0, (4/5 : ℝ)]) (exact_inside (by decide))
example := rotationEuler_int_false (L := .exact) exM_lin (exact_inside (n := 1) (by decide))
  (exact_inside (n := 2) (by decide)) (exact_inside (n := -3) (by decide)) .zyx
example := rotationWorldAxis_int_false (L := .exact) exM_lin 2 (exact_inside (n := 90) (by decide))
example := rotateVector_int_false (L := .exact) (n := 2) (AVec.of_is true ![1, 2, (3 : ℝ)])
  (AVec.of_is true ![0, 0, (1 : ℝ)]) (exact_inside (by decide))
example (s : QState ℝ) := qRotationEuler_int_false (L := .exact) s ⟨0, .realFirst, .positive⟩
  (exact_inside (n := Int.tdiv 2 2) (by decide)) (exact_inside (n := Int.tdiv 3 2) (by decide))
  (exact_inside (n := Int.tdiv (-4) 2) (by decide)) .xyz
example := (sphericalToCartesian_int_false (L := .exact) (v := AVec.of true ![1, 2, (3 : ℝ)]) rfl 1 5 2).1 1
  (exact_inside (by decide))
example := intAngle_partial exact_atZero
example (s : QState ℝ) := intAngle_false (n := 1) (by decide) (m := exM) (by constructor <;> decide) s
  ⟨0, .realFirst, .positive⟩ 0

end Examples

end CML

#print axioms CML.exact_inside
#print axioms CML.exact_atZero
#print axioms CML.realAngle_same
#print axioms CML.intAngle_zero
#print axioms CML.rotation2D_int_false
#print axioms CML.rotationAxisAngle_int_false
#print axioms CML.rotationWorldAxis_int_false
#print axioms CML.rotationEuler_int_false
#print axioms CML.rotateVector_int_false
#print axioms CML.qRotationWorldAxis_int_false
#print axioms CML.qRotationAxisAngle_int_false
#print axioms CML.qRotationEuler_int_false
#print axioms CML.polarToCartesian_int_false
#print axioms CML.cylindricalToCartesian_int_false
#print axioms CML.sphericalToCartesian_int_false
#print axioms CML.intAngle_partial
#print axioms CML.qIntAngle_small
#print axioms CML.qRotationWorldAxis_int_one
#print axioms CML.intAngle_false
#print axioms CML.degrad_int_false
