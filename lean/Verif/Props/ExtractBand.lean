import Verif.Lemmas.ExtractBand
import Verif.Props.Extract

/-!
C114 (axis, angle and Euler angles inside of the tolerance band).
-/

namespace CML
open Matrix BMat Quaternion

private theorem half_turn_near {v : AVec ℝ} (hv : v.size = 3) {R : Matrix (Fin 3) (Fin 3) ℝ}
    {w : ℝ} {x : Fin 3 → ℝ} (i j k : Fin 3) (hij : i ≠ j) (hik : i ≠ k) (hjk : j ≠ k) {tol : ℝ}
    (ht : 0 ≤ tol) (hq : w ^ 2 + x i ^ 2 + x j ^ 2 + x k ^ 2 = 1)
    (hw : w ^ 2 ≤ x i ^ 2 + x j ^ 2 + x k ^ 2)
    (hl : 16 * (w ^ 2 * (x i ^ 2 + x j ^ 2 + x k ^ 2)) ≤ tol ^ 2)
    (hj : x j ^ 2 ≤ x i ^ 2) (hk : x k ^ 2 ≤ x i ^ 2)
    (rii : R i i = w ^ 2 + x i ^ 2 - x j ^ 2 - x k ^ 2) (rjj : R j j = w ^ 2 - x i ^ 2 + x j ^ 2 - x k ^ 2)
    (rkk : R k k = w ^ 2 - x i ^ 2 - x j ^ 2 + x k ^ 2)
    (rji : R j i = 2 * (x i * x j + w * x k)) (rij : R i j = 2 * (x i * x j - w * x k))
    (rki : R k i = 2 * (x i * x k - w * x j)) (rik : R i k = 2 * (x i * x k + w * x j))
    (rkj : R k j = 2 * (x j * x k + w * x i)) (rjk : R j k = 2 * (x j * x k - w * x i)) :
    ∃ z t, (do
      let axis ← v.put i (Real.sqrt (R i i - R j j - R k k + 1) / 2)
      let ai ← axis.get i
      let s ← divR 1 (2 * ai)
      let axis ← axis.put j (R j i * s)
      let axis ← axis.put k (R k i * s)
      (pure (axis, Real.pi) : Res (AVec ℝ × ℝ))) = .ok (z, Real.pi) ∧ z.Is 3 t ∧
      |t ⬝ᵥ t - 1| ≤ tol ^ 2 / 8 ∧ ∀ a b, |rodrigues t Real.pi a b - R a b| ≤ 3 / 2 * tol := by
  have hi : 0 < x i ^ 2 := by nlinarith
  have h0 : x i ≠ 0 := by rintro e; simp [e] at hi
  have hp : 0 < |x i| := abs_pos.2 h0
  have ha := abs_mul_abs_self (x i)
  have hs : Real.sqrt (R i i - R j j - R k k + 1) / 2 = |x i| := by
    rw [show R i i - R j j - R k k + 1 = (2 * |x i|) * (2 * |x i|) by
      rw [rii, rjj, rkk]; linear_combination -hq - 4 * ha, Real.sqrt_mul_self (by positivity)]
    ring
  have n1 : (j : Nat) ≠ i := fun h => hij (Fin.ext h.symm)
  have n2 : (k : Nat) ≠ i := fun h => hik (Fin.ext h.symm)
  have n3 : (k : Nat) ≠ j := fun h => hjk (Fin.ext h.symm)
  rw [hs]
  simp only [AVec.put, AVec.get, hv, i.isLt, j.isLt, k.isLt, if_true, Res.ok_bind, divR,
    if_neg (mul_pos two_pos hp).ne', Res.pure_eq]
  have hcase : ∀ a : Fin 3, a = i ∨ a = j ∨ a = k := by
    revert hij hik hjk; clear * -; revert i j k; decide
  obtain ⟨σ, hσ2, hσi⟩ : ∃ σ : ℝ, σ * σ = 1 ∧ σ * x i = |x i| := by
    rcases le_total 0 (x i) with h | h
    · exact ⟨1, by norm_num, by rw [abs_of_nonneg h, one_mul]⟩
    · exact ⟨-1, by norm_num, by rw [abs_of_nonpos h]; ring⟩
  have hσx : σ * |x i| = x i := by rw [← hσi, ← mul_assoc, hσ2, one_mul]
  let t : Fin 3 → ℝ := fun a => if a = i then σ * x i else
    if a = j then σ * (x j + w * (x k / x i)) else σ * (x k - w * (x j / x i))
  have ti : t i = σ * x i := if_pos rfl
  have tj : t j = σ * (x j + w * (x k / x i)) := by simp only [t, if_neg hij.symm, if_true]
  have tk : t k = σ * (x k - w * (x j / x i)) := by simp only [t, if_neg hik.symm, if_neg hjk.symm]
  have hprod : ∀ a b c d : ℝ, a = σ * c → b = σ * d → a * b = c * d := by
    rintro a b c d rfl rfl
    linear_combination c * d * hσ2
  obtain ⟨g1, g2, g3, g4, g5, g6, g7, g8, g9, g10⟩ := half_estimates hq ht hw hl
    (r := x k / x i) (s := x j / x i) (by field_simp) (by field_simp)
    (by rw [div_pow, div_le_one hi]; exact hk) (by rw [div_pow, div_le_one hi]; exact hj)
  refine ⟨_, t, rfl, ⟨rfl, ?_⟩, ?_, ?_⟩
  · funext a
    simp only [AVec.vec]
    have hσn : σ ≠ 0 := by rintro e; simp [e] at hσ2
    have hinv : 1 / (2 * |x i|) = σ / (2 * x i) := by
      rw [div_eq_div_iff (by positivity) (by simpa using h0)]
      linear_combination -2 * hσx
    rcases hcase a with rfl | rfl | rfl
    · rw [if_neg n2.symm, if_neg n1.symm, if_pos rfl, ti, hσi]
    · rw [if_neg n3.symm, if_pos rfl, tj, rji, hinv]
      field_simp
    · rw [if_pos rfl, tk, rki, hinv]
      field_simp
  · have hsum : t ⬝ᵥ t = t i * t i + t j * t j + t k * t k := by
      have hu : (Finset.univ : Finset (Fin 3)) = {i, j, k} := by
        revert hij hik hjk; clear * -; revert i j k; decide
      rw [dotProduct, hu, Finset.sum_insert (by simp [hij, hik]), Finset.sum_insert (by simp [hjk]),
        Finset.sum_singleton, add_assoc]
    rw [hsum, hprod _ _ _ _ ti ti, hprod _ _ _ _ tj tj, hprod _ _ _ _ tk tk]
    exact g10
  · have hR : ∀ a b, rodrigues t Real.pi a b = 2 * (t a * t b) - if a = b then 1 else 0 := by
      intro a b
      simp only [rodrigues, Real.cos_pi, Real.sin_pi, zero_smul, add_zero, Matrix.add_apply,
        Matrix.smul_apply, Matrix.one_apply, vecMulVec_apply, smul_eq_mul]
      split_ifs <;> ring
    intro a b
    rw [hR]
    rcases hcase a with rfl | rfl | rfl <;> rcases hcase b with rfl | rfl | rfl
    · rw [if_pos rfl, hprod _ _ _ _ ti ti, rii]; exact g1
    · rw [if_neg hij, sub_zero, hprod _ _ _ _ ti tj, rij]; exact g5
    · rw [if_neg hik, sub_zero, hprod _ _ _ _ ti tk, rik]; exact g7
    · rw [if_neg hij.symm, sub_zero, mul_comm (t a), hprod _ _ _ _ ti tj, rji]; exact g4
    · rw [if_pos rfl, hprod _ _ _ _ tj tj, rjj]; exact g2
    · rw [if_neg hjk, sub_zero, hprod _ _ _ _ tj tk, rjk]; exact g9
    · rw [if_neg hik.symm, sub_zero, mul_comm (t a), hprod _ _ _ _ ti tk, rki]; exact g6
    · rw [if_neg hjk.symm, sub_zero, mul_comm (t a), hprod _ _ _ _ tj tk, rkj]; exact g8
    · rw [if_pos rfl, hprod _ _ _ _ tk tk, rkk]; exact g3

/-- C114: for every rotation matrix and every non-negative tolerance, `matrix_to_axis_angle` succeeds,
and the rotation of the axis and angle it returns differs from the matrix by at most `3/2` of the
tolerance in each element.  The axis is zero for the angle zero, and of length one up to the square of
the tolerance otherwise.  (Outside of the band the result is exact, `toAxisAngle_spec`.) -/
theorem toAxisAngle_near {m : BMat ℝ} (hm : m.HasLin 3) (hr : IsRotation (linOf m 3)) {tol : ℝ}
    (ht : 0 ≤ tol) :
    ∃ v u θ, toAxisAngle m tol = .ok (v, θ) ∧ v.Is 3 u ∧ 0 ≤ θ ∧ θ ≤ Real.pi ∧
      (|u ⬝ᵥ u - 1| ≤ tol ^ 2 / 8 ∨ (θ = 0 ∧ u = 0)) ∧
      ∀ a b, |rodrigues u θ a b - linOf m 3 a b| ≤ 3 / 2 * tol := by
  by_cases hb : OutsideAxisBand (linOf m 3) tol
  · obtain ⟨v, u, θ, e1, e2, e3, e4, e5, e6⟩ := toAxisAngle_spec hm hr hb
    refine ⟨v, u, θ, e1, e2, e3, e4, e5.imp (fun e => ?_) id, fun a b => ?_⟩
    · rw [e, sub_self, abs_zero]; positivity
    · rw [e6, sub_self, abs_zero]; positivity
  have hgt : ¬tol < skewLen (linOf m 3) := fun h => hb ⟨ht, .inr h⟩
  obtain ⟨⟨b00, b01, b02⟩, ⟨b10, b11, b12⟩, ⟨b20, b21, b22⟩⟩ := bget_lin9 hm
  have htr := trace3_ok hm
  obtain ⟨q, hq, hM, -⟩ := hr.exists_quat
  have hqn := hq
  rw [normSq_def'] at hqn
  have hax := AVec.mk3_is true (linOf m 3 2 1 - linOf m 3 1 2) (linOf m 3 0 2 - linOf m 3 2 0)
    (linOf m 3 1 0 - linOf m 3 0 1)
  have hlen := AVec.length_is hax (by decide)
  rw [show Real.sqrt (![linOf m 3 2 1 - linOf m 3 1 2, linOf m 3 0 2 - linOf m 3 2 0,
      linOf m 3 1 0 - linOf m 3 0 1] ⬝ᵥ ![linOf m 3 2 1 - linOf m 3 1 2, linOf m 3 0 2 - linOf m 3 2 0,
      linOf m 3 1 0 - linOf m 3 0 1]) = skewLen (linOf m 3) by
    rw [skewLen]; congr 1; simp [dotProduct, Fin.sum_univ_three]; ring] at hlen
  have hsk : 16 * (q.re ^ 2 * (q.imI ^ 2 + q.imJ ^ 2 + q.imK ^ 2)) ≤ tol ^ 2 := by
    have h1 : skewLen (linOf m 3) ^ 2 = 16 * (q.re ^ 2 * (q.imI ^ 2 + q.imJ ^ 2 + q.imK ^ 2)) := by
      rw [skewLen, Real.sq_sqrt (by positivity), ← hM, quatMat_eq]
      simp
      ring
    rw [← h1]
    exact pow_le_pow_left₀ (Real.sqrt_nonneg _) (not_lt.1 hgt) 2
  simp only [toAxisAngle, checkLinear3D_ok hm, Res.ok_bind, b12, b21, b20, b02, b01, b10, hlen, htr,
    if_neg hgt]
  have hR := quatMat_eq q
  rw [hM] at hR
  have r : ∀ a b, linOf m 3 a b = _ := fun a b => congrFun (congrFun hR a) b
  have r00 := r 0 0; have r01 := r 0 1; have r02 := r 0 2; have r10 := r 1 0; have r11 := r 1 1
  have r12 := r 1 2; have r20 := r 2 0; have r21 := r 2 1; have r22 := r 2 2
  simp only [of_apply, cons_val_zero, cons_val_one, cons_val] at r00 r01 r02 r10 r11 r12 r20 r21 r22
  have htrace : linOf m 3 0 0 + linOf m 3 1 1 + linOf m 3 2 2 - 1 =
      2 * (q.re ^ 2 - (q.imI ^ 2 + q.imJ ^ 2 + q.imK ^ 2)) := by
    rw [r00, r11, r22]; linear_combination hqn
  split_ifs with hpos
  · rw [htrace] at hpos
    refine ⟨_, 0, 0, rfl, ⟨rfl, ?_⟩, le_refl _, Real.pi_pos.le, .inr ⟨rfl, rfl⟩, fun a b => ?_⟩
    · funext i
      fin_cases i <;> simp [AVec.vec, AVec.mk3]
    · rw [rodrigues_zero, ← hM]
      exact (quat_near_one hq ht (by linarith) hsk a b).trans (by linarith)
  · rw [htrace] at hpos
    have hw : q.re ^ 2 ≤ q.imI ^ 2 + q.imJ ^ 2 + q.imK ^ 2 := by linarith
    simp only [b00, b11, b22, Res.ok_bind]
    have i0 : imVec q 0 = q.imI := rfl
    have i1 : imVec q 1 = q.imJ := rfl
    have i2 : imVec q 2 = q.imK := rfl
    have hsz : (AVec.mk3 true (linOf m 3 2 1 - linOf m 3 1 2) (linOf m 3 0 2 - linOf m 3 2 0)
      (linOf m 3 1 0 - linOf m 3 0 1)).size = 3 := rfl
    rcases indexOfMax3_cases (linOf m 3 0 0) (linOf m 3 1 1) (linOf m 3 2 2) with
      ⟨hx, g1, g2⟩ | ⟨hx, g1, g2⟩ | ⟨hx, g1, g2⟩ <;> rw [hx]
    · obtain ⟨z, t, e1, e2, e3, e4⟩ := half_turn_near hsz (R := linOf m 3) (w := q.re) (x := imVec q)
        0 1 2 (by decide) (by decide) (by decide) ht (by rw [i0, i1, i2]; linarith only [hqn])
        (by rw [i0, i1, i2]; linarith only [hw]) (by rw [i0, i1, i2]; linarith only [hsk])
        (by rw [i0, i1]; linarith only [g1, g2, r00, r11, r22])
        (by rw [i0, i2]; linarith only [g1, g2, r00, r11, r22])
        (by rw [i0, i1, i2, r00] <;> ring) (by rw [i0, i1, i2, r11] <;> ring)
        (by rw [i0, i1, i2, r22] <;> ring) (by rw [i0, i1, i2, r10] <;> ring)
        (by rw [i0, i1, i2, r01] <;> ring) (by rw [i0, i1, i2, r20] <;> ring)
        (by rw [i0, i1, i2, r02] <;> ring) (by rw [i0, i1, i2, r21] <;> ring)
        (by rw [i0, i1, i2, r12] <;> ring)
      simp only [show cyclicPermutation3 0 = (0, 1, 2) from rfl, b00, b11, b22, b01, b02, Res.ok_bind]
      exact ⟨z, t, Real.pi, e1, e2, Real.pi_pos.le, le_refl _, .inl e3, e4⟩
    · obtain ⟨z, t, e1, e2, e3, e4⟩ := half_turn_near hsz (R := linOf m 3) (w := q.re) (x := imVec q)
        1 2 0 (by decide) (by decide) (by decide) ht (by rw [i0, i1, i2]; linarith only [hqn])
        (by rw [i0, i1, i2]; linarith only [hw]) (by rw [i0, i1, i2]; linarith only [hsk])
        (by rw [i1, i2]; linarith only [g1, g2, r00, r11, r22])
        (by rw [i1, i0]; linarith only [g1, g2, r00, r11, r22])
        (by rw [i0, i1, i2, r11] <;> ring) (by rw [i0, i1, i2, r22] <;> ring)
        (by rw [i0, i1, i2, r00] <;> ring) (by rw [i0, i1, i2, r21] <;> ring)
        (by rw [i0, i1, i2, r12] <;> ring) (by rw [i0, i1, i2, r01] <;> ring)
        (by rw [i0, i1, i2, r10] <;> ring) (by rw [i0, i1, i2, r02] <;> ring)
        (by rw [i0, i1, i2, r20] <;> ring)
      simp only [show cyclicPermutation3 1 = (1, 2, 0) from rfl, b00, b11, b22, b12, b10, Res.ok_bind]
      exact ⟨z, t, Real.pi, e1, e2, Real.pi_pos.le, le_refl _, .inl e3, e4⟩
    · obtain ⟨z, t, e1, e2, e3, e4⟩ := half_turn_near hsz (R := linOf m 3) (w := q.re) (x := imVec q)
        2 0 1 (by decide) (by decide) (by decide) ht (by rw [i0, i1, i2]; linarith only [hqn])
        (by rw [i0, i1, i2]; linarith only [hw]) (by rw [i0, i1, i2]; linarith only [hsk])
        (by rw [i2, i0]; linarith only [g1, g2, r00, r11, r22])
        (by rw [i2, i1]; linarith only [g1, g2, r00, r11, r22])
        (by rw [i0, i1, i2, r22] <;> ring) (by rw [i0, i1, i2, r00] <;> ring)
        (by rw [i0, i1, i2, r11] <;> ring) (by rw [i0, i1, i2, r02] <;> ring)
        (by rw [i0, i1, i2, r20] <;> ring) (by rw [i0, i1, i2, r12] <;> ring)
        (by rw [i0, i1, i2, r21] <;> ring) (by rw [i0, i1, i2, r10] <;> ring)
        (by rw [i0, i1, i2, r01] <;> ring)
      simp only [show cyclicPermutation3 2 = (2, 0, 1) from rfl, b00, b11, b22, b20, b21, Res.ok_bind]
      exact ⟨z, t, Real.pi, e1, e2, Real.pi_pos.le, le_refl _, .inl e3, e4⟩

/-- C114: `matrix_rotation_axis_angle` applied to the extracted axis and angle gives the matrix back up to
`3/2` of the tolerance. -/
theorem toAxisAngle_near_roundtrip {m m0 : BMat ℝ} (hm : m.HasLin 3) (hr : IsRotation (linOf m 3))
    {tol : ℝ} (ht : 0 ≤ tol) (h0 : m0.HasLin 3) :
    ∃ v θ m', toAxisAngle m tol = .ok (v, θ) ∧ rotationAxisAngle m0 v θ = .ok m' ∧ m0.SameShape m' ∧
      m'.IdOutside 3 ∧ ∀ a b, |linOf m' 3 a b - linOf m 3 a b| ≤ 3 / 2 * tol := by
  obtain ⟨v, u, θ, e1, e2, -, -, -, e3⟩ := toAxisAngle_near hm hr ht
  obtain ⟨m', f1, f2, f3, f4⟩ := rotationAxisAngle_spec h0 e2 θ
  exact ⟨v, θ, m', e1, f1, f2, f3, by rw [f4]; exact e3⟩

/-- C114: for every unit quaternion and every non-negative tolerance, `quaternion_to_axis_angle` succeeds,
and the rotation of its result moves each vector to within twice the tolerance (relative to the length of
the vector) of where the quaternion moves it. -/
theorem qToAxisAngle_near {s : QState ℝ} {q : QNode ℝ} {h : ℍ[ℝ]} (hq : QReads s q h)
    (hh : normSq h = 1) {tol : ℝ} (ht : 0 ≤ tol) :
    ∃ v u θ, qToAxisAngle s q tol = .ok (v, θ) ∧ v.Is 3 u ∧ 0 ≤ θ ∧ θ ≤ 2 * Real.pi ∧
      (u ⬝ᵥ u = 1 ∨ (θ = 0 ∧ u = 0)) ∧
      ∀ x, (rodrigues u θ *ᵥ x - qRotate h x) ⬝ᵥ (rodrigues u θ *ᵥ x - qRotate h x) ≤
        (2 * tol) ^ 2 * (x ⬝ᵥ x) := by
  have hpos : ∀ x : Fin 3 → ℝ, 0 ≤ x ⬝ᵥ x := fun x => by
    rw [dotProduct]; exact Finset.sum_nonneg fun i _ => mul_self_nonneg _
  by_cases hb : OutsideQuatBand h tol
  · obtain ⟨v, u, θ, e1, e2, e3, e4, e5, e6⟩ := qToAxisAngle_spec hq hh hb
    refine ⟨v, u, θ, e1, e2, e3, e4, e5.imp (fun e => e.1) (fun e => ⟨e.1, e.2.1⟩), fun x => ?_⟩
    rw [e6, sub_self, dotProduct_zero]
    exact mul_nonneg (sq_nonneg _) (hpos x)
  have hgt : ¬tol < Real.sqrt (imVec h ⬝ᵥ imVec h) := fun e => hb ⟨ht, .inr e⟩
  obtain ⟨i0, i1, i2⟩ := qImag_eq hq
  have hr : qReal s q = .ok h.re := (qreads_iff.1 hq).1
  have hax := AVec.mk3_is true h.imI h.imJ h.imK
  have hlen := AVec.length_is hax (by decide)
  rw [show (![h.imI, h.imJ, h.imK] : Fin 3 → ℝ) = imVec h from rfl] at hax hlen
  simp only [qToAxisAngle, i0, i1, i2, hr, Res.ok_bind, hlen]
  rw [if_neg hgt]
  refine ⟨_, 0, 0, rfl, ⟨rfl, ?_⟩, le_refl _, by linarith [Real.pi_pos], .inr ⟨rfl, rfl⟩, fun x => ?_⟩
  · funext i
    fin_cases i <;> simp [AVec.vec, AVec.mk3]
  · rw [rodrigues_zero, one_mulVec]
    refine (qRotate_near hh x).trans (mul_le_mul_of_nonneg_right ?_ (hpos x))
    have := pow_le_pow_left₀ (Real.sqrt_nonneg _) (not_lt.1 hgt) 2
    rw [Real.sq_sqrt (hpos _)] at this
    linarith

/-- C114: for every rotation matrix, each of the twelve orders and every non-negative tolerance,
`matrix_to_euler` succeeds, and the Euler rotation of the three angles it returns differs from the matrix by
at most twice the tolerance in each element. -/
theorem toEuler_near {m : BMat ℝ} (hm : m.HasLin 3) (hr : IsRotation (linOf m 3)) (o : EulerOrder)
    {tol : ℝ} (ht : 0 ≤ tol) :
    ∃ v x, toEuler m o tol = .ok v ∧ v.Is 3 x ∧
      ∀ a b, |eulerRot o (x 0) (x 1) (x 2) a b - linOf m 3 a b| ≤ 2 * tol := by
  by_cases hb : OutsideEulerBand o (linOf m 3) tol
  · obtain ⟨v, x, e1, e2, e3⟩ := toEuler_spec hm hr o hb
    refine ⟨v, x, e1, e2, fun a b => ?_⟩
    rw [e3, sub_self, abs_zero]; positivity
  obtain ⟨f0, f1, f2, fi, fj, fk, fo, fr⟩ := o.perm_facts
  have hS := hr.submatrix o.perm
  have hg : ∀ a b : Fin 3, m.bget (o.perm a) (o.perm b) =
      .ok ((linOf m 3).submatrix o.perm o.perm b a) := fun a b => bget_lin hm _ _
  have hsgn : ∀ a : ℝ, o.sgn * (o.sgn * a) = a := fun a => by
    unfold EulerOrder.sgn; split_ifs <;> ring
  have hfin : ∀ (r0 r1 r2 : ℝ) (l : ℝ), l ≤ tol →
      (∀ a b, |eulerStd o.repeats r0 r1 r2 a b - (linOf m 3).submatrix o.perm o.perm a b| ≤ 2 * l) →
      ∃ v x, (if (unpackEulerOrder o.code).odd then
          (pure (.mk3 true (-r0) (-r1) (-r2)) : Res (AVec ℝ))
        else pure (.mk3 true r0 r1 r2)) = .ok v ∧ v.Is 3 x ∧
        ∀ a b, |eulerRot o (x 0) (x 1) (x 2) a b - linOf m 3 a b| ≤ 2 * tol := by
    intro r0 r1 r2 l hl h
    refine ⟨.mk3 true (o.sgn * r0) (o.sgn * r1) (o.sgn * r2), _, ?_, AVec.mk3_is _ _ _ _, fun a b => ?_⟩
    · rw [← o.sgn_mul, ← o.sgn_mul, ← o.sgn_mul]
      split_ifs <;> rfl
    · simp only [cons_val_zero, cons_val_one, cons_val]
      have e := eulerRot_perm o (o.sgn * r0) (o.sgn * r1) (o.sgn * r2)
      rw [hsgn, hsgn, hsgn] at e
      have := h (o.perm.symm a) (o.perm.symm b)
      rw [← e] at this
      simp only [submatrix_apply, Equiv.apply_symm_apply] at this
      exact this.trans (by linarith)
  simp only [toEuler, checkLinear3D_ok hm, Res.ok_bind, fi, fj, fk, fr, hg]
  have hsq : ∀ c l : ℝ, 0 ≤ l → l * l = c → Real.sqrt c = l := fun c l h0 h1 => by
    rw [← h1, Real.sqrt_mul_self h0]
  obtain ⟨n1, n2, n3, n4, n5, n6⟩ := hS.norms
  by_cases hrep : o.repeats
  · simp only [hrep, decide_true, if_true]
    have hgt : ¬len2 ((linOf m 3).submatrix o.perm o.perm 0 1)
        ((linOf m 3).submatrix o.perm o.perm 0 2) > tol := by
      intro hgt
      refine hb ⟨ht, .inr ?_⟩
      rw [if_pos hrep, f0]
      rw [hsq _ _ (len2_nonneg _ _) (len2_sq ((linOf m 3).submatrix o.perm o.perm 0 1)
        ((linOf m 3).submatrix o.perm o.perm 0 2) |>.trans (by
          simp only [submatrix_apply] at n1 ⊢; linarith))]
      exact hgt
    rw [if_neg hgt]
    exact hfin _ _ _ _ (not_lt.1 hgt) (std_rep_near hS o.repeats hrep)
  · simp only [hrep, decide_false, Bool.false_eq_true, if_false]
    have hgt : ¬len2 ((linOf m 3).submatrix o.perm o.perm 0 0)
        ((linOf m 3).submatrix o.perm o.perm 1 0) > tol := by
      intro hgt
      refine hb ⟨ht, .inr ?_⟩
      rw [if_neg hrep, f0, f2, if_neg hrep]
      rw [hsq _ _ (len2_nonneg _ _) (len2_sq ((linOf m 3).submatrix o.perm o.perm 0 0)
        ((linOf m 3).submatrix o.perm o.perm 1 0) |>.trans (by
          simp only [submatrix_apply] at n4 ⊢; linarith))]
      exact hgt
    rw [if_neg hgt]
    exact hfin _ _ _ _ (not_lt.1 hgt) (std_nonrep_near hS o.repeats hrep)

/-- C114: `matrix_rotation_euler` applied to the extracted angles gives the matrix back up to twice the
tolerance. -/
theorem toEuler_near_roundtrip {m m0 : BMat ℝ} (hm : m.HasLin 3) (hr : IsRotation (linOf m 3))
    (o : EulerOrder) {tol : ℝ} (ht : 0 ≤ tol) (h0 : m0.HasLin 3) :
    ∃ v m', toEuler m o tol = .ok v ∧ rotationEulerV m0 v o = .ok m' ∧ m0.SameShape m' ∧
      m'.IdOutside 3 ∧ ∀ a b, |linOf m' 3 a b - linOf m 3 a b| ≤ 2 * tol := by
  obtain ⟨v, x, e1, e2, e3⟩ := toEuler_near hm hr o ht
  obtain ⟨m', f1, f2, f3, f4⟩ := rotationEuler_spec h0 (x 0) (x 1) (x 2) o
  exact ⟨v, m', e1, (rotationEulerV_spec m0 e2 o).trans f1, f2, f3, by rw [f4]; exact e3⟩

/-- C114: for every unit quaternion, `quaternion_to_euler` returns three angles whose Euler rotation differs
from the rotation matrix of the quaternion by at most twice the tolerance in each element. -/
theorem qToEuler_near {s : QState ℝ} {q : QNode ℝ} {h : ℍ[ℝ]} (hq : QReads s q h)
    (hh : normSq h = 1) (o : EulerOrder) {tol : ℝ} (ht : 0 ≤ tol) :
    ∃ v x, qToEuler s q o tol = .ok v ∧ v.Is 3 x ∧
      ∀ a b, |eulerRot o (x 0) (x 1) (x 2) a b - qRotate h (unitVec b) a| ≤ 2 * tol := by
  have h33 : (tmp33 : BMat ℝ).HasLin 3 := ⟨by decide, by decide⟩
  obtain ⟨m, e1, e2, -, e4⟩ := rotationQuaternion_ok h33 hq
  rw [hh, sub_self, zero_smul, add_zero] at e4
  obtain ⟨v, x, f1, f2, f3⟩ := toEuler_near (e2.hasLin h33) (by rw [e4]; exact quatMat_isRotation hh) o ht
  refine ⟨v, x, ?_, f2, fun a b => ?_⟩
  · rw [qToEuler, e1, Res.ok_bind, f1]
  · have := f3 a b
    rw [e4] at this
    rwa [← quatMat_mulVec, unitVec, Matrix.mulVec_single_one]

/-- C114: the factor two cannot be improved, and inside of the band the result is not exact: for every
tolerance `0 < t < 1` there is a rotation for which the returned angles are off by `2 t`. -/
theorem toEuler_near_sharp {t : ℝ} (h0 : 0 < t) (h1 : t < 1) :
    ∃ M : Matrix (Fin 3) (Fin 3) ℝ, IsRotation M ∧ ∃ v x, toEuler (matOf M) .xyx t = .ok v ∧ v.Is 3 x ∧
      eulerRot .xyx (x 0) (x 1) (x 2) 0 2 - M 0 2 = 2 * t := by
  have hs : Real.sin (Real.arcsin t) = t := Real.sin_arcsin (by linarith) h1.le
  obtain ⟨c, hc⟩ : ∃ c, Real.cos (Real.arcsin t) = c := ⟨_, rfl⟩
  have hcc : t ^ 2 + c ^ 2 = 1 := by rw [← hs, ← hc]; exact Real.sin_sq_add_cos_sq _
  have hM : eulerStd True Real.pi (Real.arcsin t) 0 = !![c, 0, -t; 0, -1, 0; -t, 0, -c] := by
    rw [eulerStd_eq, if_pos trivial, hs, hc]
    ext r c
    fin_cases r <;> fin_cases c <;> simp
  have hR := eulerStd_isRotation True Real.pi (Real.arcsin t) 0
  rw [hM] at hR
  refine ⟨_, hR, ?_⟩
  obtain ⟨hm, hlin⟩ := matOf_lin !![c, 0, -t; 0, -1, 0; -t, 0, -c]
  obtain ⟨⟨b00, b01, b02⟩, ⟨b10, b11, b12⟩, ⟨b20, b21, b22⟩⟩ := bget_lin9 hm
  rw [hlin] at b00 b01 b02 b10 b11 b12 b20 b21 b22
  simp only [of_apply, cons_val_zero, cons_val_one, cons_val] at b00 b01 b02 b10 b11 b12 b20 b21 b22
  have hlen : len2 0 (-t) = t := by
    have := len2_sq 0 (-t)
    exact (mul_self_inj (len2_nonneg _ _) h0.le).1 (by linarith)
  have hu : unpackEulerOrder EulerOrder.xyx.code = ⟨0, 1, 2, false, true⟩ := by decide
  simp only [toEuler, checkLinear3D_ok hm, Res.ok_bind, hu, b00, b01, b02, b10, b20, b11, b21, b12, hlen,
    if_true, gt_iff_lt, lt_irrefl, if_false, Bool.false_eq_true]
  refine ⟨_, _, rfl, AVec.mk3_is _ _ _ _, ?_⟩
  have he : ∀ a b c, eulerRot .xyx a b c = eulerStd True a b c := fun a b c => by
    simp [eulerRot, eulerStd, EulerOrder.axes]
  rw [he, eulerStd_eq, if_pos trivial]
  simp only [of_apply, cons_val_zero, cons_val_one, cons_val, Real.cos_zero, one_mul]
  rw [sin_atan2 one_pos (by linarith), div_one]
  ring

/- A rotation inside of the band of each of the functions, for the tolerance `3/4`: a turn about `x` by a
small angle, and one by almost a half turn.  (For Euler angles see `toEuler_near_sharp`.) -/
private noncomputable def qNear (w x : ℝ) : ℍ[ℝ] := ⟨w, x, 0, 0⟩
example : normSq (qNear (60/61) (11/61)) = 1 ∧ IsRotation (quatMat (qNear (60/61) (11/61))) ∧
    IsRotation (quatMat (qNear (11/61) (60/61))) ∧
    ¬OutsideAxisBand (quatMat (qNear (60/61) (11/61))) (3/4) ∧
    ¬OutsideAxisBand (quatMat (qNear (11/61) (60/61))) (3/4) ∧
    ¬OutsideQuatBand (qNear (60/61) (11/61)) (3/4) ∧ (0 : ℝ) ≤ 3/4 := by
  have h1 : normSq (qNear (60/61) (11/61)) = 1 := by rw [normSq_def']; norm_num [qNear]
  have h2 : normSq (qNear (11/61) (60/61)) = 1 := by rw [normSq_def']; norm_num [qNear]
  have hb : ∀ w x : ℝ, w * x = 660 / 3721 → ¬OutsideAxisBand (quatMat (qNear w x)) (3/4) := by
    rintro w x hp ⟨-, h⟩
    rw [quatMat_eq] at h
    rcases h with h | h
    · have := congrFun (congrFun h 1) 2
      simp only [qNear, transpose_apply, of_apply, cons_val_one, cons_val] at this
      linarith
    · rw [skewLen, Real.lt_sqrt (by norm_num)] at h
      simp only [qNear, of_apply, cons_val_zero, cons_val_one, cons_val] at h
      ring_nf at h
      rw [← mul_pow, hp] at h
      norm_num at h
  refine ⟨h1, quatMat_isRotation h1, quatMat_isRotation h2, hb _ _ (by norm_num), hb _ _ (by norm_num),
    ?_, by norm_num⟩
  rintro ⟨-, h⟩
  rcases h with h | h
  · have := congrFun h 0
    norm_num [qNear, imVec] at this
  · rw [Real.lt_sqrt (by norm_num)] at h
    simp only [qNear, imVec, dotProduct, Fin.sum_univ_three, cons_val_zero, cons_val_one, cons_val] at h
    norm_num at h
example : (0 : ℝ) < 1/2 ∧ (1/2 : ℝ) < 1 := by norm_num

end CML

#print axioms CML.toAxisAngle_near
#print axioms CML.toAxisAngle_near_roundtrip
#print axioms CML.qToAxisAngle_near
#print axioms CML.toEuler_near
#print axioms CML.toEuler_near_roundtrip
#print axioms CML.qToEuler_near
#print axioms CML.toEuler_near_sharp
