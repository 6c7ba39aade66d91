import Verif.Spec.RoundBuild
import Verif.Props.RoundRot

/-!
C134: the builders of rotations in rounded arithmetic.
-/

set_option linter.unusedSectionVars false

namespace CML

open Quaternion Matrix BMat

/-- C134: for real numbers the builders are those of C49 to C51 and C54. -/
theorem builders_real (m : BMat ℝ) (s : QState ℝ) (v : QVar) (axis : Int) (n : AVec ℝ) (a b c : ℝ) (o : EulerOrder) :
    rotation2DG Trig.real m a = rotation2D m a ∧
    rotationWorldAxisG Trig.real m axis a = rotationWorldAxis m axis a ∧
    rotationAxisAngleG Trig.real m n a = rotationAxisAngle m n a ∧
    rotationEulerG Trig.real m a b c o = rotationEuler m a b c o ∧
    qRotationAxisAngleG Trig.real s v n a = qRotationAxisAngle s v n a := by
  refine ⟨rfl, rfl, rfl, rfl, ?_⟩
  simp [qRotationAxisAngleG, qRotationAxisAngle, Trig.real]

variable {R : Rounding} {T : Trig (Fl R)} {p : ℕ}

private theorem mul_le_phi {u : ℝ} (h0 : 0 ≤ u) (h1 : u < 1) (p : ℕ) : p * u ≤ phi u p := by
  have h2 : 0 < (1 - u) ^ p := pow_pos (by linarith) p
  have h3 : 1 + p * u ≤ (1 + u) ^ p := one_add_mul_le_pow (by linarith) p
  have h4 : (1 - u) ^ p * (1 + u) ^ p ≤ 1 := by
    rw [← mul_pow]
    exact pow_le_one₀ (by nlinarith) (by nlinarith)
  have h5 : 1 + p * u ≤ ((1 - u) ^ p)⁻¹ := by
    rw [le_inv_comm₀ (by positivity) h2, le_inv_comm₀ h2 (by positivity)]
    refine h3.trans ?_
    rw [inv_eq_one_div, le_div_iff₀ h2]
    linarith
  unfold phi
  linarith

private theorem Trig.Accurate.trSin (hT : T.Accurate p) (x : Fl R) :
    Tracks (T.sin x) (Real.sin x.val) ⟨|Real.sin x.val|⟩ ⟨p⟩ :=
  ⟨(hT.sin x).trans (mul_le_mul_of_nonneg_right (mul_le_phi R.u_nonneg R.u_lt p) (abs_nonneg _)), le_rfl⟩

private theorem Trig.Accurate.trCos (hT : T.Accurate p) (x : Fl R) :
    Tracks (T.cos x) (Real.cos x.val) ⟨|Real.cos x.val|⟩ ⟨p⟩ :=
  ⟨(hT.cos x).trans (mul_le_mul_of_nonneg_right (mul_le_phi R.u_nonneg R.u_lt p) (abs_nonneg _)), le_rfl⟩

private theorem track_as {x : Fl R} {X Y A : ℝ} {k : ℕ} {A₀ : Mag} {k₀ : Cnt} (h : Tracks x X A₀ k₀) (hX : X = Y)
    (hA : A₀.val ≤ A) (hk : k₀.val ≤ k) (hu : (k : ℝ) * R.u < 1) : |x.val - Y| ≤ gamma R.u k * A := by
  subst hX
  refine le_trans h.err ?_
  have h1 := phi_mono R.u_nonneg R.u_lt hk
  have h2 := phi_le_gamma R.u_nonneg R.u_lt hu
  have h3 := phi_nonneg R.u_nonneg R.u_lt k₀.val
  exact mul_le_mul (h1.trans h2) hA h.nonneg (h3.trans (h1.trans h2))

private theorem gamma_nonneg' {k : ℕ} (hu : (k : ℝ) * R.u < 1) : 0 ≤ gamma R.u k :=
  div_nonneg (mul_nonneg (Nat.cast_nonneg k) R.u_nonneg) (by linarith)

/-- C134: correctly rounded functions are accurate. -/
theorem Trig.rounded_accurate (R : Rounding) : (Trig.rounded R).Accurate 1 :=
  ⟨fun x => by simpa [Trig.rounded] using R.err (Real.sin x.val),
    fun x => by simpa [Trig.rounded] using R.err (Real.cos x.val)⟩

/-! ### Coordinate axes -/

/-- C134: `matrix_rotation_2D` is as accurate as sine and cosine. -/
theorem rotation2D_error (hT : T.Accurate p) {m : BMat (Fl R)} (h : m.HasLin 2) (a : Fl R) :
    ∃ m', rotation2DG T m a = .ok m' ∧ m.SameShape m' ∧ m'.IdOutside 2 ∧
      ∀ i j, |realM (linOf m' 2) i j - planeRot a.val i j| ≤ p * R.u * |planeRot a.val i j| := by
  have hb := (hasLin_iff m 2).1 h
  lin_run [rotation2DG, checkLinear2D_ok h]
  refine ⟨by constructor <;> simp, ?_, ?_⟩
  · rw [idOutside_iff]
    intro i j _ _ hij
    simp only [bel_bset, bel_identity]
    repeat rw [if_neg (by omega)]
  · intro r c
    have h1 := hT.sin a
    have h2 := hT.cos a
    have h3 : |-(T.sin a).val + Real.sin a.val| ≤ p * R.u * |Real.sin a.val| := by
      rw [show -(T.sin a).val + Real.sin a.val = -((T.sin a).val - Real.sin a.val) by ring, abs_neg]; exact h1
    fin_cases r <;> fin_cases c <;> simp [realM, linOf_apply, bel_bset, bel_identity, planeRot] <;> assumption

/-- C134: rotations about a coordinate axis are as accurate as sine and cosine; zeros and ones are exact. -/
theorem rotationWorldAxis_error (hT : T.Accurate p) {m : BMat (Fl R)} (h : m.HasLin 3) (axis : Fin 3) (a : Fl R) :
    ∃ m', rotationWorldAxisG T m axis a = .ok m' ∧ m.SameShape m' ∧ m'.IdOutside 3 ∧
      ∀ i j, |realM (linOf m' 3) i j - rodrigues (unitVec axis) a.val i j| ≤
        p * R.u * |rodrigues (unitVec axis) a.val i j| := by
  have hb := (hasLin_iff m 3).1 h
  have h1 := hT.sin a
  have h2 := hT.cos a
  have h3 : |-(T.sin a).val + Real.sin a.val| ≤ p * R.u * |Real.sin a.val| := by
    rw [show -(T.sin a).val + Real.sin a.val = -((T.sin a).val - Real.sin a.val) by ring, abs_neg]; exact h1
  have h4 : 0 ≤ (p : ℝ) * R.u := mul_nonneg (Nat.cast_nonneg p) R.u_nonneg
  fin_cases axis
  · lin_run [rotationWorldAxisG, checkLinear3D_ok h, show cyclicPermutation3 (Int.toNat ((0 : Nat) : Int)) = (0, 1, 2) from rfl,
      Res.require, show decide (0 ≤ ((0 : Nat) : Int) ∧ ((0 : Nat) : Int) ≤ 2) = true from rfl, if_true]
    refine ⟨by constructor <;> simp, ?_, ?_⟩
    · rw [idOutside_iff]
      intro i j _ _ hij
      simp only [bel_bset, bel_identity]
      repeat rw [if_neg (by omega)]
    · intro r c
      fin_cases r <;> fin_cases c <;> simp [realM, linOf_apply, bel_bset, bel_identity, rodrigues_x] <;> assumption
  · lin_run [rotationWorldAxisG, checkLinear3D_ok h, show cyclicPermutation3 (Int.toNat ((1 : Nat) : Int)) = (1, 2, 0) from rfl,
      Res.require, show decide (0 ≤ ((1 : Nat) : Int) ∧ ((1 : Nat) : Int) ≤ 2) = true from rfl, if_true]
    refine ⟨by constructor <;> simp, ?_, ?_⟩
    · rw [idOutside_iff]
      intro i j _ _ hij
      simp only [bel_bset, bel_identity]
      repeat rw [if_neg (by omega)]
    · intro r c
      fin_cases r <;> fin_cases c <;> simp [realM, linOf_apply, bel_bset, bel_identity, rodrigues_y] <;> assumption
  · lin_run [rotationWorldAxisG, checkLinear3D_ok h, show cyclicPermutation3 (Int.toNat ((2 : Nat) : Int)) = (2, 0, 1) from rfl,
      Res.require, show decide (0 ≤ ((2 : Nat) : Int) ∧ ((2 : Nat) : Int) ≤ 2) = true from rfl, if_true]
    refine ⟨by constructor <;> simp, ?_, ?_⟩
    · rw [idOutside_iff]
      intro i j _ _ hij
      simp only [bel_bset, bel_identity]
      repeat rw [if_neg (by omega)]
    · intro r c
      fin_cases r <;> fin_cases c <;> simp [realM, linOf_apply, bel_bset, bel_identity, rodrigues_z] <;> assumption

/-! ### Axis and angle -/

private theorem mag_off {x y z s c : ℝ} (hs : |s| ≤ 1) (hc : |c| ≤ 1) :
    |x| * (|y| * (|(1 : ℝ)| + |c|)) + |z| * |s| ≤ 1 + 2 * (x ^ 2 + y ^ 2 + z ^ 2) := by
  rw [abs_one]
  have h1 : |x| * |y| * |c| ≤ |x| * |y| := mul_le_of_le_one_right (by positivity) hc
  have h2 : |z| * |s| ≤ |z| := mul_le_of_le_one_right (abs_nonneg z) hs
  nlinarith [sq_nonneg (|x| - |y|), sq_nonneg (|z| - 1), sq_abs x, sq_abs y, sq_abs z]

private theorem mag_diag {x y z c : ℝ} (hc : |c| ≤ 1) :
    |x| * (|x| * (|(1 : ℝ)| + |c|)) + |c| ≤ 1 + 2 * (x ^ 2 + y ^ 2 + z ^ 2) := by
  rw [abs_one]
  have h1 : |x| * |x| * |c| ≤ |x| * |x| := mul_le_of_le_one_right (by positivity) hc
  nlinarith [sq_abs x, sq_nonneg y, sq_nonneg z]

/-- The error against Rodrigues' formula for the axis as it is. -/
private theorem axisAngle_round (hT : T.Accurate p) {m : BMat (Fl R)} {v : AVec (Fl R)} {u : Fin 3 → Fl R}
    (h : m.HasLin 3) (hv : v.Is 3 u) (a : Fl R) (hu : ((p + 4 : ℕ) : ℝ) * R.u < 1) :
    ∃ m', rotationAxisAngleG T m v a = .ok m' ∧ m.SameShape m' ∧ m'.IdOutside 3 ∧
      ∀ i j, |realM (linOf m' 3) i j - rodrigues (realV u) a.val i j| ≤
        gamma R.u (p + 4) * (1 + 2 * (realV u ⬝ᵥ realV u)) := by
  obtain ⟨hs, rfl⟩ := hv
  have hb := (hasLin_iff m 3).1 h
  have hsin := Real.abs_sin_le_one a.val
  have hcos := Real.abs_cos_le_one a.val
  have S := hT.trSin a
  have C := hT.trCos a
  have one : Tracks (1 : Fl R) 1 ⟨|(1 : ℝ)|⟩ ⟨0⟩ := Tracks.exact (1 : Fl R)
  have hN : realV (v.vec 3) ⬝ᵥ realV (v.vec 3) = (v.el 0).val ^ 2 + (v.el 1).val ^ 2 + (v.el 2).val ^ 2 := by
    simp [dotProduct, Fin.sum_univ_three, realV, AVec.vec]; ring
  lin_run [rotationAxisAngleG, checkLinear3D_ok h, AVec.checkSize_ok hs]
  obtain ⟨m', e1, e2, e3, e4⟩ := bput9_perm h (Equiv.refl _)
    (v.el 0 * (v.el 0 * (1 - T.cos a)) + T.cos a) (v.el 0 * (v.el 1 * (1 - T.cos a)) + v.el 2 * T.sin a)
    (v.el 2 * (v.el 0 * (1 - T.cos a)) - v.el 1 * T.sin a) (v.el 0 * (v.el 1 * (1 - T.cos a)) - v.el 2 * T.sin a)
    (v.el 1 * (v.el 1 * (1 - T.cos a)) + T.cos a) (v.el 1 * (v.el 2 * (1 - T.cos a)) + v.el 0 * T.sin a)
    (v.el 2 * (v.el 0 * (1 - T.cos a)) + v.el 1 * T.sin a) (v.el 1 * (v.el 2 * (1 - T.cos a)) - v.el 0 * T.sin a)
    (v.el 2 * (v.el 2 * (1 - T.cos a)) + T.cos a)
  refine ⟨m', e1, e2, e3, ?_⟩
  have e5 : linOf m' 3 = (linOf m' 3).submatrix (Equiv.refl _) (Equiv.refl _) := rfl
  rw [e5, e4, hN, rodrigues_eq]
  have E := fun x : Fl R => Tracks.exact x
  have k1 : max (0 + (0 + (max 0 p + 1) + 1) + 1) p + 1 ≤ p + 4 := by omega
  have k2 : max (0 + (0 + (max 0 p + 1) + 1) + 1) (0 + p + 1) + 1 ≤ p + 4 := by omega
  have dg : ∀ (x : Fl R) (Y A : ℝ), x.val * (x.val * (1 - Real.cos a.val)) + Real.cos a.val = Y →
      |x.val| * (|x.val| * (|(1 : ℝ)| + |Real.cos a.val|)) + |Real.cos a.val| ≤ A →
      |(x * (x * (1 - T.cos a)) + T.cos a).val - Y| ≤ gamma R.u (p + 4) * A := fun x Y A hY hA =>
    track_as (((E x).mul ((E x).mul (one.sub C))).add C) hY hA k1 hu
  have pl : ∀ (x y z : Fl R) (Y A : ℝ),
      x.val * (y.val * (1 - Real.cos a.val)) + z.val * Real.sin a.val = Y →
      |x.val| * (|y.val| * (|(1 : ℝ)| + |Real.cos a.val|)) + |z.val| * |Real.sin a.val| ≤ A →
      |(x * (y * (1 - T.cos a)) + z * T.sin a).val - Y| ≤ gamma R.u (p + 4) * A := fun x y z Y A hY hA =>
    track_as (((E x).mul ((E y).mul (one.sub C))).add ((E z).mul S)) hY hA k2 hu
  have mi : ∀ (x y z : Fl R) (Y A : ℝ),
      x.val * (y.val * (1 - Real.cos a.val)) - z.val * Real.sin a.val = Y →
      |x.val| * (|y.val| * (|(1 : ℝ)| + |Real.cos a.val|)) + |z.val| * |Real.sin a.val| ≤ A →
      |(x * (y * (1 - T.cos a)) - z * T.sin a).val - Y| ≤ gamma R.u (p + 4) * A := fun x y z Y A hY hA =>
    track_as (((E x).mul ((E y).mul (one.sub C))).sub ((E z).mul S)) hY hA k2 hu
  have r1 : ∀ x y z : ℝ, x ^ 2 + y ^ 2 + z ^ 2 = y ^ 2 + z ^ 2 + x ^ 2 := fun x y z => by ring
  have r2 : ∀ x y z : ℝ, x ^ 2 + y ^ 2 + z ^ 2 = z ^ 2 + x ^ 2 + y ^ 2 := fun x y z => by ring
  intro i j
  fin_cases i <;> fin_cases j
  · exact dg (v.el 0) _ _ (by simp [realV, AVec.vec]; ring) (mag_diag hcos)
  · exact mi (v.el 0) (v.el 1) (v.el 2) _ _ (by simp [realV, AVec.vec]; ring) (mag_off hsin hcos)
  · exact pl (v.el 2) (v.el 0) (v.el 1) _ _ (by simp [realV, AVec.vec]; ring) (by rw [r2]; exact mag_off hsin hcos)
  · exact pl (v.el 0) (v.el 1) (v.el 2) _ _ (by simp [realV, AVec.vec]; ring) (mag_off hsin hcos)
  · exact dg (v.el 1) _ _ (by simp [realV, AVec.vec]; ring) (by rw [r1]; exact mag_diag hcos)
  · exact mi (v.el 1) (v.el 2) (v.el 0) _ _ (by simp [realV, AVec.vec]; ring) (by rw [r1]; exact mag_off hsin hcos)
  · exact mi (v.el 2) (v.el 0) (v.el 1) _ _ (by simp [realV, AVec.vec]; ring) (by rw [r2]; exact mag_off hsin hcos)
  · exact pl (v.el 1) (v.el 2) (v.el 0) _ _ (by simp [realV, AVec.vec]; ring) (by rw [r1]; exact mag_off hsin hcos)
  · exact dg (v.el 2) _ _ (by simp [realV, AVec.vec]; ring) (by rw [r2]; exact mag_diag hcos)

/-- Rodrigues' formula for an axis that does not have length one. -/
private theorem rodrigues_near {u : Fin 3 → ℝ} (h0 : u ≠ 0) (a : ℝ) (i j : Fin 3) :
    |rodrigues u a i j - rodrigues ((Real.sqrt (u ⬝ᵥ u))⁻¹ • u) a i j| ≤ 3 * |u ⬝ᵥ u - 1| := by
  have hN0 : 0 < u ⬝ᵥ u := by
    refine lt_of_le_of_ne (Finset.sum_nonneg fun i _ => mul_self_nonneg _) fun e => h0 ?_
    have e' := (Finset.sum_eq_zero_iff_of_nonneg fun i _ => mul_self_nonneg (u i)).1 e.symm
    funext i
    exact mul_self_eq_zero.1 (e' i (Finset.mem_univ i))
  have hN : u ⬝ᵥ u = u 0 ^ 2 + u 1 ^ 2 + u 2 ^ 2 := by simp [dotProduct, Fin.sum_univ_three]; ring
  obtain ⟨L, hL⟩ : ∃ L, L = Real.sqrt (u ⬝ᵥ u) := ⟨_, rfl⟩
  have hL0 : 0 < L := hL ▸ Real.sqrt_pos.2 hN0
  have hLL : L * L = u ⬝ᵥ u := by rw [hL]; exact Real.mul_self_sqrt hN0.le
  rw [← hL]
  -- the unit axis `w`, `u = L w`
  obtain ⟨w, hw⟩ : ∃ w, w = L⁻¹ • u := ⟨_, rfl⟩
  have huw : ∀ i, u i = L * w i := fun i => by
    rw [hw, Pi.smul_apply, smul_eq_mul, mul_inv_cancel_left₀ hL0.ne']
  have hww : w 0 ^ 2 + w 1 ^ 2 + w 2 ^ 2 = 1 := by
    have h : (L * L) * (w 0 ^ 2 + w 1 ^ 2 + w 2 ^ 2) = (L * L) * 1 := by
      have e := hLL.trans hN
      rw [huw 0, huw 1, huw 2] at e
      linear_combination -e
    exact mul_left_cancel₀ (mul_pos hL0 hL0).ne' h
  rw [← hw, ← hLL]
  have hs := Real.abs_sin_le_one a
  have hc := Real.abs_cos_le_one a
  have hd : |L - 1| ≤ |L * L - 1| := by
    rw [show L * L - 1 = (L - 1) * (L + 1) by ring, abs_mul]
    exact le_mul_of_one_le_right (abs_nonneg _) (by rw [abs_of_pos (by linarith)]; linarith)
  have w1 : ∀ i, |w i| ≤ 1 := by
    intro i
    refine abs_le_one_iff_mul_self_le_one.2 ?_
    fin_cases i <;> simp <;> nlinarith [sq_nonneg (w 0), sq_nonneg (w 1), sq_nonneg (w 2)]
  have key : ∀ (x y z s c : ℝ), |x| ≤ 1 → |y| ≤ 1 → |z| ≤ 1 → |s| ≤ 1 → |c| ≤ 1 →
      |(L * L - 1) * (x * y * (1 - c)) + (L - 1) * (z * s)| ≤ 3 * |L * L - 1| := by
    intro x y z s c hx hy hz hs hc
    have a1 : |x * y * (1 - c)| ≤ 2 := by
      rw [abs_mul, abs_mul]
      have : |1 - c| ≤ 2 := by rw [abs_le] at *; constructor <;> linarith [hc.1, hc.2]
      have b1 : |x| * |y| ≤ 1 := mul_le_one₀ hx (abs_nonneg _) hy
      nlinarith [abs_nonneg (1 - c), mul_nonneg (abs_nonneg x) (abs_nonneg y)]
    have a2 : |z * s| ≤ 1 := by rw [abs_mul]; exact mul_le_one₀ hz (abs_nonneg _) hs
    refine (abs_add_le _ _).trans ?_
    rw [abs_mul, abs_mul (L - 1)]
    have b1 : |L * L - 1| * |x * y * (1 - c)| ≤ |L * L - 1| * 2 := mul_le_mul_of_nonneg_left a1 (abs_nonneg _)
    have b2 : |L - 1| * |z * s| ≤ |L - 1| * 1 := mul_le_mul_of_nonneg_left a2 (abs_nonneg _)
    linarith
  have fin : ∀ {X Y B : ℝ}, |X| ≤ B → X = Y → |Y| ≤ B := by rintro X Y B h rfl; exact h
  have z0 : |(0 : ℝ)| ≤ 1 := by simp
  have hn : |(-Real.sin a)| ≤ 1 := by rw [abs_neg]; exact hs
  rw [rodrigues_eq, rodrigues_eq, huw 0, huw 1, huw 2]
  fin_cases i <;> fin_cases j
  · exact fin (key (w 0) (w 0) 0 _ _ (w1 0) (w1 0) z0 hs hc) (by simp; ring)
  · exact fin (key (w 0) (w 1) (w 2) _ _ (w1 0) (w1 1) (w1 2) hn hc) (by simp; ring)
  · exact fin (key (w 0) (w 2) (w 1) _ _ (w1 0) (w1 2) (w1 1) hs hc) (by simp; ring)
  · exact fin (key (w 0) (w 1) (w 2) _ _ (w1 0) (w1 1) (w1 2) hs hc) (by simp; ring)
  · exact fin (key (w 1) (w 1) 0 _ _ (w1 1) (w1 1) z0 hs hc) (by simp; ring)
  · exact fin (key (w 1) (w 2) (w 0) _ _ (w1 1) (w1 2) (w1 0) hn hc) (by simp; ring)
  · exact fin (key (w 0) (w 2) (w 1) _ _ (w1 0) (w1 2) (w1 1) hn hc) (by simp; ring)
  · exact fin (key (w 1) (w 2) (w 0) _ _ (w1 1) (w1 2) (w1 0) hs hc) (by simp; ring)
  · exact fin (key (w 2) (w 2) 0 _ _ (w1 2) (w1 2) z0 hs hc) (by simp; ring)

/-- C134: the matrix of an axis and an angle is close to the rotation about the direction of the axis by the angle, in
each element up to `γ_(p+4) (1 + 2‖n‖²)` for the rounding errors and `3 |‖n‖² - 1|` for an axis whose length is not
one; outside of the 3x3 block it is exactly the identity. -/
theorem rotationAxisAngle_error (hT : T.Accurate p) {m : BMat (Fl R)} {v : AVec (Fl R)} {u : Fin 3 → Fl R}
    (h : m.HasLin 3) (hv : v.Is 3 u) (h0 : realV u ≠ 0) (a : Fl R) (hu : ((p + 4 : ℕ) : ℝ) * R.u < 1) :
    ∃ m' w, rotationAxisAngleG T m v a = .ok m' ∧ m.SameShape m' ∧ m'.IdOutside 3 ∧
      w ⬝ᵥ w = 1 ∧ (∃ k : ℝ, 0 < k ∧ realV u = k • w) ∧ IsRotation (rodrigues w a.val) ∧
      ∀ i j, |realM (linOf m' 3) i j - rodrigues w a.val i j| ≤
        gamma R.u (p + 4) * (1 + 2 * (realV u ⬝ᵥ realV u)) + 3 * |realV u ⬝ᵥ realV u - 1| := by
  obtain ⟨m', h1, h2, h3, h4⟩ := axisAngle_round hT h hv a hu
  have hN0 : 0 < realV u ⬝ᵥ realV u := by
    refine lt_of_le_of_ne (Finset.sum_nonneg fun i _ => mul_self_nonneg _) fun e => h0 ?_
    have e' := (Finset.sum_eq_zero_iff_of_nonneg fun i _ => mul_self_nonneg (realV u i)).1 e.symm
    funext i
    exact mul_self_eq_zero.1 (e' i (Finset.mem_univ i))
  have hL0 := Real.sqrt_pos.2 hN0
  have hw : ((Real.sqrt (realV u ⬝ᵥ realV u))⁻¹ • realV u) ⬝ᵥ ((Real.sqrt (realV u ⬝ᵥ realV u))⁻¹ • realV u) = 1 := by
    rw [smul_dotProduct, dotProduct_smul, smul_eq_mul, smul_eq_mul]
    have e := Real.mul_self_sqrt hN0.le
    generalize Real.sqrt (realV u ⬝ᵥ realV u) = q at *
    rw [← e]
    field_simp
  refine ⟨m', (Real.sqrt (realV u ⬝ᵥ realV u))⁻¹ • realV u, h1, h2, h3, hw, ⟨_, hL0, ?_⟩, rodrigues_isRotation hw _,
    fun i j => ?_⟩
  · rw [smul_smul, mul_inv_cancel₀ hL0.ne', one_smul]
  · exact (abs_sub_le _ (rodrigues (realV u) a.val i j) _).trans (add_le_add (h4 i j) (rodrigues_near h0 _ i j))

/-! ### Euler angles -/

private theorem odd_val (o : EulerOrder) (a : Fl R) :
    (if (unpackEulerOrder o.code).odd = true then -a else a).val = o.sgn * a.val := by
  rw [← EulerOrder.sgn_mul]
  split_ifs <;> rfl

private theorem submatrix_all {M N : Matrix (Fin 3) (Fin 3) ℝ} (σ : Equiv.Perm (Fin 3)) {B : ℝ}
    (h : ∀ i j, |M.submatrix σ σ i j - N.submatrix σ σ i j| ≤ B) (i j : Fin 3) : |M i j - N i j| ≤ B := by
  have := h (σ.symm i) (σ.symm j)
  simpa using this

/-- C134: the matrix of Euler angles is close to the rotation, in each element up to `2 γ_(3p+3)`, for all twelve
orders. -/
theorem rotationEuler_error (hT : T.Accurate p) {m : BMat (Fl R)} (h : m.HasLin 3) (a0 a1 a2 : Fl R) (o : EulerOrder)
    (hu : ((3 * p + 3 : ℕ) : ℝ) * R.u < 1) :
    ∃ m', rotationEulerG T m a0 a1 a2 o = .ok m' ∧ m.SameShape m' ∧ m'.IdOutside 3 ∧
      ∀ i j, |realM (linOf m' 3) i j - eulerRot o a0.val a1.val a2.val i j| ≤ gamma R.u (3 * p + 3) * 2 := by
  obtain ⟨-, -, -, hi, hj, hk, -, hr⟩ := o.perm_facts
  rw [rotationEulerG, checkLinear3D_ok h, Res.ok_bind]
  have S : ∀ a : Fl R, Tracks (T.sin (if (unpackEulerOrder o.code).odd = true then -a else a)) (Real.sin (o.sgn * a.val))
      ⟨|Real.sin (o.sgn * a.val)|⟩ ⟨p⟩ := fun a => by
    have := hT.trSin (if (unpackEulerOrder o.code).odd = true then -a else a)
    rwa [odd_val] at this
  have C : ∀ a : Fl R, Tracks (T.cos (if (unpackEulerOrder o.code).odd = true then -a else a)) (Real.cos (o.sgn * a.val))
      ⟨|Real.cos (o.sgn * a.val)|⟩ ⟨p⟩ := fun a => by
    have := hT.trCos (if (unpackEulerOrder o.code).odd = true then -a else a)
    rwa [odd_val] at this
  have S0 := S a0
  have S1 := S a1
  have S2 := S a2
  have C0 := C a0
  have C1 := C a1
  have C2 := C a2
  have s0 := Real.abs_sin_le_one (o.sgn * a0.val)
  have s1 := Real.abs_sin_le_one (o.sgn * a1.val)
  have s2 := Real.abs_sin_le_one (o.sgn * a2.val)
  have c0 := Real.abs_cos_le_one (o.sgn * a0.val)
  have c1 := Real.abs_cos_le_one (o.sgn * a1.val)
  have c2 := Real.abs_cos_le_one (o.sgn * a2.val)
  have M2 : ∀ {x y : ℝ}, |x| ≤ 1 → |y| ≤ 1 → |x| * |y| ≤ 1 := fun hx hy => mul_le_one₀ hx (abs_nonneg _) hy
  have M3 : ∀ {x y z : ℝ}, |x| ≤ 1 → |y| ≤ 1 → |z| ≤ 1 → |x| * (|y| * |z|) ≤ 1 := fun hx hy hz =>
    mul_le_one₀ hx (by positivity) (M2 hy hz)
  have k1 : p ≤ 3 * p + 3 := by omega
  have k2 : p + p + 1 ≤ 3 * p + 3 := by omega
  have k3 : max (p + (p + p + 1) + 1) (p + p + 1) + 1 ≤ 3 * p + 3 := by omega
  have t1 : ∀ {x : Fl R} {X : ℝ}, Tracks x X ⟨|X|⟩ ⟨p⟩ → |X| ≤ 1 → |x.val - X| ≤ gamma R.u (3 * p + 3) * 2 :=
    fun hx h => track_as hx rfl (h.trans one_le_two) k1 hu
  have t1n : ∀ {x : Fl R} {X : ℝ}, Tracks x X ⟨|X|⟩ ⟨p⟩ → |X| ≤ 1 → |(-x).val - -X| ≤ gamma R.u (3 * p + 3) * 2 :=
    fun hx h => track_as hx.neg rfl (h.trans one_le_two) k1 hu
  have t2 : ∀ {x y : Fl R} {X Y : ℝ}, Tracks x X ⟨|X|⟩ ⟨p⟩ → Tracks y Y ⟨|Y|⟩ ⟨p⟩ → |X| ≤ 1 → |Y| ≤ 1 →
      |(x * y).val - X * Y| ≤ gamma R.u (3 * p + 3) * 2 :=
    fun hx hy h1 h2 => track_as (hx.mul hy) rfl ((M2 h1 h2).trans one_le_two) k2 hu
  have t2n : ∀ {x y : Fl R} {X Y : ℝ}, Tracks x X ⟨|X|⟩ ⟨p⟩ → Tracks y Y ⟨|Y|⟩ ⟨p⟩ → |X| ≤ 1 → |Y| ≤ 1 →
      |(-x * y).val - -X * Y| ≤ gamma R.u (3 * p + 3) * 2 :=
    fun hx hy h1 h2 => track_as (hx.neg.mul hy) rfl ((M2 h1 h2).trans one_le_two) k2 hu
  have t5 : ∀ {x y z v w : Fl R} {X Y Z V W : ℝ}, Tracks x X ⟨|X|⟩ ⟨p⟩ → Tracks y Y ⟨|Y|⟩ ⟨p⟩ → Tracks z Z ⟨|Z|⟩ ⟨p⟩ →
      Tracks v V ⟨|V|⟩ ⟨p⟩ → Tracks w W ⟨|W|⟩ ⟨p⟩ → |X| ≤ 1 → |Y| ≤ 1 → |Z| ≤ 1 → |V| ≤ 1 → |W| ≤ 1 →
      |(x * (y * z) + v * w).val - (X * (Y * Z) + V * W)| ≤ gamma R.u (3 * p + 3) * 2 ∧
      |(x * (y * z) - v * w).val - (X * (Y * Z) - V * W)| ≤ gamma R.u (3 * p + 3) * 2 ∧
      |(-x * (y * z) + v * w).val - (-X * (Y * Z) + V * W)| ≤ gamma R.u (3 * p + 3) * 2 ∧
      |(-x * (y * z) - v * w).val - (-X * (Y * Z) - V * W)| ≤ gamma R.u (3 * p + 3) * 2 := by
    intro x y z v w X Y Z V W hx hy hz hv hw gx gy gz gv gw
    have hA : |X| * (|Y| * |Z|) + |V| * |W| ≤ 2 := by linarith [M3 gx gy gz, M2 gv gw]
    exact ⟨track_as ((hx.mul (hy.mul hz)).add (hv.mul hw)) rfl hA k3 hu,
      track_as ((hx.mul (hy.mul hz)).sub (hv.mul hw)) rfl hA k3 hu,
      track_as ((hx.neg.mul (hy.mul hz)).add (hv.mul hw)) rfl hA k3 hu,
      track_as ((hx.neg.mul (hy.mul hz)).sub (hv.mul hw)) rfl hA k3 hu⟩
  simp only [hi, hj, hk, hr]
  by_cases hrep : o.repeats
  · simp only [hrep, decide_true, if_true]
    obtain ⟨m', e1, e2, e3, e4⟩ := bput9_perm h o.perm _ _ _ _ _ _ _ _ _
    refine ⟨m', e1, e2, e3, submatrix_all o.perm ?_⟩
    have e5 : (realM (linOf m' 3)).submatrix o.perm o.perm = realM ((linOf m' 3).submatrix o.perm o.perm) := rfl
    rw [e5, e4, eulerRot_perm, eulerStd_eq, if_pos hrep]
    intro i j
    fin_cases i <;> fin_cases j
    · exact t1 C1 c1
    · exact t2 S0 S1 s0 s1
    · exact t2 C0 S1 c0 s1
    · exact t2 S1 S2 s1 s2
    · exact (t5 C1 S0 S2 C0 C2 c1 s0 s2 c0 c2).2.2.1
    · exact (t5 C1 C0 S2 S0 C2 c1 c0 s2 s0 c2).2.2.2
    · exact t2n S1 C2 s1 c2
    · exact (t5 C1 S0 C2 C0 S2 c1 s0 c2 c0 s2).1
    · exact (t5 C1 C0 C2 S0 S2 c1 c0 c2 s0 s2).2.1
  · simp only [hrep, decide_false, Bool.false_eq_true, if_false]
    obtain ⟨m', e1, e2, e3, e4⟩ := bput9_perm h o.perm _ _ _ _ _ _ _ _ _
    refine ⟨m', e1, e2, e3, submatrix_all o.perm ?_⟩
    have e5 : (realM (linOf m' 3)).submatrix o.perm o.perm = realM ((linOf m' 3).submatrix o.perm o.perm) := rfl
    rw [e5, e4, eulerRot_perm, eulerStd_eq, if_neg hrep]
    intro i j
    fin_cases i <;> fin_cases j
    · exact t2 C1 C2 c1 c2
    · exact (t5 S1 S0 C2 C0 S2 s1 s0 c2 c0 s2).2.1
    · exact (t5 S1 C0 C2 S0 S2 s1 c0 c2 s0 s2).1
    · exact t2 C1 S2 c1 s2
    · exact (t5 S1 S0 S2 C0 C2 s1 s0 s2 c0 c2).1
    · exact (t5 S1 C0 S2 S0 C2 s1 c0 s2 s0 c2).2.1
    · exact t1n S1 s1
    · exact t2 S0 C1 s0 c1
    · exact t2 C0 C1 c0 c1

/-! ### Quaternions -/

/-- C134: `quaternion_rotation_axis_angle` gives, up to rounding errors, the quaternion
`(cos(θ/2), sin(θ/2) n)` of an angle `θ` that differs from the given one by at most the rounding of its half. -/
theorem qRotationAxisAngle_error (hT : T.Accurate p) (s : QState (Fl R)) (q : QVar) {v : AVec (Fl R)} {u : Fin 3 → Fl R}
    (hv : v.Is 3 u) (a : Fl R) (hu : ((p + 1 : ℕ) : ℝ) * R.u < 1) :
    ∃ s' h θ, qRotationAxisAngleG T s q v a = .ok s' ∧ (∀ y, y ≠ q.id → s' y = s y) ∧ QIs s' q h ∧
      |θ - a.val| ≤ R.u * |a.val| ∧ |h.re.val - Real.cos (θ / 2)| ≤ gamma R.u (p + 1) ∧
      ∀ i, |![h.imI.val, h.imJ.val, h.imK.val] i - Real.sin (θ / 2) * realV u i| ≤
        gamma R.u (p + 1) * |realV u i| := by
  obtain ⟨hs, rfl⟩ := hv
  simp only [qRotationAxisAngleG, AVec.checkSize_ok hs, Out.withVal_ok]
  generalize hα : a / ((2 : ℤ) : Fl R) = α
  have hαv : α.val = R.fl (a.val / 2) := by rw [← hα, Fl.div_val, Fl.intCast_val]; norm_num
  have key : ∃ s', qAssignVec s q v.fixed v.size (fun _ i => (v.smul (T.sin α)).get i) (T.cos α) = .ok s' ∧
      QIs s' q ⟨T.cos α, T.sin α * v.el 0, T.sin α * v.el 1, T.sin α * v.el 2⟩ ∧ ∀ y, y ≠ q.id → s' y = s y := by
    have g : ∀ i, i < 3 → (v.smul (T.sin α)).get i = .ok (T.sin α * v.el i) := fun i hi =>
      AVec.get_ok (v := v.smul (T.sin α)) (show i < v.size by omega)
    simp only [qAssignVec, hs, if_true, qPut, QOrder.W_lt, Out.ok_andThen, qPutRes, g 0 (by decide), g 1 (by decide),
      g 2 (by decide), Out.withVal_ok, QOrder.X_lt, QOrder.Y_lt, QOrder.Z_lt]
    refine ⟨_, rfl, ?_, ?_⟩
    · unfold QIs
      cases q.order <;> simp [QHolds, QOrder.W, QOrder.X, QOrder.Y, QOrder.Z]
    · intro y hy; funext j; simp [hy]
  obtain ⟨s', e1, e2, e3⟩ := key
  refine ⟨s', _, 2 * α.val, e1, e3, e2, ?_, ?_, ?_⟩
  · have := R.err (a.val / 2)
    rw [← hαv, abs_div, abs_two] at this
    rw [show 2 * α.val - a.val = 2 * (α.val - a.val / 2) by ring, abs_mul, abs_two]
    linarith
  · rw [mul_div_cancel_left₀ _ two_ne_zero]
    have := track_as (k := p + 1) (hT.trCos α) rfl (Real.abs_cos_le_one α.val) (Nat.le_succ p) hu
    rwa [mul_one] at this
  · rw [mul_div_cancel_left₀ _ two_ne_zero]
    have key : ∀ x : Fl R, |(T.sin α * x).val - Real.sin α.val * x.val| ≤ gamma R.u (p + 1) * |x.val| := fun x =>
      track_as ((hT.trSin α).mul (Tracks.exact x)) rfl
        (mul_le_of_le_one_left (abs_nonneg _) (Real.abs_sin_le_one α.val)) (by show p + 0 + 1 ≤ p + 1; omega) hu
    intro i
    fin_cases i
    · exact key (v.el 0)
    · exact key (v.el 1)
    · exact key (v.el 2)

/-! ### The hypotheses are met -/

private theorem ex_u {k : ℕ} (h : k ≤ 20) : (k : ℝ) * double.u < 1 := by
  have h1 : (k : ℝ) ≤ 20 := by exact_mod_cast h
  have h2 : double.u ≤ 1 / 1000 := by show (2 : ℝ)⁻¹ ^ 53 ≤ 1 / 1000; norm_num
  have h3 : 0 ≤ double.u := double.u_nonneg
  nlinarith

private noncomputable def bm : BMat (Fl double) := ⟨⟨4, 3, fun _ _ => ⟨7⟩⟩, .row, true⟩

private theorem bm_lin : bm.HasLin 3 := by constructor <;> decide

/-- Double precision with correctly rounded functions. -/
example := rotation2D_error (Trig.rounded_accurate double) (m := bm) (by constructor <;> decide) ⟨1 / 2⟩
example := rotationWorldAxis_error (Trig.rounded_accurate double) bm_lin 1 ⟨1 / 2⟩
example := rotationEuler_error (Trig.rounded_accurate double) bm_lin ⟨1⟩ ⟨2⟩ ⟨-1 / 4⟩ .zyx (ex_u (by norm_num))

/-- An axis whose length is close to one. -/
example : ∃ m' w, rotationAxisAngleG (Trig.rounded double) bm (AVec.of true ![⟨3 / 5⟩, ⟨4 / 5⟩, ⟨1 / 1000⟩]) ⟨1⟩ = .ok m' ∧
    IsRotation (rodrigues w 1) ∧
    ∀ i j, |realM (linOf m' 3) i j - rodrigues w 1 i j| ≤ gamma double.u 5 * (3 + 2 / 1000000) + 3 / 1000000 := by
  obtain ⟨m', w, h1, -, -, -, -, h2, h3⟩ := rotationAxisAngle_error (Trig.rounded_accurate double) bm_lin
    (v := AVec.of true ![⟨3 / 5⟩, ⟨4 / 5⟩, ⟨1 / 1000⟩]) (u := ![⟨3 / 5⟩, ⟨4 / 5⟩, ⟨1 / 1000⟩])
    ⟨rfl, by funext i; fin_cases i <;> rfl⟩
    (fun h => by
      have : (3 / 5 : ℝ) = 0 := congrFun h 0
      norm_num at this) ⟨1⟩ (ex_u (by norm_num))
  refine ⟨m', w, h1, h2, fun i j => (h3 i j).trans (le_of_eq ?_)⟩
  have hN : (realV (R := double) ![⟨3 / 5⟩, ⟨4 / 5⟩, ⟨1 / 1000⟩]) ⬝ᵥ (realV (R := double) ![⟨3 / 5⟩, ⟨4 / 5⟩, ⟨1 / 1000⟩]) =
      1 + 1 / 1000000 := by
    simp [dotProduct, Fin.sum_univ_three, realV]
    norm_num
  rw [hN, add_sub_cancel_left, abs_of_pos (by norm_num)]
  ring

example := qRotationAxisAngle_error (Trig.rounded_accurate double) (fun _ _ => none) ⟨0, .imagFirst, .positive⟩
  (v := AVec.of true ![⟨3 / 5⟩, ⟨4 / 5⟩, ⟨0⟩]) (u := ![⟨3 / 5⟩, ⟨4 / 5⟩, ⟨0⟩])
  ⟨rfl, by funext i; fin_cases i <;> rfl⟩ ⟨1⟩ (ex_u (by norm_num))

#print axioms builders_real
#print axioms Trig.rounded_accurate
#print axioms rotation2D_error
#print axioms rotationWorldAxis_error
#print axioms rotationAxisAngle_error
#print axioms rotationEuler_error
#print axioms qRotationAxisAngle_error

end CML
