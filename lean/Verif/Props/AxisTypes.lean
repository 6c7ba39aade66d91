import Verif.Model.AxisTypes
import Verif.Lemmas.IntAngle
import Verif.Props.Extract

/-!
C136: the types of the axis and the angle `matrix_to_axis_angle` returns.
-/

namespace CML

open Matrix BMat

/-- C136: with an axis of the element type of the matrix, the axis and the angle are those of `matrix_to_axis_angle`
for real numbers, the angle converted to its type, for all matrices and outcomes. -/
theorem toAxisAngleAs_partial (ce : ℝ → ℝ) (m : BMat ℝ) (tol : ℝ) :
    toAxisAngleAs id ce m tol = toAxisAngle m tol >>= fun r => .ok (r.1, ce r.2) := by
  by_cases hm : m.HasLin 3
  · obtain ⟨⟨b00, b01, b02⟩, ⟨b10, b11, b12⟩, ⟨b20, b21, b22⟩⟩ := bget_lin9 hm
    have htr := trace3_ok hm
    have hl := AVec.length_is (AVec.mk3_is true (linOf m 3 2 1 - linOf m 3 1 2) (linOf m 3 0 2 - linOf m 3 2 0)
      (linOf m 3 1 0 - linOf m 3 0 1)) (by decide)
    simp only [toAxisAngleAs, toAxisAngle, checkLinear3D_ok hm, Res.ok_bind, b12, b21, b20, b02, b01, b10, id, htr, hl]
    split_ifs with h1 h2
    · cases AVec.sdiv (AVec.mk3 true (linOf m 3 2 1 - linOf m 3 1 2) (linOf m 3 0 2 - linOf m 3 2 0)
        (linOf m 3 1 0 - linOf m 3 0 1)) _ <;> rfl
    · rfl
    · simp only [b00, b11, b22, Res.ok_bind]
      rcases indexOfMax3_cases (linOf m 3 0 0) (linOf m 3 1 1) (linOf m 3 2 2) with
        ⟨hx, -⟩ | ⟨hx, -⟩ | ⟨hx, -⟩ <;> rw [hx]
      · simp only [show cyclicPermutation3 0 = (0, 1, 2) from rfl, b00, b11, b22, b01, b02, Res.ok_bind, AVec.put,
          AVec.get, AVec.mk3]
        simp only [divR, Nat.ofNat_pos, Nat.one_lt_ofNat, Nat.lt_add_one, if_true, Res.ok_bind]
        split_ifs <;> rfl
      · simp only [show cyclicPermutation3 1 = (1, 2, 0) from rfl, b00, b11, b22, b10, b12, Res.ok_bind, AVec.put,
          AVec.get, AVec.mk3]
        simp only [divR, Nat.ofNat_pos, Nat.one_lt_ofNat, Nat.lt_add_one, if_true, Res.ok_bind]
        split_ifs <;> rfl
      · simp only [show cyclicPermutation3 2 = (2, 0, 1) from rfl, b00, b11, b22, b20, b21, Res.ok_bind, AVec.put,
          AVec.get, AVec.mk3]
        simp only [divR, Nat.ofNat_pos, Nat.one_lt_ofNat, Nat.lt_add_one, if_true, Res.ok_bind]
        split_ifs <;> rfl
  · rw [toAxisAngle_throws hm, toAxisAngleAs, checkLinear3D_throw hm]; rfl

/-- The conversion to an integral type. -/
noncomputable def toInt (x : ℝ) : ℝ := truncR x

private theorem toInt_inside {x : ℝ} (h : |x| < 1) : toInt x = 0 := by simp [toInt, truncR_inside h]

private theorem rod_diag {u : Fin 3 → ℝ} (θ : ℝ) (i j k : Fin 3)
    (hs : u i * u i + u j * u j + u k * u k = 1) :
    rodrigues u θ i i - rodrigues u θ j j - rodrigues u θ k k + 1 = 2 * (1 - Real.cos θ) * (u i * u i) := by
  have h : ∀ a, rodrigues u θ a a = Real.cos θ + (1 - Real.cos θ) * (u a * u a) := by
    intro a
    rw [rodrigues_eq]
    fin_cases a <;> simp <;> ring
  rw [h, h, h]
  linear_combination -(1 - Real.cos θ) * hs

/-- Up to the decision about the branch: all elements of the axis are converted to zero. -/
private theorem int_axis {u : Fin 3 → ℝ} (hu : u ⬝ᵥ u = 1) {θ : ℝ} (hs : |Real.sin θ| < 1 / 2) (i : Fin 3) :
    toInt (2 * Real.sin θ * u i) = 0 := by
  apply toInt_inside
  have h1 : |u i| ≤ 1 := by
    rw [← sq_le_one_iff_abs_le_one, pow_two, ← hu]
    exact Finset.single_le_sum (f := fun i => u i * u i) (fun i _ => mul_self_nonneg (u i)) (Finset.mem_univ i)
  rw [abs_mul, abs_mul, abs_two]
  nlinarith [abs_nonneg (u i), abs_nonneg (Real.sin θ)]

private theorem skew3 (u : Fin 3 → ℝ) (θ : ℝ) :
    rodrigues u θ 2 1 - rodrigues u θ 1 2 = 2 * Real.sin θ * u 0 ∧
    rodrigues u θ 0 2 - rodrigues u θ 2 0 = 2 * Real.sin θ * u 1 ∧
    rodrigues u θ 1 0 - rodrigues u θ 0 1 = 2 * Real.sin θ * u 2 := by
  rw [rodrigues_eq]
  refine ⟨?_, ?_, ?_⟩ <;> simp <;> ring

private theorem trace_cos {u : Fin 3 → ℝ} (hu : u ⬝ᵥ u = 1) (θ : ℝ) :
    rodrigues u θ 0 0 + rodrigues u θ 1 1 + rodrigues u θ 2 2 - 1 = 2 * Real.cos θ := by
  have := rodrigues_trace hu θ
  rw [Matrix.trace_fin_three] at this
  linarith

private theorem len_zero : (AVec.mk3 true (0 : ℝ) 0 0).length = .ok 0 := by
  rw [AVec.length_is (AVec.mk3_is true 0 0 0) (by decide)]
  simp [dotProduct, Fin.sum_univ_three]

private theorem toInt_zero : toInt 0 = 0 := by simp [toInt]

/-- C136: in general it fails.  With an axis of integral elements and any tolerance that is not negative, every
rotation by an angle with `|sin| < 1/2` is returned as no rotation at all if the angle is acute, although the angle
has its own type. -/
theorem toAxisAngleAs_false (ce : ℝ → ℝ) {m : BMat ℝ} (hm : m.HasLin 3) {u : Fin 3 → ℝ} (hu : u ⬝ᵥ u = 1) {θ : ℝ}
    (hM : linOf m 3 = rodrigues u θ) (hs : |Real.sin θ| < 1 / 2) (hc : 0 < Real.cos θ) {tol : ℝ} (ht : 0 ≤ tol) :
    ∃ v, toAxisAngleAs toInt ce m tol = .ok (v, ce 0) ∧ v.Is 3 0 := by
  obtain ⟨⟨b00, b01, b02⟩, ⟨b10, b11, b12⟩, ⟨b20, b21, b22⟩⟩ := bget_lin9 hm
  have htr := trace3_ok hm
  rw [hM] at b00 b01 b02 b10 b11 b12 b20 b21 b22 htr
  obtain ⟨sk0, sk1, sk2⟩ := skew3 u θ
  simp only [toAxisAngleAs, checkLinear3D_ok hm, Res.ok_bind, b12, b21, b20, b02, b01, b10, sk0, sk1, sk2,
    int_axis hu hs, len_zero, toInt_zero, htr, trace_cos hu]
  rw [if_neg (not_lt.2 ht), if_pos (by linarith)]
  refine ⟨_, rfl, rfl, ?_⟩
  funext i
  fin_cases i <;> rfl

/-- C136: if the angle is obtuse, the function divides by zero, unless it is a half turn about one of the axes. -/
theorem toAxisAngleAs_ub (ce : ℝ → ℝ) {m : BMat ℝ} (hm : m.HasLin 3) {u : Fin 3 → ℝ} (hu : u ⬝ᵥ u = 1) {θ : ℝ}
    (hM : linOf m 3 = rodrigues u θ) (hs : |Real.sin θ| < 1 / 2) (hc : Real.cos θ < 0)
    (hh : Real.sin θ ≠ 0 ∨ ∀ i, |u i| ≠ 1) {tol : ℝ} (ht : 0 ≤ tol) :
    toAxisAngleAs toInt ce m tol = .ub .divZero := by
  obtain ⟨⟨b00, b01, b02⟩, ⟨b10, b11, b12⟩, ⟨b20, b21, b22⟩⟩ := bget_lin9 hm
  have htr := trace3_ok hm
  rw [hM] at b00 b01 b02 b10 b11 b12 b20 b21 b22 htr
  obtain ⟨sk0, sk1, sk2⟩ := skew3 u θ
  simp only [toAxisAngleAs, checkLinear3D_ok hm, Res.ok_bind, b12, b21, b20, b02, b01, b10, sk0, sk1, sk2,
    int_axis hu hs, len_zero, toInt_zero, htr, trace_cos hu]
  rw [if_neg (not_lt.2 ht), if_neg (by linarith)]
  simp only [dotProduct, Fin.sum_univ_three] at hu
  have key : ∀ i j k : Fin 3, u i * u i + u j * u j + u k * u k = 1 →
      toInt (Real.sqrt (rodrigues u θ i i - rodrigues u θ j j - rodrigues u θ k k + 1) / 2) = 0 := by
    intro i j k h
    rw [rod_diag θ i j k h]
    apply toInt_inside
    have hle : u i * u i ≤ 1 := by nlinarith only [h, mul_self_nonneg (u j), mul_self_nonneg (u k)]
    have hcc := Real.neg_one_le_cos θ
    have hlt : 2 * (1 - Real.cos θ) * (u i * u i) < 2 ^ 2 := by
      rcases hh with hh | hh
      · have h1 : -1 < Real.cos θ := by
          refine lt_of_le_of_ne hcc fun e => hh ?_
          have := Real.sin_sq_add_cos_sq θ
          rw [← e] at this
          exact pow_eq_zero_iff (two_ne_zero) |>.1 (by linarith)
        nlinarith only [h1, hle, hc, mul_self_nonneg (u i)]
      · have h1 : u i * u i < 1 := by
          refine lt_of_le_of_ne hle fun e => hh i ?_
          rw [← abs_mul_abs_self] at e
          nlinarith only [e, abs_nonneg (u i)]
        nlinarith only [h1, hcc, hc, mul_self_nonneg (u i)]
    have := (Real.sqrt_lt' two_pos).2 hlt
    rw [abs_of_nonneg (by positivity)]
    linarith
  simp only [b00, b11, b22, Res.ok_bind]
  rcases indexOfMax3_cases (rodrigues u θ 0 0) (rodrigues u θ 1 1) (rodrigues u θ 2 2) with
    ⟨hx, -⟩ | ⟨hx, -⟩ | ⟨hx, -⟩ <;> rw [hx]
  · simp only [show cyclicPermutation3 0 = (0, 1, 2) from rfl, b00, b11, b22, Res.ok_bind,
      key 0 1 2 hu, AVec.put, AVec.get, AVec.mk3]
    simp [divR]
  · simp only [show cyclicPermutation3 1 = (1, 2, 0) from rfl, b00, b11, b22, Res.ok_bind,
      key 1 2 0 (by linarith), AVec.put, AVec.get, AVec.mk3]
    simp [divR]
  · simp only [show cyclicPermutation3 2 = (2, 0, 1) from rfl, b00, b11, b22, Res.ok_bind,
      key 2 0 1 (by linarith), AVec.put, AVec.get, AVec.mk3]
    simp [divR]

/-! ### The hypotheses are met -/

/-- `vector<int, compiled<3>> axis; double angle; matrix_to_axis_angle(m, axis, angle)` for a rotation about the third
axis by `π / 7`, less than 30 degrees: no axis, and the angle zero. -/
example (m : BMat ℝ) (hm : m.HasLin 3) : ∃ m' v, rotationAxisAngle m (AVec.mk3 true 0 0 1) (Real.pi / 7) = .ok m' ∧
    toAxisAngleAs toInt id m' (1 / 1000) = .ok (v, 0) ∧ v.Is 3 0 := by
  have hpi := Real.pi_pos
  obtain ⟨m', f1, f2, -, f4⟩ := rotationAxisAngle_spec hm (AVec.mk3_is true 0 0 1) (Real.pi / 7)
  obtain ⟨v, h1, h2⟩ := toAxisAngleAs_false id (f2.hasLin hm) (by simp [dotProduct, Fin.sum_univ_three]) f4
    (by
      rw [abs_of_pos (Real.sin_pos_of_pos_of_lt_pi (by linarith) (by linarith)), ← Real.sin_pi_div_six]
      exact Real.sin_lt_sin_of_lt_of_le_pi_div_two (by linarith) (by linarith) (by linarith))
    (Real.cos_pos_of_mem_Ioo ⟨by linarith, by linarith⟩) (tol := 1 / 1000) (by norm_num)
  exact ⟨m', v, f1, h1, h2⟩

/-- A half turn about `(3/5, 4/5, 0)`: a division by zero. -/
example (m : BMat ℝ) (hm : m.HasLin 3) : ∃ m', rotationAxisAngle m (AVec.mk3 true (3 / 5) (4 / 5) 0) Real.pi = .ok m' ∧
    toAxisAngleAs toInt id m' (1 / 1000) = .ub .divZero := by
  obtain ⟨m', f1, f2, -, f4⟩ := rotationAxisAngle_spec hm (AVec.mk3_is true (3 / 5) (4 / 5) 0) Real.pi
  refine ⟨m', f1, toAxisAngleAs_ub id (f2.hasLin hm) ?_ f4 ?_ ?_ (.inr ?_) (by norm_num)⟩
  · simp [dotProduct, Fin.sum_univ_three]; norm_num
  · simp
  · simp
  · intro i
    fin_cases i <;> simp <;> norm_num [abs_of_pos]

/-- A real axis and an integral angle, for every rotation. -/
example (m : BMat ℝ) (hm : m.HasLin 3) (hr : IsRotation (linOf m 3)) : ∃ v θ, toAxisAngle m 0 = .ok (v, θ) ∧
    toAxisAngleAs id toInt m 0 = .ok (v, toInt θ) := by
  obtain ⟨v, u, θ, h, -⟩ := toAxisAngle_zero hm hr
  exact ⟨v, θ, h, by rw [toAxisAngleAs_partial, h]; rfl⟩

#print axioms toAxisAngleAs_partial
#print axioms toAxisAngleAs_false
#print axioms toAxisAngleAs_ub

end CML
