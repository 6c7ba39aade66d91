import Verif.Model.IntAngle
import Verif.Lemmas.QuatRot
import Mathlib.Analysis.Real.Pi.Irrational

/-! Lemmas about angles of integral type. -/

namespace CML
open Matrix BMat Quaternion

theorem truncR_inside {x : ℝ} (h : |x| < 1) : truncR x = 0 := by
  rw [abs_lt] at h
  unfold truncR
  split_ifs with hx
  · rw [Int.floor_eq_iff]; simp; exact ⟨hx, h.2⟩
  · rw [Int.ceil_eq_iff]; simp; exact ⟨h.1, by linarith⟩

@[simp] theorem truncR_one : truncR 1 = 1 := by simp [truncR]
@[simp] theorem truncR_zero : truncR 0 = 0 := by simp [truncR]

/-- No integer other than zero is a multiple of `π / 2`. -/
theorem int_mul_pi_half {n k : ℤ} (hn : n ≠ 0) : (n : ℝ) ≠ k * (Real.pi / 2) := by
  intro h
  have hk : k ≠ 0 := by
    rintro rfl
    apply hn
    have : (n : ℝ) = 0 := by simpa using h
    exact_mod_cast this
  have hk' : (k : ℝ) ≠ 0 := by exact_mod_cast hk
  apply irrational_pi
  refine ⟨2 * n / k, ?_⟩
  push_cast
  rw [h]
  field_simp

theorem int_cos_sin_lt {n : ℤ} (hn : n ≠ 0) : |Real.cos n| < 1 ∧ |Real.sin n| < 1 := by
  have h := Real.sin_sq_add_cos_sq (n : ℝ)
  have hs : Real.sin (n : ℝ) ≠ 0 := by
    rw [Real.sin_ne_zero_iff]
    intro k hk
    apply int_mul_pi_half (k := 2 * k) hn
    push_cast
    linarith
  have hc : Real.cos (n : ℝ) ≠ 0 := by
    rw [Real.cos_ne_zero_iff]
    intro k hk
    apply int_mul_pi_half (k := 2 * k + 1) hn
    push_cast
    linarith
  constructor
  · rw [← sq_lt_one_iff_abs_lt_one]; have := pow_pos (abs_pos.2 hs) 2; rw [sq_abs] at this; linarith
  · rw [← sq_lt_one_iff_abs_lt_one]; have := pow_pos (abs_pos.2 hc) 2; rw [sq_abs] at this; linarith

theorem tdiv_two_eq_zero {n : ℤ} : n.tdiv 2 = 0 ↔ |n| ≤ 1 := by
  have h : ∀ k : ℤ, 0 ≤ k → (k.tdiv 2 = 0 ↔ k ≤ 1) := by
    intro k hk
    rw [Int.tdiv_eq_ediv_of_nonneg hk]
    omega
  rw [abs_le]
  rcases le_total 0 n with hn | hn
  · rw [h n hn]; omega
  · have := h (-n) (by omega)
    rw [Int.neg_tdiv] at this
    constructor
    · intro h0
      rw [h0] at this
      simp at this
      omega
    · intro h1
      have := this.2 (by omega)
      omega

end CML
