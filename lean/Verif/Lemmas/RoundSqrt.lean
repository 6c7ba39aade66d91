import Verif.Lemmas.Round

/-! Rounding errors of square roots and reciprocals. -/

namespace CML

variable {u : ℝ}

/-- The reciprocal of a factor close to one. -/
theorem Fac.inv_two (h0 : 0 ≤ u) (hlt : u < 1) {k : ℕ} (h1 : 4 * (k * u) ≤ 1) {t : ℝ} (h : Fac u k t) :
    0 < t ∧ Fac u (k + k) t⁻¹ := by
  have e := phi_add (u := u) k k
  set f := phi u k with hf
  have f0 : 0 ≤ f := phi_nonneg h0 hlt k
  have hb : f ≤ 1 / 3 := by
    have hg := phi_le_gamma (k := k) h0 hlt (by linarith)
    refine le_trans hg ?_
    rw [gamma, div_le_iff₀ (by linarith)]
    linarith
  obtain ⟨h2, h3⟩ := _root_.abs_le.1 h
  have tp : 0 < t := by linarith
  refine ⟨tp, ?_⟩
  show |t⁻¹ - 1| ≤ phi u (k + k)
  rw [← e, inv_eq_one_div, div_sub_one tp.ne', abs_div, abs_of_pos tp, div_le_iff₀ tp, abs_sub_comm]
  have h4 : (f + f + f * f) * (1 - f) ≤ (f + f + f * f) * t := mul_le_mul_of_nonneg_left (by linarith) (by positivity)
  have h5 : |t - 1| ≤ f := h
  nlinarith

/-- The square root of a factor is not farther from one. -/
theorem Fac.sqrt {k : ℕ} {t : ℝ} (ht : 0 ≤ t) (h : Fac u k t) : Fac u k (Real.sqrt t) := by
  refine le_trans ?_ h
  have hs := Real.sqrt_nonneg t
  have e : t - 1 = (Real.sqrt t - 1) * (Real.sqrt t + 1) := by
    have := Real.mul_self_sqrt ht
    linear_combination -this
  rw [e, abs_mul, abs_of_pos (by linarith : 0 < Real.sqrt t + 1)]
  exact le_mul_of_one_le_right (abs_nonneg _) (by linarith)

end CML
