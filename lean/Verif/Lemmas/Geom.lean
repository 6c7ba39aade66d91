import Verif.Lemmas.QuatRot

/-! Lemmas on `atan2`, lengths and normalised vectors. -/

namespace CML
open Matrix

/-! ### `atan2` -/

theorem norm_mk (x y : ℝ) : ‖(⟨x, y⟩ : ℂ)‖ = Real.sqrt (x * x + y * y) := by
  rw [Complex.norm_def, Complex.normSq_mk]

theorem atan2_polar {r θ : ℝ} (hr : 0 < r) (h1 : -Real.pi < θ) (h2 : θ ≤ Real.pi) :
    atan2 (r * Real.sin θ) (r * Real.cos θ) = θ := by
  have := Complex.arg_mul_cos_add_sin_mul_I hr ⟨h1, h2⟩
  refine Eq.trans ?_ this
  rw [atan2]
  congr 1
  apply Complex.ext <;> simp [← Complex.ofReal_cos, ← Complex.ofReal_sin]

theorem sin_atan2 {x y r : ℝ} (hr : 0 < r) (h : r * r = x * x + y * y) :
    Real.sin (atan2 y x) = y / r := by
  rw [atan2, Complex.sin_arg, norm_mk, ← h, Real.sqrt_mul_self hr.le]

theorem cos_atan2 {x y r : ℝ} (hr : 0 < r) (h : r * r = x * x + y * y) :
    Real.cos (atan2 y x) = x / r := by
  have hne : (⟨x, y⟩ : ℂ) ≠ 0 := by
    intro e
    have e1 := congrArg Complex.re e
    have e2 := congrArg Complex.im e
    simp at e1 e2
    subst e1; subst e2
    nlinarith
  rw [atan2, Complex.cos_arg hne, norm_mk, ← h, Real.sqrt_mul_self hr.le]

theorem atan2_range (y x : ℝ) : -Real.pi < atan2 y x ∧ atan2 y x ≤ Real.pi :=
  ⟨Complex.neg_pi_lt_arg _, Complex.arg_le_pi _⟩

theorem atan2_nonneg {y x : ℝ} : 0 ≤ atan2 y x ↔ 0 ≤ y := Complex.arg_nonneg_iff

theorem len2_nonneg (x y : ℝ) : 0 ≤ len2 x y := Real.sqrt_nonneg _

theorem len2_sq (x y : ℝ) : len2 x y * len2 x y = x * x + y * y :=
  Real.mul_self_sqrt (add_nonneg (mul_self_nonneg x) (mul_self_nonneg y))

theorem len2_eq_zero {x y : ℝ} : len2 x y = 0 ↔ x = 0 ∧ y = 0 := by
  have h := len2_sq x y
  constructor
  · intro e
    rw [e] at h
    constructor <;> nlinarith [mul_self_nonneg x, mul_self_nonneg y]
  · rintro ⟨rfl, rfl⟩
    simp [len2]

/-! ### Lengths of vectors -/

theorem AVec.Is.el {K : Type} {v : AVec K} {n : Nat} {x : Fin n → K} (h : v.Is n x) (i : Fin n) :
    v.el i = x i := by
  obtain ⟨-, rfl⟩ := h
  rfl

theorem AVec.length_is {v : AVec ℝ} {n : Nat} {x : Fin n → ℝ} (h : v.Is n x) (hn : 0 < n) :
    v.length = .ok (Real.sqrt (x ⬝ᵥ x)) := by
  rw [AVec.length, AVec.lengthSquared_ok h.1 hn, Res.ok_bind]
  simp only [h.el]
  rfl

theorem AVec.sdiv_is {v : AVec ℝ} {n : Nat} {x : Fin n → ℝ} (h : v.Is n x) {k : ℝ} (hk : k ≠ 0) :
    ∃ w, v.sdiv k = .ok w ∧ w.Is n (k⁻¹ • x) ∧ w.fixed = v.fixed := by
  rw [AVec.sdiv, if_neg hk]
  refine ⟨_, rfl, ⟨h.1, ?_⟩, rfl⟩
  funext i
  simp [AVec.vec, h.el, div_eq_inv_mul]

theorem dot_self_pos {n : Nat} {x : Fin n → ℝ} (hx : x ≠ 0) : 0 < x ⬝ᵥ x := by
  refine lt_of_le_of_ne (Finset.sum_nonneg fun i _ => mul_self_nonneg _) fun e => hx ?_
  funext i
  have := (Finset.sum_eq_zero_iff_of_nonneg fun i _ => mul_self_nonneg (x i)).1 e.symm i (Finset.mem_univ i)
  simpa using this

theorem AVec.normalized_is {v : AVec ℝ} {n : Nat} {x : Fin n → ℝ} (h : v.Is n x) (hx : x ≠ 0) :
    ∃ w, v.normalized = .ok w ∧ w.Is n ((Real.sqrt (x ⬝ᵥ x))⁻¹ • x) ∧ w.fixed = v.fixed := by
  have hn : 0 < n := by
    rcases Nat.eq_zero_or_pos n with rfl | hn
    · exact absurd (Subsingleton.elim _ _) hx
    · exact hn
  have hp := dot_self_pos hx
  rw [AVec.normalized, AVec.length_is h hn, Res.ok_bind]
  exact AVec.sdiv_is h (Real.sqrt_pos.2 hp).ne'

/-- The normalised vector is a unit vector. -/
theorem normalize_unit {n : Nat} {x : Fin n → ℝ} (hx : x ≠ 0) :
    ((Real.sqrt (x ⬝ᵥ x))⁻¹ • x) ⬝ᵥ ((Real.sqrt (x ⬝ᵥ x))⁻¹ • x) = 1 := by
  have hp := dot_self_pos hx
  have h1 := Real.mul_self_sqrt hp.le
  have h2 := (Real.sqrt_pos.2 hp).ne'
  rw [smul_dotProduct, dotProduct_smul, smul_eq_mul, smul_eq_mul]
  generalize Real.sqrt (x ⬝ᵥ x) = t at *
  rw [← h1]
  field_simp

theorem AVec.normalized_zero {v : AVec ℝ} {n : Nat} (h : v.Is n (0 : Fin n → ℝ)) (hn : 0 < n) :
    v.normalized = .ub .divZero := by
  rw [AVec.normalized, AVec.length_is h hn, Res.ok_bind]
  have : v.size ≠ 0 := by have := h.1; omega
  simp [AVec.sdiv, this]

end CML
