import Verif.Model.RandomSelf
import Verif.Props.Random

/-!
C133: `random_unit(v, v, a)`, the random vector stored in the direction of the cone.
-/

namespace CML
open Matrix

/-- What the code computes before it normalises, for the direction `y` and the random angle `θ`. -/
private noncomputable def overwritten (θ : ℝ) (y : Fin 2 → ℝ) : Fin 2 → ℝ :=
  ![Real.cos θ * y 0 - Real.sin θ * y 1,
    Real.sin θ * (Real.cos θ * y 0 - Real.sin θ * y 1) + Real.cos θ * y 1]

private theorem core {v : AVec ℝ} {y : Fin 2 → ℝ} (hv : v.Is 2 y) (θ : ℝ) :
    ∃ w : AVec ℝ, randomCone2DSelf v θ = w.normalized ∧ w.Is 2 (overwritten θ y) ∧ w.fixed = v.fixed := by
  have e0 : v.el 0 = y 0 := hv.el 0
  have e1 : v.el 1 = y 1 := hv.el 1
  have hs : v.size = 2 := hv.1
  refine ⟨⟨v.fixed, 2, fun k => if k = 1 then overwritten θ y 1 else if k = 0 then overwritten θ y 0 else v.el k⟩,
    ?_, ⟨rfl, ?_⟩, rfl⟩
  · simp [randomCone2DSelf, AVec.get, AVec.put, hs, e0, e1, overwritten]
  · funext i
    fin_cases i <;> simp [AVec.vec]

private theorem zero_iff {y : Fin 2 → ℝ} (hy : y ⬝ᵥ y = 1) (θ : ℝ) :
    overwritten θ y = 0 ↔ Real.cos θ = 0 ∧ y 1 = 0 := by
  have hyy : y 0 * y 0 + y 1 * y 1 = 1 := by rw [← hy, dotProduct, Fin.sum_univ_two]
  have hsc := Real.sin_sq_add_cos_sq θ
  constructor
  · intro h
    have h0 : Real.cos θ * y 0 - Real.sin θ * y 1 = 0 := congrFun h 0
    have h1 : Real.sin θ * (Real.cos θ * y 0 - Real.sin θ * y 1) + Real.cos θ * y 1 = 0 := congrFun h 1
    rw [h0, mul_zero, zero_add] at h1
    rcases mul_eq_zero.1 h1 with hc | h2
    · refine ⟨hc, ?_⟩
      rw [hc] at h0 hsc
      have hs : Real.sin θ ≠ 0 := by
        intro hs
        rw [hs] at hsc
        norm_num at hsc
      have : Real.sin θ * y 1 = 0 := by linarith
      exact (mul_eq_zero.1 this).resolve_left hs
    · refine ⟨?_, h2⟩
      rw [h2] at h0 hyy
      have hy0 : y 0 ≠ 0 := by
        intro h
        rw [h] at hyy
        norm_num at hyy
      have : Real.cos θ * y 0 = 0 := by linarith
      exact (mul_eq_zero.1 this).resolve_right hy0
  · rintro ⟨hc, h1⟩
    funext i
    fin_cases i <;> simp [overwritten, hc, h1]

/-- C133, two dimensions: the result is the direction of `(u, sin θ u + cos θ d₁)` with `u = cos θ d₀ - sin θ d₁`,
which is zero — and divided by zero — exactly for a quarter turn of a direction along the first axis. -/
theorem randomCone2DSelf_spec {v : AVec ℝ} {y : Fin 2 → ℝ} (hv : v.Is 2 y) (hy : y ⬝ᵥ y = 1) (θ : ℝ) :
    (Real.cos θ = 0 ∧ y 1 = 0 → randomCone2DSelf v θ = .ub .divZero) ∧
    (¬(Real.cos θ = 0 ∧ y 1 = 0) → ∃ w z, ∃ r : ℝ, randomCone2DSelf v θ = .ok w ∧ w.Is 2 z ∧ w.fixed = v.fixed ∧
      z ⬝ᵥ z = 1 ∧ 0 < r ∧ r * z 0 = Real.cos θ * y 0 - Real.sin θ * y 1 ∧
      r * z 1 = Real.sin θ * (Real.cos θ * y 0 - Real.sin θ * y 1) + Real.cos θ * y 1) := by
  obtain ⟨w, h1, h2, h3⟩ := core hv θ
  constructor
  · intro h
    rw [(zero_iff hy θ).2 h] at h2
    rw [h1, AVec.normalized_zero h2 two_pos]
  · intro h
    have h0 : overwritten θ y ≠ 0 := fun e => h ((zero_iff hy θ).1 e)
    have hpos : 0 < overwritten θ y ⬝ᵥ overwritten θ y := by
      refine lt_of_le_of_ne (Finset.sum_nonneg fun i _ => mul_self_nonneg _) fun e => h0 ?_
      have e' := (Finset.sum_eq_zero_iff_of_nonneg fun i _ => mul_self_nonneg (overwritten θ y i)).1 e.symm
      funext i
      exact mul_self_eq_zero.1 (e' i (Finset.mem_univ i))
    obtain ⟨w', g1, g2, g3⟩ := AVec.normalized_is h2 h0
    have hr : 0 < Real.sqrt (overwritten θ y ⬝ᵥ overwritten θ y) := Real.sqrt_pos.2 hpos
    refine ⟨w', _, Real.sqrt (overwritten θ y ⬝ᵥ overwritten θ y), by rw [h1, g1], g2, g3.trans h3, ?_, hr, ?_, ?_⟩
    · rw [smul_dotProduct, dotProduct_smul, smul_eq_mul, smul_eq_mul]
      have e := Real.mul_self_sqrt hpos.le
      generalize Real.sqrt (overwritten θ y ⬝ᵥ overwritten θ y) = q at *
      rw [← e]
      field_simp
    · rw [Pi.smul_apply, smul_eq_mul, mul_inv_cancel_left₀ hr.ne']
      rfl
    · rw [Pi.smul_apply, smul_eq_mul, mul_inv_cancel_left₀ hr.ne']
      rfl

/-- C133: for the direction `(0, 1)` every random angle other than zero gives a vector that makes a larger angle than
that with the direction. -/
theorem randomCone2DSelf_false {v : AVec ℝ} (hv : v.Is 2 ![0, 1]) {θ : ℝ} (h0 : θ ≠ 0) (h1 : |θ| ≤ Real.pi / 2) :
    ∃ w z, randomCone2DSelf v θ = .ok w ∧ w.Is 2 z ∧ z ⬝ᵥ z = 1 ∧ ![0, 1] ⬝ᵥ z < Real.cos θ := by
  have hpi := Real.pi_pos
  have hy : (![0, 1] : Fin 2 → ℝ) ⬝ᵥ ![0, 1] = 1 := by simp [dotProduct, Fin.sum_univ_two]
  obtain ⟨w, z, r, e1, e2, -, e3, e4, e5, e6⟩ := (randomCone2DSelf_spec hv hy θ).2 (by simp)
  refine ⟨w, z, e1, e2, e3, ?_⟩
  obtain ⟨b1, b2⟩ := abs_le.1 h1
  have hc : 0 ≤ Real.cos θ := Real.cos_nonneg_of_neg_pi_div_two_le_of_le (by linarith) b2
  have hs : Real.sin θ ≠ 0 := by
    intro h
    exact h0 ((Real.sin_eq_zero_iff_of_lt_of_lt (by linarith) (by linarith)).1 h)
  have hs2 : 0 < Real.sin θ ^ 2 := by positivity
  have hsc := Real.sin_sq_add_cos_sq θ
  have hz : z 0 * z 0 + z 1 * z 1 = 1 := by rw [← e3, dotProduct, Fin.sum_univ_two]
  have hd : (![0, 1] : Fin 2 → ℝ) ⬝ᵥ z = z 1 := by simp [dotProduct, Fin.sum_univ_two]
  rw [hd]
  simp only [cons_val_zero, cons_val_one, mul_zero, mul_one, zero_sub] at e5 e6
  generalize Real.sin θ = s at *
  generalize Real.cos θ = c at *
  have hv1 : r * z 1 = c - s ^ 2 := by rw [e6]; ring
  by_contra hcon
  rw [not_lt] at hcon
  -- so `z 1 ≥ c ≥ 0`, hence `(r z₁)² s² ≥ c² (r z₀)²`
  have k1 : c * c ≤ z 1 * z 1 := mul_self_le_mul_self hc hcon
  have k2 : s ^ 2 ≥ z 0 * z 0 := by nlinarith
  have k3 : (r * z 0) * (r * z 0) = s ^ 2 := by rw [e5]; ring
  have k4 : 0 ≤ c - s ^ 2 := by rw [← hv1]; exact mul_nonneg e4.le (hc.trans hcon)
  have k5 : 1 ≤ r * r := by
    by_contra h
    rw [not_le] at h
    have h' : r * r * (z 0 * z 0) = s ^ 2 := by rw [← k3]; ring
    have : z 0 * z 0 ≠ 0 := fun e => by rw [e, mul_zero] at h'; linarith
    have h3 : 0 < z 0 * z 0 := lt_of_le_of_ne (mul_self_nonneg _) (Ne.symm this)
    nlinarith
  have k6 : 1 ≤ r := by nlinarith
  have k7 : c ≤ r * z 1 := by nlinarith [hc.trans hcon]
  rw [hv1] at k7
  linarith

/-- C133: in general, the claim `random_unit(v, v, a)` leaves a vector of the cone in `v` fails: for every `a` the
generator can draw the angle `-a`, and then the result is outside of the cone around `(0, 1)`. -/
theorem randomConeSelf_two_false {v : AVec ℝ} (hf : v.fixed = true) (hv : v.Is 2 ![0, 1]) {a : ℝ} (ha0 : 0 < a)
    (ha1 : a ≤ Real.pi / 2) (fuel : Nat) (src : RandomSource) (hang : src.angle = -a) :
    ∃ w z, randomConeSelf v a src fuel = some (.ok w) ∧ w.Is 2 z ∧ ![0, 1] ⬝ᵥ z < Real.cos a := by
  obtain ⟨w, z, h1, h2, -, h3⟩ := randomCone2DSelf_false hv (θ := -a) (by linarith)
    (by rw [abs_neg, abs_of_pos ha0]; exact ha1)
  rw [Real.cos_neg] at h3
  exact ⟨w, z, by simp [randomConeSelf, ha0, ha1, hf, hv.1, hang, h1], h2, h3⟩

/-- C133: in all other dimensions, and for dynamic vectors, the direction is lost: whatever is drawn, the result is
undefined (or the drawing never ends). -/
theorem randomConeSelf_general {v : AVec ℝ} (h2 : ¬(v.fixed = true ∧ v.size = 2)) (hs : 0 < v.size) {a : ℝ}
    (ha0 : 0 < a) (ha1 : a ≤ Real.pi / 2) (src : RandomSource) (fuel : Nat) :
    (∀ k, (∀ j, j < k → attempt src.normal v.size j = 0) → attempt src.normal v.size k ≠ 0 → k < fuel →
      randomConeSelf v a src fuel = some (.ub .divZero)) ∧
    ((∀ j, j < fuel → attempt src.normal v.size j = 0) → randomConeSelf v a src fuel = none) := by
  constructor
  · intro k h1 h3 hk
    obtain ⟨w, x, e1, e2, -, -, e3⟩ := randomUnit_spec hs src.normal h1 h3 hk
    have := randomConeMap_parallel e2 e2 hs e3 (.inl rfl) a
    simp only [randomConeSelf, ha0, ha1, and_self, if_true, h2, if_false, e1, this]
  · intro h
    have := randomUnit_continues hs src.normal h
    simp only [randomConeSelf, ha0, ha1, and_self, if_true, h2, if_false, this]

/-- C133, the part that holds: for a direction along the first axis the two-dimensional version leaves a unit vector of
the cone, unless the random angle is a quarter turn.  Missing: all other directions (`randomCone2DSelf_false`) and
dimensions (`randomConeSelf_general`). -/
theorem randomConeSelf_partial {v : AVec ℝ} {y : Fin 2 → ℝ} (hf : v.fixed = true) (hv : v.Is 2 y) (hy : y ⬝ᵥ y = 1)
    (hy1 : y 1 = 0) {a : ℝ} (ha0 : 0 < a) (ha1 : a ≤ Real.pi / 2) (src : RandomSource) (hang : |src.angle| ≤ a)
    (hq : |src.angle| ≠ Real.pi / 2) (fuel : Nat) :
    ∃ w z, randomConeSelf v a src fuel = some (.ok w) ∧ w.Is 2 z ∧ z ⬝ᵥ z = 1 ∧ Real.cos a ≤ y ⬝ᵥ z := by
  have hpi := Real.pi_pos
  have hlt : |src.angle| < Real.pi / 2 := lt_of_le_of_ne (hang.trans ha1) hq
  have hc : 0 < Real.cos src.angle := by
    rw [← Real.cos_abs]
    exact Real.cos_pos_of_mem_Ioo ⟨by linarith [abs_nonneg src.angle], hlt⟩
  have hca : Real.cos a ≤ Real.cos src.angle := by
    rw [← Real.cos_abs src.angle]
    exact Real.cos_le_cos_of_nonneg_of_le_pi (abs_nonneg _) (by linarith) hang
  obtain ⟨w, z, r, e1, e2, -, e3, e4, e5, e6⟩ := (randomCone2DSelf_spec hv hy src.angle).2 (fun h => hc.ne' h.1)
  refine ⟨w, z, by simp [randomConeSelf, ha0, ha1, hf, hv.1, e1], e2, e3, hca.trans ?_⟩
  have hd : y ⬝ᵥ z = y 0 * z 0 := by simp [dotProduct, Fin.sum_univ_two, hy1]
  have hyy : y 0 * y 0 = 1 := by
    have : y 0 * y 0 + y 1 * y 1 = 1 := by rw [← hy, dotProduct, Fin.sum_univ_two]
    rw [hy1] at this; linarith
  have hz : z 0 * z 0 + z 1 * z 1 = 1 := by rw [← e3, dotProduct, Fin.sum_univ_two]
  rw [hd]
  rw [hy1, mul_zero, sub_zero] at e5
  rw [hy1, mul_zero, sub_zero, mul_zero, add_zero] at e6
  have hsc := Real.sin_sq_add_cos_sq src.angle
  generalize Real.sin src.angle = s at *
  generalize Real.cos src.angle = c at *
  have k1 : r * (y 0 * z 0) = c := by
    calc r * (y 0 * z 0) = y 0 * (r * z 0) := by ring
      _ = c * (y 0 * y 0) := by rw [e5]; ring
      _ = c := by rw [hyy, mul_one]
  have k2 : r * r = c ^ 2 * (1 + s ^ 2) := by
    calc r * r = (r * z 0) * (r * z 0) + (r * z 1) * (r * z 1) := by linear_combination -(r * r) * hz
      _ = c ^ 2 * (1 + s ^ 2) := by rw [e5, e6]; linear_combination (c ^ 2 + s ^ 2 * c ^ 2) * hyy
  have k3 : r ≤ 1 := by
    have : r * r ≤ 1 := by rw [k2]; nlinarith [sq_nonneg (s ^ 2)]
    nlinarith
  have k4 : 0 < y 0 * z 0 := by
    by_contra h
    rw [not_lt] at h
    nlinarith
  nlinarith

/-! ### The hypotheses are met -/

example : (AVec.of true ![(0 : ℝ), 1]).Is 2 ![0, 1] ∧ (AVec.of true ![(0 : ℝ), 1]).fixed = true := by
  refine ⟨⟨rfl, ?_⟩, rfl⟩
  funext i
  fin_cases i <;> simp [AVec.of, AVec.vec]

/-- A quarter turn: `random_unit(v, v, π/2)` with `v = (0, 1)` can give a vector at 135 degrees. -/
example : ∃ w z, randomConeSelf (AVec.of true ![(0 : ℝ), 1]) (Real.pi / 2) ⟨-(Real.pi / 2), fun _ => 0⟩ 1 = some (.ok w) ∧
    w.Is 2 z ∧ ![0, 1] ⬝ᵥ z < 0 := by
  have hv : (AVec.of true ![(0 : ℝ), 1]).Is 2 ![0, 1] := by
    refine ⟨rfl, ?_⟩
    funext i
    fin_cases i <;> simp [AVec.of, AVec.vec]
  have hpi := Real.pi_pos
  obtain ⟨w, z, h1, h2, h3⟩ := randomConeSelf_two_false (v := AVec.of true ![(0 : ℝ), 1]) rfl hv
    (a := Real.pi / 2) (by linarith) le_rfl 1 ⟨-(Real.pi / 2), fun _ => 0⟩ rfl
  rw [Real.cos_pi_div_two] at h3
  exact ⟨w, z, h1, h2, h3⟩

/-- In three dimensions the first attempt `(1, 1, 1)` leads to a division by zero. -/
example : randomConeSelf (AVec.of true ![(0 : ℝ), 1, 0]) 1 ⟨0, fun _ => 1⟩ 5 = some (.ub .divZero) := by
  refine (randomConeSelf_general (v := AVec.of true ![(0 : ℝ), 1, 0]) (by simp [AVec.of]) (by simp [AVec.of]) one_pos
    (by linarith [Real.two_le_pi]) _ 5).1 0 (by simp) ?_ (by norm_num)
  intro h
  have := congrFun h ⟨0, by simp [AVec.of]⟩
  simp [attempt] at this

#print axioms randomCone2DSelf_spec
#print axioms randomCone2DSelf_false
#print axioms randomConeSelf_two_false
#print axioms randomConeSelf_general
#print axioms randomConeSelf_partial

end CML
