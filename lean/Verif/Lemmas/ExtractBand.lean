import Verif.Lemmas.Geom
import Verif.Lemmas.QuatRot

/-!
Estimates for the extraction of axis, angle and Euler angles inside of the tolerance band.
-/

namespace CML
open Matrix BMat Quaternion

/-- A unit quaternion with `w² > 1/2` and `4 |w| |v| ≤ tol` is close to no rotation. -/
theorem quat_near_one {q : ℍ[ℝ]} (hq : normSq q = 1) {tol : ℝ} (ht : 0 ≤ tol)
    (hw : q.imI ^ 2 + q.imJ ^ 2 + q.imK ^ 2 ≤ q.re ^ 2)
    (hl : 16 * (q.re ^ 2 * (q.imI ^ 2 + q.imJ ^ 2 + q.imK ^ 2)) ≤ tol ^ 2) (a b : Fin 3) :
    |(1 : Matrix (Fin 3) (Fin 3) ℝ) a b - quatMat q a b| ≤ tol := by
  rw [normSq_def'] at hq
  rw [quatMat_eq]
  generalize q.re = w at *; generalize q.imI = x at *; generalize q.imJ = y at *
  generalize q.imK = z at *
  have hN : x ^ 2 + y ^ 2 + z ^ 2 ≤ tol / 4 := by
    refine abs_le_of_sq_le_sq' ?_ (by linarith) |>.2
    nlinarith [sq_nonneg x, sq_nonneg y, sq_nonneg z]
  have hp : ∀ t : ℝ, t ^ 2 ≤ x ^ 2 + y ^ 2 + z ^ 2 → |w * t| ≤ tol / 4 := by
    intro t h
    refine abs_le_of_sq_le_sq ?_ (by linarith)
    have : w ^ 2 * t ^ 2 ≤ w ^ 2 * (x ^ 2 + y ^ 2 + z ^ 2) := mul_le_mul_of_nonneg_left h (sq_nonneg w)
    nlinarith
  have px := abs_le.1 (hp x (by nlinarith [sq_nonneg y, sq_nonneg z]))
  have py := abs_le.1 (hp y (by nlinarith [sq_nonneg x, sq_nonneg z]))
  have pz := abs_le.1 (hp z (by nlinarith [sq_nonneg x, sq_nonneg y]))
  have s1 := sq_nonneg x; have s2 := sq_nonneg y; have s3 := sq_nonneg z
  have d1 := sq_nonneg (x + y); have d2 := sq_nonneg (x - y); have d3 := sq_nonneg (x + z)
  have d4 := sq_nonneg (x - z); have d5 := sq_nonneg (y + z); have d6 := sq_nonneg (y - z)
  rw [abs_le]
  fin_cases a <;> fin_cases b <;> simp <;> constructor <;> linarith

/-- A quaternion with a short imaginary part moves a vector only a little. -/
theorem qRotate_near {h : ℍ[ℝ]} (hh : normSq h = 1) (x : Fin 3 → ℝ) :
    (x - qRotate h x) ⬝ᵥ (x - qRotate h x) ≤ 4 * (imVec h ⬝ᵥ imVec h) * (x ⬝ᵥ x) := by
  rw [normSq_def'] at hh
  rw [qRotate_eq]
  simp only [dotProduct, Fin.sum_univ_three, imVec, Pi.sub_apply, mulVec, cons_val_zero, cons_val_one,
    cons_val, of_apply]
  have key := sq_nonneg (h.imI * x 0 + h.imJ * x 1 + h.imK * x 2)
  have e : (h.re ^ 2 + h.imI ^ 2 + h.imJ ^ 2 + h.imK ^ 2 - 1) *
      ((x 0 * x 0 + x 1 * x 1 + x 2 * x 2) * (h.re ^ 2 + h.imI ^ 2 + h.imJ ^ 2 + h.imK ^ 2 - 1)) = 0 := by
    rw [hh]; ring
  linarith

/-- The estimates of the half turn formula: `(x, y, z)` is the imaginary part of the quaternion and `x`
its largest element; `r = z / x`, `s = y / x`. -/
theorem half_estimates {w x y z r s tol : ℝ} (hq : w ^ 2 + x ^ 2 + y ^ 2 + z ^ 2 = 1) (ht : 0 ≤ tol)
    (hw : w ^ 2 ≤ x ^ 2 + y ^ 2 + z ^ 2) (hl : 16 * (w ^ 2 * (x ^ 2 + y ^ 2 + z ^ 2)) ≤ tol ^ 2)
    (hr : z = r * x) (hs : y = s * x) (hr1 : r ^ 2 ≤ 1) (hs1 : s ^ 2 ≤ 1) :
    |2 * (x * x) - 1 - (w ^ 2 + x ^ 2 - y ^ 2 - z ^ 2)| ≤ 3 / 2 * tol ∧
    |2 * ((y + w * r) * (y + w * r)) - 1 - (w ^ 2 - x ^ 2 + y ^ 2 - z ^ 2)| ≤ 3 / 2 * tol ∧
    |2 * ((z - w * s) * (z - w * s)) - 1 - (w ^ 2 - x ^ 2 - y ^ 2 + z ^ 2)| ≤ 3 / 2 * tol ∧
    |2 * (x * (y + w * r)) - 2 * (x * y + w * z)| ≤ 3 / 2 * tol ∧
    |2 * (x * (y + w * r)) - 2 * (x * y - w * z)| ≤ 3 / 2 * tol ∧
    |2 * (x * (z - w * s)) - 2 * (x * z - w * y)| ≤ 3 / 2 * tol ∧
    |2 * (x * (z - w * s)) - 2 * (x * z + w * y)| ≤ 3 / 2 * tol ∧
    |2 * ((y + w * r) * (z - w * s)) - 2 * (y * z + w * x)| ≤ 3 / 2 * tol ∧
    |2 * ((y + w * r) * (z - w * s)) - 2 * (y * z - w * x)| ≤ 3 / 2 * tol ∧
    |x * x + (y + w * r) * (y + w * r) + (z - w * s) * (z - w * s) - 1| ≤ tol ^ 2 / 8 := by
  have hw2 : w ^ 2 ≤ tol / 4 := by
    refine abs_le_of_sq_le_sq' ?_ (by linarith) |>.2
    nlinarith [sq_nonneg w]
  have hw3 : w ^ 2 ≤ tol ^ 2 / 8 := by nlinarith [sq_nonneg w]
  have hp : ∀ t : ℝ, t ^ 2 ≤ x ^ 2 + y ^ 2 + z ^ 2 → |w * t| ≤ tol / 4 := by
    intro t h
    refine abs_le_of_sq_le_sq ?_ (by linarith)
    have : w ^ 2 * t ^ 2 ≤ w ^ 2 * (x ^ 2 + y ^ 2 + z ^ 2) := mul_le_mul_of_nonneg_left h (sq_nonneg w)
    nlinarith
  have px := hp x (by linarith [sq_nonneg y, sq_nonneg z])
  have py := hp y (by linarith [sq_nonneg x, sq_nonneg z])
  have pz := hp z (by linarith [sq_nonneg x, sq_nonneg y])
  have hr2 : |r| ≤ 1 := abs_le_of_sq_le_sq (by linarith) zero_le_one
  have hs2 : |s| ≤ 1 := abs_le_of_sq_le_sq (by linarith) zero_le_one
  have hm : ∀ {a b c d : ℝ}, |a| ≤ c → |b| ≤ d → |a * b| ≤ c * d := by
    intro a b c d h1 h2
    rw [abs_mul]
    exact mul_le_mul h1 h2 (abs_nonneg _) ((abs_nonneg _).trans h1)
  have a1 := abs_le.1 (hm py hr2)
  have a2 := abs_le.1 (hm pz hs2)
  have hww : |w ^ 2| ≤ tol / 4 := by rwa [abs_of_nonneg (sq_nonneg w)]
  have hww3 : |w ^ 2| ≤ tol ^ 2 / 8 := by rwa [abs_of_nonneg (sq_nonneg w)]
  have a3 := abs_le.1 (hm hww (b := r ^ 2 - 1) (d := 1)
    (abs_le.2 ⟨by linarith [sq_nonneg r], by linarith⟩))
  have a4 := abs_le.1 (hm hww (b := s ^ 2 - 1) (d := 1)
    (abs_le.2 ⟨by linarith [sq_nonneg s], by linarith⟩))
  have a5 := abs_le.1 (hm hww (hm hr2 hs2))
  have a6 := abs_le.1 (hm px (b := r ^ 2 - s ^ 2 - 1) (d := 2)
    (abs_le.2 ⟨by linarith [sq_nonneg r], by linarith [sq_nonneg s]⟩))
  have a7 := abs_le.1 (hm px (b := r ^ 2 - s ^ 2 + 1) (d := 2)
    (abs_le.2 ⟨by linarith [sq_nonneg r], by linarith [sq_nonneg s]⟩))
  have a8 := abs_le.1 (hm hww3 (b := r ^ 2 + s ^ 2 - 1) (d := 1)
    (abs_le.2 ⟨by linarith [sq_nonneg r, sq_nonneg s], by linarith [sq_nonneg s]⟩))
  have b1 := abs_le.1 py
  have b2 := abs_le.1 pz
  subst hr hs
  have := sq_nonneg w
  refine ⟨?_, ?_, ?_, ?_, ?_, ?_, ?_, ?_, ?_, ?_⟩ <;> rw [abs_le] <;> constructor <;> linarith

/-- Elements of a rotation matrix are between `-1` and `1`. -/
theorem IsRotation.abs_le_one {M : Matrix (Fin 3) (Fin 3) ℝ} (h : IsRotation M) (a b : Fin 3) :
    |M a b| ≤ 1 := by
  obtain ⟨n1, n2, n3, -⟩ := h.norms
  refine abs_le_of_sq_le_sq ?_ zero_le_one
  fin_cases a <;> fin_cases b <;> simp only [Fin.isValue, Fin.zero_eta, Fin.mk_one, Fin.reduceFinMk] <;>
    nlinarith [sq_nonneg (M 0 0), sq_nonneg (M 0 1), sq_nonneg (M 0 2), sq_nonneg (M 1 0),
      sq_nonneg (M 1 1), sq_nonneg (M 1 2), sq_nonneg (M 2 0), sq_nonneg (M 2 1), sq_nonneg (M 2 2)]

theorem eulerStd_isRotation (rep : Prop) [Decidable rep] (a0 a1 a2 : ℝ) :
    IsRotation (eulerStd rep a0 a1 a2) :=
  ((rodrigues_isRotation (unitVec_unit _) _).mul (rodrigues_isRotation (unitVec_unit _) _)).mul
    (rodrigues_isRotation (unitVec_unit _) _)

private theorem mul_abs_le {a b c d : ℝ} (h1 : |a| ≤ c) (h2 : |b| ≤ d) : |a * b| ≤ c * d := by
  rw [abs_mul]
  exact mul_le_mul h1 h2 (abs_nonneg _) ((abs_nonneg _).trans h1)

/-- A point of the circle of radius `ρ`, `1 - ρ² ≤ l²`, moved to the unit circle. -/
private theorem circle_near {a b ρ l g : ℝ} (hρ : 0 < ρ) (h : ρ * ρ = a ^ 2 + b ^ 2) (hl : 0 ≤ l)
    (hl1 : l < 1) (h1 : ρ * ρ ≤ 1) (h2 : 1 - l ^ 2 ≤ ρ * ρ) (hg0 : 0 < g) (hg : g * g = 1 - l ^ 2) :
    |a / ρ| ≤ 1 ∧ |1 - ρ| ≤ l ^ 2 ∧ |g - ρ| ≤ l ^ 2 ∧ |1 - g * ρ| ≤ l ^ 2 := by
  have hρ1 : ρ ≤ 1 := by nlinarith
  have hgρ : g ≤ ρ := by nlinarith
  have hg1 : g ≤ 1 := by nlinarith [sq_nonneg l]
  refine ⟨?_, ?_, ?_, ?_⟩
  · rw [abs_div, abs_of_pos hρ, div_le_one hρ]
    refine abs_le_of_sq_le_sq ?_ hρ.le
    nlinarith [sq_nonneg b]
  · rw [abs_le]; constructor <;> nlinarith [sq_nonneg l]
  · rw [abs_le]; constructor <;> nlinarith [sq_nonneg l]
  · rw [abs_le]; constructor <;> nlinarith [sq_nonneg l]

/-- The gimbal lock formula of the orders with a repeated axis, off the singularity by `l`. -/
theorem std_rep_near {S : Matrix (Fin 3) (Fin 3) ℝ} (h : IsRotation S) (rep : Prop) [Decidable rep]
    (hrep : rep) (a b : Fin 3) :
    |eulerStd rep 0 (atan2 (len2 (S 0 1) (S 0 2)) (S 0 0)) (sign (S 0 0) * atan2 (-S 1 2) (S 1 1)) a b -
      S a b| ≤ 2 * len2 (S 0 1) (S 0 2) := by
  obtain ⟨n1, n2, n3, n4, n5, n6⟩ := h.norms
  obtain ⟨c1, c2, c3, c4, c5, c6, c7, c8, c9⟩ := h.cof
  have hq := len2_sq (S 0 1) (S 0 2)
  have hl := len2_nonneg (S 0 1) (S 0 2)
  generalize len2 (S 0 1) (S 0 2) = l at *
  by_cases hl1 : l < 1
  swap
  · have e1 := abs_le.1 ((eulerStd_isRotation rep 0 (atan2 l (S 0 0))
      (sign (S 0 0) * atan2 (-S 1 2) (S 1 1))).abs_le_one a b)
    have e2 := abs_le.1 (h.abs_le_one a b)
    rw [abs_le]
    constructor <;> linarith
  have hc : 1 - l ^ 2 = S 0 0 * S 0 0 := by linarith only [n1, hq]
  have hc0 : 0 < S 0 0 * S 0 0 := by rw [← hc]; exact sub_pos.2 (by rw [sq]; exact mul_lt_one_of_nonneg_of_lt_one_left hl hl1 hl1.le)
  have hS0 : S 0 0 ≠ 0 := by rintro e; simp [e] at hc0
  have hl2 : l ^ 2 < 1 := by rw [sq]; exact mul_lt_one_of_nonneg_of_lt_one_left hl hl1 hl1.le
  have hρ0 : 0 < S 1 1 * S 1 1 + -S 1 2 * -S 1 2 := by
    linarith only [sq_nonneg (S 2 0), sq_nonneg (S 0 0), n1, n2, n3, n4, n5, n6, hq, hl2]
  obtain ⟨ρ, hρ, hρ2⟩ : ∃ ρ, 0 < ρ ∧ ρ * ρ = S 1 1 * S 1 1 + -S 1 2 * -S 1 2 :=
    ⟨_, Real.sqrt_pos.2 hρ0, Real.mul_self_sqrt hρ0.le⟩
  obtain ⟨σ, g, hσ, hσ1, hσ2, hg, hsg⟩ : ∃ σ g, sign (S 0 0) = σ ∧ (σ = 1 ∨ σ = -1) ∧ |σ| ≤ 1 ∧ 0 < g ∧
      S 0 0 = σ * g := by
    rcases lt_or_gt_of_ne hS0 with h0 | h0
    · exact ⟨-1, -(S 0 0), by simp only [sign, if_pos h0], .inr rfl, by norm_num, by linarith, by ring⟩
    · exact ⟨1, S 0 0, by simp only [sign, if_neg h0.not_gt, if_pos h0], .inl rfl, by norm_num, h0, by ring⟩
  have hσ3 : σ * σ = 1 := by rcases hσ1 with e | e <;> rw [e] <;> norm_num
  have hg2 : g * g = 1 - l ^ 2 := by
    rw [hc, hsg]; linear_combination -(g * g) * hσ3
  have t2 := sin_atan2 (y := -S 1 2) hρ hρ2
  have k2 := cos_atan2 (y := -S 1 2) hρ hρ2
  obtain ⟨eA, e1, e2, e3⟩ := circle_near (b := S 1 2) hρ (by linarith only [hρ2]) hl hl1
    (by linarith only [sq_nonneg (S 1 0), n1, n2, n3, n4, n5, n6, hq, hρ2, hl2]) (by linarith only [sq_nonneg (S 2 0), sq_nonneg (S 0 0), n1, n2, n3, n4, n5, n6, hq, hρ2, hl2])
    hg hg2 (a := S 1 1)
  obtain ⟨eB, -, -, -⟩ := circle_near (b := S 1 1) hρ (by linarith only [hρ2]) hl hl1
    (by linarith only [sq_nonneg (S 1 0), n1, n2, n3, n4, n5, n6, hq, hρ2, hl2]) (by linarith only [sq_nonneg (S 2 0), sq_nonneg (S 0 0), n1, n2, n3, n4, n5, n6, hq, hρ2, hl2])
    hg hg2 (a := S 1 2)
  obtain ⟨A, hA⟩ : ∃ A, S 1 1 / ρ = A := ⟨_, rfl⟩
  obtain ⟨B, hB⟩ : ∃ B, S 1 2 / ρ = B := ⟨_, rfl⟩
  rw [hA] at eA k2
  rw [hB] at eB
  rw [neg_div, hB] at t2
  have hA' : S 1 1 = A * ρ := by rw [← hA]; field_simp
  have hB' : S 1 2 = B * ρ := by rw [← hB]; field_simp
  have hle : ∀ t : ℝ, t ^ 2 ≤ l * l → |t| ≤ l := fun t ht => abs_le_of_sq_le_sq (by rw [sq l]; exact ht) hl
  have hll : l ^ 2 ≤ l := by rw [sq]; exact mul_le_of_le_one_left hl hl1.le
  have s1 : Real.sin (atan2 l (S 0 0)) = l := by rw [sin_atan2 one_pos (by linarith only [hc, hq, n1, n4]), div_one]
  have k1 : Real.cos (atan2 l (S 0 0)) = S 0 0 := by rw [cos_atan2 one_pos (by linarith only [hc, hq, n1, n4]), div_one]
  have s3 : Real.sin (σ * atan2 (-S 1 2) (S 1 1)) = -(σ * B) := by
    rcases hσ1 with e | e <;> rw [e] <;> simp [t2]
  have k3 : Real.cos (σ * atan2 (-S 1 2) (S 1 1)) = A := by
    rcases hσ1 with e | e <;> rw [e] <;> simp [k2]
  have q01 := hle (S 0 1) (by linarith only [sq_nonneg (S 0 2), n1, n2, n3, n4, n5, n6, hq, hρ2, hl2])
  have q02 := hle (S 0 2) (by linarith only [sq_nonneg (S 0 1), n1, n2, n3, n4, n5, n6, hq, hρ2, hl2])
  have q10 := hle (S 1 0) (by linarith only [sq_nonneg (S 2 0), n1, n2, n3, n4, n5, n6, hq, hρ2, hl2])
  have q20 := hle (S 2 0) (by linarith only [sq_nonneg (S 1 0), n1, n2, n3, n4, n5, n6, hq, hρ2, hl2])
  have hσB := mul_abs_le hσ2 eB
  have hl' : |l| ≤ l := by rw [abs_of_nonneg hl]
  have r1 := abs_le.1 (mul_abs_le hl' hσB)
  have r2 := abs_le.1 (mul_abs_le hl' eA)
  have r3 := abs_le.1 (mul_abs_le eA e1)
  have r4 := abs_le.1 (mul_abs_le eB e2)
  have r5 := abs_le.1 (mul_abs_le hσB e3)
  have r6 := abs_le.1 (mul_abs_le (mul_abs_le (h.abs_le_one 0 0) eA) e1)
  have r7 := abs_le.1 (mul_abs_le q02 q10)
  have r8 := abs_le.1 (mul_abs_le q01 q10)
  rw [abs_le] at q01 q02 q10 q20
  have x12 : -S 0 0 * -(σ * B) - S 1 2 = B * (g - ρ) := by
    rw [hB', hsg]; linear_combination g * B * hσ3
  have x21 : -(σ * B) - S 2 1 = -(σ * B * (1 - g * ρ)) - S 0 2 * S 1 0 := by
    rw [c8, hB', hsg]; ring
  have x22 : S 0 0 * A - S 2 2 = S 0 0 * A * (1 - ρ) + S 0 1 * S 1 0 := by
    rw [c9, hA']; ring
  have x11 : A - S 1 1 = A * (1 - ρ) := by rw [hA']; ring
  rw [eulerStd_eq, if_pos hrep, s1, k1, hσ, s3, k3, Real.sin_zero, Real.cos_zero, abs_le]
  clear n1 n2 n3 n4 n5 n6 c1 c2 c3 c4 c5 c6 c7 c8 c9 hq e1 e2 e3 eA eB hρ2 hc hc0 hA' hB' hg2 hσ3
  fin_cases a <;> fin_cases b <;> simp <;> first | exact hl | (constructor <;> linarith)

/-- The gimbal lock formula of the orders without a repeated axis, off the singularity by `l`. -/
theorem std_nonrep_near {S : Matrix (Fin 3) (Fin 3) ℝ} (h : IsRotation S) (rep : Prop) [Decidable rep]
    (hrep : ¬rep) (a b : Fin 3) :
    |eulerStd rep 0 (atan2 (-S 2 0) (len2 (S 0 0) (S 1 0)))
        (-(sign (-S 2 0) * atan2 (-S 1 2) (S 1 1))) a b - S a b| ≤ 2 * len2 (S 0 0) (S 1 0) := by
  obtain ⟨n1, n2, n3, n4, n5, n6⟩ := h.norms
  obtain ⟨c1, c2, c3, c4, c5, c6, c7, c8, c9⟩ := h.cof
  have hq := len2_sq (S 0 0) (S 1 0)
  have hl := len2_nonneg (S 0 0) (S 1 0)
  generalize len2 (S 0 0) (S 1 0) = l at *
  by_cases hl1 : l < 1
  swap
  · have e1 := abs_le.1 ((eulerStd_isRotation rep 0 (atan2 (-S 2 0) l)
      (-(sign (-S 2 0) * atan2 (-S 1 2) (S 1 1)))).abs_le_one a b)
    have e2 := abs_le.1 (h.abs_le_one a b)
    rw [abs_le]
    constructor <;> linarith
  have hc : 1 - l ^ 2 = -S 2 0 * -S 2 0 := by linarith only [n4, hq]
  have hc0 : 0 < -S 2 0 * -S 2 0 := by rw [← hc]; exact sub_pos.2 (by rw [sq]; exact mul_lt_one_of_nonneg_of_lt_one_left hl hl1 hl1.le)
  have hS0 : -S 2 0 ≠ 0 := by rintro e; simp [e] at hc0
  have hl2 : l ^ 2 < 1 := by rw [sq]; exact mul_lt_one_of_nonneg_of_lt_one_left hl hl1 hl1.le
  have hρ0 : 0 < S 1 1 * S 1 1 + -S 1 2 * -S 1 2 := by
    linarith only [sq_nonneg (S 2 0), sq_nonneg (S 0 0), n1, n2, n3, n4, n5, n6, hq, hl2]
  obtain ⟨ρ, hρ, hρ2⟩ : ∃ ρ, 0 < ρ ∧ ρ * ρ = S 1 1 * S 1 1 + -S 1 2 * -S 1 2 :=
    ⟨_, Real.sqrt_pos.2 hρ0, Real.mul_self_sqrt hρ0.le⟩
  obtain ⟨σ, g, hσ, hσ1, hσ2, hg, hsg⟩ : ∃ σ g, sign (-S 2 0) = σ ∧ (σ = 1 ∨ σ = -1) ∧ |σ| ≤ 1 ∧ 0 < g ∧
      -S 2 0 = σ * g := by
    rcases lt_or_gt_of_ne hS0 with h0 | h0
    · exact ⟨-1, -(-S 2 0), by simp only [sign, if_pos h0], .inr rfl, by norm_num, by linarith, by ring⟩
    · exact ⟨1, -S 2 0, by simp only [sign, if_neg h0.not_gt, if_pos h0], .inl rfl, by norm_num, h0, by ring⟩
  have hσ3 : σ * σ = 1 := by rcases hσ1 with e | e <;> rw [e] <;> norm_num
  have hg2 : g * g = 1 - l ^ 2 := by
    rw [hc, hsg]; linear_combination -(g * g) * hσ3
  have t2 := sin_atan2 (y := -S 1 2) hρ hρ2
  have k2 := cos_atan2 (y := -S 1 2) hρ hρ2
  obtain ⟨eA, e1, e2, e3⟩ := circle_near (b := S 1 2) hρ (by linarith only [hρ2]) hl hl1
    (by linarith only [sq_nonneg (S 1 0), n1, n2, n3, n4, n5, n6, hq, hρ2, hl2]) (by linarith only [sq_nonneg (S 2 0), sq_nonneg (S 0 0), n1, n2, n3, n4, n5, n6, hq, hρ2, hl2])
    hg hg2 (a := S 1 1)
  obtain ⟨eB, -, -, -⟩ := circle_near (b := S 1 1) hρ (by linarith only [hρ2]) hl hl1
    (by linarith only [sq_nonneg (S 1 0), n1, n2, n3, n4, n5, n6, hq, hρ2, hl2]) (by linarith only [sq_nonneg (S 2 0), sq_nonneg (S 0 0), n1, n2, n3, n4, n5, n6, hq, hρ2, hl2])
    hg hg2 (a := S 1 2)
  obtain ⟨A, hA⟩ : ∃ A, S 1 1 / ρ = A := ⟨_, rfl⟩
  obtain ⟨B, hB⟩ : ∃ B, S 1 2 / ρ = B := ⟨_, rfl⟩
  rw [hA] at eA k2
  rw [hB] at eB
  rw [neg_div, hB] at t2
  have hA' : S 1 1 = A * ρ := by rw [← hA]; field_simp
  have hB' : S 1 2 = B * ρ := by rw [← hB]; field_simp
  have hle : ∀ t : ℝ, t ^ 2 ≤ l * l → |t| ≤ l := fun t ht => abs_le_of_sq_le_sq (by rw [sq l]; exact ht) hl
  have hll : l ^ 2 ≤ l := by rw [sq]; exact mul_le_of_le_one_left hl hl1.le
  have s1 : Real.sin (atan2 (-S 2 0) l) = -S 2 0 := by rw [sin_atan2 one_pos (by linarith only [hc, hq, n1, n4]), div_one]
  have k1 : Real.cos (atan2 (-S 2 0) l) = l := by rw [cos_atan2 one_pos (by linarith only [hc, hq, n1, n4]), div_one]
  have s3 : Real.sin (-(σ * atan2 (-S 1 2) (S 1 1))) = σ * B := by
    rcases hσ1 with e | e <;> rw [e] <;> simp [t2]
  have k3 : Real.cos (-(σ * atan2 (-S 1 2) (S 1 1))) = A := by
    rcases hσ1 with e | e <;> rw [e] <;> simp [k2]
  have q00 := hle (S 0 0) (by linarith only [sq_nonneg (S 1 0), n1, n2, n3, n4, n5, n6, hq, hρ2, hl2])
  have q10 := hle (S 1 0) (by linarith only [sq_nonneg (S 0 0), n1, n2, n3, n4, n5, n6, hq, hρ2, hl2])
  have q21 := hle (S 2 1) (by linarith only [sq_nonneg (S 2 2), n1, n2, n3, n4, n5, n6, hq, hρ2, hl2])
  have q22 := hle (S 2 2) (by linarith only [sq_nonneg (S 2 1), n1, n2, n3, n4, n5, n6, hq, hρ2, hl2])
  have hσB := mul_abs_le hσ2 eB
  have hl' : |l| ≤ l := by rw [abs_of_nonneg hl]
  have r1 := abs_le.1 (mul_abs_le hl' hσB)
  have r2 := abs_le.1 (mul_abs_le hl' eA)
  have r3 := abs_le.1 (mul_abs_le eA e1)
  have r4 := abs_le.1 (mul_abs_le eB e2)
  have r5 := abs_le.1 (mul_abs_le hσB e3)
  have r6 := abs_le.1 (mul_abs_le (mul_abs_le (h.abs_le_one 2 0) eA) e1)
  have r7 := abs_le.1 (mul_abs_le q10 q21)
  have r8 := abs_le.1 (mul_abs_le q10 q22)
  rw [abs_le] at q00 q10 q21 q22
  have x12 : -S 2 0 * (σ * B) - S 1 2 = B * (g - ρ) := by
    rw [hB', hsg]; linear_combination g * B * hσ3
  have x01 : -(σ * B) - S 0 1 = -(σ * B * (1 - g * ρ)) + S 1 0 * S 2 2 := by
    have : S 2 0 = -(σ * g) := by linarith
    rw [c2, hB', this]; ring
  have x02 : -S 2 0 * A - S 0 2 = -(S 2 0 * A * (1 - ρ)) - S 1 0 * S 2 1 := by
    rw [c3, hA']; ring
  have x11 : A - S 1 1 = A * (1 - ρ) := by rw [hA']; ring
  rw [eulerStd_eq, if_neg hrep, s1, k1, hσ, s3, k3, Real.sin_zero, Real.cos_zero, abs_le]
  clear n1 n2 n3 n4 n5 n6 c1 c2 c3 c4 c5 c6 c7 c8 c9 hq e1 e2 e3 eA eB hρ2 hc hc0 hA' hB' hg2 hσ3
  fin_cases a <;> fin_cases b <;> simp <;> first | exact hl | (constructor <;> linarith)

end CML
