import Verif.Model.RoundVec
import Verif.Props.RoundBuild

/-!
C138: `rotate_vector` in rounded arithmetic.
-/

namespace CML

open Matrix

/-- C138: for real numbers it is the function of C70. -/
theorem rotateVectorG_real (v n : AVec ℝ) (a : ℝ) : rotateVectorG Trig.real v n a = rotateVector v n a := rfl

variable {R : Rounding} {T : Trig (Fl R)} {p : ℕ}

private theorem mul_le_phi' {u : ℝ} (h0 : 0 ≤ u) (h1 : u < 1) (p : ℕ) : p * u ≤ phi u p := by
  have h2 : 0 < (1 - u) ^ p := pow_pos (by linarith) p
  have h3 : 1 + p * u ≤ (1 + u) ^ p := one_add_mul_le_pow (by linarith) p
  have h4 : (1 - u) ^ p * (1 + u) ^ p ≤ 1 := by
    rw [← mul_pow]
    exact pow_le_one₀ (by nlinarith) (by nlinarith)
  have h5 : 1 + p * u ≤ ((1 - u) ^ p)⁻¹ := by
    rw [le_inv_comm₀ (by positivity) h2, le_inv_comm₀ h2 (by positivity)]
    refine h3.trans ?_
    rw [inv_eq_one_div, le_div_iff₀ h2]
    linarith
  unfold phi
  linarith

private theorem trS (hT : T.Accurate p) (x : Fl R) :
    Tracks (T.sin x) (Real.sin x.val) ⟨|Real.sin x.val|⟩ ⟨p⟩ :=
  ⟨(hT.sin x).trans (mul_le_mul_of_nonneg_right (mul_le_phi' R.u_nonneg R.u_lt p) (abs_nonneg _)), le_rfl⟩

private theorem trC (hT : T.Accurate p) (x : Fl R) :
    Tracks (T.cos x) (Real.cos x.val) ⟨|Real.cos x.val|⟩ ⟨p⟩ :=
  ⟨(hT.cos x).trans (mul_le_mul_of_nonneg_right (mul_le_phi' R.u_nonneg R.u_lt p) (abs_nonneg _)), le_rfl⟩

/-- The length of a vector. -/
private noncomputable def len (x : Fin 3 → ℝ) : ℝ := Real.sqrt (x ⬝ᵥ x)

private theorem dot_nonneg (x : Fin 3 → ℝ) : 0 ≤ x ⬝ᵥ x := Finset.sum_nonneg fun i _ => mul_self_nonneg (x i)

private theorem len_sq (x : Fin 3 → ℝ) : len x * len x = x 0 * x 0 + x 1 * x 1 + x 2 * x 2 := by
  rw [len, Real.mul_self_sqrt (dot_nonneg _)]
  simp [dotProduct, Fin.sum_univ_three]

private theorem len_nonneg (x : Fin 3 → ℝ) : 0 ≤ len x := Real.sqrt_nonneg _

private theorem abs_le_len (x : Fin 3 → ℝ) (i : Fin 3) : |x i| ≤ len x := by
  refine abs_le_of_sq_le_sq ?_ (len_nonneg x)
  rw [pow_two, pow_two, len, Real.mul_self_sqrt (dot_nonneg _)]
  exact Finset.single_le_sum (f := fun i => x i * x i) (fun i _ => mul_self_nonneg (x i)) (Finset.mem_univ i)

/-- Cauchy-Schwarz for the moduli. -/
private theorem dot_le (x u : Fin 3 → ℝ) : |x 0| * |u 0| + |x 1| * |u 1| + |x 2| * |u 2| ≤ len x * len u := by
  have hx := len_sq x
  have hu := len_sq u
  have h : (|x 0| * |u 0| + |x 1| * |u 1| + |x 2| * |u 2|) ^ 2 ≤ (len x * len u) ^ 2 := by
    rw [show (len x * len u) ^ 2 = (len x * len x) * (len u * len u) by ring, hx, hu, ← abs_mul_abs_self (x 0),
      ← abs_mul_abs_self (x 1), ← abs_mul_abs_self (x 2), ← abs_mul_abs_self (u 0), ← abs_mul_abs_self (u 1),
      ← abs_mul_abs_self (u 2)]
    nlinarith only [sq_nonneg (|x 0| * |u 1| - |x 1| * |u 0|), sq_nonneg (|x 0| * |u 2| - |x 2| * |u 0|),
      sq_nonneg (|x 1| * |u 2| - |x 2| * |u 1|)]
  exact le_of_sq_le_sq h (mul_nonneg (len_nonneg x) (len_nonneg u))

private theorem cross_le (x u : Fin 3 → ℝ) (j k : Fin 3) (hjk : j ≠ k) :
    |u j| * |x k| + |u k| * |x j| ≤ len x * len u := by
  have hx : x j * x j + x k * x k ≤ len x * len x := by
    rw [len_sq]
    fin_cases j <;> fin_cases k <;> first | exact absurd rfl hjk | skip
    all_goals simp
    all_goals nlinarith only [mul_self_nonneg (x 0), mul_self_nonneg (x 1), mul_self_nonneg (x 2)]
  have hu : u j * u j + u k * u k ≤ len u * len u := by
    rw [len_sq]
    fin_cases j <;> fin_cases k <;> first | exact absurd rfl hjk | skip
    all_goals simp
    all_goals nlinarith only [mul_self_nonneg (u 0), mul_self_nonneg (u 1), mul_self_nonneg (u 2)]
  have h : (|u j| * |x k| + |u k| * |x j|) ^ 2 ≤ (len x * len u) ^ 2 := by
    have h1 : (x j * x j + x k * x k) * (u j * u j + u k * u k) ≤ (len x * len x) * (len u * len u) :=
      mul_le_mul hx hu (by nlinarith only [mul_self_nonneg (u j), mul_self_nonneg (u k)]) (mul_self_nonneg _)
    rw [← abs_mul_abs_self (x j), ← abs_mul_abs_self (x k), ← abs_mul_abs_self (u j), ← abs_mul_abs_self (u k)] at h1
    nlinarith only [h1, sq_nonneg (|u j| * |x j| - |u k| * |x k|)]
  exact le_of_sq_le_sq h (mul_nonneg (len_nonneg x) (len_nonneg u))

/-- C138: `rotate_vector` is close to what Rodrigues' formula does to the vector, in each element up to
`γ_(p+8) (1 + ‖n‖ + 2 ‖n‖²) ‖v‖`, for every axis. -/
theorem rotateVector_error (hT : T.Accurate p) {v n : AVec (Fl R)} {x u : Fin 3 → Fl R} (hv : v.Is 3 x) (hn : n.Is 3 u)
    (a : Fl R) (hu : ((p + 8 : ℕ) : ℝ) * R.u < 1) :
    ∃ w y, rotateVectorG T v n a = .ok w ∧ w.Is 3 y ∧ ∀ i, |realV y i - (rodrigues (realV u) a.val *ᵥ realV x) i| ≤
      gamma R.u (p + 8) * ((1 + Real.sqrt (realV u ⬝ᵥ realV u) + 2 * (realV u ⬝ᵥ realV u)) *
        Real.sqrt (realV x ⬝ᵥ realV x)) := by
  obtain ⟨hs, rfl⟩ := hv
  obtain ⟨ht, rfl⟩ := hn
  have hsz : v.size = n.size := by omega
  have hd : v.dot n = .ok (v.el 0 * n.el 0 + v.el 1 * n.el 1 + v.el 2 * n.el 2) := by
    simp [AVec.dot, AVec.checkMinimumSize, AVec.checkSameSize, AVec.get, Res.require, hs, ht, Res.loop, Res.ok_bind]
    rfl
  simp only [rotateVectorG, AVec.checkSize_ok hs, AVec.checkSize_ok ht, hd, AVec.sub,
    AVec.cross, AVec.add, AVec.smul, AVec.checkSameSize, Res.require, hsz, ht, decide_true, if_true,
    Res.ok_bind, Res.pure_eq, Res.ok.injEq]
  refine ⟨_, _, rfl, ⟨rfl, rfl⟩, ?_⟩
  have S := trS hT a
  have C := trC hT a
  have hsin := Real.abs_sin_le_one a.val
  have hcos := Real.abs_cos_le_one a.val
  have E := fun x : Fl R => Tracks.exact x
  have D := (((E (v.el 0)).mul (E (n.el 0))).add ((E (v.el 1)).mul (E (n.el 1)))).add ((E (v.el 2)).mul (E (n.el 2)))
  have hLx : len (realV (v.vec 3)) = Real.sqrt (realV (v.vec 3) ⬝ᵥ realV (v.vec 3)) := rfl
  have hLu : len (realV (n.vec 3)) = Real.sqrt (realV (n.vec 3) ⬝ᵥ realV (n.vec 3)) := rfl
  have hLu2 : len (realV (n.vec 3)) * len (realV (n.vec 3)) = realV (n.vec 3) ⬝ᵥ realV (n.vec 3) :=
    Real.mul_self_sqrt (dot_nonneg _)
  rw [← hLx, ← hLu, ← hLu2]
  have key : ∀ i j k : Fin 3, j ≠ k →
      |(T.cos a * (v.el i - (v.el 0 * n.el 0 + v.el 1 * n.el 1 + v.el 2 * n.el 2) * n.el i) +
        T.sin a * (n.el j * v.el k - n.el k * v.el j) +
        (v.el 0 * n.el 0 + v.el 1 * n.el 1 + v.el 2 * n.el 2) * n.el i).val -
      (Real.cos a.val * ((v.el i).val - ((v.el 0).val * (n.el 0).val + (v.el 1).val * (n.el 1).val +
          (v.el 2).val * (n.el 2).val) * (n.el i).val) +
        Real.sin a.val * ((n.el j).val * (v.el k).val - (n.el k).val * (v.el j).val) +
        ((v.el 0).val * (n.el 0).val + (v.el 1).val * (n.el 1).val + (v.el 2).val * (n.el 2).val) * (n.el i).val)| ≤
      gamma R.u (p + 8) * ((1 + len (realV (n.vec 3)) + 2 * (len (realV (n.vec 3)) * len (realV (n.vec 3)))) *
        len (realV (v.vec 3))) := by
    intro i j k hjk
    have P := D.mul (E (n.el i))
    have F := ((C.mul ((E (v.el i)).sub P)).add
      (S.mul (((E (n.el j)).mul (E (v.el k))).sub ((E (n.el k)).mul (E (v.el j)))))).add P
    have hc : (max (max (p + (max 0 (max (max (0 + 0 + 1) (0 + 0 + 1) + 1) (0 + 0 + 1) + 1 + 0 + 1) + 1) + 1)
        (p + (max (0 + 0 + 1) (0 + 0 + 1) + 1) + 1) + 1) (max (max (0 + 0 + 1) (0 + 0 + 1) + 1) (0 + 0 + 1) + 1 + 0 + 1)
        + 1) ≤ p + 8 := by omega
    refine le_trans F.err ?_
    have h1 := phi_mono R.u_nonneg R.u_lt hc
    have h2 := phi_le_gamma R.u_nonneg R.u_lt hu
    refine mul_le_mul (h1.trans h2) ?_ F.nonneg (le_trans (phi_nonneg R.u_nonneg R.u_lt (p + 8)) h2)
    show |Real.cos a.val| * (|(v.el i).val| + (|(v.el 0).val| * |(n.el 0).val| + |(v.el 1).val| * |(n.el 1).val| +
      |(v.el 2).val| * |(n.el 2).val|) * |(n.el i).val|) + |Real.sin a.val| * (|(n.el j).val| * |(v.el k).val| +
      |(n.el k).val| * |(v.el j).val|) + (|(v.el 0).val| * |(n.el 0).val| + |(v.el 1).val| * |(n.el 1).val| +
      |(v.el 2).val| * |(n.el 2).val|) * |(n.el i).val| ≤ _
    have b1 := dot_le (realV (v.vec 3)) (realV (n.vec 3))
    have b2 := cross_le (realV (v.vec 3)) (realV (n.vec 3)) j k hjk
    have b3 := abs_le_len (realV (v.vec 3)) i
    have b4 := abs_le_len (realV (n.vec 3)) i
    simp only [realV, AVec.vec] at b1 b2 b3 b4
    change |(v.el 0).val| * |(n.el 0).val| + |(v.el 1).val| * |(n.el 1).val| + |(v.el 2).val| * |(n.el 2).val| ≤ _ at b1
    have l1 := len_nonneg (realV (v.vec 3))
    have l2 := len_nonneg (realV (n.vec 3))
    generalize len (realV (v.vec 3)) = X at *
    generalize len (realV (n.vec 3)) = U at *
    generalize |(v.el 0).val| * |(n.el 0).val| + |(v.el 1).val| * |(n.el 1).val| + |(v.el 2).val| * |(n.el 2).val| = d at *
    generalize |(n.el ↑j).val| * |(v.el ↑k).val| + |(n.el ↑k).val| * |(v.el ↑j).val| = e at *
    have b5 : d * |(n.el ↑i).val| ≤ X * U * U := mul_le_mul b1 b4 (abs_nonneg _) (mul_nonneg l1 l2)
    have b6 : |Real.cos a.val| * (|(v.el ↑i).val| + d * |(n.el ↑i).val|) ≤ 1 * (X + X * U * U) := by
      refine (mul_le_mul_of_nonneg_left (add_le_add b3 b5) (abs_nonneg _)).trans ?_
      exact mul_le_mul_of_nonneg_right hcos (by positivity)
    have b7 : |Real.sin a.val| * e ≤ 1 * (X * U) := by
      refine (mul_le_mul_of_nonneg_left b2 (abs_nonneg _)).trans ?_
      exact mul_le_mul_of_nonneg_right hsin (by positivity)
    linarith only [b5, b6, b7]
  intro i
  rw [rodrigues_eq]
  fin_cases i
  · refine (le_of_eq ?_).trans (key 0 1 2 (by decide))
    simp [mulVec, dotProduct, Fin.sum_univ_three, realV, AVec.vec]
    congr 1
    ring
  · refine (le_of_eq ?_).trans (key 1 2 0 (by decide))
    simp [mulVec, dotProduct, Fin.sum_univ_three, realV, AVec.vec]
    congr 1
    ring
  · refine (le_of_eq ?_).trans (key 2 0 1 (by decide))
    simp [mulVec, dotProduct, Fin.sum_univ_three, realV, AVec.vec]
    congr 1
    ring

private theorem len_near {x y : Fin 3 → ℝ} {B : ℝ} (hB : 0 ≤ B) (h : ∀ i, |y i - x i| ≤ B) : len y ≤ len x + 2 * B := by
  refine le_of_sq_le_sq (b := len x + 2 * B) ?_ (by linarith [len_nonneg x])
  have hd := dot_le x (y - x)
  have hl : len (y - x) ≤ 2 * B := by
    refine le_of_sq_le_sq ?_ (by linarith)
    have g : ∀ i, (y i - x i) * (y i - x i) ≤ B * B := fun i => by
      rw [← abs_mul_abs_self]
      exact mul_le_mul (h i) (h i) (abs_nonneg _) hB
    rw [pow_two, len_sq]
    simp only [Pi.sub_apply]
    nlinarith only [g 0, g 1, g 2, hB]
  have hm : len x * len (y - x) ≤ len x * (2 * B) := mul_le_mul_of_nonneg_left hl (len_nonneg x)
  have hx := len_sq x
  have hy := len_sq y
  have hz := len_sq (y - x)
  have hq : len (y - x) * len (y - x) ≤ (2 * B) * (2 * B) := mul_le_mul hl hl (len_nonneg _) (by linarith)
  simp only [Pi.sub_apply] at hd hz
  have a0 := le_abs_self (x 0 * (y 0 - x 0))
  have a1 := le_abs_self (x 1 * (y 1 - x 1))
  have a2 := le_abs_self (x 2 * (y 2 - x 2))
  rw [abs_mul] at a0 a1 a2
  nlinarith only [hd, hm, hx, hy, hz, hq, a0, a1, a2]

/-- C138: about an axis of length one, the result is within `4 γ_(p+8) ‖v‖` of the rotated vector in each element,
and its length within `8 γ_(p+8) ‖v‖` of that of the vector. -/
theorem rotateVector_unit_error (hT : T.Accurate p) {v n : AVec (Fl R)} {x u : Fin 3 → Fl R} (hv : v.Is 3 x)
    (hn : n.Is 3 u) (h1 : realV u ⬝ᵥ realV u = 1) (a : Fl R) (hu : ((p + 8 : ℕ) : ℝ) * R.u < 1) :
    ∃ w y, rotateVectorG T v n a = .ok w ∧ w.Is 3 y ∧ IsRotation (rodrigues (realV u) a.val) ∧
      (∀ i, |realV y i - (rodrigues (realV u) a.val *ᵥ realV x) i| ≤
        4 * gamma R.u (p + 8) * Real.sqrt (realV x ⬝ᵥ realV x)) ∧
      |Real.sqrt (realV y ⬝ᵥ realV y) - Real.sqrt (realV x ⬝ᵥ realV x)| ≤
        8 * gamma R.u (p + 8) * Real.sqrt (realV x ⬝ᵥ realV x) := by
  obtain ⟨w, y, e1, e2, e3⟩ := rotateVector_error hT hv hn a hu
  have hr := rodrigues_isRotation h1 a.val
  have hg : 0 ≤ gamma R.u (p + 8) := div_nonneg (mul_nonneg (Nat.cast_nonneg _) R.u_nonneg) (by linarith)
  have hB : ∀ i, |realV y i - (rodrigues (realV u) a.val *ᵥ realV x) i| ≤
      4 * gamma R.u (p + 8) * Real.sqrt (realV x ⬝ᵥ realV x) := fun i => by
    refine (e3 i).trans (le_of_eq ?_)
    rw [h1, Real.sqrt_one]
    ring
  have hB' : ∀ i, |(rodrigues (realV u) a.val *ᵥ realV x) i - realV y i| ≤
      4 * gamma R.u (p + 8) * Real.sqrt (realV x ⬝ᵥ realV x) := fun i => by
    rw [abs_sub_comm]
    exact hB i
  refine ⟨w, y, e1, e2, hr, hB, ?_⟩
  have h0 : 0 ≤ 4 * gamma R.u (p + 8) * Real.sqrt (realV x ⬝ᵥ realV x) := by positivity
  have hlen : len (rodrigues (realV u) a.val *ᵥ realV x) = len (realV x) := by
    rw [len, len, Matrix.dotProduct_mulVec, ← Matrix.mulVec_transpose, Matrix.mulVec_mulVec,
      (isRotation_iff'.1 hr).1, Matrix.one_mulVec]
  have n1 := len_near h0 hB
  have n2 := len_near h0 hB'
  rw [hlen] at n1 n2
  rw [abs_le]
  unfold len at n1 n2
  constructor <;> linarith

/-! ### The hypotheses are met -/

/-- `double` elements, correctly rounded sine and cosine, the third axis. -/
example (v : AVec (Fl double)) (x : Fin 3 → Fl double) (hv : v.Is 3 x) (a : Fl double) :
    ∃ w y, rotateVectorG (Trig.rounded double) v (AVec.mk3 true 0 0 1) a = .ok w ∧ w.Is 3 y ∧
      |Real.sqrt (realV y ⬝ᵥ realV y) - Real.sqrt (realV x ⬝ᵥ realV x)| ≤
        8 * gamma double.u 9 * Real.sqrt (realV x ⬝ᵥ realV x) := by
  have hu : double.u ≤ 1 / 1000 := by
    show (2 : ℝ)⁻¹ ^ 53 ≤ 1 / 1000
    norm_num
  obtain ⟨w, y, h1, h2, -, -, h3⟩ := rotateVector_unit_error (Trig.rounded_accurate double) hv
    (AVec.mk3_is true (0 : Fl double) 0 1) (by simp [dotProduct, Fin.sum_univ_three, realV]) a
    (by norm_num; linarith)
  exact ⟨w, y, h1, h2, h3⟩

#print axioms rotateVectorG_real
#print axioms rotateVector_error
#print axioms rotateVector_unit_error

end CML
