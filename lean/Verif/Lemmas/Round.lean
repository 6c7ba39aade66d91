import Verif.Spec.Round
import Verif.Lemmas.LuOps
import Verif.Lemmas.LuSolve
import Verif.Spec.Expr
import Mathlib.Algebra.Order.Ring.Pow

/-! Rounding error analysis: products of rounding factors, sums, LU decomposition and substitution. -/

set_option linter.unusedSectionVars false

namespace CML

open Finset

/-- `(1-u)^(-k) - 1`. -/
noncomputable def phi (u : ℝ) (k : ℕ) : ℝ := ((1 - u) ^ k)⁻¹ - 1

/-- `t` is a product of at most `k` factors `1 + δ` or `1 / (1 + δ)` with `|δ| ≤ u` (only its distance from
one matters). -/
def Fac (u : ℝ) (k : ℕ) (t : ℝ) : Prop := |t - 1| ≤ phi u k

section
variable {u : ℝ}

theorem phi_nonneg (h0 : 0 ≤ u) (h1 : u < 1) (k : ℕ) : 0 ≤ phi u k := by
  have h2 : (1 - u) ^ k ≤ 1 := pow_le_one₀ (by linarith) (by linarith)
  have h3 : 0 < (1 - u) ^ k := pow_pos (by linarith) k
  have := (one_le_inv₀ h3).mpr h2
  unfold phi; linarith

theorem phi_mono (h0 : 0 ≤ u) (h1 : u < 1) {j k : ℕ} (h : j ≤ k) : phi u j ≤ phi u k := by
  have h2 : (1 - u) ^ k ≤ (1 - u) ^ j := pow_le_pow_of_le_one (by linarith) (by linarith) h
  have h3 : 0 < (1 - u) ^ k := pow_pos (by linarith) k
  have := inv_anti₀ h3 h2
  unfold phi; linarith

theorem phi_add (j k : ℕ) : phi u j + phi u k + phi u j * phi u k = phi u (j + k) := by
  unfold phi
  rw [pow_add, mul_inv]; ring

theorem phi_le_gamma (h0 : 0 ≤ u) (h1 : u < 1) {k : ℕ} (h : k * u < 1) : phi u k ≤ gamma u k := by
  have h2 : 1 - k * u ≤ (1 - u) ^ k := by
    have := one_add_mul_le_pow (a := -u) (by linarith) k
    calc 1 - k * u = 1 + k * (-u) := by ring
      _ ≤ (1 + -u) ^ k := this
      _ = (1 - u) ^ k := by rw [sub_eq_add_neg]
  have h3 : 0 < 1 - k * u := by linarith
  have h4 := inv_anti₀ h3 h2
  have h5 : gamma u k = (1 - k * u)⁻¹ - 1 := by
    unfold gamma; field_simp; ring
  rw [h5]; unfold phi; linarith

theorem Fac.one : Fac u 0 1 := by simp [Fac, phi]

theorem Fac.mono (h0 : 0 ≤ u) (h1 : u < 1) {j k : ℕ} {t : ℝ} (h : Fac u j t) (hjk : j ≤ k) : Fac u k t :=
  le_trans h (phi_mono h0 h1 hjk)

theorem Fac.mul (h0 : 0 ≤ u) (h1 : u < 1) {j k : ℕ} {s t : ℝ} (h : Fac u j s) (h' : Fac u k t) :
    Fac u (j + k) (s * t) := by
  unfold Fac at *
  rw [← phi_add, show s * t - 1 = (s - 1) + (t - 1) + (s - 1) * (t - 1) by ring]
  refine le_trans (abs_add_le _ _) (add_le_add (le_trans (abs_add_le _ _) (add_le_add h h')) ?_)
  rw [abs_mul]
  exact mul_le_mul h h' (abs_nonneg _) (phi_nonneg h0 h1 j)

theorem Fac.abs_le {k : ℕ} {x t : ℝ} (h : Fac u k t) : |x * t - x| ≤ phi u k * |x| := by
  rw [show x * t - x = (t - 1) * x by ring, abs_mul]
  exact mul_le_mul_of_nonneg_right h (abs_nonneg _)

end

/-- One rounding. -/
theorem Rounding.fac (R : Rounding) (x : ℝ) :
    ∃ t, Fac R.u 1 t ∧ Fac R.u 1 t⁻¹ ∧ t ≠ 0 ∧ R.fl x = x * t := by
  have h0 := R.u_nonneg
  have h1 := R.u_lt
  have hp : phi R.u 1 = R.u / (1 - R.u) := by
    unfold phi; rw [pow_one]; have : 1 - R.u ≠ 0 := by linarith
    field_simp; ring
  by_cases hx : x = 0
  · refine ⟨1, Fac.one.mono h0 h1 (by omega), by simpa using Fac.one.mono h0 h1 (Nat.zero_le 1), one_ne_zero, ?_⟩
    have := R.err x
    rw [hx] at this ⊢
    simpa using this
  · obtain ⟨d, hd⟩ : ∃ d, d = (R.fl x - x) / x := ⟨_, rfl⟩
    have hxd : R.fl x = x * (1 + d) := by rw [hd]; field_simp; ring
    have hdu : |d| ≤ R.u := by
      rw [hd, abs_div, div_le_iff₀ (abs_pos.mpr hx)]
      exact R.err x
    have hd1 := abs_le.mp hdu
    have hpos : 0 < 1 - R.u := by linarith
    have hd2 : 0 < 1 + d := by linarith
    refine ⟨1 + d, ?_, ?_, hd2.ne', hxd⟩
    · unfold Fac
      rw [hp, show 1 + d - 1 = d by ring, le_div_iff₀ hpos]
      nlinarith [abs_nonneg d]
    · unfold Fac
      rw [hp, show (1 + d)⁻¹ - 1 = -d / (1 + d) by field_simp; ring, abs_div, abs_neg, abs_of_pos hd2]
      exact div_le_div₀ h0 hdu hpos (by linarith)

section
variable {R : Rounding}

theorem acc_val (f : Nat → Fl R) (lo : Nat) : ∀ m : Nat, ∃ t : Nat → ℝ, (∀ p, Fac R.u m (t p)) ∧
    (acc f lo m).val = ∑ p ∈ range m, (f (lo + p)).val * t p
  | 0 => ⟨fun _ => 1, fun _ => Fac.one, by simp [acc]⟩
  | m + 1 => by
    obtain ⟨t, h1, h2⟩ := acc_val f lo m
    obtain ⟨d, d1, -, -, d4⟩ := R.fac ((acc f lo m).val + (f (lo + m)).val)
    refine ⟨fun p => if p < m then t p * d else d, fun p => ?_, ?_⟩
    · dsimp only
      split
      · exact (h1 p).mul R.u_nonneg R.u_lt d1
      · exact d1.mono R.u_nonneg R.u_lt (by omega)
    · rw [acc, Fl.add_val, d4, h2, sum_range_succ]
      dsimp only
      rw [if_neg (lt_irrefl _), add_mul, sum_mul]
      congr 1
      refine sum_congr rfl (fun p hp => ?_)
      rw [if_pos (mem_range.mp hp), mul_assoc]

/-- A rounded sum of products. -/
theorem acc_mul_val (f g : Nat → Fl R) (lo m : Nat) : ∃ t : Nat → ℝ, (∀ p, Fac R.u (m + 1) (t p)) ∧
    (acc (fun p => f p * g p) lo m).val = ∑ p ∈ range m, (f (lo + p)).val * (g (lo + p)).val * t p := by
  obtain ⟨t, h1, h2⟩ := acc_val (fun p => f p * g p) lo m
  choose d hd _ _ hd4 using fun p => R.fac ((f (lo + p)).val * (g (lo + p)).val)
  refine ⟨fun p => d p * t p, fun p => ?_, ?_⟩
  · rw [Nat.add_comm]; exact (hd p).mul R.u_nonneg R.u_lt (h1 p)
  · rw [h2]
    refine sum_congr rfl (fun p _ => ?_)
    rw [Fl.mul_val, hd4, mul_assoc]

theorem sumLeft_val : ∀ (n : Nat) (g : Fin (n + 1) → Fl R), ∃ t : Fin (n + 1) → ℝ,
    (∀ i, Fac R.u n (t i)) ∧ (sumLeft n g).val = ∑ i, (g i).val * t i
  | 0, g => ⟨fun _ => 1, fun _ => Fac.one, by simp [sumLeft]⟩
  | n + 1, g => by
    obtain ⟨t, h1, h2⟩ := sumLeft_val n (fun i => g i.castSucc)
    obtain ⟨d, d1, -, -, d4⟩ := R.fac ((sumLeft n fun i => g i.castSucc).val + (g (Fin.last (n + 1))).val)
    refine ⟨Fin.snoc (fun i => t i * d) d, fun i => ?_, ?_⟩
    · refine Fin.lastCases ?_ (fun i => ?_) i
      · rw [Fin.snoc_last]; exact d1.mono R.u_nonneg R.u_lt (by omega)
      · rw [Fin.snoc_castSucc]; exact (h1 i).mul R.u_nonneg R.u_lt d1
    · rw [sumLeft, Fl.add_val, d4, h2, Fin.sum_univ_castSucc (n := n + 1), add_mul, sum_mul]
      simp only [Fin.snoc_last, Fin.snoc_castSucc, mul_assoc]

/-- A rounded inner product is the exact inner product of slightly changed factors. -/
theorem dotLeft_val (n : Nat) (hn : 0 < n) (p q : Fin n → Fl R) : ∃ t : Fin n → ℝ,
    (∀ i, Fac R.u n (t i)) ∧ (dotLeft n hn p q).val = ∑ i, (p i).val * (q i).val * t i := by
  obtain ⟨m, rfl⟩ : ∃ m, n = m + 1 := ⟨n - 1, by omega⟩
  obtain ⟨t, h1, h2⟩ := sumLeft_val m (fun i => p i * q i)
  choose d hd _ _ hd4 using fun i => R.fac ((p i).val * (q i).val)
  refine ⟨fun i => d i * t i, fun i => ?_, ?_⟩
  · have := (hd i).mul R.u_nonneg R.u_lt (h1 i)
    rwa [Nat.add_comm 1 m] at this
  · rw [dotLeft, h2]
    refine sum_congr rfl (fun i _ => ?_)
    rw [Fl.mul_val, hd4, mul_assoc]

theorem abs_sum_sub_le {ι : Type} (s : Finset ι) {u : ℝ} {k : Nat} (x t : ι → ℝ) (h : ∀ i ∈ s, Fac u k (t i)) :
    |∑ i ∈ s, x i * t i - ∑ i ∈ s, x i| ≤ phi u k * ∑ i ∈ s, |x i| := by
  rw [← sum_sub_distrib, mul_sum]
  exact le_trans (abs_sum_le_sum_abs _ _) (sum_le_sum fun i hi => (h i hi).abs_le)

theorem abs_sum_sub_le' {ι : Type} (s : Finset ι) {u : ℝ} {k : Nat} (x t : ι → ℝ) (h : ∀ i ∈ s, Fac u k (t i)) :
    |∑ i ∈ s, x i - ∑ i ∈ s, x i * t i| ≤ phi u k * ∑ i ∈ s, |x i| := by
  rw [abs_sub_comm]; exact abs_sum_sub_le s x t h

/-- The elements of the product of the packed triangular factors. -/
theorem packed_mul_apply {n : Nat} (e : Nat → Nat → ℝ) (i j : Fin n) :
    (unitLower (blk n e) * upper (blk n e)) i j =
      ∑ p ∈ range (min i.1 j.1), e i p * e p j + (if i.1 ≤ j.1 then e i j else e i j * e j j) := by
  have h : Packed n (fun i j => ∑ p ∈ range (min i j), e i p * e p j
    + (if i ≤ j then e i j else e i j * e j j)) e := fun i j _ _ => rfl
  rw [h.mul le_rfl]; rfl

theorem realM_unitLower {n : Nat} (B : Matrix (Fin n) (Fin n) (Fl R)) :
    realM (unitLower B) = unitLower (realM B) := by
  funext i j
  simp only [realM, unitLower]
  split
  · rfl
  · split <;> rfl

theorem realM_upper {n : Nat} (B : Matrix (Fin n) (Fin n) (Fl R)) :
    realM (upper B) = upper (realM B) := by
  funext i j
  simp only [realM, upper]
  split <;> rfl

theorem absM_unitLower {n : Nat} (B : Matrix (Fin n) (Fin n) ℝ) :
    absM (unitLower B) = unitLower (absM B) := by
  funext i j
  simp only [absM, unitLower]
  split
  · rfl
  · split <;> simp

theorem absM_upper {n : Nat} (B : Matrix (Fin n) (Fin n) ℝ) :
    absM (upper B) = upper (absM B) := by
  funext i j
  simp only [absM, upper]
  split <;> simp

/-- The error of the computed factors. -/
theorem LuEq.error {n : Nat} {a e : Nat → Nat → Fl R} (h : LuEq n a n e) (i j : Fin n) :
    |(unitLower (realM (blk n e)) * upper (realM (blk n e))) i j - (a i j).val| ≤
      phi R.u n * (unitLower (absM (realM (blk n e))) * upper (absM (realM (blk n e)))) i j := by
  have h0 := R.u_nonneg
  have h1 := R.u_lt
  have e1 : realM (blk n e) = blk n (fun i j => (e i j).val) := rfl
  have e2 : absM (realM (blk n e)) = blk n (fun i j => |(e i j).val|) := rfl
  rw [e2, e1, packed_mul_apply, packed_mul_apply]
  by_cases c : i.1 ≤ j.1
  · have hij := congrArg Fl.val (h.up i j i.2 c j.2)
    obtain ⟨t, t1, t2⟩ := acc_mul_val (fun p => e i p) (fun p => e p j) 0 i
    simp only [Nat.zero_add] at t2
    rw [Fl.sub_val, t2] at hij
    obtain ⟨d, -, d2, d3, d4⟩ := R.fac ((a i j).val - ∑ p ∈ range i.1, (e i p).val * (e p j).val * t p)
    rw [d4] at hij
    have ha : (a i j).val = ∑ p ∈ range i.1, (e i p).val * (e p j).val * t p + (e i j).val * d⁻¹ := by
      rw [hij]; field_simp; ring
    rw [Nat.min_eq_left c, if_pos c, if_pos c, ha, add_sub_add_comm, mul_add]
    refine le_trans (abs_add_le _ _) (add_le_add ?_ ?_)
    · simp only [← abs_mul]
      exact abs_sum_sub_le' _ _ _ (fun p _ => (t1 p).mono h0 h1 (by omega))
    · rw [abs_sub_comm]
      exact (d2.mono h0 h1 (by omega)).abs_le
  · have hij := congrArg Fl.val (h.low i j j.2 (by omega) i.2).2
    have hne : (e j j).val ≠ 0 := by
      intro hz
      exact (h.low i j j.2 (by omega) i.2).1 (Fl.ext hz)
    obtain ⟨t, t1, t2⟩ := acc_mul_val (fun p => e i p) (fun p => e p j) 0 j
    simp only [Nat.zero_add] at t2
    rw [Fl.div_val, Fl.sub_val, t2] at hij
    obtain ⟨d, -, d2, d3, d4⟩ := R.fac ((a i j).val - ∑ p ∈ range j.1, (e i p).val * (e p j).val * t p)
    rw [d4] at hij
    obtain ⟨d', -, d2', d3', d4'⟩ := R.fac
      (((a i j).val - ∑ p ∈ range j.1, (e i p).val * (e p j).val * t p) * d / (e j j).val)
    rw [d4'] at hij
    have ha : (a i j).val = ∑ p ∈ range j.1, (e i p).val * (e p j).val * t p
        + (e i j).val * (e j j).val * (d⁻¹ * d'⁻¹) := by
      rw [hij]; field_simp; ring
    rw [Nat.min_eq_right (by omega), if_neg c, if_neg c, ha, add_sub_add_comm, mul_add]
    refine le_trans (abs_add_le _ _) (add_le_add ?_ ?_)
    · simp only [← abs_mul]
      exact abs_sum_sub_le' _ _ _ (fun p _ => (t1 p).mono h0 h1 (by omega))
    · rw [abs_sub_comm, ← abs_mul]
      exact ((d2.mul h0 h1 d2').mono h0 h1 (by omega)).abs_le

/-- Forward substitution solves a slightly changed system exactly. -/
theorem forward_backward_error {n : Nat} {e : Nat → Nat → Fl R} {bv yv : Nat → Fl R}
    (h : ∀ i, i < n → yv i = bv i - acc (fun j => e i j * yv j) 0 i) :
    ∃ T : Nat → Nat → ℝ, (∀ i j, i < n → Fac R.u n (T i j)) ∧
      ∀ i, i < n → (bv i).val =
        ∑ j ∈ range i, (e i j).val * (T i j * (yv j).val) + T i i * (yv i).val := by
  have h0 := R.u_nonneg
  have h1 := R.u_lt
  have key : ∀ i, ∃ T : Nat → ℝ, i < n → (∀ j, Fac R.u n (T j)) ∧ (bv i).val =
        ∑ j ∈ range i, (e i j).val * (T j * (yv j).val) + T i * (yv i).val := by
    intro i
    by_cases hi : i < n
    · obtain ⟨t, t1, t2⟩ := acc_mul_val (fun j => e i j) yv 0 i
      simp only [Nat.zero_add] at t2
      have hy := congrArg Fl.val (h i hi)
      rw [Fl.sub_val, t2] at hy
      obtain ⟨d, -, d2, d3, d4⟩ := R.fac ((bv i).val - ∑ p ∈ range i, (e i p).val * (yv p).val * t p)
      rw [d4] at hy
      refine ⟨fun j => if j < i then t j else d⁻¹, fun _ => ⟨fun j => ?_, ?_⟩⟩
      · dsimp only
        split
        · exact (t1 j).mono h0 h1 (by omega)
        · exact d2.mono h0 h1 (by omega)
      · dsimp only
        rw [if_neg (lt_irrefl _), hy]
        have : ∑ j ∈ range i, (e i j).val * ((if j < i then t j else d⁻¹) * (yv j).val) =
            ∑ p ∈ range i, (e i p).val * (yv p).val * t p := by
          refine sum_congr rfl (fun p hp => ?_)
          rw [if_pos (mem_range.mp hp)]; ring
        rw [this]; field_simp; ring
    · exact ⟨fun _ => 0, fun hi' => absurd hi' hi⟩
  choose T hT using key
  exact ⟨T, fun i j hi => (hT i hi).1 j, fun i hi => (hT i hi).2⟩

/-- Backward substitution solves a slightly changed system exactly. -/
theorem backward_backward_error {n : Nat} {e : Nat → Nat → Fl R} {yv xv : Nat → Fl R}
    (h : ∀ i, i < n → e i i ≠ 0 ∧
      xv i = (yv i - acc (fun j => e i j * xv j) (i + 1) (n - (i + 1))) / e i i) :
    ∃ T : Nat → Nat → ℝ, (∀ i j, i < n → Fac R.u (n + 1) (T i j)) ∧
      ∀ i, i < n → (yv i).val =
        (e i i).val * (T i i * (xv i).val) + ∑ j ∈ Ico (i + 1) n, (e i j).val * (T i j * (xv j).val) := by
  have h0 := R.u_nonneg
  have h1 := R.u_lt
  have key : ∀ i, ∃ T : Nat → ℝ, i < n → (∀ j, Fac R.u (n + 1) (T j)) ∧ (yv i).val =
        (e i i).val * (T i * (xv i).val) + ∑ j ∈ Ico (i + 1) n, (e i j).val * (T j * (xv j).val) := by
    intro i
    by_cases hi : i < n
    · obtain ⟨t, t1, t2⟩ := acc_mul_val (fun j => e i j) xv (i + 1) (n - (i + 1))
      obtain ⟨hne, hx⟩ := h i hi
      have hne : (e i i).val ≠ 0 := fun hz => hne (Fl.ext hz)
      have hx := congrArg Fl.val hx
      rw [Fl.div_val, Fl.sub_val] at hx
      obtain ⟨d, -, d2, d3, d4⟩ := R.fac ((yv i).val -
        (acc (fun j => e i j * xv j) (i + 1) (n - (i + 1))).val)
      rw [d4] at hx
      obtain ⟨d', -, d2', d3', d4'⟩ := R.fac (((yv i).val -
        (acc (fun j => e i j * xv j) (i + 1) (n - (i + 1))).val) * d / (e i i).val)
      rw [d4'] at hx
      refine ⟨fun j => if i < j then t (j - (i + 1)) else d⁻¹ * d'⁻¹, fun _ => ⟨fun j => ?_, ?_⟩⟩
      · dsimp only
        split
        · exact (t1 _).mono h0 h1 (by omega)
        · exact (d2.mul h0 h1 d2').mono h0 h1 (by omega)
      · dsimp only
        rw [if_neg (lt_irrefl _)]
        have hs : ∑ j ∈ Ico (i + 1) n, (e i j).val *
            ((if i < j then t (j - (i + 1)) else d⁻¹ * d'⁻¹) * (xv j).val) =
            (acc (fun j => e i j * xv j) (i + 1) (n - (i + 1))).val := by
          rw [t2, sum_Ico_eq_sum_range]
          refine sum_congr rfl (fun p hp => ?_)
          rw [if_pos (by omega), show i + 1 + p - (i + 1) = p by omega]; ring
        rw [hs, hx]; field_simp; ring
    · exact ⟨fun _ => 0, fun hi' => absurd hi' hi⟩
  choose T hT using key
  exact ⟨T, fun i j hi => (hT i hi).1 j, fun i hi => (hT i hi).2⟩

/-- Invariant of the pivoted decomposition with rounding: as `PivInv`, with rounding factors. -/
structure FlInv {n : Nat} (a : Nat → Nat → Fl R) (k : Nat) (σ : Equiv.Perm (Fin n))
    (e : Nat → Nat → Fl R) : Prop where
  eq : ∀ i j : Fin n, ∃ (t : Nat → ℝ) (w : ℝ), (∀ p, Fac R.u k (t p)) ∧ Fac R.u k w ∧
    (a (σ i) j).val = ∑ p ∈ range (min (min i.1 j.1) k), (e i p).val * (e p j).val * t p
      + (if j < i ∧ j.1 < k then (e i j).val * (e j j).val else (e i j).val) * w
  piv : ∀ j, j < k → e j j ≠ 0

theorem FlInv.swap {n : Nat} {a : Nat → Nat → Fl R} {k : Nat} {σ : Equiv.Perm (Fin n)}
    {e : Nat → Nat → Fl R} (h : FlInv a k σ e) (x y : Fin n) (hx : k ≤ x.1) (hy : k ≤ y.1) :
    FlInv a k (σ * Equiv.swap x y) (fun i b => if b < n then e (swp x y i) b else e i b) := by
  have hs : ∀ i : Fin n, ((Equiv.swap x y i : Fin n) : Nat) = swp x y i := by
    intro i
    rw [Equiv.swap_apply_def]
    simp only [swp, Fin.ext_iff]
    split_ifs <;> rfl
  have hlow : ∀ i : Nat, i < k → swp x y i = i := by
    intro i hi; simp only [swp]; rw [if_neg (by omega), if_neg (by omega)]
  have hhigh : ∀ i : Nat, k ≤ i → k ≤ swp x y i := by
    intro i hi; simp only [swp]; split_ifs <;> omega
  obtain ⟨f, hf⟩ : ∃ f : Nat → Nat → Fl R, f = fun i b => if b < n then e (swp x y i) b else e i b :=
    ⟨_, rfl⟩
  have hf' : ∀ i j, j < n → f i j = e (swp x y i) j := fun i j hj => by
    rw [hf]; simp only [hj, if_true]
  rw [← hf]
  have hsum : ∀ (t : Nat → ℝ) (i : Nat) (j : Fin n) (m : Nat), m ≤ k →
      ∑ p ∈ range m, (f i p).val * (f p j).val * t p =
      ∑ p ∈ range m, (e (swp x y i) p).val * (e p j).val * t p := by
    intro t i j m hm
    refine sum_congr rfl (fun p hp => ?_)
    have hp' := mem_range.mp hp
    rw [hf' i p (by have := x.2; omega), hf' p j j.2, hlow p (by omega)]
  refine ⟨?_, ?_⟩
  · intro i j
    obtain ⟨t, w, h1, h2, h3⟩ := h.eq (Equiv.swap x y i) j
    refine ⟨t, w, h1, h2, ?_⟩
    rw [Equiv.Perm.mul_apply, h3, hsum t i j _ (by omega), hs, hf' i j j.2]
    by_cases c : i.1 < k
    · have e1 := hlow i c
      have e2 : Equiv.swap x y i = i := Fin.ext (by rw [hs, e1])
      rw [e1, e2]
      congr 2
      by_cases c2 : j < i ∧ j.1 < k
      · rw [if_pos c2, if_pos c2, hf' j j j.2, hlow j c2.2]
      · rw [if_neg c2, if_neg c2]
    · have c' : k ≤ i.1 := by omega
      have hh := hhigh i c'
      have hm : min (min (swp x y i) j.1) k = min (min i.1 j.1) k := by omega
      rw [hm]
      congr 2
      by_cases c2 : j.1 < k
      · rw [if_pos ⟨by rw [Fin.lt_def, hs]; omega, c2⟩, if_pos ⟨by rw [Fin.lt_def]; omega, c2⟩,
          hf' j j j.2, hlow j c2]
      · rw [if_neg (by omega), if_neg (by omega)]
  · intro j hj
    have : j < n := by have := x.2; omega
    rw [hf' j j this, hlow j hj]
    exact h.piv j hj

theorem FlInv.elim {n : Nat} {a : Nat → Nat → Fl R} {k : Nat} {σ : Equiv.Perm (Fin n)}
    {e : Nat → Nat → Fl R} (h : FlInv a k σ e) (hk : k < n) (h0 : e k k ≠ 0) :
    FlInv a (k + 1) σ (schur n k n e) := by
  have u0 := R.u_nonneg
  have u1 := R.u_lt
  have hz : (e k k).val ≠ 0 := fun hz => h0 (Fl.ext hz)
  have e1 : ∀ i j, i ≤ k → schur n k n e i j = e i j := by
    intro i j hi; simp only [schur]; rw [if_neg (by omega)]
  have e2 : ∀ i j, j < k → schur n k n e i j = e i j := by
    intro i j hi; simp only [schur]; split_ifs <;> first | rfl | omega
  have hsum : ∀ (t : Nat → ℝ) (i j m : Nat), m ≤ k →
      ∑ p ∈ range m, (schur n k n e i p).val * (schur n k n e p j).val * t p =
      ∑ p ∈ range m, (e i p).val * (e p j).val * t p := by
    intro t i j m hm
    refine sum_congr rfl (fun p hp => ?_)
    have hp' := mem_range.mp hp
    rw [e2 i p (by omega), e1 p j (by omega)]
  refine ⟨?_, ?_⟩
  · intro i j
    obtain ⟨t, w, h1, h2, h3⟩ := h.eq i j
    by_cases c : i.1 ≤ k ∨ j.1 < k
    · refine ⟨t, w, fun p => (h1 p).mono u0 u1 (by omega), h2.mono u0 u1 (by omega), ?_⟩
      rw [h3, show min (min i.1 j.1) (k + 1) = min (min i.1 j.1) k by omega, hsum _ _ _ _ (by omega)]
      congr 2
      have h3 : schur n k n e i j = e i j := by
        rcases c with c | c
        · exact e1 _ _ c
        · exact e2 _ _ c
      rw [h3]
      by_cases c2 : j < i ∧ j.1 < k
      · rw [if_pos c2, if_pos ⟨c2.1, by omega⟩, e1 j j (by omega)]
      · rw [if_neg c2, if_neg (by rw [Fin.lt_def] at *; omega)]
    · have hik : k < i.1 := by omega
      have hjk : k ≤ j.1 := by omega
      rw [show min (min i.1 j.1) k = k by omega, if_neg (by omega)] at h3
      by_cases c2 : j.1 = k
      · obtain ⟨d, -, d2, d3, d4⟩ := R.fac ((e i k).val / (e k k).val)
        refine ⟨t, w * d⁻¹, fun p => (h1 p).mono u0 u1 (by omega), h2.mul u0 u1 d2, ?_⟩
        rw [h3, show min (min i.1 j.1) (k + 1) = k by omega, hsum _ _ _ _ (le_refl _),
          if_pos ⟨by rw [Fin.lt_def]; omega, by omega⟩, e1 j j (by omega)]
        congr 1
        have h3 : schur n k n e i j = e i k / e k k := by
          simp only [schur]; rw [if_pos ⟨hik, i.2⟩, if_pos c2]
        rw [h3, c2, Fl.div_val, d4]
        field_simp
      · have h5 : schur n k n e i k = e i k / e k k := by
          simp only [schur]; rw [if_pos ⟨hik, i.2⟩, if_pos trivial]
        have h4 : schur n k n e i j = e i j - schur n k n e i k * e k j := by
          rw [h5]
          simp only [schur]; rw [if_pos ⟨hik, i.2⟩, if_neg c2, if_pos ⟨by omega, j.2⟩]
        obtain ⟨d, d1, d2, d3, d4⟩ := R.fac ((schur n k n e i k).val * (e k j).val)
        obtain ⟨d', -, d2', d3', d4'⟩ := R.fac ((e i j).val - (schur n k n e i k).val * (e k j).val * d)
        refine ⟨fun p => if p < k then t p else w * d, w * d'⁻¹, fun p => ?_, h2.mul u0 u1 d2', ?_⟩
        · dsimp only
          split
          · exact (h1 p).mono u0 u1 (by omega)
          · exact h2.mul u0 u1 d1
        · have hs := hsum (fun p => if p < k then t p else w * d) i j k (le_refl _)
          rw [h3, show min (min i.1 j.1) (k + 1) = k + 1 by omega, sum_range_succ, hs,
            if_neg (by omega), e1 k j (le_refl _)]
          have hs2 : ∑ p ∈ range k, (e i p).val * (e p j).val * (if p < k then t p else w * d) =
              ∑ p ∈ range k, (e i p).val * (e p j).val * t p := by
            refine sum_congr rfl (fun p hp => ?_)
            rw [if_pos (mem_range.mp hp)]
          rw [hs2]
          dsimp only
          rw [if_neg (lt_irrefl _), h4, Fl.sub_val, Fl.mul_val, d4, d4']
          field_simp
          ring
  · intro j hj
    rw [e1 j j (by omega)]
    by_cases c : j = k
    · rw [c]; exact h0
    · exact h.piv j (by omega)

theorem FlInv.kept {n : Nat} (a : Nat → Nat → Fl R) : PivKept (n := n) (FlInv a) :=
  ⟨fun h => h.swap, fun h => h.elim⟩

theorem FlInv.start {n : Nat} (a : Nat → Nat → Fl R) : FlInv (n := n) a 0 1 a :=
  ⟨fun i j => ⟨fun _ => 1, 1, fun _ => Fac.one, Fac.one, by simp⟩, fun j h => by omega⟩

/-- The error of the computed factors of the pivoted decomposition. -/
theorem FlInv.error {n : Nat} {a e : Nat → Nat → Fl R} {σ : Equiv.Perm (Fin n)}
    (h : FlInv a (n - 1) σ e) (i j : Fin n) :
    |(unitLower (realM (blk n e)) * upper (realM (blk n e))) i j - (a (σ i) j).val| ≤
      phi R.u n * (unitLower (absM (realM (blk n e))) * upper (absM (realM (blk n e)))) i j := by
  have u0 := R.u_nonneg
  have u1 := R.u_lt
  have e1 : realM (blk n e) = blk n (fun i j => (e i j).val) := rfl
  have e2 : absM (realM (blk n e)) = blk n (fun i j => |(e i j).val|) := rfl
  rw [e2, e1, packed_mul_apply, packed_mul_apply]
  obtain ⟨t, w, h1, h2, h3⟩ := h.eq i j
  have hi := i.2
  have hj := j.2
  have hc : (if j < i ∧ j.1 < n - 1 then (e i j).val * (e j j).val else (e i j).val) =
      if i.1 ≤ j.1 then (e i j).val else (e i j).val * (e j j).val := by
    by_cases c : i.1 ≤ j.1
    · rw [if_pos c, if_neg (by rw [Fin.lt_def]; omega)]
    · rw [if_neg c, if_pos ⟨by rw [Fin.lt_def]; omega, by omega⟩]
  rw [h3, show min (min i.1 j.1) (n - 1) = min i.1 j.1 by omega, hc, add_sub_add_comm, mul_add]
  refine le_trans (abs_add_le _ _) (add_le_add ?_ ?_)
  · simp only [← abs_mul]
    exact abs_sum_sub_le' _ _ _ (fun p _ => (h1 p).mono u0 u1 (by omega))
  · rw [abs_sub_comm]
    refine le_trans (h2.mono u0 u1 (by omega : n - 1 ≤ n)).abs_le (le_of_eq ?_)
    split <;> simp [abs_mul]

end
end CML
