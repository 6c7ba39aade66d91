import Verif.Lemmas.RoundSqrt
import Verif.Model.QuatReal
import Verif.Props.RoundQuat
import Verif.Props.VecRead

/-!
C115: rounding errors of `length()` and `normalize()` of vectors and quaternions.
-/

set_option linter.unusedSectionVars false

namespace CML

open Finset

variable {R : Rounding}

/-! ### A square root and a quotient -/

private theorem fac_of_err {k : ℕ} {x S : ℝ} (hS : 0 ≤ S) (h : |x - S| ≤ phi R.u k * S) :
    ∃ t, Fac R.u k t ∧ x = S * t := by
  rcases hS.eq_or_lt with h0 | h0
  · refine ⟨1, Fac.one.mono R.u_nonneg R.u_lt (Nat.zero_le _), ?_⟩
    rw [← h0, mul_zero, sub_zero] at h
    rw [← h0, zero_mul]
    exact abs_eq_zero.1 (le_antisymm h (abs_nonneg _))
  · refine ⟨x / S, ?_, by field_simp⟩
    show |_ - 1| ≤ _
    rw [div_sub_one h0.ne', abs_div, abs_of_pos h0, div_le_iff₀ h0]
    exact h

/-- The rounded square root of a rounded sum of squares, and a rounded quotient by it. -/
private theorem sqrt_core {k : ℕ} {d : Fl R} {S t : ℝ} (hS : 0 ≤ S) (ht : Fac R.u k t) (hd : d.val = S * t)
    (hu : 4 * ((k + 1) * R.u) ≤ 1) :
    ∃ e, Fac R.u (k + 1) e ∧ 0 < e ∧ (Sqrt.sqrt d : Fl R).val = Real.sqrt S * e ∧
      ∀ x : Fl R, ∃ r, Fac R.u (2 * k + 2) r ∧ (x / Sqrt.sqrt d : Fl R).val = x.val / Real.sqrt S * r := by
  have hu' : 4 * (k * R.u) ≤ 1 := by nlinarith [R.u_nonneg]
  obtain ⟨tp, ti⟩ := ht.inv_two R.u_nonneg R.u_lt hu'
  obtain ⟨f, f1, f2, f3, f4⟩ := R.fac (Real.sqrt d.val)
  have hs : Real.sqrt d.val = Real.sqrt S * Real.sqrt t := by rw [hd, Real.sqrt_mul hS]
  have e1 : Fac R.u (k + 1) (Real.sqrt t * f) := (ht.sqrt tp.le).mul R.u_nonneg R.u_lt f1
  have hval : (Sqrt.sqrt d : Fl R).val = Real.sqrt S * (Real.sqrt t * f) := by
    rw [Fl.sqrt_val, f4, hs, mul_assoc]
  have epos : 0 < Real.sqrt t * f := by
    have h1 := e1.inv_two R.u_nonneg R.u_lt (by push_cast; exact hu)
    exact h1.1
  refine ⟨_, e1, epos, hval, fun x => ?_⟩
  obtain ⟨g, g1, -, -, g4⟩ := R.fac (x.val / (Sqrt.sqrt d : Fl R).val)
  refine ⟨Real.sqrt t⁻¹ * f⁻¹ * g, ?_, ?_⟩
  · have h := ((ti.sqrt (inv_nonneg.2 tp.le)).mul R.u_nonneg R.u_lt f2).mul R.u_nonneg R.u_lt g1
    rwa [show k + k + 1 + 1 = 2 * k + 2 by ring] at h
  · rw [Fl.div_val, g4, hval, Real.sqrt_inv]
    rw [div_eq_mul_inv, mul_inv, mul_inv, div_eq_mul_inv]
    ring

/-- Elements of a vector of length one, each with a small relative error, have a length close to one. -/
private theorem length_near_one {ι : Type} [Fintype ι] {v w : ι → ℝ} {g : ℝ} (hg : 0 ≤ g) (hv : ∑ i, v i * v i = 1)
    (h : ∀ i, |w i - v i| ≤ g * |v i|) : |Real.sqrt (∑ i, w i * w i) - 1| ≤ g := by
  have up : ∑ i, w i * w i ≤ (1 + g) ^ 2 := by
    rw [show (1 + g) ^ 2 = (1 + g) ^ 2 * ∑ i, v i * v i by rw [hv, mul_one], mul_sum]
    refine sum_le_sum fun i _ => ?_
    have h1 : |w i| ≤ (1 + g) * |v i| := by
      have := abs_sub_abs_le_abs_sub (w i) (v i)
      linarith [h i]
    have h2 := mul_self_le_mul_self (abs_nonneg _) h1
    rw [abs_mul_abs_self] at h2
    calc w i * w i ≤ (1 + g) * |v i| * ((1 + g) * |v i|) := h2
      _ = (1 + g) ^ 2 * (v i * v i) := by rw [← abs_mul_abs_self (v i)]; ring
  rw [abs_le]
  constructor
  · rcases le_total 1 g with h1 | h1
    · linarith [Real.sqrt_nonneg (∑ i, w i * w i)]
    · have lo : (1 - g) ^ 2 ≤ ∑ i, w i * w i := by
        rw [show (1 - g) ^ 2 = (1 - g) ^ 2 * ∑ i, v i * v i by rw [hv, mul_one], mul_sum]
        refine sum_le_sum fun i _ => ?_
        have h3 : (1 - g) * |v i| ≤ |w i| := by
          have := abs_sub_abs_le_abs_sub (v i) (w i)
          rw [abs_sub_comm] at this
          linarith [h i]
        have h2 := mul_self_le_mul_self (mul_nonneg (sub_nonneg.2 h1) (abs_nonneg _)) h3
        rw [abs_mul_abs_self] at h2
        calc (1 - g) ^ 2 * (v i * v i) = (1 - g) * |v i| * ((1 - g) * |v i|) := by rw [← abs_mul_abs_self (v i)]; ring
          _ ≤ _ := h2
      have := Real.le_sqrt_of_sq_le lo
      linarith
  · have := Real.sqrt_le_sqrt up
    rw [Real.sqrt_sq (by linarith)] at this
    linarith

/-! ### Vectors -/

section
variable {s : State (Fl R)} {a : VNode (Fl R)} {n : Nat} {p : Fin n → Fl R}

private theorem lsq_fac (ha : VIs s a n p) (hn : 0 < n) :
    ∃ d t, vLengthSquared s a = .ok d ∧ Fac R.u n t ∧ d.val = (realV p ⬝ᵥ realV p) * t := by
  obtain ⟨f, hf⟩ := ha.known
  obtain ⟨t, t1, t2⟩ := dotLeft_val n hn p p
  have h0 : 0 ≤ realV p ⬝ᵥ realV p := sum_nonneg fun i _ => mul_self_nonneg _
  have e := abs_sum_sub_le univ (fun i => (p i).val * (p i).val) t (fun i _ => t1 i)
  rw [← t2, show ∑ i, |(p i).val * (p i).val| = realV p ⬝ᵥ realV p from
    sum_congr rfl fun i _ => abs_of_nonneg (mul_self_nonneg _)] at e
  obtain ⟨r, r1, r2⟩ := fac_of_err h0 e
  exact ⟨_, r, by rw [vLengthSquared_eq_dot s a ha.rep hf, vDot_left ha.rep ha.rep hf hf hn], r1, r2⟩

private theorem dot_pos (hp : realV p ≠ 0) : 0 < realV p ⬝ᵥ realV p := by
  refine lt_of_le_of_ne (sum_nonneg fun i _ => mul_self_nonneg _) fun h => hp ?_
  funext i
  exact mul_self_eq_zero.mp ((sum_eq_zero_iff_of_nonneg fun i _ => mul_self_nonneg (realV p i)).mp h.symm i (mem_univ i))

private theorem pos_of_ne (hp : realV p ≠ 0) : 0 < n := by
  rcases Nat.eq_zero_or_pos n with h | h
  · subst h; exact absurd (funext fun i => i.elim0) hp
  · exact h

/-- C115: the computed `length()` of a vector has a relative error of at most `γ_{n+1}`; it is never negative, and zero
only for the zero vector. -/
theorem length_error (ha : VIs s a n p) (hn : 0 < n) (hu : 4 * ((n + 1) * R.u) ≤ 1) :
    ∃ l, vLength s a = .ok l ∧
      |l.val - Real.sqrt (realV p ⬝ᵥ realV p)| ≤ gamma R.u (n + 1) * Real.sqrt (realV p ⬝ᵥ realV p) ∧
      0 ≤ l.val ∧ (l.val = 0 ↔ realV p = 0) := by
  obtain ⟨d, t, h1, h2, h3⟩ := lsq_fac ha hn
  have h0 : 0 ≤ realV p ⬝ᵥ realV p := sum_nonneg fun i _ => mul_self_nonneg _
  obtain ⟨e, e1, e2, e3, -⟩ := sqrt_core h0 h2 h3 hu
  have hk : ((n + 1 : ℕ) : ℝ) * R.u < 1 := by push_cast; nlinarith [R.u_nonneg]
  refine ⟨_, by rw [vLength, h1]; rfl, ?_, ?_, fun h => ?_, fun h => ?_⟩
  · rw [e3]
    refine le_trans e1.abs_le ?_
    rw [abs_of_nonneg (Real.sqrt_nonneg _)]
    exact mul_le_mul_of_nonneg_right (phi_le_gamma R.u_nonneg R.u_lt hk) (Real.sqrt_nonneg _)
  · rw [e3]; positivity
  · by_contra hp
    rw [e3] at h
    exact (mul_pos (Real.sqrt_pos.2 (dot_pos hp)) e2).ne' h
  · rw [e3, h]; simp

private theorem normalized_core (ha : VIs s a n p) (hp : realV p ≠ 0) (hu : 4 * ((n + 1) * R.u) ≤ 1) :
    ∃ l : Fl R, vLength s a = .ok l ∧
      (∀ i, ∃ r, Fac R.u (2 * n + 2) r ∧ (p i / l).val = realV p i / Real.sqrt (realV p ⬝ᵥ realV p) * r) ∧
      Fac R.u (2 * n + 2) (Real.sqrt (∑ i, (p i / l).val * (p i / l).val)) := by
  obtain ⟨d, t, h1, h2, h3⟩ := lsq_fac ha (pos_of_ne hp)
  have hpos := dot_pos hp
  obtain ⟨e, e1, e2, e3, e4⟩ := sqrt_core hpos.le h2 h3 hu
  refine ⟨_, by rw [vLength, h1]; rfl, fun i => e4 (p i), length_near_one (phi_nonneg R.u_nonneg R.u_lt _) ?_
    (v := fun i => realV p i / Real.sqrt (realV p ⬝ᵥ realV p)) fun i => ?_⟩
  · simp only [div_mul_div_comm, Real.mul_self_sqrt hpos.le, ← sum_div]
    exact div_self hpos.ne'
  · obtain ⟨r, r1, r2⟩ := e4 (p i)
    rw [r2]
    exact r1.abs_le

private theorem scal_is {l : Fl R} (ha : VIs s a n p) : VIs s (.scal .div a l) n fun i => p i / l := by
  obtain ⟨f, hf⟩ := ha.known
  refine ⟨⟨by rw [VNode.size]; exact ha.rep.size, fun i => ?_⟩, _, hf.scal _ _⟩
  have h4 := ha.rep.get i
  simp only at h4
  rw [VNode.get, h4]
  rfl

private theorem bounds {l : Fl R} (hu : 4 * ((n + 1) * R.u) ≤ 1)
    (h2 : ∀ i, ∃ r, Fac R.u (2 * n + 2) r ∧ (p i / l).val = realV p i / Real.sqrt (realV p ⬝ᵥ realV p) * r)
    (h3 : Fac R.u (2 * n + 2) (Real.sqrt (∑ i, (p i / l).val * (p i / l).val))) :
    (∀ i, |realV (fun i => p i / l) i - realV p i / Real.sqrt (realV p ⬝ᵥ realV p)| ≤
        gamma R.u (2 * n + 2) * |realV p i / Real.sqrt (realV p ⬝ᵥ realV p)|) ∧
      |Real.sqrt (realV (fun i => p i / l) ⬝ᵥ realV (fun i => p i / l)) - 1| ≤ gamma R.u (2 * n + 2) := by
  have hk : ((2 * n + 2 : ℕ) : ℝ) * R.u < 1 := by push_cast; nlinarith [R.u_nonneg]
  refine ⟨fun i => ?_, le_trans h3 (phi_le_gamma R.u_nonneg R.u_lt hk)⟩
  obtain ⟨r, r1, r2⟩ := h2 i
  rw [realV, r2]
  exact le_trans r1.abs_le (mul_le_mul_of_nonneg_right (phi_le_gamma R.u_nonneg R.u_lt hk) (abs_nonneg _))

/-- C115: every element of the computed `v.normalize()` (the expression) has a relative error of at most `γ_{2n+2}`, and
the exact length of the computed result differs from one by at most `γ_{2n+2}`. -/
theorem normalized_error (ha : VIs s a n p) (hp : realV p ≠ 0) (hu : 4 * ((n + 1) * R.u) ≤ 1) :
    ∃ b w, vNormalized s a = .ok b ∧ VIs s b n w ∧
      (∀ i, |realV w i - realV p i / Real.sqrt (realV p ⬝ᵥ realV p)| ≤
        gamma R.u (2 * n + 2) * |realV p i / Real.sqrt (realV p ⬝ᵥ realV p)|) ∧
      |Real.sqrt (realV w ⬝ᵥ realV w) - 1| ≤ gamma R.u (2 * n + 2) := by
  obtain ⟨l, h1, h2, h3⟩ := normalized_core ha hp hu
  exact ⟨.scal .div a l, fun i => p i / l, by rw [vNormalized, h1]; rfl, scal_is ha, bounds hu h2 h3⟩

/-- C115: `v.normalize()` in place leaves in the vector elements with a relative error of at most `γ_{2n+2}`, whose exact
length differs from one by at most `γ_{2n+2}`, and changes nothing else. -/
theorem normalize_error {triv : Bool} {x : Nat} {d : VObj} (hx : s.vec x = some d) (ha : VIs s (.var x) n p)
    (hp : realV p ≠ 0) (hu : 4 * ((n + 1) * R.u) ≤ 1) :
    ∃ h' w, vNormalize triv s x = .ok { s with heap := h' } ∧ VIs { s with heap := h' } (.var x) n w ∧
      SameOutside d s.heap h' ∧
      (∀ i, |realV w i - realV p i / Real.sqrt (realV p ⬝ᵥ realV p)| ≤
        gamma R.u (2 * n + 2) * |realV p i / Real.sqrt (realV p ⬝ᵥ realV p)|) ∧
      |Real.sqrt (realV w ⬝ᵥ realV w) - 1| ≤ gamma R.u (2 * n + 2) := by
  obtain ⟨l, h1, h2, h3⟩ := normalized_core ha hp hu
  obtain ⟨h', g1, g2, g3⟩ := scalAssign_partial (triv := triv) (o := .div) hx _ ha.rep (.val l) l rfl
    (by intro y i h; cases h)
  exact ⟨h', fun i => p i / l, by simp [vNormalize, h1, g1], ⟨g2, typed_var_v ha.rep.size⟩, g3, bounds hu h2 h3⟩

/-- C115: normalizing a second time changes no element by more than a relative error of `γ_{6n+6}`. -/
theorem normalized_twice (ha : VIs s a n p) (hp : realV p ≠ 0) (hu : 8 * ((n + 1) * R.u) ≤ 1) :
    ∃ b w c z, vNormalized s a = .ok b ∧ VIs s b n w ∧ vNormalized s b = .ok c ∧ VIs s c n z ∧
      ∀ i, |realV z i - realV w i| ≤ gamma R.u (6 * n + 6) * |realV w i| := by
  have hnu : 0 ≤ ((n : ℝ) + 1) * R.u := mul_nonneg (by positivity) R.u_nonneg
  have hu' : 4 * ((n + 1) * R.u) ≤ 1 := by linarith
  have hk : ((6 * n + 6 : ℕ) : ℝ) * R.u < 1 := by push_cast; nlinarith
  obtain ⟨l, h1, h2, h3⟩ := normalized_core ha hp hu'
  set w : Fin n → Fl R := fun i => p i / l with hw
  have hb : VIs s (.scal .div a l) n w := scal_is ha
  obtain ⟨tp, ti⟩ := h3.inv_two R.u_nonneg R.u_lt (by push_cast; nlinarith)
  have hw0 : realV w ≠ 0 := fun h => by
    have h4 : ∑ i, (w i).val * (w i).val = 0 := sum_eq_zero fun i _ => by
      have := congrFun h i
      simp only [realV, Pi.zero_apply] at this
      rw [this, zero_mul]
    rw [h4, Real.sqrt_zero] at tp
    exact lt_irrefl _ tp
  obtain ⟨l', k1, k2, -⟩ := normalized_core hb hw0 hu'
  refine ⟨_, w, .scal .div (.scal .div a l) l', fun i => w i / l', by rw [vNormalized, h1]; rfl, hb,
    by rw [vNormalized, k1]; rfl, scal_is hb, fun i => ?_⟩
  obtain ⟨r, r1, r2⟩ := k2 i
  have hf : Fac R.u (6 * n + 6) ((Real.sqrt (∑ i, (w i).val * (w i).val))⁻¹ * r) := by
    have := ti.mul R.u_nonneg R.u_lt r1
    rwa [show 2 * n + 2 + (2 * n + 2) + (2 * n + 2) = 6 * n + 6 by ring] at this
  rw [show realV (fun i => w i / l') i = realV w i * ((Real.sqrt (∑ i, (w i).val * (w i).val))⁻¹ * r) by
    rw [realV, r2, div_eq_mul_inv, mul_assoc]; rfl]
  exact le_trans hf.abs_le (mul_le_mul_of_nonneg_right (phi_le_gamma R.u_nonneg R.u_lt hk) (abs_nonneg _))

end

/-! ### Quaternions -/

section
open Quaternion
variable {s : QState (Fl R)} {a : QNode (Fl R)} {p : ℍ[Fl R]}

/-- C115: the computed length of a quaternion has a relative error of at most `γ_5`; it is zero only for the zero
quaternion. -/
theorem qlength_error (ha : QReads s a p) (hu : 20 * R.u ≤ 1) :
    ∃ l, qLength s a = .ok l ∧ |l.val - ‖realQ p‖| ≤ gamma R.u 5 * ‖realQ p‖ ∧ 0 ≤ l.val ∧
      (l.val = 0 ↔ realQ p = 0) := by
  obtain ⟨d, h1, t, h2, h3⟩ := qLengthSquared_gen ha
  obtain ⟨e, e1, e2, e3, -⟩ := sqrt_core normSq_nonneg h2 h3 (by push_cast; linarith)
  have hN : Real.sqrt (normSq (realQ p)) = ‖realQ p‖ := by
    rw [Quaternion.normSq_eq_norm_mul_self, Real.sqrt_mul_self (norm_nonneg _)]
  rw [hN] at e3
  have hk : ((5 : ℕ) : ℝ) * R.u < 1 := by push_cast; linarith [R.u_nonneg]
  refine ⟨_, by rw [qLength, show qLengthSquared s a = .ok d from h1]; rfl, ?_, ?_, fun h => ?_, fun h => ?_⟩
  · rw [e3]
    refine le_trans e1.abs_le ?_
    rw [abs_of_nonneg (norm_nonneg _)]
    exact mul_le_mul_of_nonneg_right (phi_le_gamma R.u_nonneg R.u_lt hk) (norm_nonneg _)
  · rw [e3]; positivity
  · rw [e3] at h
    exact norm_eq_zero.1 ((mul_eq_zero.1 h).resolve_right e2.ne')
  · rw [e3, h]; simp

/-- Every element divided by `k`. -/
private noncomputable def qDiv (p : ℍ[Fl R]) (k : Fl R) : ℍ[Fl R] := ⟨p.re / k, p.imI / k, p.imJ / k, p.imK / k⟩

/-- `v /= k` on a quaternion of rounded numbers. -/
private theorem qdiv_assign {v : QVar} (hv : QIs s v p) {k : Fl R} (hk : k ≠ 0) :
    ∃ s', qScalAssign .div s v (.val k) = .ok s' ∧
      QIs s' v (qDiv p k) ∧ ∀ y, y ≠ v.id → s' y = s y := by
  obtain ⟨h0, h1, h2, h3⟩ := qreads_iff.1 (qreads_var hv)
  have hvo : (QNode.var v : QNode (Fl R)).order = v.order := rfl
  rw [hvo] at h0 h1 h2 h3
  have hg : ∃ g : Nat → Fl R, ∀ i, i < 4 → ∀ x, QNode.get s (.var v) i = .ok x → g i = x :=
    ⟨fun i => match QNode.get s (.var v) i with
      | .ok x => x
      | _ => 0, fun i _ x hx => by simp [hx]⟩
  obtain ⟨g, hg⟩ := hg
  have hW := hg _ (QOrder.W_lt _) _ h0
  have hX := hg _ (QOrder.X_lt _) _ h1
  have hY := hg _ (QOrder.Y_lt _) _ h2
  have hZ := hg _ (QOrder.Z_lt _) _ h3
  have hall : ∀ i, i < 4 → ∃ x, QNode.get s (.var v) i = .ok x := by
    intro i hi
    have : i = v.order.W ∨ i = v.order.X ∨ i = v.order.Y ∨ i = v.order.Z := by
      cases v.order <;> simp only [QOrder.W, QOrder.X, QOrder.Y, QOrder.Z] <;> omega
    rcases this with rfl | rfl | rfl | rfl
    exacts [⟨_, h0⟩, ⟨_, h1⟩, ⟨_, h2⟩, ⟨_, h3⟩]
  obtain ⟨s', e1, e2, e3⟩ := qPutLoop (s := s) (x := v.id) (g := fun i => g i / k)
    (f := fun s i => do
      let x ← QNode.get s (.var v) i
      let y ← (QScalar.val k).read s
      divR x y) (by
    intro i s' hi hs
    obtain ⟨x, hx⟩ := hall i hi
    rw [QNode.get_congr _ i (s := s) (fun y => hs y i (fun _ => le_refl i)), hx, hg i hi x hx]
    simp [divR, hk, QScalar.read])
  refine ⟨s', e1, ?_, e3⟩
  unfold QIs
  rw [qholds_iff, e2 _ (QOrder.W_lt _), e2 _ (QOrder.X_lt _), e2 _ (QOrder.Y_lt _), e2 _ (QOrder.Z_lt _), hW, hX, hY, hZ]
  exact ⟨rfl, rfl, rfl, rfl⟩

private theorem qdiv_reads (ha : QReads s a p) {k : Fl R} (hk : k ≠ 0) : QReads s (.scal .div a k) (qDiv p k) := by
  obtain ⟨h0, h1, h2, h3⟩ := qreads_iff.1 ha
  rw [qreads_iff]
  simp only [QNode.order, QNode.ty, QTy.order] at *
  simp [QNode.get, h0, h1, h2, h3, divR, hk, qDiv]

private theorem qnormalize_core (ha : QReads s a p) (hp : realQ p ≠ 0) (hu : 20 * R.u ≤ 1) :
    ∃ l : Fl R, qLength s a = .ok l ∧ l ≠ 0 ∧
      (∀ x : Fl R, |(x / l).val - x.val / ‖realQ p‖| ≤ gamma R.u 10 * |x.val / ‖realQ p‖|) ∧
      |‖realQ (qDiv p l)‖ - 1| ≤ gamma R.u 10 := by
  obtain ⟨d, h1, t, h2, h3⟩ := qLengthSquared_gen ha
  obtain ⟨e, e1, e2, e3, e4⟩ := sqrt_core normSq_nonneg h2 h3 (by push_cast; linarith)
  have hN : Real.sqrt (normSq (realQ p)) = ‖realQ p‖ := by
    rw [Quaternion.normSq_eq_norm_mul_self, Real.sqrt_mul_self (norm_nonneg _)]
  rw [hN] at e3 e4
  have hpos : 0 < ‖realQ p‖ := norm_pos_iff.2 hp
  have hk : ((10 : ℕ) : ℝ) * R.u < 1 := by push_cast; linarith [R.u_nonneg]
  have hb : ∀ x : Fl R, |(x / Sqrt.sqrt d).val - x.val / ‖realQ p‖| ≤ gamma R.u 10 * |x.val / ‖realQ p‖| := by
    intro x
    obtain ⟨r, r1, r2⟩ := e4 x
    rw [r2]
    exact le_trans r1.abs_le (mul_le_mul_of_nonneg_right (phi_le_gamma R.u_nonneg R.u_lt hk) (abs_nonneg _))
  refine ⟨Sqrt.sqrt d, by rw [qLength, show qLengthSquared s a = .ok d from h1]; rfl, fun h => ?_, hb, ?_⟩
  · rw [h] at e3
    exact (mul_pos hpos e2).ne' e3.symm
  · have hn1 := length_near_one (v := ![p.re.val / ‖realQ p‖, p.imI.val / ‖realQ p‖, p.imJ.val / ‖realQ p‖,
        p.imK.val / ‖realQ p‖]) (w := ![(p.re / Sqrt.sqrt d).val, (p.imI / Sqrt.sqrt d).val, (p.imJ / Sqrt.sqrt d).val,
        (p.imK / Sqrt.sqrt d).val]) (g := gamma R.u 10)
      (le_trans (phi_nonneg R.u_nonneg R.u_lt _) (phi_le_gamma R.u_nonneg R.u_lt hk)) (by
        have h5 : p.re.val ^ 2 + p.imI.val ^ 2 + p.imJ.val ^ 2 + p.imK.val ^ 2 = ‖realQ p‖ ^ 2 := by
          rw [sq ‖realQ p‖, ← Quaternion.normSq_eq_norm_mul_self, normSq_def']; rfl
        simp only [Fin.sum_univ_four, Matrix.cons_val]
        field_simp
        linarith) (by
        intro i
        fin_cases i
        exacts [hb p.re, hb p.imI, hb p.imJ, hb p.imK])
    refine le_of_eq_of_le ?_ hn1
    congr 2
    rw [← Real.sqrt_mul_self (norm_nonneg _), ← Quaternion.normSq_eq_norm_mul_self, normSq_def']
    simp only [Fin.sum_univ_four, Matrix.cons_val, realQ, qDiv, sq]

/-- C115: `normalize()` of a nonzero quaternion, in place and as an expression: every element has a relative error of at
most `γ_10`, the exact length of the computed quaternion differs from one by at most `γ_10`, and no other quaternion
changes.  The zero quaternion is divided by zero. -/
theorem qnormalize_error {v : QVar} (hv : QIs s v p) (hu : 20 * R.u ≤ 1) :
    (realQ p ≠ 0 → ∃ s' b q, qNormalize s v = .ok s' ∧ QIs s' v q ∧ (∀ y, y ≠ v.id → s' y = s y) ∧
      qNormalized s (.var v) = .ok b ∧ QReads s b q ∧
      |q.re.val - p.re.val / ‖realQ p‖| ≤ gamma R.u 10 * |p.re.val / ‖realQ p‖| ∧
      |q.imI.val - p.imI.val / ‖realQ p‖| ≤ gamma R.u 10 * |p.imI.val / ‖realQ p‖| ∧
      |q.imJ.val - p.imJ.val / ‖realQ p‖| ≤ gamma R.u 10 * |p.imJ.val / ‖realQ p‖| ∧
      |q.imK.val - p.imK.val / ‖realQ p‖| ≤ gamma R.u 10 * |p.imK.val / ‖realQ p‖| ∧
      |‖realQ q‖ - 1| ≤ gamma R.u 10) ∧
    (realQ p = 0 → qNormalize s v = .ub .divZero) := by
  constructor
  · intro hp
    obtain ⟨l, h1, h2, h3, h4⟩ := qnormalize_core (qreads_var hv) hp hu
    obtain ⟨s', e1, e2, e3⟩ := qdiv_assign hv h2
    exact ⟨s', .scal .div (.var v) l, qDiv p l, by simp [qNormalize, h1, e1], e2, e3, by simp [qNormalized, h1],
      qdiv_reads (qreads_var hv) h2, h3 _, h3 _, h3 _, h3 _, h4⟩
  · intro hp
    obtain ⟨l, h1, -, -, h4⟩ := qlength_error (qreads_var hv) hu
    have hl : l = 0 := Fl.ext (h4.2 hp)
    obtain ⟨x, hx⟩ : ∃ x, QNode.get s (.var v) 0 = .ok x := by
      have h := qreads_var hv
      unfold QReads at h
      revert h
      cases (QNode.var v : QNode (Fl R)).order <;> simp only [] <;> exact fun h => ⟨_, h.1⟩
    simp only [qNormalize, h1, Out.withVal_ok, hl]
    simp [qScalAssign, Out.loop, qPutRes, hx, QScalar.read, divR]

end

/-! ### Examples: double precision -/

private theorem ex_u {k : ℝ} (h : k ≤ 100) : k * double.u ≤ 1 := by
  rw [show double.u = (2 : ℝ)⁻¹ ^ 53 from rfl]
  nlinarith [show (2 : ℝ)⁻¹ ^ 53 ≤ 1 / 100 by norm_num, show (0 : ℝ) ≤ (2 : ℝ)⁻¹ ^ 53 by positivity]

private theorem ex_is (s : State (Fl double)) : VIs s (.temp true [⟨1 / 3⟩, ⟨-5⟩]) 2 ![⟨1 / 3⟩, ⟨-5⟩] :=
  ⟨⟨rfl, fun i => by fin_cases i <;> rfl⟩, true, VNode.Typed.temp rfl⟩

private theorem ex_ne : realV (R := double) ![⟨1 / 3⟩, ⟨-5⟩] ≠ 0 := fun h => by
  have := congrFun h 1
  simp [realV] at this

example (s : State (Fl double)) := length_error (ex_is s) (by norm_num) (by
  have := ex_u (k := 12) (by norm_num); push_cast; linarith)
example (s : State (Fl double)) := normalized_error (ex_is s) ex_ne (by
  have := ex_u (k := 12) (by norm_num); push_cast; linarith)
private noncomputable def rnS : State (Fl double) := demo [[some ⟨1 / 3⟩, some ⟨-5⟩]] [⟨.compiled, true, some 0, 0, 2⟩] []

example := normalize_error (s := rnS) (triv := true) (x := 0) (p := ![⟨1 / 3⟩, ⟨-5⟩]) rfl
  ⟨⟨rfl, fun i => by fin_cases i <;> rfl⟩, typed_var_v rfl⟩ ex_ne (by
  have := ex_u (k := 12) (by norm_num); push_cast; linarith)
example (s : State (Fl double)) := normalized_twice (ex_is s) ex_ne (by
  have := ex_u (k := 24) (by norm_num); push_cast; linarith)

open Quaternion in
/-- A quaternion of doubles, real part first. -/
private noncomputable def exQ : ℍ[Fl double] := ⟨⟨1 / 3⟩, ⟨2⟩, ⟨-5⟩, ⟨1 / 7⟩⟩

example := qlength_error (qreads_var (s := fun _ => qMake .realFirst exQ.re exQ.imI exQ.imJ exQ.imK)
  (v := ⟨0, .realFirst, .positive⟩) (h := exQ) (qholds_make _ _ _ _ _)) (ex_u (by norm_num))
example := (qnormalize_error (s := fun _ => qMake .realFirst exQ.re exQ.imI exQ.imJ exQ.imK)
  (v := ⟨0, .realFirst, .positive⟩) (p := exQ) (qholds_make _ _ _ _ _) (ex_u (by norm_num))).1 (fun h => by
    have : (realQ exQ).imI = 2 := rfl
    rw [h] at this
    exact two_ne_zero this.symm)

end CML

#print axioms CML.length_error
#print axioms CML.normalized_error
#print axioms CML.normalize_error
#print axioms CML.normalized_twice
#print axioms CML.qlength_error
#print axioms CML.qnormalize_error
