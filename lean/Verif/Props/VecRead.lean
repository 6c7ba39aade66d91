import Verif.Spec.Value
import Verif.Lemmas.VecRead
import Verif.Lemmas.Append
import Verif.Lemmas.Demo
import Verif.Props.Assign
import Mathlib.Algebra.Order.Chebyshev

/-!
C10 (comparison), C11 (dot, length), C12 (cross, triple product, perp dot), C13 (normalize), C77
(printing) and the constructor part of C14.
-/

set_option linter.unusedSectionVars false

namespace CML

open Matrix

section
variable {E : Type} [Add E] [Sub E] [Mul E] [Div E] [Neg E]

/-- Every expression that has a value can be used as an operand in the sense of the theorems below. -/
theorem vexpr_is {s : State E} {ρ : Env E} (hA : Agree s ρ) (e : VExpr E) (hc : e.Regular s)
    (n : Nat) (p : Fin n → E) (hp : e.den ρ = some ⟨n, p⟩) :
    ∃ a, e.build s = .ok a ∧ VIs s a n p := by
  obtain ⟨a, h1, h2, f, h3⟩ := VExpr.build_ok hA e (VExpr.supported_of_regular e hc) _ hp
  exact ⟨a, h1, h2, f, h3⟩

end

/-- The vectors of the example state as operands. -/
theorem exS_is0 : VIs exS (.var 0) 3 ![1, 2, 3] := ⟨exS_agree.v 0 _ rfl, typed_var_v rfl⟩
theorem exS_is1 : VIs exS (.var 1) 3 ![4, 5, 6] := ⟨exS_agree.v 1 _ rfl, typed_var_v rfl⟩
theorem exS_is2 : VIs exS (.var 2) 2 ![7, 8] := ⟨exS_agree.v 2 _ rfl, typed_var_v rfl⟩

/-! ### C10: comparison -/

section Cmp
variable {E : Type} [Add E] [Sub E] [Mul E] [Div E] [Neg E] [LinearOrder E]
  {s : State E} {a b c : VNode E} {n m k : Nat} {p : Fin n → E} {q : Fin m → E} {r : Fin k → E}

/-- C10.  `a < b` succeeds for any sizes and is the lexicographic order of the element sequences (in
which a proper prefix is smaller). -/
theorem vlt_lex (ha : VIs s a n p) (hb : VIs s b m q) :
    vLt s a b = .ok (decide (List.ofFn p < List.ofFn q)) := by
  obtain ⟨r, h1, h2, h3, h4⟩ := vCmp ha.rep hb.rep
  unfold vLt
  simp only [ha.rep.size, hb.rep.size, Res.ok_bind, h1]
  match r, h2, h3, h4 with
  | some true, h2, _, _ => simp [h2 rfl]
  | some false, _, h3, _ => simpa using (h3 rfl).le
  | none, _, _, h4 =>
    simp only [Res.pure_eq, Res.ok.injEq, decide_eq_decide, Nat.cast_lt]
    rcases h4 rfl with h | h
    · constructor
      · intro hl; exact prefix_lt h (by simpa using hl)
      · intro hl
        by_contra hn
        have := h.eq_of_length_le (by simpa using hn)
        rw [this] at hl
        exact lt_irrefl _ hl
    · constructor
      · intro hl
        have := h.length_le
        simp only [List.length_ofFn] at this
        omega
      · intro hl
        by_contra hn
        rcases lt_or_eq_of_le (not_lt.mp hn) with h5 | h5
        · exact lt_asymm hl (prefix_lt h (by simpa using h5))
        · have := h.eq_of_length (by simpa using h5)
          rw [this] at hl
          exact lt_irrefl _ hl

/-- C10.  `a > b` is the reverse order. -/
theorem vgt_lex (ha : VIs s a n p) (hb : VIs s b m q) :
    vGt s a b = .ok (decide (List.ofFn q < List.ofFn p)) := by
  obtain ⟨r, h1, h2, h3, h4⟩ := vCmp ha.rep hb.rep
  unfold vGt
  simp only [ha.rep.size, hb.rep.size, Res.ok_bind, h1]
  match r, h2, h3, h4 with
  | some true, h2, _, _ => simpa using (h2 rfl).le
  | some false, _, h3, _ => simp [h3 rfl]
  | none, _, _, h4 =>
    simp only [Res.pure_eq, Res.ok.injEq, decide_eq_decide, Nat.cast_lt, gt_iff_lt]
    rcases h4 rfl with h | h
    · constructor
      · intro hl
        have := h.length_le
        simp only [List.length_ofFn] at this
        omega
      · intro hl
        by_contra hn
        rcases lt_or_eq_of_le (not_lt.mp hn) with h5 | h5
        · exact lt_asymm hl (prefix_lt h (by simpa using h5))
        · have := h.eq_of_length (by simpa using h5)
          rw [this] at hl
          exact lt_irrefl _ hl
    · constructor
      · intro hl; exact prefix_lt h (by simpa using hl)
      · intro hl
        by_contra hn
        have := h.eq_of_length_le (by simpa using hn)
        rw [this] at hl
        exact lt_irrefl _ hl

/-- C10.  `a == b` is equality of sizes and elements. -/
theorem veq_iff (ha : VIs s a n p) (hb : VIs s b m q) :
    vEq s a b = .ok (decide (List.ofFn p = List.ofFn q)) := by
  unfold vEq
  simp only [ha.rep.size, hb.rep.size, Res.ok_bind]
  by_cases hnm : n = m
  · obtain ⟨r, h1, h2, h3, h4⟩ := vCmp ha.rep hb.rep
    subst hnm
    simp only [min_self] at h1
    simp only [ne_eq, not_true_eq_false, if_false, h1, Res.ok_bind]
    match r, h2, h3, h4 with
    | some true, h2, _, _ => simpa using (h2 rfl).ne
    | some false, _, h3, _ => simpa using (h3 rfl).ne'
    | none, _, _, h4 =>
      rcases h4 rfl with h | h
      · simpa using h.eq_of_length (by simp)
      · simpa using (h.eq_of_length (by simp)).symm
  · have h1 : ¬ (n : Int) = m := by omega
    have h2 : List.ofFn p ≠ List.ofFn q := by
      intro h
      have := congrArg List.length h
      simp at this
      exact hnm this
    simp [h1, h2]

/-- C10.  `<=`, `>=` and `!=`. -/
theorem vle_vge_vne (ha : VIs s a n p) (hb : VIs s b m q) :
    vLe s a b = .ok (decide (List.ofFn p ≤ List.ofFn q)) ∧
    vGe s a b = .ok (decide (List.ofFn q ≤ List.ofFn p)) ∧
    vNe s a b = .ok (decide (List.ofFn p ≠ List.ofFn q)) := by
  refine ⟨?_, ?_, ?_⟩
  · rw [vLe, vgt_lex ha hb]
    by_cases h : List.ofFn q < List.ofFn p
    · simp [h, not_le.mpr h]
    · simp [h, not_lt.mp h]
  · rw [vGe, vlt_lex ha hb]
    by_cases h : List.ofFn p < List.ofFn q
    · simp [h, not_le.mpr h]
    · simp [h, not_lt.mp h]
  · rw [vNe, veq_iff ha hb]; simp

/-- C10, total order: exactly one of `a < b`, `a == b`, `a > b` is true; `a > b` iff `b < a`; `<` is
transitive; no vector is less than itself. -/
theorem vcmp_order (ha : VIs s a n p) (hb : VIs s b m q) (hc : VIs s c k r) :
    ((vLt s a b = .ok true ∧ vEq s a b = .ok false ∧ vGt s a b = .ok false) ∨
      (vLt s a b = .ok false ∧ vEq s a b = .ok true ∧ vGt s a b = .ok false) ∨
      (vLt s a b = .ok false ∧ vEq s a b = .ok false ∧ vGt s a b = .ok true)) ∧
    vGt s a b = vLt s b a ∧
    (vLt s a b = .ok true → vLt s b c = .ok true → vLt s a c = .ok true) ∧
    vLt s a a = .ok false := by
  rw [vlt_lex ha hb, vgt_lex ha hb, veq_iff ha hb, vlt_lex hb hc, vlt_lex ha hc, vlt_lex ha ha,
    vlt_lex hb ha]
  refine ⟨?_, rfl, ?_, by simp⟩
  · rcases lt_trichotomy (List.ofFn p) (List.ofFn q) with h | h | h
    · left; simp [h, h.ne, h.le]
    · right; left; simp [h]
    · right; right; simp [h, h.ne', h.le]
  · simp only [Res.ok.injEq, decide_eq_true_eq]
    exact lt_trans

example : vLt exS (.var 0) (.var 2) = .ok true ∧ vLt exS (.var 2) (.var 1) = .ok false ∧
    vEq exS (.var 0) (.var 1) = .ok false ∧ vGe exS (.var 2) (.temp false [7]) = .ok true :=
  ⟨rfl, rfl, rfl, rfl⟩
example := vcmp_order exS_is0 exS_is1 exS_is2

end Cmp

/-! ### C11: dot and length -/

section Dot
variable {E : Type} [CommRing E] [Div E] {s : State E} {a b c : VNode E} {n m : Nat}
  {p q r : Fin n → E}

/-- C11.  `dot(a, b)` is the sum of the products. -/
theorem vdot_sum (ha : VIs s a n p) (hb : VIs s b n q) (hn : 0 < n) :
    vDot s a b = .ok (p ⬝ᵥ q) := by
  obtain ⟨f, hf⟩ := ha.known
  obtain ⟨g, hg⟩ := hb.known
  exact vDot_ok ha.rep hb.rep hf hg hn

/-- C11.  `dot` is symmetric. -/
theorem vdot_comm (ha : VIs s a n p) (hb : VIs s b n q) (hn : 0 < n) : vDot s a b = vDot s b a := by
  rw [vdot_sum ha hb hn, vdot_sum hb ha hn, dotProduct_comm]

/-- The operand `a + b`. -/
theorem VIs.add (ha : VIs s a n p) (hb : VIs s b n q) : VIs s (.bin .plus a b) n (p + q) := by
  obtain ⟨f, hf⟩ := ha.known
  obtain ⟨g, hg⟩ := hb.known
  refine ⟨⟨by rw [VNode.size]; exact ha.rep.size, fun i => ?_⟩, ?_⟩
  · have h1 := ha.rep.get i
    have h2 := hb.rep.get i
    simp only at h1 h2
    rw [VNode.get, h1, h2]
    rfl
  · exact ⟨_, hf.bin _ hg fun _ => by omega⟩

/-- The operand `a - b`. -/
theorem VIs.sub (ha : VIs s a n p) (hb : VIs s b n q) : VIs s (.bin .minus a b) n (p - q) := by
  obtain ⟨f, hf⟩ := ha.known
  obtain ⟨g, hg⟩ := hb.known
  refine ⟨⟨by rw [VNode.size]; exact ha.rep.size, fun i => ?_⟩, ?_⟩
  · have h1 := ha.rep.get i
    have h2 := hb.rep.get i
    simp only at h1 h2
    rw [VNode.get, h1, h2]
    rfl
  · exact ⟨_, hf.bin _ hg fun _ => by omega⟩

/-- The operand `a * k`. -/
theorem VIs.smul (ha : VIs s a n p) (k : E) : VIs s (.scal .mul a k) n (k • p) := by
  obtain ⟨f, hf⟩ := ha.known
  refine ⟨⟨by rw [VNode.size]; exact ha.rep.size, fun i => ?_⟩, ?_⟩
  · have h1 := ha.rep.get i
    simp only at h1
    rw [VNode.get, h1]
    simp [ScalOp.den, mul_comm]
  · exact ⟨_, hf.scal _ _⟩

/-- C11.  `dot` is bilinear: `dot(a + b, c) = dot(a, c) + dot(b, c)` and `dot(a * k, c) = k * dot(a, c)`,
and likewise in the second operand. -/
theorem vdot_bilinear (ha : VIs s a n p) (hb : VIs s b n q) (hc : VIs s c n r) (hn : 0 < n) (k : E) :
    ∃ x y z, vDot s a c = .ok x ∧ vDot s b c = .ok y ∧ vDot s a b = .ok z ∧
      vDot s (.bin .plus a b) c = .ok (x + y) ∧ vDot s (.scal .mul a k) c = .ok (k * x) ∧
      vDot s a (.bin .plus b c) = .ok (z + x) ∧ vDot s a (.scal .mul c k) = .ok (k * x) := by
  refine ⟨_, _, _, vdot_sum ha hc hn, vdot_sum hb hc hn, vdot_sum ha hb hn, ?_, ?_, ?_, ?_⟩
  · rw [vdot_sum (ha.add hb) hc hn, add_dotProduct]
  · rw [vdot_sum (ha.smul k) hc hn, smul_dotProduct, smul_eq_mul]
  · rw [vdot_sum ha (hb.add hc) hn, dotProduct_add]
  · rw [vdot_sum ha (hc.smul k) hn, dotProduct_smul, smul_eq_mul]

/-- C11.  `length_squared` is the product with itself (also for the size error of an empty vector). -/
theorem vlengthSquared_dot (ha : VIs s a n p) : vLengthSquared s a = vDot s a a := by
  obtain ⟨f, hf⟩ := ha.known
  exact vLengthSquared_eq_dot s a ha.rep hf

/-- C11.  Empty or differently sized operands raise a size error (or are rejected at compile time). -/
theorem vdot_size_error {q : Fin m → E} (ha : VIs s a n p) (hb : VIs s b m q)
    (h : n = 0 ∨ m = 0 ∨ n ≠ m) :
    ∃ er, (er = .staticAssert ∨ er = .vecMinimum ∨ er = .vecIncompatible) ∧
      vDot s a b = .throw er := by
  obtain ⟨f, hf⟩ := ha.known
  obtain ⟨g, hg⟩ := hb.known
  unfold vDot
  simp only [hf.fixed, hg.fixed, hf.chk ha.rep.size id, hg.chk hb.rep.size id, ha.rep.size, Res.ok_bind,
    checkSameSize_eq hf hg ha.rep.size hb.rep.size, checkMin, Res.require]
  by_cases h1 : (1 : Int) ≤ n
  · by_cases h2 : (1 : Int) ≤ m
    · have h3 : ¬ (n : Int) = m := by omega
      refine ⟨if f && g then .staticAssert else .vecIncompatible, ?_, ?_⟩
      · split <;> simp
      · simp [h1, h2, h3]
    · refine ⟨if g then .staticAssert else .vecMinimum, ?_, ?_⟩
      · split <;> simp
      · simp [h1, h2]
  · refine ⟨if f then .staticAssert else .vecMinimum, ?_, ?_⟩
    · split <;> simp
    · simp [h1]

example : vDot exS (.var 0) (.var 1) = .ok 32 ∧ vDot exS (.var 0) (.var 2) = .throw .vecIncompatible ∧
    vLengthSquared exS (.temp false []) = .throw .vecMinimum := ⟨rfl, rfl, rfl⟩
example := vdot_bilinear exS_is0 exS_is1 exS_is0 (by decide) 5

end Dot

section Length
variable {s : State ℝ} {a b : VNode ℝ} {n : Nat} {p q : Fin n → ℝ}

/-- C11.  `length` is the square root of `dot(a, a)`. -/
theorem vlength_sqrt (ha : VIs s a n p) (hn : 0 < n) :
    vLength s a = .ok (Real.sqrt (p ⬝ᵥ p)) := by
  rw [vLength, vlengthSquared_dot ha, vdot_sum ha ha hn]
  rfl

theorem dot_self_nonneg (p : Fin n → ℝ) : 0 ≤ p ⬝ᵥ p :=
  Finset.sum_nonneg fun i _ => mul_self_nonneg (p i)

/-- C11.  Cauchy–Schwarz and triangle inequality for the computed values; the length is non-negative and
only zero for the zero vector. -/
theorem vlength_inequalities (ha : VIs s a n p) (hb : VIs s b n q) (hn : 0 < n) :
    ∃ la lb lab d, vLength s a = .ok la ∧ vLength s b = .ok lb ∧
      vLength s (.bin .plus a b) = .ok lab ∧ vDot s a b = .ok d ∧
      |d| ≤ la * lb ∧ lab ≤ la + lb ∧ 0 ≤ la ∧ (la = 0 ↔ p = 0) := by
  have hcs : (p ⬝ᵥ q) ^ 2 ≤ (p ⬝ᵥ p) * (q ⬝ᵥ q) := by
    have := Finset.sum_mul_sq_le_sq_mul_sq Finset.univ p q
    simpa [dotProduct, sq] using this
  have h1 : |p ⬝ᵥ q| ≤ Real.sqrt (p ⬝ᵥ p) * Real.sqrt (q ⬝ᵥ q) := by
    rw [← Real.sqrt_mul (dot_self_nonneg p)]
    exact Real.abs_le_sqrt hcs
  refine ⟨_, _, _, _, vlength_sqrt ha hn, vlength_sqrt hb hn, vlength_sqrt (ha.add hb) hn,
    vdot_sum ha hb hn, h1, ?_, Real.sqrt_nonneg _, ?_⟩
  · rw [Real.sqrt_le_left (by positivity)]
    have e : (p + q) ⬝ᵥ (p + q) = p ⬝ᵥ p + 2 * (p ⬝ᵥ q) + q ⬝ᵥ q := by
      rw [add_dotProduct, dotProduct_add, dotProduct_add, dotProduct_comm q p]; ring
    rw [e, add_sq, Real.sq_sqrt (dot_self_nonneg p), Real.sq_sqrt (dot_self_nonneg q)]
    have := (abs_le.mp h1).2
    linarith
  · rw [Real.sqrt_eq_zero (dot_self_nonneg p)]
    constructor
    · intro h
      funext i
      have := (Finset.sum_eq_zero_iff_of_nonneg (fun i _ => mul_self_nonneg (p i))).mp h i
        (Finset.mem_univ i)
      simpa using this
    · rintro rfl; simp

/-- A state with a real fixed-size vector `(3, 4)` and a dynamic one `(1, 2)`. -/
noncomputable def exR : State ℝ :=
  demo [[some 3, some 4], [some 1, some 2]]
    [⟨.compiled, true, some 0, 0, 2⟩, ⟨.allocated, false, some 1, 0, 2⟩] []

theorem exR_is0 : VIs exR (.var 0) 2 ![3, 4] := ⟨⟨rfl, fun i => by fin_cases i <;> rfl⟩, typed_var_v rfl⟩
theorem exR_is1 : VIs exR (.var 1) 2 ![1, 2] := ⟨⟨rfl, fun i => by fin_cases i <;> rfl⟩, typed_var_v rfl⟩

example : vLength exR (.var 0) = .ok 5 := by
  rw [vlength_sqrt exR_is0 (by norm_num)]
  congr 1
  rw [show (![3, 4] ⬝ᵥ ![3, 4] : ℝ) = 5 ^ 2 by simp [dotProduct, Fin.sum_univ_succ]; norm_num]
  exact Real.sqrt_sq (by norm_num)
example := vlength_inequalities exR_is0 exR_is1 (by norm_num)

/-! ### C13: normalize -/

/-- C13, value-returning form: the result is a positive multiple of the vector and has length one, and
normalizing it again gives the same value. -/
theorem normalized_spec (ha : VIs s a n p) (hp : p ≠ 0) :
    ∃ b u, ∃ k : ℝ, vNormalized s a = .ok b ∧ VIs s b n u ∧ 0 < k ∧ u = k • p ∧ vLength s b = .ok 1 ∧
      ∃ c, vNormalized s b = .ok c ∧ VIs s c n u := by
  have hn : 0 < n := by
    rcases Nat.eq_zero_or_pos n with h | h
    · subst h; exact absurd (funext fun i => i.elim0) hp
    · exact h
  have hpos : 0 < p ⬝ᵥ p := lt_of_le_of_ne (dot_self_nonneg p) (by
    intro h
    apply hp
    have := (Finset.sum_eq_zero_iff_of_nonneg (fun i _ => mul_self_nonneg (p i))).mp h.symm
    funext i
    simpa using this i (Finset.mem_univ i))
  have div_is : ∀ {b : VNode ℝ} {u : Fin n → ℝ} (l : ℝ), VIs s b n u →
      VIs s (.scal .div b l) n (l⁻¹ • u) := by
    intro b u l hb
    obtain ⟨f, hf⟩ := hb.known
    refine ⟨⟨by rw [VNode.size]; exact hb.rep.size, fun i => ?_⟩, ?_⟩
    · have h1 := hb.rep.get i
      simp only at h1
      rw [VNode.get, h1]
      simp [ScalOp.den, div_eq_inv_mul]
    · exact ⟨_, hf.scal _ _⟩
  have hl := vlength_sqrt ha hn
  set l := Real.sqrt (p ⬝ᵥ p) with hldef
  have hlpos : 0 < l := Real.sqrt_pos.mpr hpos
  have hb := div_is l ha
  have hlen : vLength s (.scal .div a l) = .ok 1 := by
    rw [vlength_sqrt hb hn]
    congr 1
    have : (l⁻¹ • p) ⬝ᵥ (l⁻¹ • p) = 1 := by
      rw [smul_dotProduct, dotProduct_smul, smul_eq_mul, smul_eq_mul]
      have : l * l = p ⬝ᵥ p := Real.mul_self_sqrt hpos.le
      rw [← this]; field_simp
    rw [this, Real.sqrt_one]
  refine ⟨_, _, l⁻¹, by rw [vNormalized, hl]; rfl, hb, inv_pos.mpr hlpos, rfl, hlen, ?_⟩
  refine ⟨.scal .div (.scal .div a l) 1, by rw [vNormalized, hlen]; rfl, ?_⟩
  have := div_is 1 hb
  simpa using this

/-- C13, in-place form: the vector becomes a positive multiple of itself of length one, nothing else
changes, and normalizing again leaves every element as it is. -/
theorem normalize_spec {triv : Bool} {x : Nat} {d : VObj} (hx : s.vec x = some d)
    (ha : VIs s (.var x) n p) (hp : p ≠ 0) :
    ∃ h' u, ∃ k : ℝ, vNormalize triv s x = .ok { s with heap := h' } ∧
      VIs { s with heap := h' } (.var x) n u ∧ SameOutside d s.heap h' ∧
      0 < k ∧ u = k • p ∧ vLength { s with heap := h' } (.var x) = .ok 1 ∧
      ∃ h2, vNormalize triv { s with heap := h' } x = .ok { s with heap := h2 } ∧
        VIs { s with heap := h2 } (.var x) n u := by
  have hn : 0 < n := by
    rcases Nat.eq_zero_or_pos n with h | h
    · subst h; exact absurd (funext fun i => i.elim0) hp
    · exact h
  obtain ⟨b, u, k, e1, e2, e3, e4, e5, -⟩ := normalized_spec ha hp
  have hl := vlength_sqrt ha hn
  set l := Real.sqrt (p ⬝ᵥ p) with hldef
  obtain rfl : b = .scal .div (.var x) l := by
    rw [vNormalized, hl] at e1
    simpa using e1.symm
  obtain ⟨f, hf⟩ := ha.known
  obtain ⟨h', g1, g2, g3⟩ := scalAssign_partial (triv := triv) (o := .div) hx _ ha.rep (.val l) l rfl
    (by intro y i h; cases h)
  have hu : u = fun i => p i / l := by
    funext i
    have h1 := e2.rep.get i
    have h2 := ha.rep.get i
    simp only at h1 h2
    rw [VNode.get, h2] at h1
    simpa [ScalOp.den] using h1.symm
  have g2' : VIs { s with heap := h' } (.var x) n u := by
    refine ⟨?_, typed_var_v ha.rep.size⟩
    rw [hu]
    exact g2
  have hlen : vLength { s with heap := h' } (.var x) = .ok 1 := by
    rw [vlength_sqrt g2' hn, ← e5, vlength_sqrt e2 hn]
  obtain ⟨h2, k1, k2, k3⟩ := scalAssign_partial (triv := triv) (o := .div) (s := { s with heap := h' })
    hx _ g2'.rep (.val 1) 1 rfl (by intro y i h; cases h)
  refine ⟨h', u, k, by simp [vNormalize, hl, g1], g2', g3, e3, e4, hlen, h2,
    by simp [vNormalize, hlen, k1], ⟨?_, typed_var_v ha.rep.size⟩⟩
  have : (fun i => ScalOp.div.den (u i) 1) = u := by
    funext i; simp [ScalOp.den]
  simp only [this] at k2
  exact k2

example := normalized_spec exR_is0 (by intro h; have := congrFun h 0; norm_num at this)
example := normalize_spec (triv := true) (d := ⟨.compiled, true, some 0, 0, 2⟩) rfl exR_is0
  (by intro h; have := congrFun h 0; norm_num at this)

end Length

/-! ### C12: cross, perp_dot, triple_product -/

section Cross
variable {E : Type} [CommRing E] [Div E] {s : State E} {a b c d : VNode E} {p q r t : Fin 3 → E}

/-- C12.  `cross(a, b)` is the cross product. -/
theorem vcross_is (ha : VIs s a 3 p) (hb : VIs s b 3 q) : VIs s (.cross a b) 3 (p ⨯₃ q) := by
  obtain ⟨f, hf⟩ := ha.known
  obtain ⟨g, hg⟩ := hb.known
  exact ⟨vCross_rep ha.rep hb.rep, ⟨_, hf.cross hg⟩⟩

/-- C12.  `cross` is anticommutative, vanishes on equal operands, and is bilinear. -/
theorem vcross_bilinear (ha : VIs s a 3 p) (hb : VIs s b 3 q) (hc : VIs s c 3 r) (k : E) :
    ∃ x y : Fin 3 → E, VIs s (.cross a b) 3 x ∧ VIs s (.cross a c) 3 y ∧
      VIs s (.cross b a) 3 (-x) ∧ VIs s (.cross a a) 3 0 ∧
      VIs s (.cross a (.bin .plus b c)) 3 (x + y) ∧ VIs s (.cross a (.scal .mul b k)) 3 (k • x) ∧
      VIs s (.cross (.scal .mul a k) b) 3 (k • x) ∧
      VIs s (.cross (.bin .plus b c) a) 3 (-x + -y) := by
  refine ⟨_, _, vcross_is ha hb, vcross_is ha hc, ?_, ?_, ?_, ?_, ?_, ?_⟩
  · rw [cross_anticomm]; exact vcross_is hb ha
  · have := vcross_is ha ha; rwa [cross_self] at this
  · have := vcross_is ha (hb.add hc); rwa [map_add] at this
  · have := vcross_is ha (hb.smul k); rwa [map_smul] at this
  · have := vcross_is (ha.smul k) hb; rwa [map_smul, LinearMap.smul_apply] at this
  · have := vcross_is (hb.add hc) ha
    rwa [map_add, LinearMap.add_apply, ← cross_anticomm p q, ← cross_anticomm p r] at this

/-- C12.  `cross(a, b)` is orthogonal to both operands. -/
theorem vcross_orthogonal (ha : VIs s a 3 p) (hb : VIs s b 3 q) :
    vDot s a (.cross a b) = .ok 0 ∧ vDot s b (.cross a b) = .ok 0 := by
  rw [vdot_sum ha (vcross_is ha hb) (by decide), vdot_sum hb (vcross_is ha hb) (by decide),
    dot_self_cross, dot_cross_self]
  exact ⟨rfl, rfl⟩

/-- C12.  Lagrange's identity, in its general form and for the squared length. -/
theorem vcross_lagrange (ha : VIs s a 3 p) (hb : VIs s b 3 q) (hc : VIs s c 3 r) (hd : VIs s d 3 t) :
    ∃ ac bd ad bc aa bb ab, vDot s a c = .ok ac ∧ vDot s b d = .ok bd ∧ vDot s a d = .ok ad ∧
      vDot s b c = .ok bc ∧ vLengthSquared s a = .ok aa ∧ vLengthSquared s b = .ok bb ∧
      vDot s a b = .ok ab ∧
      vDot s (.cross a b) (.cross c d) = .ok (ac * bd - ad * bc) ∧
      vLengthSquared s (.cross a b) = .ok (aa * bb - ab * ab) := by
  have h3 : 0 < 3 := by decide
  refine ⟨_, _, _, _, _, _, _, vdot_sum ha hc h3, vdot_sum hb hd h3, vdot_sum ha hd h3,
    vdot_sum hb hc h3, (vlengthSquared_dot ha).trans (vdot_sum ha ha h3),
    (vlengthSquared_dot hb).trans (vdot_sum hb hb h3), vdot_sum ha hb h3, ?_, ?_⟩
  · rw [vdot_sum (vcross_is ha hb) (vcross_is hc hd) h3, cross_dot_cross]
  · rw [vlengthSquared_dot (vcross_is ha hb), vdot_sum (vcross_is ha hb) (vcross_is ha hb) h3,
      cross_dot_cross, dotProduct_comm q p]

/-- C12.  Jacobi identity: `a×(b×c) + b×(c×a) + c×(a×b)` has the value zero. -/
theorem vcross_jacobi (ha : VIs s a 3 p) (hb : VIs s b 3 q) (hc : VIs s c 3 r) :
    VIs s (.bin .plus (.bin .plus (.cross a (.cross b c)) (.cross b (.cross c a)))
      (.cross c (.cross a b))) 3 0 := by
  rw [← jacobi_cross p q r]
  exact ((vcross_is ha (vcross_is hb hc)).add (vcross_is hb (vcross_is hc ha))).add
    (vcross_is hc (vcross_is ha hb))

/-- C12.  Double cross product: `a×(b×c) = b(a·c) - c(a·b)`. -/
theorem vcross_double (ha : VIs s a 3 p) (hb : VIs s b 3 q) (hc : VIs s c 3 r) :
    ∃ x y u, vDot s a c = .ok x ∧ vDot s a b = .ok y ∧ VIs s (.cross a (.cross b c)) 3 u ∧
      VIs s (.bin .minus (.scal .mul b x) (.scal .mul c y)) 3 u := by
  refine ⟨_, _, _, vdot_sum ha hc (by decide), vdot_sum ha hb (by decide),
    vcross_is ha (vcross_is hb hc), ?_⟩
  rw [show p ⨯₃ (q ⨯₃ r) = (p ⬝ᵥ r) • q - (p ⬝ᵥ q) • r by
    funext i
    fin_cases i <;> simp [cross_apply, dotProduct, Fin.sum_univ_succ] <;> ring]
  exact (hb.smul _).sub (hc.smul _)

/-- C12.  Right-hand rule: `cross(e_i, e_{i+1}) = e_{i+2}` (indices modulo 3). -/
theorem vcross_right_hand (i : Fin 3) (ha : VIs s a 3 (Pi.single i 1))
    (hb : VIs s b 3 (Pi.single (i + 1) 1)) : VIs s (.cross a b) 3 (Pi.single (i + 2) 1) := by
  have := vcross_is ha hb
  rwa [show (Pi.single i 1 : Fin 3 → E) ⨯₃ (Pi.single (i + 1) 1) = Pi.single (i + 2) 1 by
    rw [cross_apply]
    funext j
    fin_cases i <;> fin_cases j <;> simp] at this

/-- C12.  `triple_product(a, b, c)` is the determinant of the rows `a`, `b`, `c`. -/
theorem vtriple_det (ha : VIs s a 3 p) (hb : VIs s b 3 q) (hc : VIs s c 3 r) :
    vTriple s a b c = .ok (Matrix.det ![p, q, r]) := by
  obtain ⟨f, hf⟩ := ha.known
  obtain ⟨g, hg⟩ := hb.known
  obtain ⟨h, hh⟩ := hc.known
  unfold vTriple
  simp [hf.fixed, hg.fixed, hh.fixed, hf.chk ha.rep.size id, hg.chk hb.rep.size id,
    hh.chk hc.rep.size id, checkSizeC, Res.require,
    vdot_sum ha (vcross_is hb hc) (by decide), triple_product_eq_det]

/-- C12.  `triple_product` is invariant under cyclic permutation and changes sign under a swap. -/
theorem vtriple_cyclic (ha : VIs s a 3 p) (hb : VIs s b 3 q) (hc : VIs s c 3 r) :
    vTriple s a b c = vTriple s b c a ∧
    ∃ x, vTriple s a b c = .ok x ∧ vTriple s b a c = .ok (-x) := by
  rw [vtriple_det ha hb hc, vtriple_det hb hc ha, vtriple_det hb ha hc]
  refine ⟨?_, _, rfl, ?_⟩
  · rw [← triple_product_eq_det, ← triple_product_eq_det, triple_product_permutation]
  · congr 1
    rw [← triple_product_eq_det, ← triple_product_eq_det]
    simp [cross_apply, dotProduct, Fin.sum_univ_succ]
    ring

/-- C12.  `perp_dot(a, b)` is the 2×2 determinant. -/
theorem vperpDot_det {p q : Fin 2 → E} (ha : VIs s a 2 p) (hb : VIs s b 2 q) :
    vPerpDot s a b = .ok (Matrix.det ![p, q]) := by
  obtain ⟨f, hf⟩ := ha.known
  obtain ⟨g, hg⟩ := hb.known
  have a0 := ha.rep.get 0
  have a1 := ha.rep.get 1
  have b0 := hb.rep.get 0
  have b1 := hb.rep.get 1
  simp only [Fin.isValue, Fin.val_zero, Fin.val_one] at a0 a1 b0 b1
  unfold vPerpDot
  simp [hf.fixed, hg.fixed, hf.chk ha.rep.size id, hg.chk hb.rep.size id, checkSizeC, Res.require, a0, a1, b0, b1]
  exact (Matrix.det_fin_two (R := E) ![p, q]).symm

/-- C12.  Operands of other sizes are rejected by `triple_product` and `perp_dot`. -/
theorem vtriple_perpDot_size_error {n m k : Nat} {p : Fin n → E} {q : Fin m → E} {r : Fin k → E}
    (ha : VIs s a n p) (hb : VIs s b m q) (hc : VIs s c k r) :
    (¬(n = 3 ∧ m = 3 ∧ k = 3) → ∃ er, (er = .staticAssert ∨ er = .vecSize) ∧
      vTriple s a b c = .throw er) ∧
    (¬(n = 2 ∧ m = 2) → ∃ er, (er = .staticAssert ∨ er = .vecSize) ∧ vPerpDot s a b = .throw er) := by
  obtain ⟨f, hf⟩ := ha.known
  obtain ⟨g, hg⟩ := hb.known
  obtain ⟨h, hh⟩ := hc.known
  constructor
  · intro hne
    unfold vTriple
    simp only [hf.fixed, hg.fixed, hh.fixed, hf.chk ha.rep.size id, hg.chk hb.rep.size id,
      hh.chk hc.rep.size id, checkSizeC, Res.require, Res.ok_bind]
    by_cases h1 : (n : Int) = 3
    · by_cases h2 : (m : Int) = 3
      · have h3 : ¬ (k : Int) = 3 := by omega
        exact ⟨if h then .staticAssert else .vecSize, by split <;> simp, by simp [h1, h2, h3]⟩
      · exact ⟨if g then .staticAssert else .vecSize, by split <;> simp, by simp [h1, h2]⟩
    · exact ⟨if f then .staticAssert else .vecSize, by split <;> simp, by simp [h1]⟩
  · intro hne
    unfold vPerpDot
    simp only [hf.fixed, hg.fixed, hf.chk ha.rep.size id, hg.chk hb.rep.size id, checkSizeC, Res.require, Res.ok_bind]
    by_cases h1 : (n : Int) = 2
    · have h3 : ¬ (m : Int) = 2 := by omega
      exact ⟨if g then .staticAssert else .vecSize, by split <;> simp, by simp [h1, h3]⟩
    · exact ⟨if f then .staticAssert else .vecSize, by split <;> simp, by simp [h1]⟩

example := vcross_lagrange exS_is0 exS_is1 exS_is1 exS_is0
example := vtriple_cyclic exS_is0 exS_is1 exS_is0
example : vTriple exS (.var 0) (.var 1) (.temp true [1, 0, 0]) = .ok (-3) ∧
    vPerpDot exS (.var 2) (.temp true [1, 2]) = .ok 6 := ⟨rfl, rfl⟩
example : VIs exS (.temp true [1, 0, 0]) 3 (Pi.single 0 1) :=
  ⟨⟨rfl, fun i => by fin_cases i <;> rfl⟩, _, VNode.Typed.temp rfl⟩

end Cross

/-! ### C77: printing -/

section Print
variable {E : Type} [Add E] [Sub E] [Mul E] [Div E] [Neg E]

/-- C77 is false: printing an empty vector reads element 0. -/
theorem vprint_empty_ub (s : State E) (f : Bool) : vPrint s (.temp f []) = .ub .oob := rfl

/-- C77 is false, also for a default-constructed dynamic vector (null pointer). -/
theorem vprint_false :
    ¬ ∀ (s : State ℤ) (a : VNode ℤ) (n : Nat) (p : Fin n → ℤ), VIs s a n p →
      ∃ l, vPrint s a = .ok l := by
  intro h
  obtain ⟨l, hl⟩ := h (vDefault (demo [] [] []) 0) (.var 0) 0 Fin.elim0
    ⟨⟨rfl, fun i => i.elim0⟩, typed_var_v rfl⟩
  have : vPrint (vDefault (demo [] [] [] : State ℤ) 0) (.var 0) = .ub .dead := rfl
  rw [this] at hl
  cases hl

/-- C77 restricted to non-empty vectors: printing reads only the elements and writes them in order with
separators between them.  Missing: empty vectors, for which it is false. -/
theorem vprint_partial {s : State E} {a : VNode E} {n : Nat} {p : Fin n → E} (ha : VIs s a n p)
    (hn : 0 < n) : vPrint s a = .ok ((List.ofFn p).map some |>.intersperse none) := by
  obtain ⟨n, rfl⟩ : ∃ k, n = k + 1 := ⟨n - 1, by omega⟩
  have h0 := ha.rep.get 0
  simp only [Fin.val_zero] at h0
  unfold vPrint
  simp only [ha.rep.size, Res.ok_bind, h0]
  have key : ∀ (m lo : Nat) (acc : List (Option E)) (l : List E), lo + m = n + 1 → l.length = m →
      (∀ i (h : i < l.length), a.get s (lo + i) = .ok l[i]) →
      Res.loop (fun i acc => do let y ← a.get s i; pure (acc ++ [none, some y])) lo m acc
        = .ok (acc ++ (l.map fun y => [none, some y]).flatten) := by
    intro m
    induction m with
    | zero =>
      intro lo acc l _ hl _
      have : l = [] := List.length_eq_zero_iff.mp hl
      subst this
      simp [Res.loop]
    | succ m ih =>
      intro lo acc l hlo hl hg
      match l, hl with
      | y :: l, hl =>
        have h1 := hg 0 (by simp)
        simp only [Nat.add_zero, List.getElem_cons_zero] at h1
        rw [Res.loop, h1, Res.ok_bind, Res.pure_eq]
        show Res.loop _ _ _ _ = _
        rw [ih (lo + 1) _ l (by omega) (by simpa using hl) (fun i hi => by
          have := hg (i + 1) (by simpa using hi)
          rw [show lo + 1 + i = lo + (i + 1) by omega, this]; simp)]
        simp
  have hr := key n 1 [some (p 0)] (List.ofFn fun i => p i.succ) (by omega) (by simp) (by
    intro i hi
    have hi' : i < n := by simpa using hi
    have := ha.rep.get ⟨i + 1, by simp only; omega⟩
    simp only at this
    rw [show 1 + i = i + 1 by omega, this]
    simp [Fin.succ])
  rw [show ((((n + 1 : Nat) : Int)) - 1).toNat = n by omega, hr]
  congr 1
  rw [List.ofFn_succ]
  generalize List.ofFn (fun i => p i.succ) = l
  generalize p 0 = x
  induction l generalizing x with
  | nil => rfl
  | cons y l ih =>
    have := ih y
    simp only [List.map_cons, List.intersperse, List.flatten_cons] at this ⊢
    simp only [List.cons_append, List.nil_append] at this ⊢
    rw [this]

example : vPrint exS (.var 2) = .ok [some 7, none, some 8] := rfl

end Print

/-! ### C14: the (vector, element) constructor -/

section Append
variable {E : Type} [Add E] [Sub E] [Mul E] [Div E] [Neg E]

/-- C14.  Assigning `(e, x1, …, xm)` to a vector of the right size stores the elements of `e` followed by
`x1, …, xm` and changes nothing else (destinations `e` may read as in C08). -/
theorem assign_append {triv : Bool} {s : State E} {x : Nat} {d : VObj} (hx : s.vec x = some d)
    {a : VNode E} {n : Nat} {p : Fin n → E} (ha : VIs s a n p) (xs : List E)
    (hsz : d.size = n + xs.length) (hw : d.Ready triv s.heap)
    (hal : a.Ahead (VAhead s d) (VDisj s d) (MDisj s d)) :
    ∃ h', vAssignAppend triv s x a xs = .ok { s with heap := h' } ∧
      VRep { s with heap := h' } (.var x) ⟨n + xs.length, Fin.append p (fun i => xs[i])⟩ ∧
      SameOutside d s.heap h' := by
  obtain ⟨h', e1, e2, e3⟩ := vAssignAppend_ok hx ha.rep hsz hw hal
  refine ⟨h', e1, ⟨?_, fun i => ?_⟩, e3⟩
  · simp [VNode.size, State.vobj, hx, hsz]
  · refine Eq.trans ?_ (e2 i)
    simp [VNode.get, State.vobj, hx]

/-- C14.  Constructing a dynamic vector from `(w.subvector(n), w[n])`, `n` the last index of `w`, rebuilds
`w`; no other memory cell changes. -/
theorem subvector_constructor {s : State E} {x y n : Nat} {p : Fin (n + 1) → E}
    (hx : s.vec x = none) (hxy : y ≠ x) (hy : VIs s (.var y) (n + 1) p)
    (hal : s.heap.fail s.heap.tick = false) (hfr : s.heap.blk s.heap.next = none) :
    ∃ s', ctor x (vAssignAppend true (vDefault s x) x (.sub (.var y) n) [p (Fin.last n)]) = .ok s' ∧
      VRep s' (.var x) ⟨n + 1, p⟩ ∧
      (∀ b, b ≠ s.heap.next → ∀ o, s'.heap.cell b o = s.heap.cell b o) := by
  have hs : VRep s (.sub (.var y) n) ⟨n, fun i => p i.castSucc⟩ := by
    refine ⟨?_, fun i => ?_⟩
    · rw [VNode.size, hy.rep.size]
      simp
    · have := hy.rep.get i.castSucc
      simp only [Fin.val_castSucc] at this
      rw [VNode.get, if_pos (by have := i.2; simp only at this; omega)]
      exact this
  obtain ⟨s', e1, e2, e3⟩ := vAssignAppend_new (xs := [p (Fin.last n)]) hx hs hxy (by simp) hal hfr
  refine ⟨s', e1, ?_, e3⟩
  have hv : appendVal ⟨n, fun i => p i.castSucc⟩ [p (Fin.last n)] = ⟨n + 1, p⟩ := by
    simp only [appendVal, List.length_singleton, VVal.mk.injEq, heq_eq_eq, true_and]
    funext i
    refine Fin.lastCases ?_ (fun j => ?_) i
    · have : (Fin.last n : Fin (n + 1)) = Fin.natAdd n (0 : Fin 1) := by ext; simp
      rw [this, Fin.append_right]
      simp
    · have : (j.castSucc : Fin (n + 1)) = Fin.castAdd 1 j := rfl
      rw [this, Fin.append_left]
      rfl
  rwa [hv] at e2

/-- The same on a concrete state: rebuilding `v1` as `v3`. -/
example : ∃ s', ctor 3 (vAssignAppend true (vDefault exS 3) 3 (.sub (.var 1) 2) [6]) = .ok s' ∧
    (VNode.var 3 : VNode ℤ).get s' 0 = .ok 4 ∧ (VNode.var 3 : VNode ℤ).get s' 2 = .ok 6 :=
  ⟨_, rfl, rfl, rfl⟩
example := subvector_constructor (s := exS) (x := 3) (y := 1) (n := 2) rfl (by decide) exS_is1 rfl rfl

end Append

#print axioms vexpr_is
#print axioms vlt_lex
#print axioms vgt_lex
#print axioms veq_iff
#print axioms vle_vge_vne
#print axioms vcmp_order
#print axioms vdot_sum
#print axioms vdot_comm
#print axioms vdot_bilinear
#print axioms vlengthSquared_dot
#print axioms vdot_size_error
#print axioms vlength_sqrt
#print axioms vlength_inequalities
#print axioms normalized_spec
#print axioms normalize_spec
#print axioms vcross_is
#print axioms vcross_bilinear
#print axioms vcross_orthogonal
#print axioms vcross_lagrange
#print axioms vcross_jacobi
#print axioms vcross_double
#print axioms vcross_right_hand
#print axioms vtriple_det
#print axioms vtriple_cyclic
#print axioms vperpDot_det
#print axioms vtriple_perpDot_size_error
#print axioms vprint_empty_ub
#print axioms vprint_false
#print axioms vprint_partial
#print axioms assign_append
#print axioms subvector_constructor

end CML
