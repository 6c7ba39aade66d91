import Verif.Model.IntProj
import Verif.Props.Fov

/-!
C129: projections with integral bounds.  C130: the named variants of the projections.
-/

namespace CML
open BMat

/-! ### C129 -/

section
variable {K : Type} [Field K]

theorem divZ_ok {a b : ℤ} (h : b ≠ 0) : divZ a b = .ok (a.tdiv b) := by simp [divZ, h]

/-- `1 / z` for integers is zero unless `z` is a unit. -/
theorem tdiv_one {z : ℤ} : (1 < |z| → (1 : ℤ).tdiv z = 0) ∧ (|z| = 1 → (1 : ℤ).tdiv z = z) := by
  constructor
  · intro h
    rcases abs_cases z with ⟨e, -⟩ | ⟨e, -⟩
    · exact Int.tdiv_eq_zero_of_lt (by norm_num) (by omega)
    · have := Int.tdiv_eq_zero_of_lt (a := 1) (b := -z) (by norm_num) (by omega)
      rw [Int.tdiv_neg] at this
      omega
  · intro h
    rcases (abs_eq (by norm_num : (0 : ℤ) ≤ 1)).1 h with rfl | rfl <;> rfl

/-- C129: what `matrix_orthographic` stores for integral bounds, in terms of the integer quotients. -/
theorem orthographicI_spec {m : BMat K} (hm : m.HasLin 4) {left right bottom top n f : ℤ}
    (hw : right ≠ left) (hh : top ≠ bottom) (hd : f ≠ n) (h : Handed) (zc : ZClip) :
    ∃ m' : BMat K, orthographicI m left right bottom top n f h zc = .ok m' ∧ m.SameShape m' ∧ m'.IdOutside 4 ∧
      ∀ x, homImage m' x =
        ![(2 * x 0 - (right + left)) * ((1 : ℤ).tdiv (right - left) : ℤ),
          (2 * x 1 - (top + bottom)) * ((1 : ℤ).tdiv (top - bottom) : ℤ),
          (match zc with
            | .negOne => (2 * viewDepth h (x 2) - (f + n)) * ((1 : ℤ).tdiv (f - n) : ℤ)
            | .zero => (viewDepth h (x 2) - n) * ((1 : ℤ).tdiv (f - n) : ℤ)), 1] := by
  have hb := (hasLin_iff m 4).1 hm
  have e1 := divZ_ok (a := 1) (sub_ne_zero.2 hw)
  have e2 := divZ_ok (a := 1) (sub_ne_zero.2 hh)
  have e3 := divZ_ok (a := 1) (sub_ne_zero.2 hd)
  have es : ((h.s : ℤ) : K) = h.s := by cases h <;> simp [Handed.s]
  generalize (1 : ℤ).tdiv (right - left) = iw at *
  generalize (1 : ℤ).tdiv (top - bottom) = ih at *
  generalize (1 : ℤ).tdiv (f - n) = id at *
  cases zc
  all_goals
    lin_run [orthographicI, checkMin44_ok hm, e1, e2, e3]
    refine ⟨⟨by simp, by simp, by simp, by simp⟩, ?_, fun x => ?_⟩
    · rw [idOutside_iff]
      intro i j _ _ hn
      simp only [bel_bset, bel_identity]
      repeat rw [if_neg (show ¬(i = _ ∧ j = _) by omega)]
    · funext j
      rw [homImage_apply]
      fin_cases j <;> simp [bel_bset, bel_identity, ← handed_mul, es] <;> ring

/-- C129: what `matrix_perspective` stores for integral bounds. -/
theorem perspectiveI_spec {m : BMat K} (hm : m.HasLin 4) {left right bottom top n f : ℤ}
    (hw : right ≠ left) (hh : top ≠ bottom) (hd : f ≠ n) (h : Handed) (zc : ZClip) :
    ∃ m' : BMat K, perspectiveI m left right bottom top n f h zc = .ok m' ∧ m.SameShape m' ∧ m'.IdOutside 4 ∧
      ∀ x, homImage m' x =
        ![(2 * n * x 0 - (right + left) * viewDepth h (x 2)) * ((1 : ℤ).tdiv (right - left) : ℤ),
          (2 * n * x 1 - (top + bottom) * viewDepth h (x 2)) * ((1 : ℤ).tdiv (top - bottom) : ℤ),
          (match zc with
            | .negOne => ((f + n) * viewDepth h (x 2) - 2 * f * n) * ((1 : ℤ).tdiv (f - n) : ℤ)
            | .zero => (f * viewDepth h (x 2) - f * n) * ((1 : ℤ).tdiv (f - n) : ℤ)), viewDepth h (x 2)] := by
  have hb := (hasLin_iff m 4).1 hm
  have e1 := divZ_ok (a := 1) (sub_ne_zero.2 hw)
  have e2 := divZ_ok (a := 1) (sub_ne_zero.2 hh)
  have e3 := divZ_ok (a := 1) (sub_ne_zero.2 hd)
  have es : ((h.s : ℤ) : K) = h.s := by cases h <;> simp [Handed.s]
  generalize (1 : ℤ).tdiv (right - left) = iw at *
  generalize (1 : ℤ).tdiv (top - bottom) = ih at *
  generalize (1 : ℤ).tdiv (f - n) = id at *
  have hs := handed_sq (K := K) h
  cases zc
  all_goals
    lin_run [perspectiveI, checkMin44_ok hm, e1, e2, e3]
    refine ⟨⟨by simp, by simp, by simp, by simp⟩, ?_, fun x => ?_⟩
    · rw [idOutside_iff]
      intro i j _ _ hn
      simp only [bel_bset, bel_identity]
      repeat rw [if_neg (show ¬(i = _ ∧ j = _) by omega)]
    · funext j
      rw [homImage_apply]
      fin_cases j <;> simp [bel_bset, bel_identity, ← handed_mul, es] <;>
        first | ring1 | (linear_combination (-(n * f * id : K)) * hs)

variable [LinearOrder K] [IsStrictOrderedRing K]

private theorem unit_of_mul {z : ℤ} (hz : z ≠ 0) (h : ((1 : ℤ).tdiv z : K) = 1 / (z : K)) : |z| = 1 := by
  by_contra hne
  have h1 : 1 < |z| := by have := Int.one_le_abs hz; omega
  rw [tdiv_one.1 h1] at h
  have hz' : (z : K) ≠ 0 := Int.cast_ne_zero.2 hz
  simp at h
  exact hz' h.symm

private theorem cast_tdiv {z : ℤ} (h : |z| = 1) : ((1 : ℤ).tdiv z : K) = 1 / (z : K) := by
  rcases (abs_eq (by norm_num : (0 : ℤ) ≤ 1)).1 h with rfl | rfl <;> norm_num

/-- C129: `matrix_orthographic` with integral bounds is the projection of the box exactly if all three sides have
length one. -/
theorem orthographicI_iff {m : BMat K} (hm : m.HasLin 4) {left right bottom top n f : ℤ}
    (hw : right ≠ left) (hh : top ≠ bottom) (hd : f ≠ n) (h : Handed) (zc : ZClip) :
    orthographicI m left right bottom top n f h zc =
        orthographic m (left : K) right bottom top n f h zc ↔
      |right - left| = 1 ∧ |top - bottom| = 1 ∧ |f - n| = 1 := by
  have hw' : (right : K) ≠ left := by exact_mod_cast hw
  have hh' : (top : K) ≠ bottom := by exact_mod_cast hh
  have hd' : (f : K) ≠ n := by exact_mod_cast hd
  constructor
  · intro he
    obtain ⟨m₁, a1, -, -, a4⟩ := orthographicI_spec (K := K) hm hw hh hd h zc
    obtain ⟨m₂, b1, -, -, b4⟩ := orthographic_spec hm hw' hh' hd' h zc
    have hmm : m₁ = m₂ := by rw [a1, b1] at he; exact Res.ok.inj he
    subst hmm
    have e := fun x => (a4 x).symm.trans (b4 x)
    have e0 := e ![0, 0, 0]
    have ex := e ![1, 1, 1]
    have w0 := congrFun e0 0
    have w1 := congrFun ex 0
    have h0 := congrFun e0 1
    have h1 := congrFun ex 1
    have d0 := congrFun e0 2
    have d1 := congrFun ex 2
    simp only [Matrix.cons_val_zero, Matrix.cons_val_one, Matrix.cons_val] at w0 w1 h0 h1 d0 d1
    refine ⟨unit_of_mul (K := K) (sub_ne_zero.2 hw) ?_, unit_of_mul (K := K) (sub_ne_zero.2 hh) ?_,
      unit_of_mul (K := K) (sub_ne_zero.2 hd) ?_⟩
    · have k : (right : K) - left ≠ 0 := sub_ne_zero.2 hw'
      push_cast
      rw [eq_div_iff k] at *
      linear_combination (w1 - w0) / 2
    · have k : (top : K) - bottom ≠ 0 := sub_ne_zero.2 hh'
      push_cast
      rw [eq_div_iff k] at *
      linear_combination (h1 - h0) / 2
    · have k : (f : K) - n ≠ 0 := sub_ne_zero.2 hd'
      have hv : viewDepth h (1 : K) * viewDepth h 1 = 1 := by cases h <;> simp [viewDepth]
      have hv0 : viewDepth h (0 : K) = 0 := by cases h <;> simp [viewDepth]
      push_cast
      cases zc
      all_goals
        simp only [hv0] at d0 d1
        rw [eq_div_iff k] at *
      · linear_combination (d1 - d0) * viewDepth h (1 : K) / 2 -
          (((1 : ℤ).tdiv (f - n) : ℤ) * ((f : K) - n) - 1) * hv
      · linear_combination (d1 - d0) * viewDepth h (1 : K) -
          (((1 : ℤ).tdiv (f - n) : ℤ) * ((f : K) - n) - 1) * hv
  · rintro ⟨u, v, w⟩
    have es : ((h.s : ℤ) : K) = h.s := by cases h <;> simp [Handed.s]
    have c1 := cast_tdiv (K := K) u
    have c2 := cast_tdiv (K := K) v
    have c3 := cast_tdiv (K := K) w
    have e1 : divR 1 ((right : K) - left) = .ok (1 / (right - left)) := by simp [divR, sub_ne_zero.2 hw']
    have e2 : divR 1 ((top : K) - bottom) = .ok (1 / (top - bottom)) := by simp [divR, sub_ne_zero.2 hh']
    have e3 : divR 1 ((f : K) - n) = .ok (1 / (f - n)) := by simp [divR, sub_ne_zero.2 hd']
    push_cast at c1 c2 c3
    simp only [orthographicI, orthographic, divZ_ok (a := 1) (sub_ne_zero.2 hw),
      divZ_ok (a := 1) (sub_ne_zero.2 hh), divZ_ok (a := 1) (sub_ne_zero.2 hd), e1, e2, e3, Res.ok_bind,
      Int.cast_mul, Int.cast_neg, Int.cast_add, Int.cast_ofNat, c1, c2, c3, es]
    cases zc <;> rfl

/-- C129: likewise `matrix_perspective`, for a frustum with `0 < n < f`. -/
theorem perspectiveI_iff {m : BMat K} (hm : m.HasLin 4) {left right bottom top n f : ℤ}
    (hw : right ≠ left) (hh : top ≠ bottom) (hn : 0 < n) (hd : n < f) (h : Handed) (zc : ZClip) :
    perspectiveI m left right bottom top n f h zc =
        perspective m (left : K) right bottom top n f h zc ↔
      |right - left| = 1 ∧ |top - bottom| = 1 ∧ |f - n| = 1 := by
  have hd := hd.ne'
  have hw' : (right : K) ≠ left := by exact_mod_cast hw
  have hh' : (top : K) ≠ bottom := by exact_mod_cast hh
  have hd' : (f : K) ≠ n := by exact_mod_cast hd
  constructor
  · intro he
    obtain ⟨m₁, a1, -, -, a4⟩ := perspectiveI_spec (K := K) hm hw hh hd h zc
    obtain ⟨m₂, b1, -, -, b4⟩ := perspective_spec hm hw' hh' hd' h zc
    have hmm : m₁ = m₂ := by rw [a1, b1] at he; exact Res.ok.inj he
    subst hmm
    have e := fun x => (a4 x).symm.trans (b4 x)
    have e0 := e ![0, 0, 0]
    have ex := e ![1, 1, 0]
    have hv0 : viewDepth h (0 : K) = 0 := by cases h <;> simp [viewDepth]
    have w0 := congrFun e0 0
    have w1 := congrFun ex 0
    have h0 := congrFun e0 1
    have h1 := congrFun ex 1
    have d0 := congrFun e0 2
    simp only [Matrix.cons_val_zero, Matrix.cons_val_one, Matrix.cons_val, hv0] at w0 w1 h0 h1 d0
    have n0 : (n : K) ≠ 0 := by exact_mod_cast hn.ne'
    have f0 : (f : K) ≠ 0 := by exact_mod_cast (show f ≠ 0 by omega)
    refine ⟨unit_of_mul (K := K) (sub_ne_zero.2 hw) ?_, unit_of_mul (K := K) (sub_ne_zero.2 hh) ?_,
      unit_of_mul (K := K) (sub_ne_zero.2 hd) ?_⟩
    · have k : (right : K) - left ≠ 0 := sub_ne_zero.2 hw'
      push_cast
      rw [eq_div_iff k] at *
      refine mul_left_cancel₀ (mul_ne_zero two_ne_zero n0) ?_
      linear_combination w1 - w0
    · have k : (top : K) - bottom ≠ 0 := sub_ne_zero.2 hh'
      push_cast
      rw [eq_div_iff k] at *
      refine mul_left_cancel₀ (mul_ne_zero two_ne_zero n0) ?_
      linear_combination h1 - h0
    · have k : (f : K) - n ≠ 0 := sub_ne_zero.2 hd'
      push_cast
      refine mul_left_cancel₀ (mul_ne_zero f0 n0) ?_
      cases zc
      all_goals
        simp only [mul_zero, zero_sub] at d0
        rw [eq_div_iff k] at d0
        rw [mul_one_div, eq_div_iff k]
      · linear_combination -d0 / 2
      · linear_combination -d0
  · rintro ⟨u, v, w⟩
    have es : ((h.s : ℤ) : K) = h.s := by cases h <;> simp [Handed.s]
    have c1 := cast_tdiv (K := K) u
    have c2 := cast_tdiv (K := K) v
    have c3 := cast_tdiv (K := K) w
    have e1 : divR 1 ((right : K) - left) = .ok (1 / (right - left)) := by simp [divR, sub_ne_zero.2 hw']
    have e2 : divR 1 ((top : K) - bottom) = .ok (1 / (top - bottom)) := by simp [divR, sub_ne_zero.2 hh']
    have e3 : divR 1 ((f : K) - n) = .ok (1 / (f - n)) := by simp [divR, sub_ne_zero.2 hd']
    push_cast at c1 c2 c3
    simp only [perspectiveI, perspective, divZ_ok (a := 1) (sub_ne_zero.2 hw),
      divZ_ok (a := 1) (sub_ne_zero.2 hh), divZ_ok (a := 1) (sub_ne_zero.2 hd), e1, e2, e3, Res.ok_bind,
      Int.cast_mul, Int.cast_neg, Int.cast_add, Int.cast_ofNat, c1, c2, c3, es]
    cases zc <;> rfl

omit [LinearOrder K] [IsStrictOrderedRing K] in
/-- C129, what happens instead: along every side of length at least two all points get the same clip coordinate
zero. -/
theorem projectionI_collapse {m : BMat K} (hm : m.HasLin 4) {left right bottom top n f : ℤ}
    (hw : right ≠ left) (hh : top ≠ bottom) (hd : f ≠ n) (h : Handed) (zc : ZClip) :
    ∃ mo mp : BMat K, orthographicI m left right bottom top n f h zc = .ok mo ∧
      perspectiveI m left right bottom top n f h zc = .ok mp ∧ ∀ x,
      (1 < |right - left| → homImage mo x 0 = 0 ∧ homImage mp x 0 = 0) ∧
      (1 < |top - bottom| → homImage mo x 1 = 0 ∧ homImage mp x 1 = 0) ∧
      (1 < |f - n| → homImage mo x 2 = 0 ∧ homImage mp x 2 = 0) := by
  obtain ⟨mo, a1, -, -, a4⟩ := orthographicI_spec (K := K) hm hw hh hd h zc
  obtain ⟨mp, b1, -, -, b4⟩ := perspectiveI_spec (K := K) hm hw hh hd h zc
  refine ⟨mo, mp, a1, b1, fun x => ?_⟩
  rw [a4, b4]
  refine ⟨fun hz => ?_, fun hz => ?_, fun hz => ?_⟩ <;> cases zc <;> simp [tdiv_one.1 hz]

private theorem half_facts (w : ℤ) : (|w| < 2 → w.tdiv 2 - -w.tdiv 2 = 0) ∧
    (2 ≤ |w| → w.tdiv 2 ≠ -w.tdiv 2 ∧ 1 < |w.tdiv 2 - -w.tdiv 2|) := by
  have key : 0 ≤ w ∨ w < 0 := le_or_gt 0 w
  constructor
  · intro h
    have : w = 0 ∨ w = 1 ∨ w = -1 := by rw [abs_lt] at h; omega
    rcases this with rfl | rfl | rfl <;> rfl
  · intro h
    have hb : 1 ≤ w.tdiv 2 ∨ w.tdiv 2 ≤ -1 := by
      rcases abs_cases w with ⟨e, p⟩ | ⟨e, p⟩
      · left
        rw [Int.tdiv_eq_ediv_of_nonneg p]
        omega
      · right
        obtain ⟨v, rfl⟩ : ∃ v, w = -v := ⟨-w, by ring⟩
        rw [Int.neg_tdiv, Int.tdiv_eq_ediv_of_nonneg (by omega)]
        omega
    rw [lt_abs]
    omega

omit [LinearOrder K] [IsStrictOrderedRing K] in
/-- C129: given by integral width and height, the projections divide by zero if one of them is less than two in
absolute value, and otherwise send every point to the clip coordinates `x = y = 0`. -/
theorem projectionWHI_false {m : BMat K} (hm : m.HasLin 4) (width height n f : ℤ) (h : Handed) (zc : ZClip) :
    (|width| < 2 ∨ |height| < 2 ∨ f = n →
      (orthographicWHI m width height n f h zc = .ub .divZero ∧
        perspectiveWHI m width height n f h zc = .ub .divZero)) ∧
    (2 ≤ |width| → 2 ≤ |height| → f ≠ n →
      ∃ mo mp : BMat K, orthographicWHI m width height n f h zc = .ok mo ∧
        perspectiveWHI m width height n f h zc = .ok mp ∧
        ∀ x, homImage mo x 0 = 0 ∧ homImage mo x 1 = 0 ∧ homImage mp x 0 = 0 ∧ homImage mp x 1 = 0) := by
  have d2 : ∀ w : ℤ, divZ w 2 = .ok (w.tdiv 2) := fun w => divZ_ok (by norm_num)
  simp only [orthographicWHI, perspectiveWHI, d2, Res.ok_bind]
  constructor
  · intro hz
    simp only [orthographicI, perspectiveI, checkMin44_ok hm, Res.ok_bind, divZ]
    by_cases a : |width| < 2
    · simp [(half_facts width).1 a]
    · have a' := (half_facts width).2 (by omega)
      by_cases b : |height| < 2
      · simp [(half_facts height).1 b]
        split_ifs <;> simp
      · have c : f = n := by tauto
        simp [c]
        split_ifs <;> simp
  · intro hw hh hd
    obtain ⟨mo, mp, e1, e2, e3⟩ := projectionI_collapse (K := K) hm ((half_facts width).2 hw).1
      ((half_facts height).2 hh).1 hd h zc
    exact ⟨mo, mp, e1, e2, fun x => ⟨((e3 x).1 ((half_facts width).2 hw).2).1,
      ((e3 x).2.1 ((half_facts height).2 hh).2).1, ((e3 x).1 ((half_facts width).2 hw).2).2,
      ((e3 x).2.1 ((half_facts height).2 hh).2).2⟩⟩

omit [LinearOrder K] [IsStrictOrderedRing K] in
/-- C129: given by an integral field of view, the projections never return anything but a matrix that sends every
point to the clip coordinates `x = y = 0`, whatever the tangents are. -/
theorem perspectiveFovI_false (tan : ℤ → ℤ) {m m' : BMat K} (hm : m.HasLin 4) (fov aspect n f : ℤ) (h : Handed)
    (zc : ZClip) (hr : perspectiveXfovI tan m fov aspect n f h zc = .ok m' ∨
      perspectiveYfovI tan m fov aspect n f h zc = .ok m') :
    ∀ x, homImage m' x 0 = 0 ∧ homImage m' x 1 = 0 := by
  have key : ∀ w k : ℤ, perspectiveWHI m w k n f h zc = .ok m' →
      ∀ x, homImage m' x 0 = 0 ∧ homImage m' x 1 = 0 := by
    intro w k e
    have := projectionWHI_false (K := K) hm w k n f h zc
    by_cases c : |w| < 2 ∨ |k| < 2 ∨ f = n
    · rw [(this.1 c).2] at e
      cases e
    · simp only [not_or, not_lt] at c
      obtain ⟨_, mp, -, e2, e3⟩ := this.2 c.1 c.2.1 c.2.2
      rw [e2] at e
      injection e with e
      subst e
      exact fun x => ⟨(e3 x).2.2.1, (e3 x).2.2.2⟩
  have d2 : ∀ w : ℤ, divZ w 2 = .ok (w.tdiv 2) := fun w => divZ_ok (by norm_num)
  rcases hr with hr | hr
  · simp only [perspectiveXfovI, d2, Res.ok_bind] at hr
    by_cases ha : aspect = 0
    · rw [divZ, if_pos ha] at hr
      cases hr
    · rw [divZ_ok ha] at hr
      exact key _ _ hr
  · simp only [perspectiveYfovI, d2, Res.ok_bind] at hr
    exact key _ _ hr

/-- C129, the part that holds: bounds of a unit box (and, for perspectives, a unit frustum) may be integers.
Missing: every other box; see the theorems above. -/
theorem projectionI_partial {m : BMat K} (hm : m.HasLin 4) {left bottom n : ℤ} (h : Handed) (zc : ZClip) :
    orthographicI m left (left + 1) bottom (bottom + 1) n (n + 1) h zc =
        orthographic m (left : K) ((left + 1 : ℤ)) bottom ((bottom + 1 : ℤ)) n ((n + 1 : ℤ)) h zc ∧
      (0 < n → perspectiveI m left (left + 1) bottom (bottom + 1) n (n + 1) h zc =
        perspective m (left : K) ((left + 1 : ℤ)) bottom ((bottom + 1 : ℤ)) n ((n + 1 : ℤ)) h zc) := by
  constructor
  · exact (orthographicI_iff hm (by omega) (by omega) (by omega) h zc).2 (by simp)
  · intro hn
    exact (perspectiveI_iff hm (by omega) (by omega) hn (by omega) h zc).2 (by simp)

/-- The usual 640 × 480 pixel projection, with integers and with numbers. -/
example : ∃ mo : BMat ℚ, orthographicI (⟨⟨4, 4, fun _ _ => 0⟩, .col, true⟩ : BMat ℚ) 0 640 480 0 (-1) 1 .right
    .negOne = .ok mo ∧ ∀ x, homImage mo x 0 = 0 ∧ homImage mo x 1 = 0 ∧ homImage mo x 2 = 0 := by
  obtain ⟨mo, _, e1, -, e3⟩ := projectionI_collapse (K := ℚ) (m := ⟨⟨4, 4, fun _ _ => 0⟩, .col, true⟩)
    (by simp [hasLin_iff, BMat.bcount, BMat.bsize]) (left := 0) (right := 640)
    (bottom := 480) (top := 0) (n := -1) (f := 1) (by decide) (by decide) (by decide) .right .negOne
  exact ⟨mo, e1, fun x => ⟨((e3 x).1 (by decide)).1, ((e3 x).2.1 (by decide)).1, ((e3 x).2.2 (by decide)).1⟩⟩

end

/-! ### C130 -/

section
variable {K : Type} [Field K] [LinearOrder K] [IsStrictOrderedRing K]

/-- The mirror image of a point in the plane `z = 0`. -/
def mirrorZ (x : Fin 3 → K) : Fin 3 → K := ![x 0, x 1, -x 2]

private theorem depth_mirror (x : Fin 3 → K) : viewDepth .left (mirrorZ x 2) = viewDepth .right (x 2) := by
  simp [viewDepth, mirrorZ]

/-- C130: the right-handed projections map a point to where the left-handed ones map its mirror image; both exist
for a box that is not degenerate. -/
theorem projection_mirror {m : BMat K} (hm : m.HasLin 4) {left right bottom top n f : K}
    (hw : right ≠ left) (hh : top ≠ bottom) (hd : f ≠ n) (zc : ZClip) :
    (∃ mL mR, orthographicLH m left right bottom top n f zc = .ok mL ∧
      orthographicRH m left right bottom top n f zc = .ok mR ∧ ∀ x, homImage mR x = homImage mL (mirrorZ x)) ∧
    (∃ mL mR, perspectiveLH m left right bottom top n f zc = .ok mL ∧
      perspectiveRH m left right bottom top n f zc = .ok mR ∧ ∀ x, homImage mR x = homImage mL (mirrorZ x)) := by
  constructor
  · obtain ⟨mL, a1, -, -, a4⟩ := orthographic_spec hm hw hh hd .left zc
    obtain ⟨mR, b1, -, -, b4⟩ := orthographic_spec hm hw hh hd .right zc
    refine ⟨mL, mR, a1, b1, fun x => ?_⟩
    rw [a4, b4, depth_mirror]
    rfl
  · obtain ⟨mL, a1, -, -, a4⟩ := perspective_spec hm hw hh hd .left zc
    obtain ⟨mR, b1, -, -, b4⟩ := perspective_spec hm hw hh hd .right zc
    refine ⟨mL, mR, a1, b1, fun x => ?_⟩
    rw [a4, b4, depth_mirror]
    rfl

private theorem half_ne {w : K} (h : w ≠ 0) : w / 2 ≠ -(w / 2) := by
  intro e
  exact h (by linarith)

/-- C130: the symmetric versions are those of the box centred at the view axis, and mirror images likewise. -/
theorem projectionWH_mirror {m : BMat K} (hm : m.HasLin 4) {width height n f : K}
    (hw : width ≠ 0) (hh : height ≠ 0) (hd : f ≠ n) (zc : ZClip) :
    (orthographicWHLH m width height n f zc =
        orthographicLH m (-(width / 2)) (width / 2) (-(height / 2)) (height / 2) n f zc ∧
      orthographicWHRH m width height n f zc =
        orthographicRH m (-(width / 2)) (width / 2) (-(height / 2)) (height / 2) n f zc ∧
      perspectiveWHLH m width height n f zc =
        perspectiveLH m (-(width / 2)) (width / 2) (-(height / 2)) (height / 2) n f zc ∧
      perspectiveWHRH m width height n f zc =
        perspectiveRH m (-(width / 2)) (width / 2) (-(height / 2)) (height / 2) n f zc) ∧
    (∃ mL mR, orthographicWHLH m width height n f zc = .ok mL ∧
      orthographicWHRH m width height n f zc = .ok mR ∧ ∀ x, homImage mR x = homImage mL (mirrorZ x)) ∧
    (∃ mL mR, perspectiveWHLH m width height n f zc = .ok mL ∧
      perspectiveWHRH m width height n f zc = .ok mR ∧ ∀ x, homImage mR x = homImage mL (mirrorZ x)) := by
  have e : orthographicWHLH m width height n f zc =
        orthographicLH m (-(width / 2)) (width / 2) (-(height / 2)) (height / 2) n f zc ∧
      orthographicWHRH m width height n f zc =
        orthographicRH m (-(width / 2)) (width / 2) (-(height / 2)) (height / 2) n f zc ∧
      perspectiveWHLH m width height n f zc =
        perspectiveLH m (-(width / 2)) (width / 2) (-(height / 2)) (height / 2) n f zc ∧
      perspectiveWHRH m width height n f zc =
        perspectiveRH m (-(width / 2)) (width / 2) (-(height / 2)) (height / 2) n f zc :=
    ⟨orthographicWH_eq .., orthographicWH_eq .., perspectiveWH_eq .., perspectiveWH_eq ..⟩
  refine ⟨e, ?_⟩
  rw [e.1, e.2.1, e.2.2.1, e.2.2.2]
  exact projection_mirror hm (half_ne hw) (half_ne hh) hd zc

/-- C130: a symmetric perspective determines the width and the height it was made from. -/
theorem perspectiveWH_inj {m : BMat K} (hm : m.HasLin 4) {w₁ h₁ w₂ h₂ n f : K} (hw₁ : w₁ ≠ 0) (hh₁ : h₁ ≠ 0)
    (hw₂ : w₂ ≠ 0) (hh₂ : h₂ ≠ 0) (hn : n ≠ 0) (hd : f ≠ n) (h : Handed) (zc : ZClip) :
    perspectiveWH m w₁ h₁ n f h zc = perspectiveWH m w₂ h₂ n f h zc ↔ w₁ = w₂ ∧ h₁ = h₂ := by
  constructor
  · intro he
    rw [perspectiveWH_eq, perspectiveWH_eq] at he
    obtain ⟨m₁, a1, -, -, a4⟩ := perspective_spec hm (half_ne hw₁) (half_ne hh₁) hd h zc
    obtain ⟨m₂, b1, -, -, b4⟩ := perspective_spec hm (half_ne hw₂) (half_ne hh₂) hd h zc
    have hmm : m₁ = m₂ := by rw [a1, b1] at he; exact Res.ok.inj he
    subst hmm
    have e := (a4 ![1, 1, 0]).symm.trans (b4 ![1, 1, 0])
    have hv0 : viewDepth h (0 : K) = 0 := by cases h <;> simp [viewDepth]
    have e0 := congrFun e 0
    have e1 := congrFun e 1
    simp only [Matrix.cons_val_zero, Matrix.cons_val_one, Matrix.cons_val, hv0, mul_zero, sub_zero, mul_one,
      sub_neg_eq_add, add_halves] at e0 e1
    have k : 2 * n ≠ 0 := mul_ne_zero two_ne_zero hn
    constructor
    · rw [div_eq_div_iff hw₁ hw₂] at e0
      exact (mul_left_cancel₀ k e0).symm
    · rw [div_eq_div_iff hh₁ hh₂] at e1
      exact (mul_left_cancel₀ k e1).symm
  · rintro ⟨rfl, rfl⟩
    rfl

end

/-- C130: the horizontal field of view `xfov` and the vertical one `yfov` describe the same projection exactly if
`tan(xfov/2) = aspect * tan(yfov/2)`. -/
theorem perspectiveFov_agree {m : BMat ℝ} (hm : m.HasLin 4) {xfov yfov aspect n f : ℝ}
    (hx : Real.tan (xfov / 2) ≠ 0) (hy : Real.tan (yfov / 2) ≠ 0) (ha : aspect ≠ 0) (hn : n ≠ 0) (hd : f ≠ n)
    (h : Handed) (zc : ZClip) :
    perspectiveXfov m xfov aspect n f h zc = perspectiveYfov m yfov aspect n f h zc ↔
      Real.tan (xfov / 2) = aspect * Real.tan (yfov / 2) := by
  have k : 2 * n ≠ 0 := mul_ne_zero two_ne_zero hn
  have ex : perspectiveXfov m xfov aspect n f h zc = perspectiveWH m (2 * n * Real.tan (xfov / 2))
      (2 * n * Real.tan (xfov / 2) / aspect) n f h zc := by simp [perspectiveXfov, divR, ha]
  have ey : perspectiveYfov m yfov aspect n f h zc = perspectiveWH m (2 * n * Real.tan (yfov / 2) * aspect)
      (2 * n * Real.tan (yfov / 2)) n f h zc := rfl
  rw [ex, ey, perspectiveWH_inj hm (mul_ne_zero k hx) (div_ne_zero (mul_ne_zero k hx) ha)
    (mul_ne_zero (mul_ne_zero k hy) ha) (mul_ne_zero k hy) hn hd]
  constructor
  · rintro ⟨e, -⟩
    apply mul_left_cancel₀ k
    linarith
  · intro e
    rw [e]
    constructor
    · ring
    · field_simp

/-- C130: the versions with a field of view are mirror images, too. -/
theorem perspectiveFov_mirror {m : BMat ℝ} (hm : m.HasLin 4) {fov aspect n f : ℝ}
    (ht : Real.tan (fov / 2) ≠ 0) (ha : aspect ≠ 0) (hn : n ≠ 0) (hd : f ≠ n) (zc : ZClip) :
    (∃ mL mR, perspectiveXfovLH m fov aspect n f zc = .ok mL ∧ perspectiveXfovRH m fov aspect n f zc = .ok mR ∧
      ∀ x, homImage mR x = homImage mL (mirrorZ x)) ∧
    (∃ mL mR, perspectiveYfovLH m fov aspect n f zc = .ok mL ∧ perspectiveYfovRH m fov aspect n f zc = .ok mR ∧
      ∀ x, homImage mR x = homImage mL (mirrorZ x)) := by
  have k : 2 * n ≠ 0 := mul_ne_zero two_ne_zero hn
  constructor
  · have e : ∀ h, perspectiveXfov m fov aspect n f h zc = perspectiveWH m (2 * n * Real.tan (fov / 2))
        (2 * n * Real.tan (fov / 2) / aspect) n f h zc := fun h => by simp [perspectiveXfov, divR, ha]
    rw [perspectiveXfovLH, perspectiveXfovRH, e, e]
    exact (projectionWH_mirror hm (mul_ne_zero k ht) (div_ne_zero (mul_ne_zero k ht) ha) hd zc).2.2
  · exact (projectionWH_mirror hm (mul_ne_zero (mul_ne_zero k ht) ha) (mul_ne_zero k ht) hd zc).2.2

/-- A field of view of 90 degrees in both directions for the aspect ratio 1. -/
example (m : BMat ℝ) (hm : m.HasLin 4) : perspectiveXfov m (Real.pi / 2) 1 1 10 .right .negOne =
    perspectiveYfov m (Real.pi / 2) 1 1 10 .right .negOne := by
  have ht : Real.tan (Real.pi / 2 / 2) = 1 := by
    rw [show Real.pi / 2 / 2 = Real.pi / 4 by ring, Real.tan_pi_div_four]
  refine (perspectiveFov_agree hm ?_ ?_ ?_ ?_ ?_ .right .negOne).2 ?_ <;> norm_num [ht]

example : ∃ m : BMat ℝ, m.HasLin 4 :=
  ⟨⟨⟨4, 4, fun _ _ => 0⟩, .col, true⟩, by simp [hasLin_iff, BMat.bcount, BMat.bsize]⟩

end CML

#print axioms CML.orthographicI_spec
#print axioms CML.perspectiveI_spec
#print axioms CML.orthographicI_iff
#print axioms CML.perspectiveI_iff
#print axioms CML.projectionI_collapse
#print axioms CML.projectionWHI_false
#print axioms CML.perspectiveFovI_false
#print axioms CML.projectionI_partial
#print axioms CML.projection_mirror
#print axioms CML.projectionWH_mirror
#print axioms CML.perspectiveWH_inj
#print axioms CML.perspectiveFov_agree
#print axioms CML.perspectiveFov_mirror
