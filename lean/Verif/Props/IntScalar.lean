import Verif.Model.IntScalar
import Verif.Lemmas.Mixed
import Verif.Props.Scalar
import Verif.Tactics

/-!
C128: `wrap` and `map_range` for integral types.
-/

namespace CML
open ETy

private theorem intOp_of_ok {o : AOp} {t : ETy} {a b z : ℤ}
    (h : o.apply t t (.int a : Num ℚ) (.int b) = .ok (.int z)) : intOp o t a b = .ok z := by
  simp only [intOp, h, Res.ok_bind]

private theorem intOp_ok {o : AOp} (ho : o ≠ .div) {t : ETy} (ht : t ≠ .real) {a b : ℤ} (ha : t.InRange a)
    (hb : t.InRange b) (h : t.InRange (o.z a b)) : intOp o t a b = .ok (o.z a b) := by
  refine intOp_of_ok (apply_ok ho ht ht ha hb ?_)
  rwa [common_self]

theorem round53_small {n : Nat} (h : n ≤ 2 ^ 53) : round53 n = n := by
  rcases h.lt_or_eq with h | rfl
  · have hk : n.log2 + 1 - 53 = 0 := by
      by_cases h0 : n = 0
      · subst h0; rfl
      · have := (Nat.log2_lt h0).2 h
        omega
    unfold round53
    simp only [hk]
    simp [Nat.mod_one]
  · decide +kernel

/-- Integers of at most 53 bits are represented exactly. -/
theorem toDouble_small {v : ℤ} (h : |v| ≤ 2 ^ 53) : toDouble v = v := by
  have : v.natAbs ≤ 2 ^ 53 := by
    have := Int.abs_eq_natAbs v
    zify
    omega
  rw [toDouble, round53_small this, Int.sign_mul_natAbs]

private theorem tmod_facts {d w : ℤ} (hw : 0 < w) :
    (0 ≤ d → 0 ≤ d.tmod w ∧ d.tmod w ≤ d) ∧ (d ≤ 0 → d.tmod w ≤ 0 ∧ d ≤ d.tmod w) ∧
      -w < d.tmod w ∧ d.tmod w < w ∧ (if d.tmod w < 0 then d.tmod w + w else d.tmod w) = d % w := by
  have a : ∀ e : ℤ, 0 ≤ e → 0 ≤ e.tmod w ∧ e.tmod w ≤ e := by
    intro e he
    refine ⟨Int.tmod_nonneg w he, ?_⟩
    rw [Int.tmod_eq_emod_of_nonneg he, Int.emod_def]
    have := Int.mul_nonneg hw.le (Int.ediv_nonneg he hw.le)
    omega
  have l1 := Int.lt_tmod_of_pos d hw
  have l2 := Int.tmod_lt_of_pos d hw
  refine ⟨a d, fun h => ?_, l1, l2, ?_⟩
  · have := a (-d) (by omega)
    rw [Int.neg_tmod] at this
    omega
  · have e := Int.tmod_add_mul_tdiv d w
    have e2 : d % w = (d.tmod w) % w := by
      conv_lhs => rw [← e]
      simp
    rw [e2]
    split_ifs with h
    · rw [← Int.emod_eq_of_lt (a := d.tmod w + w) (b := w) (by omega) (by omega)]
      simp
    · rw [Int.emod_eq_of_lt (by omega) l2]

private theorem lo_le {t : ETy} (ht : t ≠ .real) : t.lo ≤ 0 ∧ 0 ≤ t.hi := by
  cases t <;> first | contradiction | decide

private theorem wrapI_core {t : ETy} (ht : t ≠ .real) {v lo hi W D : ℤ} (hl : t.InRange lo)
    (e1 : intOp .sub t hi lo = .ok W) (e2 : intOp .sub t v lo = .ok D) (hW : 0 < W) (rW : t.InRange W)
    (rD : t.InRange D) (bW : W ≤ 2 ^ 53) (bD : |D| ≤ 2 ^ 53) (hr : t.InRange (lo + D % W)) :
    wrapI t v lo hi = .ok (lo + D % W) := by
  obtain ⟨f1, f2, f3, f4, f5⟩ := tmod_facts (d := D) hW
  have hz := lo_le ht
  have rq : t.InRange (D.tmod W) := by
    rcases le_total 0 D with h | h
    · exact ⟨by have := f1 h; omega, by have := rW.2; omega⟩
    · exact ⟨by have := f2 h; have := rD.1; omega, by have := f2 h; omega⟩
  have hm := Int.emod_nonneg D hW.ne'
  have hm' := Int.emod_lt_of_pos D hW
  have dW : toDouble W = W := toDouble_small (by rw [abs_of_pos hW]; exact bW)
  have e3 : fmodI t D W = .ok (D.tmod W) := by
    rw [fmodI, dW, toDouble_small bD, if_neg hW.ne']
    exact if_pos rq
  have rm : t.InRange (D % W) := ⟨by omega, by have := rW.2; omega⟩
  have e5 : intOp .add t lo (D % W) = .ok (lo + D % W) := intOp_ok (o := .add) (by decide) ht hl rm hr
  simp only [wrapI, e1, e2, e3, Res.ok_bind]
  split_ifs at f5 ⊢ with h
  · have e4 : intOp .add t (D.tmod W) W = .ok (D.tmod W + W) :=
      intOp_ok (o := .add) (by decide) ht rq rW (show t.InRange (D.tmod W + W) by rw [f5]; exact rm)
    rw [e4, Res.ok_bind, f5, e5]
  · rw [f5, e5]

/-- C128: `wrap` on an integral type is the representative of `value` in `[min, max)`, if the width of the range and
the distance of the value from `min` fit into the type and have at most 53 bits.  Missing: the other arguments, for
which it is false; see the theorems below. -/
theorem wrapI_partial {t : ETy} (ht : t ≠ .real) {v lo hi : ℤ} (hv : t.InRange v) (hl : t.InRange lo)
    (hh : t.InRange hi) (hlt : lo < hi) (hw : t.InRange (hi - lo)) (hd : t.InRange (v - lo))
    (bw : hi - lo ≤ 2 ^ 53) (bd : |v - lo| ≤ 2 ^ 53) :
    ∃ r, wrapI t v lo hi = .ok r ∧ lo ≤ r ∧ r < hi ∧ r ≡ v [ZMOD hi - lo] := by
  have w0 : 0 < hi - lo := by omega
  have hm := Int.emod_nonneg (v - lo) w0.ne'
  have hm' := Int.emod_lt_of_pos (v - lo) w0
  refine ⟨_, wrapI_core (W := hi - lo) (D := v - lo) ht hl (intOp_ok (o := .sub) (by decide) ht hh hl hw)
    (intOp_ok (o := .sub) (by decide) ht hv hl hd) w0 hw hd bw bd ?_, ?_, ?_, ?_⟩
  · exact ⟨by have := hl.1; omega, by have := hh.2; omega⟩
  · omega
  · omega
  · have : lo + (v - lo) % (hi - lo) ≡ lo + (v - lo) [ZMOD hi - lo] :=
      Int.ModEq.add_left _ (Int.mod_modEq _ _)
    simpa using this

/-- An angle in degrees. -/
example : ∃ r, wrapI .i32 (-725) (-180) 180 = .ok r ∧ -180 ≤ r ∧ r < 180 ∧ r ≡ -725 [ZMOD 360] :=
  wrapI_partial (by decide) (by decide) (by decide) (by decide) (by decide) (by decide) (by decide) (by decide)
    (by decide)

private theorem apply_overflow {o : AOp} (ho : o ≠ .div) {t : ETy} (ht : t = .i32 ∨ t = .i64) {a b : ℤ}
    (ha : t.InRange a) (hb : t.InRange b) (h : ¬t.InRange (o.z a b)) : intOp o t a b = .ub .overflow := by
  have hr : t ≠ .real := by rcases ht with rfl | rfl <;> decide
  have harith : t.arith t = t := by rcases ht with rfl | rfl <;> rfl
  have hsig : t.signed = true := by rcases ht with rfl | rfl <;> rfl
  have : o.apply t t (.int a : Num ℚ) (.int b) = .ub .overflow := by
    unfold AOp.apply AOp.builtin
    rw [harith, conv_int hr, conv_int hr, wrap_of_range hr ha, wrap_of_range hr hb]
    simp only [Res.ok_bind]
    rw [raw_int _ _ _ (Or.inl ho), result_signed hsig, if_neg h]
    rfl
  simp only [intOp, this, Res.ub_bind]

/-- C128: for `int` and 64-bit integers a range or a distance that is too wide is undefined. -/
theorem wrapI_overflow {t : ETy} (ht : t = .i32 ∨ t = .i64) {v lo hi : ℤ} (hv : t.InRange v) (hl : t.InRange lo)
    (hh : t.InRange hi) (h : ¬t.InRange (hi - lo) ∨ ¬t.InRange (v - lo)) :
    wrapI t v lo hi = .ub .overflow := by
  have hr : t ≠ .real := by rcases ht with rfl | rfl <;> decide
  by_cases hw : t.InRange (hi - lo)
  · have e1 : intOp .sub t hi lo = .ok (hi - lo) := intOp_ok (o := .sub) (by decide) hr hh hl hw
    have e2 : intOp .sub t v lo = .ub .overflow :=
      apply_overflow (o := .sub) (by decide) ht hv hl (h.resolve_left (not_not.2 hw))
    simp only [wrapI, e1, e2, Res.ok_bind, Res.ub_bind]
  · have e1 : intOp .sub t hi lo = .ub .overflow := apply_overflow (o := .sub) (by decide) ht hh hl hw
    simp only [wrapI, e1, Res.ub_bind]

/-- C128: for `int`, `wrap` over a non-empty range is defined exactly if both differences fit. -/
theorem wrapI_int_iff {v lo hi : ℤ} (hv : ETy.i32.InRange v) (hl : ETy.i32.InRange lo) (hh : ETy.i32.InRange hi)
    (hlt : lo < hi) : (∃ r, wrapI .i32 v lo hi = .ok r) ↔
      ETy.i32.InRange (hi - lo) ∧ ETy.i32.InRange (v - lo) := by
  constructor
  · rintro ⟨r, hr⟩
    by_contra h
    rw [wrapI_overflow (Or.inl rfl) hv hl hh (by tauto)] at hr
    cases hr
  · rintro ⟨hw, hd⟩
    have b1 : hi - lo ≤ 2 ^ 53 := by have := hw.2; simp [ETy.hi, bits, signed] at this; omega
    have b2 : |v - lo| ≤ 2 ^ 53 := by
      have := hd.1
      have := hd.2
      simp [ETy.lo, ETy.hi, bits, signed] at *
      rw [abs_le]
      constructor <;> omega
    obtain ⟨r, h, -⟩ := wrapI_partial (t := .i32) (by decide) hv hl hh hlt hw hd b1 b2
    exact ⟨r, h⟩

private theorem intOp_sub_unsigned {t : ETy} (ht : t ≠ .real) (hs : t.signed = false) {v lo : ℤ}
    (hv : t.InRange v) (hl : t.InRange lo) (h : v < lo) : intOp .sub t v lo = .ok (v - lo + 2 ^ t.bits) := by
  have hz : (AOp.sub).z v lo = v - lo := rfl
  have key : t.InRange (v - lo + 2 ^ t.bits) := by
    cases t <;> first
      | contradiction
      | (simp [ETy.signed] at hs; done)
      | (simp only [ETy.InRange, ETy.lo, ETy.hi, signed, bits] at *
         simp only [Bool.false_eq_true, if_false] at *
         constructor <;> omega)
  have hA : ∃ w, AOp.sub.builtin t t (.int v : Num ℚ) (.int lo) = .ok (.int w) ∧
      w ≡ v - lo [ZMOD 2 ^ t.bits] := by
    by_cases hsa : (t.arith t).signed = true
    · have hb : (t.arith t).InRange (v - lo) := by
        cases t <;> first
          | contradiction
          | (simp [arith, promote, bits, signed] at hsa; done)
          | (rw [show arith _ _ = ETy.i32 from rfl]
             simp only [ETy.InRange, ETy.lo, ETy.hi, signed, bits] at *
             simp only [Bool.false_eq_true, if_false, if_true] at *
             constructor <;> omega)
      exact ⟨_, builtin_ok (o := .sub) (by decide) ht ht hv hl hb, Int.ModEq.refl _⟩
    · have hsa' : (t.arith t).signed = false := by simpa using hsa
      have hat : t.arith t = t := by
        have := arith_unsigned ht ht hsa'
        rw [common_self] at this
        exact this.symm
      refine ⟨t.wrap (v - lo), ?_, wrap_modEq ht _⟩
      unfold AOp.builtin
      rw [hat, conv_int ht, conv_int ht, wrap_of_range ht hv, wrap_of_range ht hl]
      simp only [Res.ok_bind]
      rw [raw_int _ _ _ (Or.inl (by decide)), result_unsigned hs]
      rfl
  obtain ⟨w, hb, hw⟩ := hA
  refine intOp_of_ok ?_
  unfold AOp.apply
  rw [hb, Res.ok_bind, common_self, conv_int ht]
  congr 2
  refine range_unique ht (wrap_range ht _) key ?_
  refine ((wrap_modEq ht w).trans hw).trans ?_
  simp [Int.ModEq]

/-- C128: for unsigned types of up to 32 bits a value below `min` is wrapped around the type first; the result is in
`[min, max)`, but congruent to the value exactly if the width of the range divides `2^bits`. -/
theorem wrapI_unsigned_iff {t : ETy} (ht : t ≠ .real) (hs : t.signed = false) (h32 : t.bits ≤ 32) {v lo hi : ℤ}
    (hv : t.InRange v) (hl : t.InRange lo) (hh : t.InRange hi) (hvl : v < lo) (hlt : lo < hi) :
    ∃ r, wrapI t v lo hi = .ok r ∧ lo ≤ r ∧ r < hi ∧ (r ≡ v [ZMOD hi - lo] ↔ hi - lo ∣ 2 ^ t.bits) := by
  have hv0 := hv.1
  have hl0 := hl.1
  have hh1 := hh.2
  have hlo : t.lo = 0 := by simp [ETy.lo, hs]
  have hhi : t.hi = 2 ^ t.bits - 1 := by simp [ETy.hi, hs]
  have hp : (2 : ℤ) ^ t.bits ≤ 2 ^ 32 := pow_le_pow_right₀ (by norm_num) h32
  rw [hlo] at hv0 hl0
  rw [hhi] at hh1
  have w0 : 0 < hi - lo := by omega
  have hm := Int.emod_nonneg (v - lo + 2 ^ t.bits) w0.ne'
  have hm' := Int.emod_lt_of_pos (v - lo + 2 ^ t.bits) w0
  have rW : t.InRange (hi - lo) := ⟨by omega, by omega⟩
  have rD : t.InRange (v - lo + 2 ^ t.bits) := ⟨by omega, by omega⟩
  refine ⟨_, wrapI_core (W := hi - lo) ht hl (intOp_ok (o := .sub) (by decide) ht hh hl rW)
    (intOp_sub_unsigned ht hs hv hl hvl) w0 rW rD (by omega) ?_ ?_, ?_, ?_, ?_⟩
  · rw [abs_le]; constructor <;> omega
  · exact ⟨by omega, by omega⟩
  · omega
  · omega
  · have key : lo + (v - lo + 2 ^ t.bits) % (hi - lo) ≡ v + 2 ^ t.bits [ZMOD hi - lo] := by
      have : lo + (v - lo + 2 ^ t.bits) % (hi - lo) ≡ lo + (v - lo + 2 ^ t.bits) [ZMOD hi - lo] :=
        Int.ModEq.add_left _ (Int.mod_modEq _ _)
      rwa [show lo + (v - lo + 2 ^ t.bits) = v + 2 ^ t.bits by ring] at this
    constructor
    · intro h
      have h2 := (h.symm.trans key).dvd
      simpa using h2
    · intro h
      refine key.trans ?_
      exact (Int.modEq_iff_dvd.2 (by simpa using h)).symm

/-- C128, negation for unsigned types: one is congruent to four modulo three, but wrapped to `[2, 5)` it becomes
two. -/
theorem wrapI_unsigned_false : wrapI .u32 1 2 5 = .ok 2 := by decide +kernel

/-- C128, negation for types narrower than `int`: the width of the range itself is reduced to the type, so that a value
in the range does not stay what it is. -/
theorem wrapI_narrow_false : wrapI .i8 0 (-128) 127 = .ok (-128) := by decide +kernel

/-- C128, negation for 64-bit types: the differences are rounded to 53 bits, so that a value in the range does not stay
what it is. -/
theorem wrapI_wide_false : wrapI .i64 (2 ^ 53 + 1) 0 (2 ^ 53 + 3) = .ok (2 ^ 53) := by decide +kernel

/-- C128: `map_range` on an integral type, for a value in the source range: everything below the upper end goes to the
lower end of the target.  The widths of the ranges have to fit into the promoted type. -/
theorem mapRangeI_spec {t : ETy} (ht : t ≠ .real) {v a b c d : ℤ} (hv : t.InRange v) (ha : t.InRange a)
    (hb : t.InRange b) (hc : t.InRange c) (hd : t.InRange d) (hav : a ≤ v) (hvb : v ≤ b) (hab : a < b)
    (h1 : t.promote.InRange (b - a)) (h2 : t.promote.InRange (d - c)) :
    mapRangeI t v a b c d = .ok (if v = b then d else c) := by
  have hp : t.promote ≠ .real := fun h => ht ((promote_real t).1 h)
  have hz := lo_le hp
  have hA : t.arith t = t.promote := by cases t <;> rfl
  have hpp : t.promote.arith t.promote = t.promote := by cases t <;> rfl
  have hcp : t.arith t.promote = t.promote := by cases t <;> rfl
  have h3 : t.promote.InRange (v - a) := ⟨by omega, by have := h1.2; omega⟩
  have e1 : AOp.sub.builtin t t (.int v : Num ℚ) (.int a) = .ok (.int (v - a)) :=
    builtin_ok (o := .sub) (by decide) ht ht hv ha (by rw [hA]; exact h3)
  have e2 : AOp.sub.builtin t t (.int b : Num ℚ) (.int a) = .ok (.int (b - a)) :=
    builtin_ok (o := .sub) (by decide) ht ht hb ha (by rw [hA]; exact h1)
  have e4 : AOp.sub.builtin t t (.int d : Num ℚ) (.int c) = .ok (.int (d - c)) :=
    builtin_ok (o := .sub) (by decide) ht ht hd hc (by rw [hA]; exact h2)
  have hq : (v - a).tdiv (b - a) = if v = b then 1 else 0 := by
    split_ifs with h
    · subst h
      exact Int.tdiv_self (by omega)
    · exact Int.tdiv_eq_zero_of_lt (by omega) (by omega)
  have rq : t.promote.InRange (if v = b then 1 else 0) := by
    split_ifs
    · cases t <;> first | contradiction | decide
    · exact hz
  have e3 : AOp.div.builtin t.promote t.promote (.int (v - a) : Num ℚ) (.int (b - a)) =
      .ok (.int (if v = b then 1 else 0)) := by
    unfold AOp.builtin
    rw [hpp, conv_int hp, conv_int hp, wrap_of_range hp h3, wrap_of_range hp h1]
    simp only [Res.ok_bind]
    rw [raw_int _ _ _ (Or.inr (by omega))]
    show (t.promote.result ((v - a).tdiv (b - a)) : Res (Num ℚ)) = _
    rw [hq, result_ok hp rq]
  have hm : (if v = b then (1 : ℤ) else 0) * (d - c) = if v = b then d - c else 0 := by split_ifs <;> ring
  have rm : t.promote.InRange (if v = b then d - c else 0) := by
    split_ifs
    · exact h2
    · exact hz
  have e5 : AOp.mul.builtin t.promote t.promote (.int (if v = b then 1 else 0) : Num ℚ) (.int (d - c)) =
      .ok (.int (if v = b then d - c else 0)) := by
    rw [← hm]
    exact builtin_ok (o := .mul) (by decide) hp hp rq h2
      (show (t.promote.arith t.promote).InRange (_ * _) by rw [hpp, hm]; exact rm)
  have hr : c + (if v = b then d - c else 0) = if v = b then d else c := by split_ifs <;> ring
  have rr : t.InRange (if v = b then d else c) := by split_ifs <;> assumption
  have e6 : AOp.add.builtin t t.promote (.int c : Num ℚ) (.int (if v = b then d - c else 0)) =
      .ok (.int (if v = b then d else c)) := by
    rw [← hr]
    exact builtin_ok (o := .add) (by decide) ht hp hc rm
      (show (t.arith t.promote).InRange (_ + _) by rw [hcp, hr]; exact promote_range ht rr)
  simp only [mapRangeI, e1, e2, e3, e4, e5, e6, Res.ok_bind, conv_int ht, wrap_of_range ht rr]

/-- C128: a value in the source range is mapped to the exact number (that of C05) exactly if it is one of the ends or the
target is a point. -/
theorem mapRangeI_iff {t : ETy} (ht : t ≠ .real) {v a b c d : ℤ} (hv : t.InRange v) (ha : t.InRange a)
    (hb : t.InRange b) (hc : t.InRange c) (hd : t.InRange d) (hav : a ≤ v) (hvb : v ≤ b) (hab : a < b)
    (h1 : t.promote.InRange (b - a)) (h2 : t.promote.InRange (d - c)) :
    ∃ r, mapRangeI t v a b c d = .ok r ∧
      ((r : ℚ) = mapRange (v : ℚ) a b c d ↔ v = a ∨ v = b ∨ c = d) := by
  refine ⟨_, mapRangeI_spec ht hv ha hb hc hd hav hvb hab h1 h2, ?_⟩
  have w : (b : ℚ) - a ≠ 0 := sub_ne_zero.2 (by exact_mod_cast hab.ne')
  unfold mapRange
  split_ifs with h
  · subst h
    simp only [div_self w, one_mul, add_sub_cancel, true_or, or_true]
  · constructor
    · intro e
      have e' : ((v : ℚ) - a) / (b - a) * (d - c) = 0 := by linarith
      rcases mul_eq_zero.1 e' with e' | e'
      · rcases div_eq_zero_iff.1 e' with e' | e'
        · exact Or.inl (by exact_mod_cast sub_eq_zero.1 e')
        · exact absurd e' w
      · exact Or.inr (Or.inr (by exact_mod_cast (sub_eq_zero.1 e').symm))
    · rintro (rfl | rfl | rfl)
      · simp
      · exact absurd rfl h
      · simp

/-- C128, the part that holds: the ends of the range go to the ends.  Missing: everything between them. -/
theorem mapRangeI_partial {t : ETy} (ht : t ≠ .real) {a b c d : ℤ} (ha : t.InRange a) (hb : t.InRange b)
    (hc : t.InRange c) (hd : t.InRange d) (hab : a < b) (h1 : t.promote.InRange (b - a))
    (h2 : t.promote.InRange (d - c)) : mapRangeI t a a b c d = .ok c ∧ mapRangeI t b a b c d = .ok d := by
  rw [mapRangeI_spec ht ha ha hb hc hd le_rfl hab.le hab h1 h2,
    mapRangeI_spec ht hb ha hb hc hd hab.le le_rfl hab h1 h2, if_neg hab.ne, if_pos rfl]
  exact ⟨rfl, rfl⟩

/-- A percentage of a range of bytes: 99 of 100 is mapped to zero. -/
example : mapRangeI .i32 99 0 100 0 255 = .ok 0 ∧ mapRangeI .i32 100 0 100 0 255 = .ok 255 ∧
    mapRangeI .u8 50 0 100 0 255 = .ok 0 := by decide +kernel

end CML

#print axioms CML.wrapI_partial
#print axioms CML.wrapI_overflow
#print axioms CML.wrapI_int_iff
#print axioms CML.wrapI_unsigned_iff
#print axioms CML.wrapI_unsigned_false
#print axioms CML.wrapI_narrow_false
#print axioms CML.wrapI_wide_false
#print axioms CML.mapRangeI_spec
#print axioms CML.mapRangeI_iff
#print axioms CML.mapRangeI_partial
