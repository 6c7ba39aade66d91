import Verif.Lemmas.Mixed
import Mathlib.Data.Rat.Floor
import Mathlib.Data.Fin.VecNotation
import Mathlib.Data.Fintype.Pi

/-!
C125: expressions over vectors of different element types.
-/

set_option linter.unusedSectionVars false

namespace CML

open ETy

section
variable {K : Type} [Field K] [LinearOrder K] [FloorRing K] {n : Nat}

/-- C125: every element of an expression is a value of the element type the node declares. -/
theorem mixed_get_holds {e : TVec K n} (hw : e.WF) {i : Fin n} {v : Num K} (h : e.get i = .ok v) :
    e.ty.Holds v := by
  induction e generalizing v with
  | leaf t x =>
    injection h with h
    exact h ▸ hw i
  | bin o l r ihl ihr =>
    rw [TVec.get] at h
    cases hl : l.get i with
    | throw _ => rw [hl] at h; cases h
    | ub _ => rw [hl] at h; cases h
    | ok a =>
      cases hr : r.get i with
      | throw _ => rw [hl, hr] at h; cases h
      | ub _ => rw [hl, hr] at h; cases h
      | ok b =>
        rw [hl, hr] at h
        exact apply_holds h
  | scal o l t c ih =>
    rw [TVec.get] at h
    cases hl : l.get i with
    | throw _ => rw [hl] at h; cases h
    | ub _ => rw [hl] at h; cases h
    | ok a =>
      rw [hl] at h
      exact apply_holds h
  | neg l ih =>
    rw [TVec.get] at h
    cases hl : l.get i with
    | throw _ => rw [hl] at h; cases h
    | ub _ => rw [hl] at h; cases h
    | ok a =>
      rw [hl] at h
      exact negApply_holds (ih hw hl) h

/-- C125: the element type of an expression is the floating-point type exactly if that of an operand is. -/
theorem mixed_ty_real (e : TVec K n) : e.ty = .real ↔ e.HasReal := by
  induction e with
  | leaf t x => rfl
  | bin o l r ihl ihr => rw [TVec.ty, common_real, ihl, ihr]; rfl
  | scal o l t c ih => rw [TVec.ty, common_real, ih]; rfl
  | neg l ih => rw [TVec.ty, promote_real, ih]; rfl

end

section
variable {K : Type} [Field K] [LinearOrder K] [IsStrictOrderedRing K] [FloorRing K] {n : Nat}

private theorem exact_cast {o : AOp} (ho : o ≠ .div) (a b : ℤ) : o.exact (a : K) b = (o.z a b : ℤ) := by
  cases o <;> first | contradiction | (simp [AOp.exact, AOp.z])

private theorem fits_int {t : ETy} (ht : t ≠ .real) {z : ℤ} (h : t.Fits (z : K)) : t.InRange z := by
  rcases h with h | ⟨w, hw, hr⟩
  · contradiction
  · have : z = w := by exact_mod_cast hw
    exact this ▸ hr

private theorem apply_fits {o : AOp} {s t : ETy} {a b : Num K} (ha : s.Holds a) (hb : t.Holds b)
    (hf : (s.common t).Fits (o.exact a.val b.val))
    (hd : o = .div → b.val ≠ 0 ∧ (s.arith t).Fits a.val ∧ (s.arith t).Fits b.val) :
    ∃ v, o.apply s t a b = .ok v ∧ v.val = o.exact a.val b.val := by
  by_cases h : s = .real ∨ t = .real
  · exact ⟨_, apply_real h a b fun h => (hd h).1, rfl⟩
  · have hs : s ≠ .real := fun h' => h (.inl h')
    have ht : t ≠ .real := fun h' => h (.inr h')
    have hc : s.common t ≠ .real := fun h' => h ((common_real s t).1 h')
    have hr : s.arith t ≠ .real := fun h' => h ((arith_real s t).1 h')
    obtain ⟨x, rfl, hx⟩ := Holds.int ha hs
    obtain ⟨y, rfl, hy⟩ := Holds.int hb ht
    by_cases ho : o = .div
    · subst ho
      obtain ⟨h0, h1, h2⟩ := hd rfl
      have hy0 : y ≠ 0 := fun h => h0 (by simp [Num.val, h])
      rcases hf with hf | ⟨q, hq, hqr⟩
      · contradiction
      · have hxy : x = y * q := by
          have : (x : K) = y * q := by
            have h0' : (y : K) ≠ 0 := h0
            have hq' : (x : K) / y = q := hq
            rw [← hq']; field_simp
          exact_mod_cast this
        have hdiv : x.tdiv y = q := by rw [hxy]; exact Int.mul_tdiv_cancel_left q hy0
        refine ⟨_, apply_div_ok hs ht (fits_int hr h1) (fits_int hr h2) hy0 (by rw [hdiv]; exact hqr), ?_⟩
        rw [hq, hdiv]; rfl
    · rw [Num.val, Num.val, exact_cast ho] at hf
      exact ⟨_, apply_ok ho hs ht hx hy (fits_int hc hf), by simp only [Num.val]; rw [exact_cast ho]⟩

/-- C125: if every intermediate result fits into the element type of its node (and the operands of divisions into
the type of the division), the elements of the expression are those of exact arithmetic. -/
theorem mixed_get_exact {e : TVec K n} (hw : e.WF) {i : Fin n} (hf : e.FitsAt i) :
    ∃ v, e.get i = .ok v ∧ v.val = e.ideal i := by
  induction e with
  | leaf t x => exact ⟨x i, rfl, rfl⟩
  | bin o l r ihl ihr =>
    obtain ⟨h1, h2, h3, h4⟩ := hf
    obtain ⟨a, ha, hav⟩ := ihl hw.1 h1
    obtain ⟨b, hb, hbv⟩ := ihr hw.2 h2
    rw [← hav, ← hbv] at h3 h4
    obtain ⟨v, hv, hvv⟩ := apply_fits (mixed_get_holds hw.1 ha) (mixed_get_holds hw.2 hb) h3 h4
    refine ⟨v, ?_, ?_⟩
    · rw [TVec.get, ha, hb]; exact hv
    · rw [hvv, TVec.ideal, hav, hbv]
  | scal o l t c ih =>
    obtain ⟨h1, h3, h4⟩ := hf
    obtain ⟨a, ha, hav⟩ := ih hw.1 h1
    rw [← hav] at h3 h4
    obtain ⟨v, hv, hvv⟩ := apply_fits (mixed_get_holds hw.1 ha) hw.2 h3 h4
    refine ⟨v, ?_, ?_⟩
    · rw [TVec.get, ha]; exact hv
    · rw [hvv, TVec.ideal, hav]
  | neg l ih =>
    obtain ⟨h1, h2⟩ := hf
    obtain ⟨a, ha, hav⟩ := ih hw h1
    have hh := mixed_get_holds (e := l) hw ha
    rw [TVec.get, ha, TVec.ideal, ← hav, Res.ok_bind]
    rw [← hav] at h2
    by_cases ht : l.ty = .real
    · rw [ht, negApply_real]
      exact ⟨_, rfl, rfl⟩
    · obtain ⟨z, rfl, hz⟩ := Holds.int hh ht
      have hp : l.ty.promote ≠ .real := fun h => ht ((promote_real _).1 h)
      have h3 : l.ty.promote.InRange (-z) := fits_int (K := K) hp (by push_cast; exact h2)
      rw [negApply_int ht, wrap_of_range hp (promote_range ht hz), result_ok hp h3]
      exact ⟨_, rfl, by simp [Num.val]⟩

/-- C125: sums, differences and products of integral operands with at least `b` bits are right modulo `2^b`,
whatever overflows on the way: if the evaluation is defined, its value is congruent to the exact one. -/
theorem mixed_get_modEq {e : TVec K n} (hw : e.WF) {b : Nat} (hr : e.Ring b) {i : Fin n} {v : Num K}
    (h : e.get i = .ok v) : ∃ w z : ℤ, v = .int w ∧ e.ideal i = z ∧ w ≡ z [ZMOD 2 ^ b] := by
  have key : e.ty ≠ .real ∧ b ≤ e.ty.bits ∧
      ∃ w z : ℤ, v = .int w ∧ e.ideal i = z ∧ w ≡ z [ZMOD 2 ^ b] := by
    induction e generalizing v with
    | leaf t x =>
      injection h with h
      obtain ⟨z, hz, -⟩ := Holds.int (hw i) hr.1
      exact ⟨hr.1, hr.2, z, z, by rw [← h, hz], by rw [TVec.ideal, hz]; rfl, rfl⟩
    | bin o l r ihl ihr =>
      obtain ⟨ho, h1, h2⟩ := hr
      rw [TVec.get] at h
      cases hl : l.get i with
      | throw _ => rw [hl] at h; cases h
      | ub _ => rw [hl] at h; cases h
      | ok a =>
        cases hr : r.get i with
        | throw _ => rw [hl, hr] at h; cases h
        | ub _ => rw [hl, hr] at h; cases h
        | ok c =>
          rw [hl, hr] at h
          simp only [Res.ok_bind] at h
          obtain ⟨hs, hsb, w1, z1, rfl, hz1, hm1⟩ := ihl hw.1 h1 hl
          obtain ⟨ht, htb, w2, z2, rfl, hz2, hm2⟩ := ihr hw.2 h2 hr
          obtain ⟨w, rfl, -, hm⟩ := apply_inv ho hs ht h
          have hb := bits_le_common hs ht hsb htb
          refine ⟨fun h => ?_, hb, w, o.z z1 z2, rfl, ?_, (modEq_pow_le hm hb).trans (z_modEq ho hm1 hm2)⟩
          · rcases (common_real _ _).1 h with h | h <;> contradiction
          · rw [TVec.ideal, hz1, hz2, exact_cast ho]
    | scal o l t c ih =>
      obtain ⟨ho, h1, ht, htb⟩ := hr
      rw [TVec.get] at h
      cases hl : l.get i with
      | throw _ => rw [hl] at h; cases h
      | ub _ => rw [hl] at h; cases h
      | ok a =>
        rw [hl] at h
        simp only [Res.ok_bind] at h
        obtain ⟨hs, hsb, w1, z1, rfl, hz1, hm1⟩ := ih hw.1 h1 hl
        obtain ⟨z2, rfl, -⟩ := Holds.int hw.2 ht
        obtain ⟨w, rfl, -, hm⟩ := apply_inv ho hs ht h
        have hb := bits_le_common hs ht hsb htb
        refine ⟨fun h => ?_, hb, w, o.z z1 z2, rfl, ?_, (modEq_pow_le hm hb).trans (z_modEq ho hm1 rfl)⟩
        · rcases (common_real _ _).1 h with h | h <;> contradiction
        · rw [TVec.ideal, hz1, Num.val, exact_cast ho]
    | neg l ih =>
      rw [TVec.get] at h
      cases hl : l.get i with
      | throw _ => rw [hl] at h; cases h
      | ub _ => rw [hl] at h; cases h
      | ok a =>
        rw [hl] at h
        simp only [Res.ok_bind] at h
        obtain ⟨ht, htb, w1, z1, rfl, hz1, hm1⟩ := ih hw hr hl
        have hp : l.ty.promote ≠ .real := fun h => ht ((promote_real _).1 h)
        rw [negApply_int ht] at h
        obtain ⟨w, rfl, -, hm⟩ := result_inv hp h
        have hb := bits_le_promote htb
        refine ⟨hp, hb, w, -z1, rfl, ?_, ?_⟩
        · rw [TVec.ideal, hz1]; simp
        · exact (modEq_pow_le (hm.trans (wrap_modEq hp w1).neg) hb).trans hm1.neg
  exact key.2.2

/-- C125: the quotient of integers `v / c` is rounded towards zero: `w` with `|a / c - w| < 1`, `|w| ≤ |a / c|`, provided the
operands fit into the type of the division (no negative value with an unsigned type of the same width) and the
quotient into the common type (all quotients but the smallest value divided by -1).  Division by zero is undefined. -/
theorem mixed_div_trunc {s t : ETy} (hs : s ≠ .real) (ht : t ≠ .real) (a : Fin n → ℤ) (c : ℤ)
    (ha : ∀ i, (s.arith t).InRange (a i)) (hc : (s.arith t).InRange c) (i : Fin n) :
    (c ≠ 0 → (s.common t).InRange ((a i).tdiv c) →
      ∃ w : ℤ, (TVec.scal .div (.leaf s fun i => .int (a i)) t (.int c) : TVec K n).get i = .ok (.int w) ∧
        |(a i : K) / c - w| < 1 ∧ |(w : K)| ≤ |(a i : K) / c|) ∧
    (c = 0 → (TVec.scal .div (.leaf s fun i => .int (a i)) t (.int c) : TVec K n).get i = .ub .divZero) := by
  have hr : s.arith t ≠ .real := fun h => by rcases (arith_real s t).1 h with h | h <;> contradiction
  constructor
  · intro h0 hq
    refine ⟨(a i).tdiv c, apply_div_ok hs ht (ha i) hc h0 hq, ?_⟩
    generalize a i = x
    have hcK : (0 : K) < |(c : K)| := abs_pos.2 (by exact_mod_cast h0)
    have e1 : (x : K) / c - ((x.tdiv c : ℤ) : K) = ((x.tmod c : ℤ) : K) / c := by
      have h0' : (c : K) ≠ 0 := by exact_mod_cast h0
      have : (x : K) = c * (x.tdiv c : ℤ) + (x.tmod c : ℤ) := by exact_mod_cast (Int.mul_tdiv_add_tmod x c).symm
      field_simp
      linarith
    have e2 : |x.tmod c| < |c| := by
      rw [Int.abs_eq_natAbs, Int.natAbs_tmod, Int.abs_eq_natAbs]
      exact_mod_cast Nat.mod_lt _ (Int.natAbs_pos.2 h0)
    have e3 : |x.tdiv c| * |c| ≤ |x| := by
      rw [Int.abs_eq_natAbs, Int.natAbs_tdiv, Int.abs_eq_natAbs, Int.abs_eq_natAbs]
      exact_mod_cast Nat.div_mul_le_self _ _
    constructor
    · rw [e1, abs_div, div_lt_one hcK]
      exact_mod_cast e2
    · rw [abs_div, le_div_iff₀ hcK]
      exact_mod_cast e3
  · rintro rfl
    show AOp.div.apply s t (.int (a i) : Num K) (.int 0) = _
    unfold AOp.apply AOp.builtin
    rw [conv_int hr, conv_int hr, wrap_of_range hr hc]
    rfl

/-! Assignment. -/

private theorem truncZ_near (x : K) : |x - truncZ x| < 1 ∧ |(truncZ x : K)| ≤ |x| := by
  unfold truncZ
  split
  · rename_i h
    have h1 := Int.floor_le x
    have h2 := Int.lt_floor_add_one x
    have h3 : (0 : K) ≤ ⌊x⌋ := by exact_mod_cast Int.floor_nonneg.2 h
    rw [abs_of_nonneg (by linarith), abs_of_nonneg h3, abs_of_nonneg h]
    exact ⟨by linarith, h1⟩
  · rename_i h
    have h : x < 0 := not_le.1 h
    have h1 := Int.le_ceil x
    have h2 := Int.ceil_lt_add_one x
    have h3 : (⌈x⌉ : K) ≤ 0 := by exact_mod_cast Int.ceil_le.2 (by simpa using h.le)
    rw [abs_of_nonpos (by linarith), abs_of_nonpos h3, abs_of_neg h]
    exact ⟨by linarith, by linarith⟩

private theorem truncZ_int (z : ℤ) : truncZ (z : K) = z := by unfold truncZ; simp

/-- C125: the assignment to a vector stores each element, converted to the element type of the destination; one
element that cannot be converted makes it undefined. -/
theorem mixed_assign_run {e : TVec K n} {d : ETy} {v w : Fin n → Num K} (x : Fin n → Num K)
    (h : ∀ i, e.get i = .ok (v i)) (hc : ∀ i, (v i).conv d = .ok (w i)) : assignT d e x = .ok w := by
  unfold assignT fillT
  refine loop_fill fun i y _ => ?_
  rw [dif_pos i.2]
  simp only [Fin.eta]
  rw [h i, Res.ok_bind, hc i, Res.ok_bind]

/-- C125: numbers that the destination can hold are stored exactly. -/
theorem mixed_assign_exact {e : TVec K n} (hw : e.WF) {d : ETy} (x : Fin n → Num K) (hf : ∀ i, e.FitsAt i)
    (hd : ∀ i, d.Fits (e.ideal i)) :
    ∃ w, assignT d e x = .ok w ∧ ∀ i, d.Holds (w i) ∧ (w i).val = e.ideal i := by
  have hc : ∀ i, ∃ v w : Num K, e.get i = .ok v ∧ v.conv d = .ok w ∧ w.val = e.ideal i := by
    intro i
    obtain ⟨v, hv, hvv⟩ := mixed_get_exact hw (hf i)
    refine ⟨v, ?_⟩
    by_cases hr : d = .real
    · subst hr
      exact ⟨_, hv, conv_real v, hvv⟩
    · rcases hd i with h | ⟨z, hz, hzr⟩
      · contradiction
      · refine ⟨.int z, hv, ?_, hz.symm⟩
        cases v with
        | int w =>
          have : w = z := by have : (w : K) = z := hvv.trans hz; exact_mod_cast this
          rw [conv_int hr, this, wrap_of_range hr hzr]
        | real y =>
          have : y = z := hvv.trans hz
          rw [conv_trunc hr, this, truncZ_int, if_pos hzr]
  choose v w h1 h2 h3 using hc
  exact ⟨w, mixed_assign_run x h1 h2, fun i => ⟨conv_holds (h2 i), h3 i⟩⟩

/-- C125: an expression with a floating-point operand assigned to a vector of integers: each element is the exact
value rounded towards zero; it is undefined if one of them does not fit. -/
theorem mixed_assign_trunc {e : TVec K n} (hw : e.WF) (he : e.HasReal) {d : ETy} (hd : d ≠ .real)
    (x : Fin n → Num K) (hf : ∀ i, e.FitsAt i) :
    ((∀ i, d.InRange (truncZ (e.ideal i))) → ∃ z : Fin n → ℤ, assignT d e x = .ok (fun i => .int (z i)) ∧
      ∀ i, |e.ideal i - z i| < 1 ∧ |(z i : K)| ≤ |e.ideal i|) ∧
    ((∃ i, ¬ d.InRange (truncZ (e.ideal i))) → assignT d e x = .ub .overflow) := by
  have hg : ∀ i, e.get i = .ok (.real (e.ideal i)) := by
    intro i
    obtain ⟨v, hv, hvv⟩ := mixed_get_exact hw (hf i)
    have := mixed_get_holds hw hv
    rw [(mixed_ty_real e).2 he] at this
    obtain ⟨y, rfl⟩ := Holds.real this
    rw [hv, ← hvv]; rfl
  constructor
  · intro h
    refine ⟨fun i => truncZ (e.ideal i), mixed_assign_run x hg fun i => ?_, fun i => truncZ_near _⟩
    rw [conv_trunc hd, if_pos (h i)]
  · rintro ⟨i, hi⟩
    classical
    obtain ⟨k, hk, hmin⟩ : ∃ k : Fin n, ¬ d.InRange (truncZ (e.ideal k)) ∧
        ∀ j, j < k → d.InRange (truncZ (e.ideal j)) := by
      have hex : ∃ k, ∃ h : k < n, ¬ d.InRange (truncZ (e.ideal ⟨k, h⟩)) := ⟨i.1, i.2, hi⟩
      obtain ⟨hk, hk'⟩ := Nat.find_spec hex
      exact ⟨⟨_, hk⟩, hk', fun j hj => by
        by_contra h
        exact Nat.find_min hex (show j.1 < _ from hj) ⟨j.2, h⟩⟩
    unfold assignT fillT
    refine loop_fill_ub (fun i => .int (truncZ (e.ideal i))) k (fun j y hj _ => ?_) (fun y _ => ?_)
    · rw [dif_pos j.2]
      simp only [Fin.eta]
      rw [hg, Res.ok_bind, conv_trunc hd, if_pos (hmin j hj), Res.ok_bind]
    · rw [dif_pos k.2]
      simp only [Fin.eta]
      rw [hg, Res.ok_bind, conv_trunc hd, if_neg hk]
      rfl

/-- C125: `v *= c` and `v /= c` on a vector of integers with a floating-point `c` round each exact product (quotient)
towards zero. -/
theorem mixed_scalAssign_trunc {d : ETy} (hd : d ≠ .real) {o : AOp} (c : K) (h0 : o = .div → c ≠ 0)
    (z : Fin n → ℤ) (hr : ∀ i, d.InRange (truncZ (o.exact (z i : K) c))) :
    scalAssignT d o .real (.real c) (fun i => .int (z i)) =
      .ok (fun i => .int (truncZ (o.exact (z i : K) c))) := by
  unfold scalAssignT
  refine loop_fill fun i y hy => ?_
  rw [dif_pos i.2]
  simp only [Fin.eta]
  rw [hy, apply_real (.inr rfl) _ _ h0, Res.ok_bind, conv_trunc hd]
  rw [show (Num.int (z i) : Num K).val = z i from rfl, show (Num.real c : Num K).val = c from rfl, if_pos (hr i)]
  rfl

/-- C125: `v += e` and `v -= e` on a vector of integers round the sum (difference) of the old element and the exact
value of a floating-point expression. -/
theorem mixed_binAssign_trunc {d : ETy} (hd : d ≠ .real) {o : AOp} (ho : o ≠ .div) {e : TVec K n} (hw : e.WF)
    (he : e.HasReal) (hf : ∀ i, e.FitsAt i)
    (z : Fin n → ℤ) (hr : ∀ i, d.InRange (truncZ (o.exact (z i : K) (e.ideal i)))) :
    binAssignT d o e (fun i => .int (z i)) =
      .ok (fun i => .int (truncZ (o.exact (z i : K) (e.ideal i)))) := by
  unfold binAssignT
  refine loop_fill fun i y hy => ?_
  obtain ⟨v, hv, hvv⟩ := mixed_get_exact hw (hf i)
  rw [dif_pos i.2]
  simp only [Fin.eta]
  rw [hv, Res.ok_bind, hy, apply_real (.inr ((mixed_ty_real e).2 he)) _ _ (fun h => absurd h ho), Res.ok_bind,
    conv_trunc hd, hvv]
  rw [show (Num.int (z i) : Num K).val = z i from rfl, if_pos (hr i)]
  rfl

/-- C125: `v *= 0.5` followed by `v *= 2.0` on a vector of integers: exactly the even elements get their value back. -/
theorem mixed_halve_double {d : ETy} (hd : d ≠ .real) (z : Fin n → ℤ) (hz : ∀ i, d.InRange (z i)) :
    ∃ w : Fin n → ℤ, (do
        let y ← scalAssignT d .mul .real (.real (1 / 2 : K)) (fun i => .int (z i))
        scalAssignT d .mul .real (.real 2) y) = .ok (fun i => .int (w i)) ∧ ∀ i, w i = z i ↔ Even (z i) := by
  have ht : ∀ x : ℤ, truncZ ((x : K) * (1 / 2)) = x.tdiv 2 := by
    intro x
    obtain ⟨h1, h2⟩ := truncZ_near ((x : K) * (1 / 2))
    unfold truncZ
    split
    · rename_i h
      have hx : 0 ≤ x := by
        have : (0 : K) ≤ x := by linarith
        exact_mod_cast this
      rw [Int.floor_eq_iff, Int.tdiv_eq_ediv_of_nonneg hx]
      have e1 := Int.emod_add_mul_ediv x 2
      have e2 := Int.emod_two_eq x
      have e3 : (x : K) = (x % 2 : ℤ) + 2 * (x / 2 : ℤ) := by exact_mod_cast e1.symm
      rcases e2 with e2 | e2 <;> rw [e2] at e3 <;> push_cast at e3 ⊢ <;> constructor <;> linarith
    · rename_i h
      have hx : x < 0 := by
        have : (x : K) < 0 := by linarith [not_le.1 h]
        exact_mod_cast this
      have e1 : x.tdiv 2 = -((-x) / 2) := by
        rw [← Int.tdiv_eq_ediv_of_nonneg (by omega), Int.neg_tdiv, neg_neg]
      rw [Int.ceil_eq_iff, e1]
      have e1 := Int.emod_add_mul_ediv (-x) 2
      have e2 := Int.emod_two_eq (-x)
      have e3 : (-x : K) = ((-x) % 2 : ℤ) + 2 * ((-x) / 2 : ℤ) := by exact_mod_cast e1.symm
      rcases e2 with e2 | e2 <;> rw [e2] at e3 <;> push_cast at e3 ⊢ <;> constructor <;> linarith
  have hr1 : ∀ i, d.InRange ((z i).tdiv 2) := by
    intro i
    have := hz i
    generalize z i = x at *
    have h1 := Int.mul_tdiv_add_tmod x 2
    have h2 : x.tmod 2 = 0 ∨ x.tmod 2 = 1 ∨ x.tmod 2 = -1 := by
      have := Int.tmod_two_eq x; omega
    cases d <;> first
      | contradiction
      | (simp only [InRange, lo, hi, signed, bits, if_true, Bool.false_eq_true, if_false] at *
         norm_num at *
         omega)
  refine ⟨fun i => 2 * (z i).tdiv 2, ?_, fun i => ?_⟩
  · rw [mixed_scalAssign_trunc hd _ (fun h => by cases h) z (by simpa only [AOp.exact, ht] using hr1)]
    simp only [AOp.exact, ht, Res.ok_bind]
    rw [mixed_scalAssign_trunc hd _ (fun h => by cases h) _ ?_]
    · congr 1
      funext i
      congr 1
      rw [AOp.exact, show (((z i).tdiv 2 : ℤ) : K) * 2 = ((2 * (z i).tdiv 2 : ℤ) : K) by push_cast; ring, truncZ_int]
    · intro i
      rw [AOp.exact, show (((z i).tdiv 2 : ℤ) : K) * 2 = ((2 * (z i).tdiv 2 : ℤ) : K) by push_cast; ring, truncZ_int]
      have := hz i
      generalize z i = x at *
      have h1 := Int.mul_tdiv_add_tmod x 2
      have h2 : 0 ≤ x → 0 ≤ x.tmod 2 ∧ 0 ≤ x.tdiv 2:= fun h => ⟨Int.tmod_nonneg 2 h, Int.tdiv_nonneg h (by omega)⟩
      have h3 : x ≤ 0 → x.tmod 2 ≤ 0 := fun h => by
        have := Int.tmod_nonneg 2 (show 0 ≤ -x by omega)
        rw [Int.neg_tmod] at this; omega
      have h4 : x.tmod 2 = 0 ∨ x.tmod 2 = 1 ∨ x.tmod 2 = -1 := by
        have := Int.tmod_two_eq x; omega
      cases d <;> first
        | contradiction
        | (simp only [InRange, lo, hi, signed, bits, if_true, Bool.false_eq_true, if_false] at *
           norm_num at *
           rcases le_total 0 x with h | h
           · have := h2 h; omega
           · have := h3 h; omega)
  · have h1 := Int.mul_tdiv_add_tmod (z i) 2
    rw [Int.even_iff]
    show 2 * (z i).tdiv 2 = z i ↔ _
    have h4 : (z i).tmod 2 = 0 ↔ (z i) % 2 = 0 := by
      rw [← Int.dvd_iff_tmod_eq_zero, ← Int.dvd_iff_emod_eq_zero] 
    omega

/-- C125: with elements of 8 or 16 bits without sign, `a - b` and `a + (-b)` differ wherever the difference is
negative: the node of `a - b` has the narrow type, that of `-b` is an `int`. -/
theorem mixed_sub_addNeg {t : ETy} (ht : t = .u8 ∨ t = .u16) (a b : Fin n → ℤ) (ha : ∀ i, t.InRange (a i))
    (hb : ∀ i, t.InRange (b i)) (i : Fin n) :
    ∃ x y : ℤ, (TVec.bin .sub (.leaf t fun i => .int (a i)) (.leaf t fun i => .int (b i)) : TVec K n).get i =
        .ok (.int x) ∧
      (TVec.bin .add (.leaf t fun i => .int (a i)) (.neg (.leaf t fun i => .int (b i))) : TVec K n).get i =
        .ok (.int y) ∧ y = a i - b i ∧ (x = y ↔ b i ≤ a i) := by
  have h1 := ha i
  have h2 := hb i
  have htr : t ≠ .real := by rcases ht with rfl | rfl <;> decide
  have hp : t.promote = .i32 := by rcases ht with rfl | rfl <;> rfl
  have hc : t.common .i32 = .i32 := by rcases ht with rfl | rfl <;> rfl
  have hA : t.arith t = .i32 := by rcases ht with rfl | rfl <;> rfl
  have hrange : ETy.i32.InRange (a i - b i) ∧ ETy.i32.InRange (-b i) := by
    rcases ht with rfl | rfl <;>
      simp only [InRange, lo, hi, signed, bits, if_true, Bool.false_eq_true, if_false] at * <;>
      norm_num at * <;> omega
  have hsub : (TVec.bin .sub (.leaf t fun i => .int (a i)) (.leaf t fun i => .int (b i)) : TVec K n).get i =
      .ok (.int (t.wrap (a i - b i))) := by
    show AOp.sub.apply t t (.int (a i) : Num K) (.int (b i)) = _
    unfold AOp.apply
    rw [builtin_ok (by decide) htr htr h1 h2 (by rw [hA]; exact hrange.1), Res.ok_bind, common_self, conv_int htr]
    rfl
  have hneg : negApply t (.int (b i) : Num K) = .ok (.int (-b i)) := by
    rw [negApply_int htr, hp, wrap_of_range (by decide) (hp ▸ promote_range htr h2), result_ok (by decide) hrange.2]
  refine ⟨_, a i - b i, hsub, ?_, rfl, ?_⟩
  · show (negApply t (.int (b i) : Num K) >>= fun c => AOp.add.apply t t.promote (.int (a i)) c) = _
    rw [hneg, Res.ok_bind, hp, apply_ok (by decide) htr (by decide) h1 hrange.2]
    · simp [AOp.z, sub_eq_add_neg]
    · rw [hc]; simpa [AOp.z, sub_eq_add_neg] using hrange.1
  · rcases ht with rfl | rfl <;>
      simp only [InRange, lo, hi, wrap, signed, bits, if_true, Bool.false_eq_true, if_false] at * <;>
      norm_num at * <;> omega

/-! Concrete cases. -/

/-- The expression `(v + w) * 0.5` with a vector of `int` and one of `unsigned char`. -/
private def exMixed : TVec ℚ 2 :=
  .scal .mul (.bin .add (.leaf .i32 fun i => .int (![-3, 4] i)) (.leaf .u8 fun i => .int (![200, 1] i))) .real (.real (1 / 2))

example : exMixed.WF ∧ exMixed.HasReal ∧ exMixed.ty = .real ∧ ∀ i, exMixed.FitsAt i := by
  refine ⟨⟨⟨?_, ?_⟩, .inl ⟨rfl, _, rfl⟩⟩, .inr rfl, rfl, ?_⟩
  · intro i; exact .inr ⟨by decide, _, rfl, by revert i; decide⟩
  · intro i; exact .inr ⟨by decide, _, rfl, by revert i; decide⟩
  · intro i
    refine ⟨⟨trivial, trivial, .inr ⟨![197, 5] i, ?_, by revert i; decide⟩, fun h => by cases h⟩, .inl rfl, fun h => by cases h⟩
    revert i; decide +kernel

example : (do
    let y ← assignT .i32 exMixed (fun _ => .int 0)
    .ok (y 0, y 1)) = .ok (.int 98, .int 2) := by decide +kernel

/-- The hypotheses of `mixed_get_modEq`: `a * b + c` with bytes and a 16 bit number. -/
example : (TVec.bin .add (.bin .mul (.leaf .u8 fun _ => .int 200) (.leaf .u8 fun _ => .int 2))
    (.leaf .i16 fun _ => .int (-5)) : TVec ℚ 1).Ring 8 :=
  ⟨by decide, ⟨by decide, ⟨by decide, by decide⟩, by decide, by decide⟩, by decide, by decide⟩

example : (TVec.bin .add (.bin .mul (.leaf .u8 fun _ => .int 200) (.leaf .u8 fun _ => .int 2))
    (.leaf .i16 fun _ => .int (-5)) : TVec ℚ 1).get 0 = .ok (.int 139) := by decide +kernel

example : ∀ i : Fin 2, ETy.i32.InRange (truncZ (AOp.mul.exact (((![-3, 5] : Fin 2 → ℤ) i : ℤ) : ℚ) (1 / 2))) := by
  decide +kernel

example : ∀ i : Fin 2, ETy.i8.InRange (truncZ (AOp.add.exact (((![-3, 5] : Fin 2 → ℤ) i : ℤ) : ℚ) (5 / 2))) := by
  decide +kernel

example : (∀ i : Fin 2, (ETy.i16.arith .u8).InRange ((![-7, 7] : Fin 2 → ℤ) i)) ∧ (ETy.i16.arith .u8).InRange 2 ∧
    ∀ i : Fin 2, (ETy.i16.common .u8).InRange (((![-7, 7] : Fin 2 → ℤ) i).tdiv 2) := by decide

/-- `v += w` rounds the sum, it does not add the rounded `w`, so that `v -= w` need not restore `v`: with `v = -1` and
`w = 0.5` both are 0. -/
example : (do
    let y ← binAssignT .i32 .add (.leaf .real fun _ => .real (1 / 2 : ℚ)) (fun _ : Fin 1 => .int (-1))
    let y ← binAssignT .i32 .sub (.leaf .real fun _ => .real (1 / 2 : ℚ)) y
    .ok (y 0)) = .ok (.int 0) := by decide +kernel

example : ETy.u8.InRange 3 ∧ ETy.u8.InRange 5 ∧ ETy.u16.InRange 65535 := by decide

end

end CML

#print axioms CML.mixed_get_holds
#print axioms CML.mixed_ty_real
#print axioms CML.mixed_get_exact
#print axioms CML.mixed_get_modEq
#print axioms CML.mixed_div_trunc
#print axioms CML.mixed_assign_run
#print axioms CML.mixed_assign_exact
#print axioms CML.mixed_assign_trunc
#print axioms CML.mixed_scalAssign_trunc
#print axioms CML.mixed_binAssign_trunc
#print axioms CML.mixed_halve_double
#print axioms CML.mixed_sub_addNeg
