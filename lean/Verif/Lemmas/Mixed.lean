import Verif.Spec.Mixed
import Mathlib.Data.Int.ModEq
import Mathlib.Tactic.Linarith
import Mathlib.Tactic.Ring
import Mathlib.Tactic.FieldSimp
import Mathlib.Algebra.Order.Floor.Ring

/-! Lemmas about the arithmetic of element types. -/

set_option linter.unusedSectionVars false

namespace CML

open ETy

namespace ETy

theorem arith_real (s t : ETy) : s.arith t = .real ↔ s = .real ∨ t = .real := by
  cases s <;> cases t <;> decide

theorem common_real (s t : ETy) : s.common t = .real ↔ s = .real ∨ t = .real := by
  cases s <;> cases t <;> decide

theorem promote_real (t : ETy) : t.promote = .real ↔ t = .real := by cases t <;> decide

theorem arith_comm (s t : ETy) : s.arith t = t.arith s := by cases s <;> cases t <;> decide

theorem common_comm (s t : ETy) : s.common t = t.common s := by cases s <;> cases t <;> decide

theorem common_self (t : ETy) : t.common t = t := by cases t <;> decide

theorem arith_arith (s t : ETy) : (s.arith t).arith (s.arith t) = s.arith t := by
  cases s <;> cases t <;> decide

theorem bits_common_le {s t : ETy} (hs : s ≠ .real) (ht : t ≠ .real) :
    (s.common t).bits ≤ (s.arith t).bits := by
  cases s <;> cases t <;> first | decide | contradiction

theorem bits_common_self_le {t : ETy} : t.bits ≤ (t.arith t).bits := by cases t <;> decide

theorem bits_le_common {s t : ETy} (hs : s ≠ .real) (ht : t ≠ .real) {b : Nat} (h1 : b ≤ s.bits)
    (h2 : b ≤ t.bits) : b ≤ (s.common t).bits := by
  cases s <;> cases t <;> first | contradiction | (simp [common, arith, promote, bits, signed] at *; omega)

theorem bits_le_arith {s t : ETy} (hs : s ≠ .real) (ht : t ≠ .real) {b : Nat} (h1 : b ≤ s.bits)
    (h2 : b ≤ t.bits) : b ≤ (s.arith t).bits := by
  cases s <;> cases t <;> first | contradiction | (simp [arith, promote, bits, signed] at *; omega)

theorem bits_le_promote {t : ETy} {b : Nat} (h : b ≤ t.bits) : b ≤ t.promote.bits := by
  cases t <;> simp [promote, bits] at * <;> omega

theorem common_range {s t : ETy} (hs : s ≠ .real) (ht : t ≠ .real) {z : ℤ} (h : (s.common t).InRange z)
    (hsig : (s.arith t).signed = true) : (s.arith t).InRange z := by
  cases s <;> cases t <;> first
    | contradiction
    | (simp [common, arith, promote, bits, signed] at hsig; done)
    | (simp [common, arith, promote, bits, signed, InRange, lo, hi] at h ⊢; omega)

theorem arith_signed_left {s t : ETy} (hs : s ≠ .real) (ht : t ≠ .real) {z : ℤ} (h : s.InRange z)
    (hsig : (s.arith t).signed = true) : (s.arith t).InRange z := by
  cases s <;> cases t <;> first
    | contradiction
    | (simp [arith, promote, bits, signed] at hsig; done)
    | (simp [arith, promote, bits, signed, InRange, lo, hi] at h ⊢; omega)

theorem arith_signed_right {s t : ETy} (hs : s ≠ .real) (ht : t ≠ .real) {z : ℤ} (h : t.InRange z)
    (hsig : (s.arith t).signed = true) : (s.arith t).InRange z := by
  rw [arith_comm] at *
  exact arith_signed_left ht hs h hsig

theorem arith_unsigned {s t : ETy} (hs : s ≠ .real) (ht : t ≠ .real) (hsig : (s.arith t).signed = false) :
    s.common t = s.arith t := by
  cases s <;> cases t <;> first | contradiction | rfl | (simp [arith, promote, bits, signed] at hsig)

theorem promote_range {t : ETy} (ht : t ≠ .real) {z : ℤ} (h : t.InRange z) : t.promote.InRange z := by
  cases t <;> first
    | contradiction
    | (simp [promote, bits, signed, InRange, lo, hi] at h ⊢; omega)

theorem wrap_range {t : ETy} (ht : t ≠ .real) (z : ℤ) : t.InRange (t.wrap z) := by
  cases t <;> first
    | contradiction
    | (simp only [InRange, lo, hi, wrap, signed, bits]; simp only [if_true, Bool.false_eq_true, if_false]
       constructor <;> (norm_num [Int.bmod]; try split_ifs) <;> omega)

theorem wrap_of_range {t : ETy} (ht : t ≠ .real) {z : ℤ} (h : t.InRange z) : t.wrap z = z := by
  cases t <;> first
    | contradiction
    | (simp only [InRange, lo, hi, wrap, signed, bits, if_true, Bool.false_eq_true, if_false] at *
       norm_num [Int.bmod] at *
       try split_ifs
       all_goals omega)

theorem wrap_modEq {t : ETy} (ht : t ≠ .real) (z : ℤ) : t.wrap z ≡ z [ZMOD 2 ^ t.bits] := by
  cases t <;> first
    | contradiction
    | (simp only [wrap, signed, bits, if_true, Bool.false_eq_true, if_false]
       norm_num [Int.bmod, Int.ModEq]
       try split_ifs
       all_goals omega)

theorem range_unique {t : ETy} (ht : t ≠ .real) {a b : ℤ} (ha : t.InRange a) (hb : t.InRange b)
    (h : a ≡ b [ZMOD 2 ^ t.bits]) : a = b := by
  cases t <;> first
    | contradiction
    | (simp only [InRange, lo, hi, signed, bits, if_true, Bool.false_eq_true, if_false, Int.ModEq] at *
       norm_num at *
       omega)

theorem wrap_eq_iff {t : ETy} (ht : t ≠ .real) (a b : ℤ) : t.wrap a = t.wrap b ↔ a ≡ b [ZMOD 2 ^ t.bits] := by
  constructor
  · intro h
    exact (wrap_modEq ht a).symm.trans (h ▸ wrap_modEq ht b)
  · intro h
    exact range_unique ht (wrap_range ht a) (wrap_range ht b)
      (((wrap_modEq ht a).trans h).trans (wrap_modEq ht b).symm)

end ETy

/-- Congruence modulo a larger power of two implies that modulo a smaller one. -/
theorem modEq_pow_le {a b : ℤ} {m k : Nat} (h : a ≡ b [ZMOD 2 ^ m]) (hk : k ≤ m) : a ≡ b [ZMOD 2 ^ k] :=
  h.of_dvd (pow_dvd_pow 2 hk)

section
variable {K : Type} [Field K] [LinearOrder K] [FloorRing K]

theorem conv_int {t : ETy} (ht : t ≠ .real) (z : ℤ) : (Num.int z : Num K).conv t = .ok (.int (t.wrap z)) := by
  cases t <;> first | contradiction | rfl

theorem conv_real (v : Num K) : v.conv .real = .ok (.real v.val) := by cases v <;> rfl

theorem conv_trunc {t : ETy} (ht : t ≠ .real) (x : K) : (Num.real x : Num K).conv t =
    if t.InRange (truncZ x) then .ok (.int (truncZ x)) else .ub .overflow := by
  cases t <;> first | contradiction | rfl

/-- Integer version of the operators other than the division. -/
def AOp.z : AOp → ℤ → ℤ → ℤ
  | .add, x, y => x + y
  | .sub, x, y => x - y
  | .mul, x, y => x * y
  | .div, x, y => x.tdiv y

theorem raw_int {o : AOp} (t : ETy) (x y : ℤ) (h : o ≠ .div ∨ y ≠ 0) :
    o.raw t (.int x : Num K) (.int y) = t.result (o.z x y) := by
  cases o <;> first | rfl | (rcases h with h | h <;> simp_all [AOp.raw, AOp.z])

theorem z_modEq {o : AOp} (ho : o ≠ .div) {m a b c d : ℤ} (h1 : a ≡ c [ZMOD m]) (h2 : b ≡ d [ZMOD m]) :
    o.z a b ≡ o.z c d [ZMOD m] := by
  cases o
  · exact h1.add h2
  · exact h1.sub h2
  · exact h1.mul h2
  · contradiction

theorem result_ok {t : ETy} (ht : t ≠ .real) {z : ℤ} (h : t.InRange z) :
    (t.result z : Res (Num K)) = .ok (.int z) := by
  unfold ETy.result
  split
  · simp [show t.lo ≤ z ∧ z ≤ t.hi from h]
  · rw [wrap_of_range ht h]

theorem result_unsigned {t : ETy} (h : t.signed = false) (z : ℤ) :
    (t.result z : Res (Num K)) = .ok (.int (t.wrap z)) := by
  simp [ETy.result, h]

theorem result_signed {t : ETy} (h : t.signed = true) (z : ℤ) :
    (t.result z : Res (Num K)) = if t.InRange z then .ok (.int z) else .ub .overflow := by
  simp [ETy.result, h, ETy.InRange]

theorem result_inv {t : ETy} (ht : t ≠ .real) {z : ℤ} {v : Num K} (h : t.result z = .ok v) :
    ∃ w, v = .int w ∧ t.InRange w ∧ w ≡ z [ZMOD 2 ^ t.bits] := by
  unfold ETy.result at h
  split at h
  · split at h
    · rename_i hz
      injection h with h
      exact ⟨z, h.symm, hz, rfl⟩
    · cases h
  · injection h with h
    exact ⟨_, h.symm, wrap_range ht z, wrap_modEq ht z⟩

/-- Congruence of the built-in operators. -/
theorem builtin_inv {o : AOp} (ho : o ≠ .div) {s t : ETy} (hs : s ≠ .real) (ht : t ≠ .real) {a b : ℤ}
    {v : Num K} (h : o.builtin s t (.int a) (.int b) = .ok v) :
    ∃ w, v = .int w ∧ (s.arith t).InRange w ∧ w ≡ o.z a b [ZMOD 2 ^ (s.arith t).bits] := by
  have hr : s.arith t ≠ .real := fun h => by rcases (arith_real s t).1 h with h | h <;> contradiction
  unfold AOp.builtin at h
  rw [conv_int hr, conv_int hr] at h
  simp only [Res.ok_bind] at h
  rw [raw_int _ _ _ (.inl ho)] at h
  obtain ⟨w, rfl, hw, hm⟩ := result_inv hr h
  exact ⟨w, rfl, hw, hm.trans (z_modEq ho (wrap_modEq hr a) (wrap_modEq hr b))⟩

/-- Congruence of the operators of the nodes. -/
theorem apply_inv {o : AOp} (ho : o ≠ .div) {s t : ETy} (hs : s ≠ .real) (ht : t ≠ .real) {a b : ℤ}
    {v : Num K} (h : o.apply s t (.int a) (.int b) = .ok v) :
    ∃ w, v = .int w ∧ (s.common t).InRange w ∧ w ≡ o.z a b [ZMOD 2 ^ (s.common t).bits] := by
  have hc : s.common t ≠ .real := fun h => by rcases (common_real s t).1 h with h | h <;> contradiction
  unfold AOp.apply at h
  cases hb : o.builtin s t (.int a : Num K) (.int b) with
  | throw e => rw [hb] at h; cases h
  | ub e => rw [hb] at h; cases h
  | ok r =>
    rw [hb] at h
    obtain ⟨w, rfl, hw, hm⟩ := builtin_inv ho hs ht hb
    rw [Res.ok_bind, conv_int hc] at h
    injection h with h
    exact ⟨_, h.symm, wrap_range hc w, (wrap_modEq hc w).trans (modEq_pow_le hm (bits_common_le hs ht))⟩

/-- The built-in operators are exact if the result fits. -/
theorem builtin_ok {o : AOp} (ho : o ≠ .div) {s t : ETy} (hs : s ≠ .real) (ht : t ≠ .real) {a b : ℤ}
    (ha : s.InRange a) (hb : t.InRange b) (h : (s.arith t).InRange (o.z a b)) :
    o.builtin s t (.int a : Num K) (.int b) = .ok (.int (o.z a b)) := by
  have hr : s.arith t ≠ .real := fun h => by rcases (arith_real s t).1 h with h | h <;> contradiction
  unfold AOp.builtin
  rw [conv_int hr, conv_int hr]
  simp only [Res.ok_bind]
  rw [raw_int _ _ _ (.inl ho)]
  cases hsig : (s.arith t).signed
  · rw [result_unsigned hsig, (wrap_eq_iff hr _ _).2 (z_modEq ho (wrap_modEq hr a) (wrap_modEq hr b)),
      wrap_of_range hr h]
  · rw [wrap_of_range hr (arith_signed_left hs ht ha hsig), wrap_of_range hr (arith_signed_right hs ht hb hsig),
      result_ok hr h]

/-- The operators of the nodes are exact if the result fits. -/
theorem apply_ok {o : AOp} (ho : o ≠ .div) {s t : ETy} (hs : s ≠ .real) (ht : t ≠ .real) {a b : ℤ}
    (ha : s.InRange a) (hb : t.InRange b) (h : (s.common t).InRange (o.z a b)) :
    o.apply s t (.int a : Num K) (.int b) = .ok (.int (o.z a b)) := by
  have hc : s.common t ≠ .real := fun h => by rcases (common_real s t).1 h with h | h <;> contradiction
  have hA : (s.arith t).InRange (o.z a b) := by
    cases hsig : (s.arith t).signed
    · rw [← arith_unsigned hs ht hsig]; exact h
    · exact common_range hs ht h hsig
  unfold AOp.apply
  rw [builtin_ok ho hs ht ha hb hA, Res.ok_bind, conv_int hc, wrap_of_range hc h]

theorem apply_div_ok {s t : ETy} (hs : s ≠ .real) (ht : t ≠ .real) {a b : ℤ}
    (ha : (s.arith t).InRange a) (hb : (s.arith t).InRange b) (h0 : b ≠ 0)
    (h : (s.common t).InRange (a.tdiv b)) :
    AOp.div.apply s t (.int a : Num K) (.int b) = .ok (.int (a.tdiv b)) := by
  have hc : s.common t ≠ .real := fun h => by rcases (common_real s t).1 h with h | h <;> contradiction
  have hr : s.arith t ≠ .real := fun h => by rcases (arith_real s t).1 h with h | h <;> contradiction
  have hA : (s.arith t).InRange (a.tdiv b) := by
    cases hsig : (s.arith t).signed
    · rw [← arith_unsigned hs ht hsig]; exact h
    · exact common_range hs ht h hsig
  unfold AOp.apply AOp.builtin
  rw [conv_int hr, conv_int hr, wrap_of_range hr ha, wrap_of_range hr hb]
  simp only [Res.ok_bind]
  rw [raw_int _ _ _ (.inr h0)]
  show (ETy.result _ (a.tdiv b) >>= _) = _
  rw [result_ok hr hA, Res.ok_bind, conv_int hc, wrap_of_range hc h]

/-- With an operand of the floating-point type the arithmetic is that of the field. -/
theorem apply_real {o : AOp} {s t : ETy} (h : s = .real ∨ t = .real) (a b : Num K)
    (hd : o = .div → b.val ≠ 0) : o.apply s t a b = .ok (.real (o.exact a.val b.val)) := by
  have hr : s.arith t = .real := (arith_real s t).2 h
  have hc : s.common t = .real := (common_real s t).2 h
  unfold AOp.apply AOp.builtin
  rw [hr, hc, conv_real, conv_real]
  simp only [Res.ok_bind]
  cases o
  · simp only [AOp.raw, AOp.exact, Res.ok_bind]; rw [conv_real]; rfl
  · simp only [AOp.raw, AOp.exact, Res.ok_bind]; rw [conv_real]; rfl
  · simp only [AOp.raw, AOp.exact, Res.ok_bind]; rw [conv_real]; rfl
  · simp only [AOp.raw, AOp.exact, if_neg (hd rfl), Res.ok_bind]; rw [conv_real]; rfl

/-- Type preservation of the operators. -/
theorem conv_holds {t : ETy} {v w : Num K} (h : v.conv t = .ok w) : t.Holds w := by
  by_cases ht : t = .real
  · subst ht
    rw [conv_real] at h
    injection h with h
    exact .inl ⟨rfl, _, h.symm⟩
  · cases v with
    | int z =>
      rw [conv_int ht] at h
      injection h with h
      exact .inr ⟨ht, _, h.symm, wrap_range ht z⟩
    | real x =>
      rw [conv_trunc ht] at h
      split at h
      · injection h with h
        exact .inr ⟨ht, _, h.symm, by assumption⟩
      · cases h

theorem apply_holds {o : AOp} {s t : ETy} {a b v : Num K} (h : o.apply s t a b = .ok v) :
    (s.common t).Holds v := by
  unfold AOp.apply at h
  cases hb : o.builtin s t a b with
  | throw e => rw [hb] at h; cases h
  | ub e => rw [hb] at h; cases h
  | ok r =>
    rw [hb] at h
    exact conv_holds h

theorem negApply_real (a : Num K) : negApply .real a = .ok (.real (-a.val)) := by
  unfold negApply
  rw [show ETy.real.promote = .real from rfl, conv_real]
  rfl

theorem negApply_int {t : ETy} (ht : t ≠ .real) (z : ℤ) :
    negApply t (.int z : Num K) = t.promote.result (-t.promote.wrap z) := by
  unfold negApply
  rw [conv_int (fun h => ht ((promote_real t).1 h))]
  rfl

theorem negApply_holds {t : ETy} {a v : Num K} (ha : t.Holds a) (h : negApply t a = .ok v) :
    t.promote.Holds v := by
  rcases ha with ⟨rfl, x, rfl⟩ | ⟨ht, z, rfl, hz⟩
  · rw [negApply_real] at h
    injection h with h
    exact .inl ⟨rfl, _, h.symm⟩
  · have hp : t.promote ≠ .real := fun h => ht ((promote_real t).1 h)
    rw [negApply_int ht] at h
    obtain ⟨w, rfl, hw, -⟩ := result_inv hp h
    exact .inr ⟨hp, w, rfl, hw⟩

/-- What a value of an integral type is. -/
theorem Holds.int {t : ETy} {v : Num K} (h : t.Holds v) (ht : t ≠ .real) : ∃ z, v = .int z ∧ t.InRange z := by
  rcases h with ⟨h, -⟩ | ⟨-, h⟩
  · contradiction
  · exact h

theorem Holds.real {v : Num K} (h : ETy.real.Holds v) : ∃ x, v = .real x := by
  rcases h with ⟨-, h⟩ | ⟨h, -⟩
  · exact h
  · contradiction

/-- Loops that compute one element after the other. -/
theorem loop_fill {α : Type} {n : Nat} {body : Nat → (Fin n → α) → Res (Fin n → α)} {x w : Fin n → α}
    (h : ∀ (i : Fin n) (y : Fin n → α), y i = x i → body i y = .ok (Function.update y i (w i))) :
    Res.loop body 0 n x = .ok w := by
  obtain ⟨y, hy, hP⟩ := Res.loop_inv (body := body) (s := x) (lo := 0) (n := n)
    (fun k y => ∀ i : Fin n, y i = if i.1 < k then w i else x i)
    (fun i => by simp)
    (fun k y _ hk hy => by
      refine ⟨_, h ⟨k, by omega⟩ y (by rw [hy]; simp), fun i => ?_⟩
      by_cases hi : i = ⟨k, by omega⟩
      · subst hi; simp
      · rw [Function.update_of_ne hi, hy]
        have : i.1 ≠ k := fun h => hi (Fin.ext h)
        by_cases h2 : i.1 < k
        · simp [h2, show i.1 < k + 1 by omega]
        · simp [h2, show ¬ i.1 < k + 1 by omega])
  rw [hy]
  congr 1
  funext i
  rw [hP i]
  simp

/-- A loop stops at the first element that is undefined. -/
theorem loop_fill_ub {α : Type} {n : Nat} {body : Nat → (Fin n → α) → Res (Fin n → α)} {x : Fin n → α}
    {u : UB} (w : Fin n → α) (k : Fin n)
    (h : ∀ (i : Fin n) (y : Fin n → α), i < k → y i = x i → body i y = .ok (Function.update y i (w i)))
    (hk : ∀ y : Fin n → α, y k = x k → body k y = .ub u) :
    Res.loop body 0 n x = .ub u := by
  have key : ∀ m lo (y : Fin n → α), lo + m = n → lo ≤ k.1 → (∀ i : Fin n, lo ≤ i.1 → y i = x i) →
      Res.loop body lo m y = .ub u := by
    intro m
    induction m with
    | zero => intro lo y h1 h2; have := k.2; omega
    | succ m ih =>
      intro lo y h1 h2 hy
      rw [Res.loop]
      by_cases hl : lo = k.1
      · subst hl
        rw [hk y (hy k le_rfl)]; rfl
      · have hlt : lo < n := by omega
        have hb := h ⟨lo, hlt⟩ y (show lo < k.1 by omega) (hy _ le_rfl)
        simp only at hb
        rw [hb]
        refine ih (lo + 1) _ (by omega) (by omega) fun i hi => ?_
        have hne : i ≠ ⟨lo, hlt⟩ := fun h => by subst h; simp at hi
        rw [Function.update_of_ne hne]
        exact hy i (by omega)
  exact key n 0 x (by omega) (by omega) fun _ _ => rfl

/-- An accumulating loop. -/
theorem loop_acc {α : Type} {body : Nat → α → Res α} (f : Nat → α) (n lo : Nat)
    (h : ∀ i, lo ≤ i → i < lo + n → body i (f i) = .ok (f (i + 1))) :
    Res.loop body lo n (f lo) = .ok (f (lo + n)) := by
  induction n generalizing lo with
  | zero => rfl
  | succ n ih =>
    rw [Res.loop, h lo le_rfl (by omega)]
    show Res.loop body (lo + 1) n (f (lo + 1)) = _
    rw [ih (lo + 1) (fun i h1 h2 => h i (by omega) (by omega))]
    congr 2
    omega

end

end CML
