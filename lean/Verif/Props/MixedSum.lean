import Verif.Lemmas.Mixed
import Mathlib.Algebra.BigOperators.Fin
import Mathlib.Algebra.BigOperators.Intervals
import Mathlib.Algebra.Order.BigOperators.Group.Finset
import Mathlib.Data.Rat.Floor

/-!
C126: dot products and matrix products of vectors of integral elements with their limited range.
-/

set_option linter.unusedSectionVars false

namespace CML

open ETy Finset

/-- Inversion of a loop that ended normally. -/
private theorem loop_ok_inv {σ : Type} {body : Nat → σ → Res σ} (P : Nat → σ → Prop) (n : Nat) :
    ∀ (lo : Nat) (s r : σ), P lo s →
      (∀ k s s', lo ≤ k → k < lo + n → P k s → body k s = .ok s' → P (k + 1) s') →
      Res.loop body lo n s = .ok r → P (lo + n) r := by
  induction n with
  | zero => intro lo s r h0 _ h; injection h with h; exact h ▸ h0
  | succ n ih =>
    intro lo s r h0 hs h
    rw [Res.loop] at h
    cases hb : body lo s with
    | throw _ => rw [hb] at h; cases h
    | ub _ => rw [hb] at h; cases h
    | ok s1 =>
      rw [hb] at h
      have := ih (lo + 1) s1 r (hs lo s s1 le_rfl (by omega) h0 hb)
        (fun k s s' h1 h2 => hs k s s' (by omega) (by omega)) h
      rwa [show lo + 1 + n = lo + (n + 1) by omega] at this

section
variable {K : Type} [Field K] [LinearOrder K] [FloorRing K] {n : Nat} {s t : ETy} {x y : Fin (n + 1) → ℤ}

/-- Sum of the first `k` products. -/
def partialDot (x y : Fin (n + 1) → ℤ) (k : Nat) : ℤ :=
  ∑ i ∈ range k, if h : i < n + 1 then x ⟨i, h⟩ * y ⟨i, h⟩ else 0

private theorem partialDot_one : partialDot x y 1 = x 0 * y 0 := by simp [partialDot]

private theorem partialDot_succ {k : Nat} (h : k < n + 1) :
    partialDot x y (k + 1) = partialDot x y k + x ⟨k, h⟩ * y ⟨k, h⟩ := by
  rw [partialDot, sum_range_succ, dif_pos h]; rfl

theorem partialDot_all : partialDot x y (n + 1) = ∑ i, x i * y i := by
  rw [partialDot, Finset.sum_range]
  refine sum_congr rfl fun i _ => ?_
  rw [dif_pos i.2]

/-- C126: if `dot` of vectors of integers is defined, it is a value of the common type and right modulo the range of
this type, whatever overflows on the way. -/
theorem dotT_modEq (hs : s ≠ .real) (ht : t ≠ .real) {v : Num K}
    (h : dotT s t (fun i => .int (x i)) (fun i => .int (y i)) = .ok v) :
    ∃ w, v = .int w ∧ (s.common t).InRange w ∧ w ≡ ∑ i, x i * y i [ZMOD 2 ^ (s.common t).bits] := by
  have hc : s.common t ≠ .real := fun h => by rcases (common_real s t).1 h with h | h <;> contradiction
  unfold dotT at h
  cases h0 : AOp.mul.apply s t (.int (x 0) : Num K) (.int (y 0)) with
  | throw _ => rw [h0] at h; cases h
  | ub _ => rw [h0] at h; cases h
  | ok a =>
    rw [h0, Res.ok_bind] at h
    obtain ⟨w0, rfl, hw0, hm0⟩ := apply_inv (by decide) hs ht h0
    rw [← partialDot_all, Nat.add_comm n 1]
    refine loop_ok_inv (fun k (acc : Num K) => ∃ w, acc = .int w ∧ (s.common t).InRange w ∧
      w ≡ partialDot x y k [ZMOD 2 ^ (s.common t).bits]) n 1 _ v ⟨w0, rfl, hw0, ?_⟩ ?_ h
    · rw [partialDot_one]; exact hm0
    · rintro k _ r h1 h2 ⟨w, rfl, hw, hm⟩ hb
      have hk : k < n + 1 := by omega
      rw [dif_pos hk] at hb
      cases hp : AOp.mul.apply s t (.int (x ⟨k, hk⟩) : Num K) (.int (y ⟨k, hk⟩)) with
      | throw _ => rw [hp] at hb; cases hb
      | ub _ => rw [hp] at hb; cases hb
      | ok p =>
        rw [hp, Res.ok_bind] at hb
        obtain ⟨p, rfl, -, hpm⟩ := apply_inv (by decide) hs ht hp
        obtain ⟨w', rfl, hw', hm'⟩ := apply_inv (by decide) hc hc hb
        rw [common_self] at hw' hm'
        refine ⟨w', rfl, hw', hm'.trans ?_⟩
        rw [partialDot_succ hk]
        exact hm.add hpm

/-- C126: the same for an element of a matrix product. -/
theorem innerT_modEq (hs : s ≠ .real) (ht : t ≠ .real) {v : Num K}
    (h : innerT s t (fun i => .int (x i)) (fun i => .int (y i)) = .ok v) :
    ∃ w, v = .int w ∧ (s.common t).InRange w ∧ w ≡ ∑ i, x i * y i [ZMOD 2 ^ (s.common t).bits] := by
  have hc : s.common t ≠ .real := fun h => by rcases (common_real s t).1 h with h | h <;> contradiction
  have hr : s.arith t ≠ .real := fun h => by rcases (arith_real s t).1 h with h | h <;> contradiction
  unfold innerT at h
  cases h0 : AOp.mul.builtin s t (.int (x 0) : Num K) (.int (y 0)) with
  | throw _ => rw [h0] at h; cases h
  | ub _ => rw [h0] at h; cases h
  | ok a =>
    rw [h0, Res.ok_bind] at h
    obtain ⟨w0, rfl, hw0, hm0⟩ := builtin_inv (by decide) hs ht h0
    have key : ∀ r, Res.loop (fun i acc => if h : i < n + 1 then do
          let p ← AOp.mul.builtin s t (.int (x ⟨i, h⟩) : Num K) (.int (y ⟨i, h⟩))
          AOp.add.builtin (s.arith t) (s.arith t) acc p
        else .ub .oob) 1 n (.int w0) = .ok r →
        ∃ w, r = .int w ∧ w ≡ partialDot x y (1 + n) [ZMOD 2 ^ (s.arith t).bits] := by
      intro r hl
      refine loop_ok_inv (fun k (acc : Num K) => ∃ w, acc = .int w ∧
        w ≡ partialDot x y k [ZMOD 2 ^ (s.arith t).bits]) n 1 _ r ⟨w0, rfl, ?_⟩ ?_ hl
      · rw [partialDot_one]; exact hm0
      · rintro k _ r h1 h2 ⟨w, rfl, hm⟩ hb
        have hk : k < n + 1 := by omega
        rw [dif_pos hk] at hb
        cases hp : AOp.mul.builtin s t (.int (x ⟨k, hk⟩) : Num K) (.int (y ⟨k, hk⟩)) with
        | throw _ => rw [hp] at hb; cases hb
        | ub _ => rw [hp] at hb; cases hb
        | ok p =>
          rw [hp, Res.ok_bind] at hb
          obtain ⟨p, rfl, -, hpm⟩ := builtin_inv (by decide) hs ht hp
          obtain ⟨w', rfl, -, hm'⟩ := builtin_inv (by decide) hr hr hb
          rw [arith_arith] at hm'
          refine ⟨w', rfl, hm'.trans ?_⟩
          rw [partialDot_succ hk]
          exact hm.add hpm
    cases hl : Res.loop (fun i acc => if h : i < n + 1 then do
          let p ← AOp.mul.builtin s t (.int (x ⟨i, h⟩) : Num K) (.int (y ⟨i, h⟩))
          AOp.add.builtin (s.arith t) (s.arith t) acc p
        else .ub .oob) 1 n (.int w0) with
    | throw _ => rw [hl] at h; cases h
    | ub _ => rw [hl] at h; cases h
    | ok r =>
      rw [hl, Res.ok_bind] at h
      obtain ⟨w, rfl, hm⟩ := key r hl
      rw [conv_int hc] at h
      injection h with h
      refine ⟨_, h.symm, wrap_range hc w, (wrap_modEq hc w).trans ?_⟩
      rw [← partialDot_all, Nat.add_comm n 1]
      exact modEq_pow_le hm (bits_common_le hs ht)

/-- C126: `dot(x, y)` and the element of a matrix product with the same operands agree whenever both are defined,
although they convert at different places. -/
theorem dotT_eq_innerT (hs : s ≠ .real) (ht : t ≠ .real) {v w : Num K}
    (hv : dotT s t (fun i => .int (x i)) (fun i => .int (y i)) = .ok v)
    (hw : innerT s t (fun i => .int (x i)) (fun i => .int (y i)) = .ok w) : v = w := by
  have hc : s.common t ≠ .real := fun h => by rcases (common_real s t).1 h with h | h <;> contradiction
  obtain ⟨a, rfl, ha, hma⟩ := dotT_modEq hs ht hv
  obtain ⟨b, rfl, hb, hmb⟩ := innerT_modEq hs ht hw
  rw [range_unique hc ha hb (hma.trans hmb.symm)]

/-- C126: `dot` is exact if all products and partial sums fit into the common type. -/
theorem dotT_exact (hs : s ≠ .real) (ht : t ≠ .real) (hx : ∀ i, s.InRange (x i)) (hy : ∀ i, t.InRange (y i))
    (hp : ∀ i, (s.common t).InRange (x i * y i))
    (hsum : ∀ k, 1 ≤ k → k ≤ n + 1 → (s.common t).InRange (partialDot x y k)) :
    dotT s t (fun i => (.int (x i) : Num K)) (fun i => .int (y i)) = .ok (.int (∑ i, x i * y i)) := by
  have hc : s.common t ≠ .real := fun h => by rcases (common_real s t).1 h with h | h <;> contradiction
  unfold dotT
  rw [apply_ok (o := .mul) (by decide) hs ht (hx 0) (hy 0) (hp 0), Res.ok_bind]
  have hall : partialDot x y (1 + n) = ∑ i, x i * y i := by rw [Nat.add_comm 1 n, partialDot_all]
  have := loop_acc (body := fun i acc => if h : i < n + 1 then do
      let p ← AOp.mul.apply s t (.int (x ⟨i, h⟩) : Num K) (.int (y ⟨i, h⟩))
      AOp.add.apply (s.common t) (s.common t) acc p
    else .ub .oob) (fun k => .int (partialDot x y k)) n 1 (fun i h1 h2 => by
      have hi : i < n + 1 := by omega
      rw [dif_pos hi, apply_ok (o := .mul) (by decide) hs ht (hx _) (hy _) (hp _), Res.ok_bind,
        show AOp.mul.z (x ⟨i, hi⟩) (y ⟨i, hi⟩) = x ⟨i, hi⟩ * y ⟨i, hi⟩ from rfl,
        apply_ok (o := .add) (by decide) hc hc (hsum i h1 (by omega)) (hp _)]
      · rw [partialDot_succ hi]; rfl
      · rw [common_self]
        have := hsum (i + 1) (by omega) (by omega)
        rw [partialDot_succ hi] at this
        exact this)
  rw [partialDot_one, hall] at this
  exact this

/-- C126: an element of a matrix product is exact under weaker conditions: the products and partial sums need only fit
into the type of the products, the final sum into the common type. -/
theorem innerT_exact (hs : s ≠ .real) (ht : t ≠ .real) (hx : ∀ i, s.InRange (x i)) (hy : ∀ i, t.InRange (y i))
    (hp : ∀ i, (s.arith t).InRange (x i * y i))
    (hsum : ∀ k, 1 ≤ k → k ≤ n + 1 → (s.arith t).InRange (partialDot x y k))
    (hall : (s.common t).InRange (∑ i, x i * y i)) :
    innerT s t (fun i => (.int (x i) : Num K)) (fun i => .int (y i)) = .ok (.int (∑ i, x i * y i)) := by
  have hc : s.common t ≠ .real := fun h => by rcases (common_real s t).1 h with h | h <;> contradiction
  have hr : s.arith t ≠ .real := fun h => by rcases (arith_real s t).1 h with h | h <;> contradiction
  unfold innerT
  rw [builtin_ok (o := .mul) (by decide) hs ht (hx 0) (hy 0) (hp 0), Res.ok_bind]
  have := loop_acc (body := fun i acc => if h : i < n + 1 then do
      let p ← AOp.mul.builtin s t (.int (x ⟨i, h⟩) : Num K) (.int (y ⟨i, h⟩))
      AOp.add.builtin (s.arith t) (s.arith t) acc p
    else .ub .oob) (fun k => .int (partialDot x y k)) n 1 (fun i h1 h2 => by
      have hi : i < n + 1 := by omega
      rw [dif_pos hi, builtin_ok (o := .mul) (by decide) hs ht (hx _) (hy _) (hp _), Res.ok_bind,
        show AOp.mul.z (x ⟨i, hi⟩) (y ⟨i, hi⟩) = x ⟨i, hi⟩ * y ⟨i, hi⟩ from rfl,
        builtin_ok (o := .add) (by decide) hr hr (hsum i h1 (by omega)) (hp _)]
      · rw [partialDot_succ hi]; rfl
      · rw [arith_arith]
        have := hsum (i + 1) (by omega) (by omega)
        rw [partialDot_succ hi] at this
        exact this)
  rw [partialDot_one] at this
  rw [show AOp.mul.z (x 0) (y 0) = x 0 * y 0 from rfl, this, Res.ok_bind, conv_int hc, Nat.add_comm 1 n, partialDot_all,
    wrap_of_range hc hall]

/-! When the products are defined. -/

private theorem add_narrow {t : ETy} (ht : t = .i8 ∨ t = .u8 ∨ t = .i16 ∨ t = .u16) {a b : ℤ} (ha : t.InRange a)
    (hb : t.InRange b) : AOp.add.apply t t (.int a : Num K) (.int b) = .ok (.int (t.wrap (a + b))) := by
  have htr : t ≠ .real := by rcases ht with rfl | rfl | rfl | rfl <;> decide
  have hA : t.arith t = .i32 := by rcases ht with rfl | rfl | rfl | rfl <;> rfl
  unfold AOp.apply
  rw [builtin_ok (o := .add) (by decide) htr htr ha hb, Res.ok_bind, common_self, conv_int htr]
  · rfl
  · rw [hA]
    clear hA
    rcases ht with rfl | rfl | rfl | rfl <;>
      simp only [InRange, AOp.z, lo, hi, signed, bits, if_true, Bool.false_eq_true, if_false] at * <;>
      norm_num at * <;> omega

private theorem mul_narrow {t : ETy} (ht : t = .i8 ∨ t = .u8 ∨ t = .i16) {a b : ℤ} (ha : t.InRange a)
    (hb : t.InRange b) : AOp.mul.builtin t t (.int a : Num K) (.int b) = .ok (.int (a * b)) ∧
      AOp.mul.apply t t (.int a : Num K) (.int b) = .ok (.int (t.wrap (a * b))) := by
  have htr : t ≠ .real := by rcases ht with rfl | rfl | rfl <;> decide
  have hab : |a| ≤ 2 ^ 15 ∧ |b| ≤ 2 ^ 15 := by
    rw [abs_le, abs_le]
    rcases ht with rfl | rfl | rfl <;>
      simp only [InRange, lo, hi, signed, bits, if_true, Bool.false_eq_true, if_false] at * <;>
      norm_num at * <;> omega
  have hmul : |a * b| ≤ 2 ^ 30 := by
    rw [abs_mul]
    calc |a| * |b| ≤ 2 ^ 15 * 2 ^ 15 := mul_le_mul hab.1 hab.2 (abs_nonneg _) (by norm_num)
      _ = 2 ^ 30 := by norm_num
  have hb' := builtin_ok (K := K) (o := .mul) (by decide) htr htr ha hb (by
    have := abs_le.1 hmul
    rw [show t.arith t = .i32 by rcases ht with rfl | rfl | rfl <;> rfl]
    simp only [InRange, AOp.z, lo, hi, signed, bits, if_true]
    norm_num at this ⊢
    omega)
  refine ⟨hb', ?_⟩
  unfold AOp.apply
  rw [hb', Res.ok_bind, common_self, conv_int htr]
  rfl

/-- C126: `dot` of vectors of the same type of 8 bits, or of 16 bits with sign, is defined for all values and
sizes. -/
theorem dotT_narrow_defined {t : ETy} (ht : t = .i8 ∨ t = .u8 ∨ t = .i16) (hx : ∀ i, t.InRange (x i))
    (hy : ∀ i, t.InRange (y i)) :
    ∃ v : Num K, dotT t t (fun i => .int (x i)) (fun i => .int (y i)) = .ok v := by
  have htr : t ≠ .real := by rcases ht with rfl | rfl | rfl <;> decide
  unfold dotT
  rw [(mul_narrow ht (hx 0) (hy 0)).2, Res.ok_bind]
  obtain ⟨v, hv, -⟩ := Res.loop_inv (body := fun i acc => if h : i < n + 1 then do
      let p ← AOp.mul.apply t t (.int (x ⟨i, h⟩) : Num K) (.int (y ⟨i, h⟩))
      AOp.add.apply (t.common t) (t.common t) acc p
    else .ub .oob) (lo := 1) (n := n) (s := .int (t.wrap (x 0 * y 0)))
    (fun _ acc => ∃ w, acc = .int w ∧ t.InRange w) ⟨_, rfl, wrap_range htr _⟩ (by
      rintro k _ h1 h2 ⟨w, rfl, hw⟩
      have hk : k < n + 1 := by omega
      rw [dif_pos hk, (mul_narrow ht (hx _) (hy _)).2, Res.ok_bind, common_self,
        add_narrow (by rcases ht with h | h | h <;> simp [h]) hw (wrap_range htr _)]
      exact ⟨_, rfl, _, rfl, wrap_range htr _⟩)
  exact ⟨v, hv⟩

private theorem unsigned_mul (hs : s ≠ .real) (ht : t ≠ .real) (hu : (s.arith t).signed = false) {o : AOp}
    (ho : o ≠ .div) (a b : ℤ) : ∃ w, o.builtin s t (.int a : Num K) (.int b) = .ok (.int w) := by
  have hr : s.arith t ≠ .real := fun h => by rcases (arith_real s t).1 h with h | h <;> contradiction
  unfold AOp.builtin
  rw [conv_int hr, conv_int hr]
  simp only [Res.ok_bind]
  rw [raw_int _ _ _ (.inl ho), result_unsigned hu]
  exact ⟨_, rfl⟩

/-- C126: if the type of the products is unsigned (`unsigned int` or wider), `dot` and the elements of matrix products
are defined for all values and sizes. -/
theorem products_unsigned_defined (hs : s ≠ .real) (ht : t ≠ .real) (hu : (s.arith t).signed = false) :
    (∃ v : Num K, dotT s t (fun i => .int (x i)) (fun i => .int (y i)) = .ok v) ∧
    ∃ v : Num K, innerT s t (fun i => .int (x i)) (fun i => .int (y i)) = .ok v := by
  have hr : s.arith t ≠ .real := fun h => by rcases (arith_real s t).1 h with h | h <;> contradiction
  have hc : s.common t ≠ .real := fun h => by rcases (common_real s t).1 h with h | h <;> contradiction
  have hca := arith_unsigned hs ht hu
  have hu2 : ((s.arith t).arith (s.arith t)).signed = false := by rw [arith_arith]; exact hu
  have hap : ∀ a b : ℤ, ∃ w, AOp.mul.apply s t (.int a : Num K) (.int b) = .ok (.int w) := by
    intro a b
    obtain ⟨w, hw⟩ := unsigned_mul (K := K) hs ht hu (o := .mul) (by decide) a b
    unfold AOp.apply
    rw [hw, Res.ok_bind, conv_int hc]
    exact ⟨_, rfl⟩
  have had : ∀ a b : ℤ, ∃ w, AOp.add.apply (s.common t) (s.common t) (.int a : Num K) (.int b) = .ok (.int w) := by
    intro a b
    rw [hca]
    obtain ⟨w, hw⟩ := unsigned_mul (K := K) hr hr hu2 (o := .add) (by decide) a b
    unfold AOp.apply
    rw [hw, Res.ok_bind, common_self, conv_int hr]
    exact ⟨_, rfl⟩
  constructor
  · unfold dotT
    obtain ⟨w0, h0⟩ := hap (x 0) (y 0)
    rw [h0, Res.ok_bind]
    obtain ⟨v, hv, -⟩ := Res.loop_inv (body := fun i acc => if h : i < n + 1 then do
        let p ← AOp.mul.apply s t (.int (x ⟨i, h⟩) : Num K) (.int (y ⟨i, h⟩))
        AOp.add.apply (s.common t) (s.common t) acc p
      else .ub .oob) (lo := 1) (n := n) (s := .int w0)
      (fun _ acc => ∃ w, acc = .int w) ⟨_, rfl⟩ (by
        rintro k _ h1 h2 ⟨w, rfl⟩
        have hk : k < n + 1 := by omega
        obtain ⟨p, hp⟩ := hap (x ⟨k, hk⟩) (y ⟨k, hk⟩)
        obtain ⟨r, hr⟩ := had w p
        rw [dif_pos hk, hp, Res.ok_bind, hr]
        exact ⟨_, rfl, _, rfl⟩)
    exact ⟨v, hv⟩
  · unfold innerT
    obtain ⟨w0, h0⟩ := unsigned_mul (K := K) hs ht hu (o := .mul) (by decide) (x 0) (y 0)
    rw [h0, Res.ok_bind]
    obtain ⟨v, hv, w, rfl⟩ := Res.loop_inv (body := fun i acc => if h : i < n + 1 then do
        let p ← AOp.mul.builtin s t (.int (x ⟨i, h⟩) : Num K) (.int (y ⟨i, h⟩))
        AOp.add.builtin (s.arith t) (s.arith t) acc p
      else .ub .oob) (lo := 1) (n := n) (s := .int w0)
      (fun _ acc => ∃ w, acc = .int w) ⟨_, rfl⟩ (by
        rintro k _ h1 h2 ⟨w, rfl⟩
        have hk : k < n + 1 := by omega
        obtain ⟨p, hp⟩ := unsigned_mul (K := K) hs ht hu (o := .mul) (by decide) (x ⟨k, hk⟩) (y ⟨k, hk⟩)
        obtain ⟨r, hr⟩ := unsigned_mul (K := K) hr hr hu2 (o := .add) (by decide) w p
        rw [dif_pos hk, hp, Res.ok_bind, hr]
        exact ⟨_, rfl, _, rfl⟩)
    rw [hv, Res.ok_bind, conv_int hc]
    exact ⟨_, rfl⟩

private theorem mul_u16 {a b : ℤ} (ha : ETy.u16.InRange a) (hb : ETy.u16.InRange b) :
    AOp.mul.apply .u16 .u16 (.int a : Num K) (.int b) =
      if a * b ≤ 2 ^ 31 - 1 then .ok (.int (ETy.u16.wrap (a * b))) else .ub .overflow := by
  have h0 : 0 ≤ a * b := mul_nonneg ha.1 hb.1
  have ha' : ETy.i32.wrap a = a := wrap_of_range (by decide) (promote_range (t := .u16) (by decide) ha)
  have hb' : ETy.i32.wrap b = b := wrap_of_range (by decide) (promote_range (t := .u16) (by decide) hb)
  unfold AOp.apply AOp.builtin
  rw [show ETy.u16.arith .u16 = .i32 from rfl, conv_int (by decide), conv_int (by decide), ha', hb']
  simp only [Res.ok_bind]
  rw [raw_int _ _ _ (.inl (by decide)), result_signed rfl]
  by_cases h : a * b ≤ 2 ^ 31 - 1
  · have hr : ETy.i32.InRange (AOp.mul.z a b) := by
      constructor
      · exact le_trans (by decide) h0
      · exact h
    rw [if_pos hr, if_pos h]
    rfl
  · rw [if_neg h, if_neg (fun hr : ETy.i32.InRange (AOp.mul.z a b) => h hr.2)]
    rfl

/-- C126: elements of 16 bits without sign are multiplied as `int`: `dot` is undefined as soon as one product exceeds
the largest `int`. -/
theorem dotT_u16_iff (hx : ∀ i, ETy.u16.InRange (x i)) (hy : ∀ i, ETy.u16.InRange (y i)) :
    (∃ v : Num K, dotT .u16 .u16 (fun i => .int (x i)) (fun i => .int (y i)) = .ok v) ↔
      ∀ i, x i * y i ≤ 2 ^ 31 - 1 := by
  unfold dotT
  rw [mul_u16 (hx 0) (hy 0)]
  constructor
  · rintro ⟨v, h⟩
    by_cases h0 : x 0 * y 0 ≤ 2 ^ 31 - 1
    · rw [if_pos h0, Res.ok_bind] at h
      have := loop_ok_inv (fun k (acc : Num K) => ∀ i : Fin (n + 1), i.1 < k → x i * y i ≤ 2 ^ 31 - 1) n 1 _ v
        (fun i hi => by
          have : i = 0 := Fin.ext (by simpa using hi)
          rw [this]; exact h0)
        (by
          intro k acc r h1 h2 ih hb
          have hk : k < n + 1 := by omega
          rw [dif_pos hk, mul_u16 (hx _) (hy _)] at hb
          by_cases hkk : x ⟨k, hk⟩ * y ⟨k, hk⟩ ≤ 2 ^ 31 - 1
          · intro i hi
            by_cases hik : i.1 < k
            · exact ih i hik
            · have : i = ⟨k, hk⟩ := Fin.ext (by simp; omega)
              rw [this]; exact hkk
          · rw [if_neg hkk] at hb; cases hb) h
      exact fun i => this i (by omega)
    · rw [if_neg h0] at h; cases h
  · intro hp
    rw [if_pos (hp 0), Res.ok_bind]
    obtain ⟨v, hv, -⟩ := Res.loop_inv (body := fun i acc => if h : i < n + 1 then do
        let p ← AOp.mul.apply .u16 .u16 (.int (x ⟨i, h⟩) : Num K) (.int (y ⟨i, h⟩))
        AOp.add.apply (ETy.u16.common .u16) (ETy.u16.common .u16) acc p
      else .ub .oob) (lo := 1) (n := n) (s := .int (ETy.u16.wrap (x 0 * y 0)))
      (fun _ acc => ∃ w, acc = .int w ∧ ETy.u16.InRange w) ⟨_, rfl, wrap_range (by decide) _⟩ (by
        rintro k _ h1 h2 ⟨w, rfl, hw⟩
        have hk : k < n + 1 := by omega
        rw [dif_pos hk, mul_u16 (hx _) (hy _), if_pos (hp _), Res.ok_bind, common_self,
          add_narrow (by simp) hw (wrap_range (by decide) _)]
        exact ⟨_, rfl, _, rfl, wrap_range (by decide) _⟩)
    exact ⟨v, hv⟩

/-- C126: the elements of a matrix product of bytes without sign are summed up as `int`: the product is undefined as soon as
the sum exceeds the largest `int`, where `dot` is still defined (`dotT_narrow_defined`). -/
theorem innerT_u8_iff (hx : ∀ i, ETy.u8.InRange (x i)) (hy : ∀ i, ETy.u8.InRange (y i)) :
    (∃ v : Num K, innerT .u8 .u8 (fun i => .int (x i)) (fun i => .int (y i)) = .ok v) ↔
      ∑ i, x i * y i ≤ 2 ^ 31 - 1 := by
  have hm : ∀ i, AOp.mul.builtin .u8 .u8 (.int (x i) : Num K) (.int (y i)) = .ok (.int (x i * y i)) :=
    fun i => (mul_narrow (by simp) (hx i) (hy i)).1
  have hnn : ∀ i, 0 ≤ x i * y i := fun i => mul_nonneg (hx i).1 (hy i).1
  have hle : ∀ i, x i * y i ≤ 255 * 255 := fun i =>
    mul_le_mul (hx i).2 (hy i).2 (hy i).1 (by norm_num)
  have hpn : ∀ k, 0 ≤ partialDot x y k := fun k => sum_nonneg fun i _ => by split <;> [exact hnn _; exact le_rfl]
  have hmono : ∀ k, k ≤ n + 1 → partialDot x y k ≤ partialDot x y (n + 1) := fun k hk =>
    sum_le_sum_of_subset_of_nonneg (range_mono hk) fun i _ _ => by split <;> [exact hnn _; exact le_rfl]
  have hadd : ∀ a b : ℤ, 0 ≤ a → a ≤ 2 ^ 31 - 1 → 0 ≤ b → b ≤ 255 * 255 →
      AOp.add.builtin (ETy.u8.arith .u8) (ETy.u8.arith .u8) (.int a : Num K) (.int b) =
        if a + b ≤ 2 ^ 31 - 1 then .ok (.int (a + b)) else .ub .overflow := by
    intro a b ha ha' hb hb'
    have ra : ETy.i32.InRange a := ⟨le_trans (by decide) ha, ha'⟩
    have rb : ETy.i32.InRange b := ⟨le_trans (by decide) hb, le_trans hb' (by decide)⟩
    unfold AOp.builtin
    rw [show (ETy.u8.arith .u8).arith (ETy.u8.arith .u8) = .i32 from rfl, conv_int (by decide), conv_int (by decide),
      wrap_of_range (by decide) ra, wrap_of_range (by decide) rb]
    simp only [Res.ok_bind]
    rw [raw_int _ _ _ (.inl (by decide)), result_signed rfl]
    by_cases h : a + b ≤ 2 ^ 31 - 1
    · rw [if_pos h, if_pos (show ETy.i32.InRange (AOp.add.z a b) from ⟨le_trans (by decide) (add_nonneg ha hb), h⟩)]
      rfl
    · rw [if_neg h, if_neg (fun hr : ETy.i32.InRange (AOp.add.z a b) => h hr.2)]
  rw [← partialDot_all]
  unfold innerT
  rw [hm 0, Res.ok_bind]
  constructor
  · rintro ⟨v, h⟩
    cases hl : Res.loop (fun i acc => if h : i < n + 1 then do
          let p ← AOp.mul.builtin .u8 .u8 (.int (x ⟨i, h⟩) : Num K) (.int (y ⟨i, h⟩))
          AOp.add.builtin (ETy.u8.arith .u8) (ETy.u8.arith .u8) acc p
        else .ub .oob) 1 n (.int (x 0 * y 0)) with
    | throw _ => rw [hl] at h; cases h
    | ub _ => rw [hl] at h; cases h
    | ok r =>
      have := loop_ok_inv (fun k (acc : Num K) => acc = .int (partialDot x y k) ∧ partialDot x y k ≤ 2 ^ 31 - 1) n 1 _ r
        ⟨by rw [partialDot_one], by rw [partialDot_one]; exact le_trans (hle 0) (by norm_num)⟩
        (by
          rintro k _ r h1 h2 ⟨rfl, ih⟩ hb
          have hk : k < n + 1 := by omega
          rw [dif_pos hk, hm, Res.ok_bind, hadd _ _ (hpn k) ih (hnn _) (hle _)] at hb
          rw [partialDot_succ hk]
          by_cases hs : partialDot x y k + x ⟨k, hk⟩ * y ⟨k, hk⟩ ≤ 2 ^ 31 - 1
          · rw [if_pos hs] at hb
            injection hb with hb
            exact ⟨hb.symm, hs⟩
          · rw [if_neg hs] at hb; cases hb) hl
      rw [Nat.add_comm n 1]
      exact this.2
  · intro hs
    have := loop_acc (body := fun i acc => if h : i < n + 1 then do
        let p ← AOp.mul.builtin .u8 .u8 (.int (x ⟨i, h⟩) : Num K) (.int (y ⟨i, h⟩))
        AOp.add.builtin (ETy.u8.arith .u8) (ETy.u8.arith .u8) acc p
      else .ub .oob) (fun k => .int (partialDot x y k)) n 1 (fun i h1 h2 => by
        have hi : i < n + 1 := by omega
        have h3 := partialDot_succ (x := x) (y := y) hi
        rw [dif_pos hi, hm, Res.ok_bind, hadd _ _ (hpn i) (le_trans (hmono i (by omega)) hs) (hnn _) (hle _), if_pos, h3]
        rw [← h3]
        exact le_trans (hmono (i + 1) (by omega)) hs)
    rw [partialDot_one] at this
    rw [this, Res.ok_bind, conv_int (by decide)]
    exact ⟨_, rfl⟩

/-- C126 is false: arithmetic on unsigned elements is not always defined; `dot` of two vectors with the element 65535 of
16 bits is undefined. -/
theorem unsigned_defined_false :
    ¬ ∀ (t : ETy) (x y : Fin 1 → ℤ), t.signed = false → t ≠ .real → (∀ i, t.InRange (x i)) → (∀ i, t.InRange (y i)) →
      ∃ v : Num ℚ, dotT t t (fun i => .int (x i)) (fun i => .int (y i)) = .ok v := by
  intro h
  have := (dotT_u16_iff (K := ℚ) (x := fun _ : Fin 1 => 65535) (y := fun _ => 65535) (fun _ => by decide)
    (fun _ => by decide)).1 (h .u16 _ _ rfl (by decide) (fun _ => by decide) (fun _ => by decide)) 0
  revert this
  norm_num

/-! Concrete cases. -/

example : dotT .u8 .u8 (fun i : Fin 2 => (.int (![200, 100] i) : Num ℚ)) (fun i => .int (![2, 1] i)) =
    .ok (.int 244) := by decide +kernel

example : innerT .u8 .u8 (fun i : Fin 2 => (.int (![200, 100] i) : Num ℚ)) (fun i => .int (![2, 1] i)) =
    .ok (.int 244) := by decide +kernel

example : ∀ i : Fin 2, ETy.u8.InRange ((![200, 100] : Fin 2 → ℤ) i) := by decide

/-- The conditions of `dotT_exact` and `innerT_exact` hold for small values; those of the latter also where a partial sum
leaves the common type. -/
example : (∀ i : Fin 2, (ETy.i8.common .i8).InRange ((![-3, 4] : Fin 2 → ℤ) i * (![5, 6] : Fin 2 → ℤ) i)) ∧
    (∀ k : Fin 3, (ETy.i8.common .i8).InRange (partialDot (![-3, 4] : Fin 2 → ℤ) ![5, 6] k)) := by decide

example : ¬ ETy.i8.InRange (partialDot (![100, -100] : Fin 2 → ℤ) ![2, 1] 1) ∧
    (∀ k : Fin 3, (ETy.i8.arith .i8).InRange (partialDot (![100, -100] : Fin 2 → ℤ) ![2, 1] k)) ∧
    ETy.i8.InRange (partialDot (![100, -100] : Fin 2 → ℤ) ![2, 1] 2) := by decide

example : (ETy.i32.arith .u32).signed = false ∧ (ETy.u64.arith .i64).signed = false ∧
    (ETy.u16.arith .u16).signed = true := by decide

end

end CML

#print axioms CML.dotT_modEq
#print axioms CML.innerT_modEq
#print axioms CML.dotT_eq_innerT
#print axioms CML.dotT_exact
#print axioms CML.innerT_exact
#print axioms CML.dotT_narrow_defined
#print axioms CML.products_unsigned_defined
#print axioms CML.dotT_u16_iff
#print axioms CML.innerT_u8_iff
#print axioms CML.unsigned_defined_false
