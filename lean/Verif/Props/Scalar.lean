import Verif.Model.Scalar
import Verif.Tactics
import Mathlib.Order.MinMax
import Mathlib.Data.Rat.Floor

/-!
Property theorems C01–C05: scalar helpers.
-/

namespace CML

/-! ### C01: clamp -/

section C01
variable {α : Type*} [LinearOrder α]

/-- C01: the result is always in the range. -/
theorem clamp_mem {v lo hi : α} (h : lo ≤ hi) : lo ≤ clamp v lo hi ∧ clamp v lo hi ≤ hi := by
  unfold clamp stdMax stdMin
  split_ifs <;> constructor <;> order

example : (2 : ℚ) ≤ 7 := by norm_num

/-- C01: full characterisation: below, inside and above the range. -/
theorem clamp_cases {v lo hi : α} (h : lo ≤ hi) :
    (v ≤ lo → clamp v lo hi = lo) ∧ (hi ≤ v → clamp v lo hi = hi) ∧
      (lo ≤ v → v ≤ hi → clamp v lo hi = v) := by
  unfold clamp stdMax stdMin
  refine ⟨fun h1 => ?_, fun h1 => ?_, fun h1 h2 => ?_⟩ <;> split_ifs <;> order

example : clamp (9 : ℚ) 2 7 = 7 ∧ clamp (1 : ℚ) 2 7 = 2 ∧ clamp (5 : ℚ) 2 7 = 5 := by
  refine ⟨?_, ?_, ?_⟩ <;> norm_num [clamp, stdMax, stdMin]

/-- C01: `in_range` holds exactly for the fixed points of `clamp`. -/
theorem inRange_iff_clamp_eq {v lo hi : α} (h : lo ≤ hi) :
    inRange v lo hi = true ↔ clamp v lo hi = v := by
  have hm := clamp_mem (v := v) h
  have hc := clamp_cases (v := v) h
  unfold inRange
  simp only [Bool.and_eq_true, Bool.not_eq_true', decide_eq_false_iff_not, not_lt]
  constructor
  · rintro ⟨h1, h2⟩; exact hc.2.2 h1 h2
  · intro h1; rw [h1] at hm; exact hm

/-- C01: `in_range` is membership in the closed interval. -/
theorem inRange_iff_mem {v lo hi : α} : inRange v lo hi = true ↔ lo ≤ v ∧ v ≤ hi := by
  unfold inRange
  simp only [Bool.and_eq_true, Bool.not_eq_true', decide_eq_false_iff_not, not_lt]

/-- C01: clamping is monotone. -/
theorem clamp_mono {v w lo hi : α} (h : lo ≤ hi) (hvw : v ≤ w) :
    clamp v lo hi ≤ clamp w lo hi := by
  unfold clamp stdMax stdMin
  split_ifs <;> order

/-- C01: clamping is idempotent. -/
theorem clamp_idem {v lo hi : α} (h : lo ≤ hi) : clamp (clamp v lo hi) lo hi = clamp v lo hi :=
  (clamp_cases h).2.2 (clamp_mem h).1 (clamp_mem h).2

/-- C01: no element of the range is closer than the clamped value. -/
theorem clamp_nearest {K : Type*} [Field K] [LinearOrder K] [IsStrictOrderedRing K]
    {v lo hi x : K} (h : lo ≤ hi) (h1 : lo ≤ x) (h2 : x ≤ hi) :
    |v - clamp v lo hi| ≤ |v - x| := by
  have hc := clamp_cases (v := v) h
  rcases le_total v lo with h3 | h3
  · rw [hc.1 h3, abs_of_nonpos (by linarith), abs_of_nonpos (by linarith)]; linarith
  · rcases le_total hi v with h4 | h4
    · rw [hc.2.1 h4, abs_of_nonneg (by linarith), abs_of_nonneg (by linarith)]; linarith
    · rw [hc.2.2 h3 h4, sub_self, abs_zero]; positivity

/-- C01: `sign` is -1, 0, 1 on negative, zero and positive values and `sign v * |v| = v`. -/
theorem sign_spec {K : Type*} [Field K] [LinearOrder K] [IsStrictOrderedRing K] (v : K) :
    (sign v = 1 ↔ 0 < v) ∧ (sign v = 0 ↔ v = 0) ∧ (sign v = -1 ↔ v < 0) ∧ sign v * |v| = v := by
  unfold sign
  rcases lt_trichotomy v 0 with h | h | h
  · have h' : ¬ (0 < v) := by order
    have : (-1 : K) ≠ 1 := by norm_num
    simp [h, h', h.ne, abs_of_neg, this]
  · subst h; simp
  · have h' : ¬ (v < 0) := by order
    have : (1 : K) ≠ -1 := by norm_num
    simp [h, h', h.ne', abs_of_pos, this]

example : sign (-3 : ℚ) = -1 := by norm_num [sign]

end C01

/-! ### C02: wrap -/

section C02
variable {K : Type*} [Field K] [LinearOrder K] [IsStrictOrderedRing K] [FloorRing K]

/-- C02: the result lies in the half-open range `[min, max)`. -/
theorem wrap_mem {v lo hi : K} (h : lo < hi) : lo ≤ wrap v lo hi ∧ wrap v lo hi < hi := by
  have hp : 0 < hi - lo := by linarith
  unfold wrap fmod
  simp only
  set q := (v - lo) / (hi - lo) with hq
  have hv : v - lo = (hi - lo) * q := by rw [hq]; field_simp
  by_cases h0 : 0 ≤ q
  · simp only [h0, if_true]
    have h1 := Int.floor_le q
    have h2 := Int.lt_floor_add_one q
    have : ¬ (v - lo - (hi - lo) * (⌊q⌋ : K) < 0) := by
      rw [hv]; nlinarith
    rw [if_neg this, hv]
    constructor <;> nlinarith
  · simp only [h0, if_false]
    have h1 := Int.le_ceil q
    have h2 := Int.ceil_lt_add_one q
    split_ifs with h3
    · rw [hv] at h3 ⊢
      constructor <;> nlinarith
    · rw [hv] at h3 ⊢
      constructor <;> nlinarith

example : (-180 : ℚ) < 180 := by norm_num

omit [IsStrictOrderedRing K] in
/-- C02: the result differs from the argument by an integer number of periods. -/
theorem wrap_congr {v lo hi : K} : ∃ n : ℤ, wrap v lo hi = v + n * (hi - lo) := by
  unfold wrap fmod
  simp only
  split_ifs with h1 h2 h2
  · exact ⟨1 - ⌊(v - lo) / (hi - lo)⌋, by push_cast; ring⟩
  · exact ⟨- ⌊(v - lo) / (hi - lo)⌋, by push_cast; ring⟩
  · exact ⟨1 - ⌈(v - lo) / (hi - lo)⌉, by push_cast; ring⟩
  · exact ⟨- ⌈(v - lo) / (hi - lo)⌉, by push_cast; ring⟩

/-- C02: the two facts above determine the result (the residue class has one member in the
half-open range). -/
theorem wrap_unique {v lo hi x : K} (h : lo < hi) (h1 : lo ≤ x) (h2 : x < hi)
    (hx : ∃ n : ℤ, x = v + n * (hi - lo)) : wrap v lo hi = x := by
  obtain ⟨m, hm⟩ := wrap_congr (v := v) (lo := lo) (hi := hi)
  obtain ⟨n, hn⟩ := hx
  have hw := wrap_mem (v := v) h
  have hp : 0 < hi - lo := by linarith
  have e1 : ((m - n : ℤ) : K) < 1 := by
    by_contra hc
    push_cast at hc
    have : (1 : K) ≤ m - n := by linarith
    nlinarith
  have e2 : (-1 : K) < ((m - n : ℤ) : K) := by
    by_contra hc
    push_cast at hc
    have : (m : K) - n ≤ -1 := by linarith
    nlinarith
  have e1' : m - n < 1 := by exact_mod_cast e1
  have e2' : -1 < m - n := by exact_mod_cast e2
  have : m = n := by omega
  rw [hm, hn, this]

example : wrap (370 : ℚ) (-180) 180 = 10 :=
  wrap_unique (by norm_num) (by norm_num) (by norm_num) ⟨-1, by norm_num⟩

/-- C02: the identity on the half-open range, in particular idempotent. -/
theorem wrap_id {v lo hi : K} (h1 : lo ≤ v) (h2 : v < hi) : wrap v lo hi = v :=
  wrap_unique (lt_of_le_of_lt h1 h2) h1 h2 ⟨0, by simp⟩

theorem wrap_idem {v lo hi : K} (h : lo < hi) : wrap (wrap v lo hi) lo hi = wrap v lo hi :=
  wrap_id (wrap_mem h).1 (wrap_mem h).2

/-- C02: periodic. -/
theorem wrap_periodic {v lo hi : K} (h : lo < hi) (n : ℤ) :
    wrap (v + n * (hi - lo)) lo hi = wrap v lo hi := by
  obtain ⟨m, hm⟩ := wrap_congr (v := v) (lo := lo) (hi := hi)
  exact wrap_unique h (wrap_mem h).1 (wrap_mem h).2 ⟨m - n, by rw [hm]; push_cast; ring⟩

/-- C02, documentation disagreement: the upper end of the documented closed range `[min,max]` is
never returned; `wrap max` is `min`. -/
theorem wrap_max {lo hi : K} (h : lo < hi) : wrap hi lo hi = lo :=
  wrap_unique h le_rfl h ⟨-1, by push_cast; ring⟩

end C02

/-! ### C03: cyclic indexing -/

/-- C03: `next` stays in range. -/
theorem next_lt {i N : Nat} (h : i < N) : next i N < N := Nat.mod_lt _ (by omega)

/-- C03: `prev` stays in range. -/
theorem prev_lt {i N : Nat} (h : i < N) : prev i N < N := by unfold prev; split_ifs <;> omega

/-- C03: `prev` undoes `next`. -/
theorem prev_next {i N : Nat} (h : i < N) : prev (next i N) N = i := by
  unfold prev next
  rcases Nat.lt_or_ge (i + 1) N with h1 | h1
  · rw [Nat.mod_eq_of_lt h1]; simp
  · have : i + 1 = N := by omega
    rw [this, Nat.mod_self]; simp; omega

/-- C03: `next` undoes `prev`. -/
theorem next_prev {i N : Nat} (h : i < N) : next (prev i N) N = i := by
  unfold prev next
  split_ifs with h1
  · rw [Nat.mod_eq_of_lt (by omega)]; omega
  · rw [Nat.sub_add_cancel (by omega), Nat.mod_self]; omega

example : (4 : Nat) < 5 ∧ next 4 5 = 0 ∧ prev 0 5 = 4 := by decide

/-- C03: `next` iterated visits `i, i+1, ...` cyclically, so `N` steps return to the start and no
fewer steps do. -/
theorem next_iterate {i N : Nat} (h : i < N) (n : Nat) : (fun x => next x N)^[n] i = (i + n) % N := by
  induction n with
  | zero => simp [Nat.mod_eq_of_lt h]
  | succ n ih =>
    rw [Function.iterate_succ_apply', ih]
    unfold next
    rw [← Nat.add_assoc, Nat.mod_add_mod]

/-- C03: the two-index cyclic permutation starting at `first`. -/
theorem cyclicPermutation2_spec {f : Nat} (h : f < 2) :
    cyclicPermutation2 f = (f, 1 - f) := by
  unfold cyclicPermutation2 next
  have : f = 0 ∨ f = 1 := by omega
  rcases this with rfl | rfl <;> rfl

/-- C03: the three-index cyclic permutation is the rotation of `(0,1,2)` starting at `first`. -/
theorem cyclicPermutation3_spec {f : Nat} (h : f < 3) :
    [(cyclicPermutation3 f).1, (cyclicPermutation3 f).2.1, (cyclicPermutation3 f).2.2]
      = [0, 1, 2].rotate f := by
  have : f = 0 ∨ f = 1 ∨ f = 2 := by omega
  rcases this with rfl | rfl | rfl <;> rfl

/-- C03: the four-index cyclic permutation is the rotation of `(0,1,2,3)` starting at `first`. -/
theorem cyclicPermutation4_spec {f : Nat} (h : f < 4) :
    [(cyclicPermutation4 f).1, (cyclicPermutation4 f).2.1, (cyclicPermutation4 f).2.2.1,
      (cyclicPermutation4 f).2.2.2] = [0, 1, 2, 3].rotate f := by
  have : f = 0 ∨ f = 1 ∨ f = 2 ∨ f = 3 := by omega
  rcases this with rfl | rfl | rfl | rfl <;> rfl

example : cyclicPermutation3 2 = (2, 0, 1) := rfl

/-! ### C04: index of extremum -/

section C04
variable {α : Type*} [LinearOrder α]

/-- C04: 2-argument maximum. -/
theorem indexOfMax2_spec (a b : α) :
    ∃ m, [a, b][indexOfMax2 a b]? = some m ∧ ∀ x ∈ [a, b], x ≤ m := by
  unfold indexOfMax2
  split_ifs with h1 <;> refine ⟨_, rfl, ?_⟩ <;> simp <;> order

/-- C04: 2-argument minimum. -/
theorem indexOfMin2_spec (a b : α) :
    ∃ m, [a, b][indexOfMin2 a b]? = some m ∧ ∀ x ∈ [a, b], m ≤ x := by
  unfold indexOfMin2
  split_ifs with h1 <;> refine ⟨_, rfl, ?_⟩ <;> simp <;> order

/-- C04: 3-argument maximum. -/
theorem indexOfMax3_spec (a b c : α) :
    ∃ m, [a, b, c][indexOfMax3 a b c]? = some m ∧ ∀ x ∈ [a, b, c], x ≤ m := by
  unfold indexOfMax3
  split_ifs <;> refine ⟨_, rfl, ?_⟩ <;> simp <;> constructor <;> order

/-- C04: 3-argument minimum. -/
theorem indexOfMin3_spec (a b c : α) :
    ∃ m, [a, b, c][indexOfMin3 a b c]? = some m ∧ ∀ x ∈ [a, b, c], m ≤ x := by
  unfold indexOfMin3
  split_ifs <;> refine ⟨_, rfl, ?_⟩ <;> simp <;> constructor <;> order

/-- C04: 4-argument maximum. -/
theorem indexOfMax4_spec (a b c d : α) :
    ∃ m, [a, b, c, d][indexOfMax4 a b c d]? = some m ∧ ∀ x ∈ [a, b, c, d], x ≤ m := by
  unfold indexOfMax4
  split_ifs <;> refine ⟨_, rfl, ?_⟩ <;> simp <;> refine ⟨?_, ?_, ?_⟩ <;> order

/-- C04: 4-argument minimum. -/
theorem indexOfMin4_spec (a b c d : α) :
    ∃ m, [a, b, c, d][indexOfMin4 a b c d]? = some m ∧ ∀ x ∈ [a, b, c, d], m ≤ x := by
  unfold indexOfMin4
  split_ifs <;> refine ⟨_, rfl, ?_⟩ <;> simp <;> refine ⟨?_, ?_, ?_⟩ <;> order

end C04

example : indexOfMax4 (1:ℚ) 7 7 2 = 2 ∧ indexOfMin3 (4:ℚ) 1 3 = 1 := by
  norm_num [indexOfMax4, indexOfMin3]

section C04abs
variable {K : Type*} [Field K] [LinearOrder K]

/-- C04: the `_abs` variants select an argument of extremal magnitude. -/
theorem indexOfAbs2_spec (a b : K) :
    (∃ m, [a, b][indexOfMaxAbs2 a b]? = some m ∧ ∀ x ∈ [a, b], |x| ≤ |m|) ∧
    (∃ m, [a, b][indexOfMinAbs2 a b]? = some m ∧ ∀ x ∈ [a, b], |m| ≤ |x|) := by
  unfold indexOfMaxAbs2 indexOfMinAbs2 indexOfMax2 indexOfMin2
  constructor <;> split_ifs <;> refine ⟨_, rfl, ?_⟩ <;> simp <;> order

theorem indexOfAbs3_spec (a b c : K) :
    (∃ m, [a, b, c][indexOfMaxAbs3 a b c]? = some m ∧ ∀ x ∈ [a, b, c], |x| ≤ |m|) ∧
    (∃ m, [a, b, c][indexOfMinAbs3 a b c]? = some m ∧ ∀ x ∈ [a, b, c], |m| ≤ |x|) := by
  unfold indexOfMaxAbs3 indexOfMinAbs3 indexOfMax3 indexOfMin3
  constructor <;> split_ifs <;> refine ⟨_, rfl, ?_⟩ <;> simp <;> constructor <;> order

theorem indexOfAbs4_spec (a b c d : K) :
    (∃ m, [a, b, c, d][indexOfMaxAbs4 a b c d]? = some m ∧ ∀ x ∈ [a, b, c, d], |x| ≤ |m|) ∧
    (∃ m, [a, b, c, d][indexOfMinAbs4 a b c d]? = some m ∧ ∀ x ∈ [a, b, c, d], |m| ≤ |x|) := by
  unfold indexOfMaxAbs4 indexOfMinAbs4 indexOfMax4 indexOfMin4
  constructor <;> split_ifs <;> refine ⟨_, rfl, ?_⟩ <;> simp <;> refine ⟨?_, ?_, ?_⟩ <;> order

end C04abs

/-! ### C05: map_range -/

section C05
variable {K : Type*} [Field K]

/-- C05: end points go to end points. -/
theorem mapRange_endpoints {a b c d : K} (h : a ≠ b) :
    mapRange a a b c d = c ∧ mapRange b a b c d = d := by
  have : b - a ≠ 0 := sub_ne_zero.mpr h.symm
  unfold mapRange
  constructor
  · simp
  · field_simp; ring

example : (0 : ℚ) ≠ 10 := by norm_num

/-- C05: affine in the value. -/
theorem mapRange_affine {a b c d : K} (v w t : K) :
    mapRange ((1 - t) * v + t * w) a b c d
      = (1 - t) * mapRange v a b c d + t * mapRange w a b c d := by
  unfold mapRange; ring

/-- C05: mapping there and back is the identity. -/
theorem mapRange_roundtrip {a b c d : K} (h1 : a ≠ b) (h2 : c ≠ d) (v : K) :
    mapRange (mapRange v a b c d) c d a b = v := by
  have : b - a ≠ 0 := sub_ne_zero.mpr h1.symm
  have : d - c ≠ 0 := sub_ne_zero.mpr h2.symm
  unfold mapRange
  field_simp
  ring

example : mapRange (5 : ℚ) 0 10 100 300 = 200 := by norm_num [mapRange]

/-- C05: order and range membership are preserved. -/
theorem mapRange_mem_iff [LinearOrder K] [IsStrictOrderedRing K] {a b c d : K} (h1 : a < b)
    (h2 : c < d) (v : K) :
    (a ≤ v ∧ v ≤ b) ↔ (c ≤ mapRange v a b c d ∧ mapRange v a b c d ≤ d) := by
  have hb : 0 < b - a := by linarith
  have hd : 0 < d - c := by linarith
  have e : mapRange v a b c d = c + (v - a) / (b - a) * (d - c) := rfl
  have e1 : (c ≤ mapRange v a b c d) ↔ a ≤ v := by
    rw [e, le_add_iff_nonneg_right, mul_nonneg_iff_of_pos_right hd, le_div_iff₀ hb, zero_mul]
    exact sub_nonneg
  have e2 : (mapRange v a b c d ≤ d) ↔ v ≤ b := by
    rw [e, ← le_sub_iff_add_le', mul_le_iff_le_one_left hd, div_le_one hb]
    exact sub_le_sub_iff_right a
  rw [e1, e2]

theorem mapRange_strictMono [LinearOrder K] [IsStrictOrderedRing K] {a b c d : K} (h1 : a < b)
    (h2 : c < d) : StrictMono fun v => mapRange v a b c d := by
  intro v w hvw
  have hb : 0 < b - a := by linarith
  have hd : 0 < d - c := by linarith
  show c + (v - a) / (b - a) * (d - c) < c + (w - a) / (b - a) * (d - c)
  have : (v - a) / (b - a) < (w - a) / (b - a) := div_lt_div_of_pos_right (by linarith) hb
  have := mul_lt_mul_of_pos_right this hd
  linarith

end C05

end CML
