import Verif.Model.Misc
import Verif.Props.Scalar
import Verif.Props.MatAssign
import Verif.Spec.MatMem
import Verif.Spec.Quat
import Verif.Lemmas.Lu
import Verif.Tactics
import Mathlib.Analysis.Real.Pi.Bounds
import Mathlib.Analysis.Complex.ExponentialBounds
import Mathlib.Data.List.OfFn

/-!
Property theorems C90 (numeric constants and guarded scalar functions), C91 (printing of matrices and
quaternions) and C92 (storage promotion with allocators).
-/

open Quaternion

set_option linter.unusedSectionVars false

namespace CML

/-! ### C90: constants -/

/-- C90: every literal constant agrees with the number it names to within `10⁻²⁰` (a factor of about ten
thousand below the spacing of `double` there). -/
theorem constants_accurate :
    |Consts.pi - Real.pi| < 1 / 10 ^ 20 ∧ |Consts.e - Real.exp 1| < 2 / 10 ^ 20 ∧
    |Consts.sqrt2 - Real.sqrt 2| < 1 / 10 ^ 20 ∧ |Consts.sqrt3 - Real.sqrt 3| < 1 / 10 ^ 20 ∧
    |Consts.sqrt5 - Real.sqrt 5| < 1 / 10 ^ 20 ∧ |Consts.sqrt6 - Real.sqrt 6| < 1 / 10 ^ 20 := by
  have sq : ∀ (a b c : ℝ), 0 ≤ b - c → (b - c) ^ 2 < a → a < (b + c) ^ 2 → 0 ≤ b + c →
      |b - Real.sqrt a| < c := by
    intro a b c h0 h1 h2 h3
    rw [abs_sub_lt_iff]
    have := (Real.lt_sqrt h0).2 h1
    have := (Real.sqrt_lt' (lt_of_le_of_ne h3 (by rintro h; rw [← h] at h2; nlinarith [sq_nonneg (b - c)]))).2 h2
    constructor <;> linarith
  refine ⟨?_, ?_, ?_, ?_, ?_, ?_⟩
  · have h1 := Real.pi_gt_d20
    have h2 := Real.pi_lt_d20
    rw [abs_sub_lt_iff, Consts.pi, mPi]
    constructor <;> linarith
  · have := Real.exp_one_near_20
    rw [abs_sub_le_iff] at this
    rw [abs_sub_lt_iff, Consts.e, mE]
    constructor <;> linarith
  all_goals
    apply sq <;> norm_num [Consts.sqrt2, Consts.sqrt3, Consts.sqrt5, Consts.sqrt6, mSqrt2]

/-- C90: the derived constants fit together exactly. -/
theorem constants_related :
    Consts.twoPi = 2 * Consts.pi ∧ 2 * Consts.piOver2 = Consts.pi ∧ 4 * Consts.piOver4 = Consts.pi ∧
    Consts.pi * Consts.invPi = 1 ∧ Consts.twoPi * Consts.invTwoPi = 1 ∧
    Consts.degPerRad * Consts.radPerDeg = 1 ∧ 180 * Consts.radPerDeg = Consts.pi := by
  have h : mPi ≠ 0 := by rw [mPi]; norm_num
  unfold Consts.twoPi Consts.piOver2 Consts.piOver4 Consts.invPi Consts.invTwoPi Consts.degPerRad
    Consts.radPerDeg Consts.pi
  refine ⟨rfl, by ring, by ring, ?_, ?_, ?_, by ring⟩ <;> field_simp

/-- C90: `deg` and `rad` are inverse to each other, exactly. -/
theorem deg_rad (x : ℝ) : deg (rad x) = x ∧ rad (deg x) = x := by
  have h := constants_related.2.2.2.2.2.1
  unfold deg rad
  exact ⟨by linear_combination x * h, by linear_combination x * h⟩

/-- C90: a straight angle is 180 degrees up to the error of the literal, relative to the angle. -/
theorem deg_accurate (x : ℝ) : |deg x - x * (180 / Real.pi)| ≤ |x| / 10 ^ 18 := by
  have h1 := Real.pi_gt_d20
  have h2 := Real.pi_lt_d20
  have hp := Real.pi_pos
  unfold deg Consts.degPerRad mPi
  rw [← mul_sub, abs_mul, div_eq_mul_one_div |x|]
  refine mul_le_mul_of_nonneg_left ?_ (abs_nonneg x)
  rw [abs_le]
  have e : (180 / 3.14159265358979323846 - 180 / Real.pi)
      = 180 * (Real.pi - 3.14159265358979323846) / (3.14159265358979323846 * Real.pi) := by
    field_simp
  have h3 : (3.14159265358979323846 : ℝ) * 3 ≤ 3.14159265358979323846 * Real.pi := by nlinarith
  rw [e]
  constructor
  · refine le_trans (by norm_num) (div_nonneg ?_ (by positivity))
    linarith
  · rw [div_le_iff₀ (by positivity)]
    nlinarith

/-! ### C90: guarded functions -/

/-- C90: `acos_safe` is defined for every input, its value is in `[0, π]`, and its cosine is the clamped
input; inside `[-1, 1]` it is the arc cosine. -/
theorem acosSafe_spec (x : ℝ) : 0 ≤ acosSafe x ∧ acosSafe x ≤ Real.pi ∧
    Real.cos (acosSafe x) = max (-1) (min x 1) ∧ (-1 ≤ x → x ≤ 1 → acosSafe x = Real.arccos x) := by
  have hc := clamp_cases (v := x) (show (-1 : ℝ) ≤ 1 by norm_num)
  have hm := clamp_mem (v := x) (show (-1 : ℝ) ≤ 1 by norm_num)
  refine ⟨Real.arccos_nonneg _, Real.arccos_le_pi _, ?_, fun h1 h2 => by rw [acosSafe, hc.2.2 h1 h2]⟩
  rw [acosSafe, Real.cos_arccos hm.1 hm.2]
  rcases le_total x (-1) with h | h
  · rw [hc.1 h, min_eq_left (by linarith), max_eq_left h]
  · rcases le_total x 1 with h' | h'
    · rw [hc.2.2 h h', min_eq_left h', max_eq_right h]
    · rw [hc.2.1 h', min_eq_right h', max_eq_right (by norm_num)]

/-- C90: `asin_safe` is defined for every input, its value is in `[-π/2, π/2]`, and its sine is the
clamped input; inside `[-1, 1]` it is the arc sine. -/
theorem asinSafe_spec (x : ℝ) : -(Real.pi / 2) ≤ asinSafe x ∧ asinSafe x ≤ Real.pi / 2 ∧
    Real.sin (asinSafe x) = max (-1) (min x 1) ∧ (-1 ≤ x → x ≤ 1 → asinSafe x = Real.arcsin x) := by
  have hc := clamp_cases (v := x) (show (-1 : ℝ) ≤ 1 by norm_num)
  have hm := clamp_mem (v := x) (show (-1 : ℝ) ≤ 1 by norm_num)
  refine ⟨Real.neg_pi_div_two_le_arcsin _, Real.arcsin_le_pi_div_two _, ?_,
    fun h1 h2 => by rw [asinSafe, hc.2.2 h1 h2]⟩
  rw [asinSafe, Real.sin_arcsin hm.1 hm.2]
  rcases le_total x (-1) with h | h
  · rw [hc.1 h, min_eq_left (by linarith), max_eq_left h]
  · rcases le_total x 1 with h' | h'
    · rw [hc.2.2 h h', min_eq_left h', max_eq_right h]
    · rw [hc.2.1 h', min_eq_right h', max_eq_right (by norm_num)]

/-- C90: the two guarded inverse functions are complementary for every input. -/
theorem acosSafe_add_asinSafe (x : ℝ) : acosSafe x + asinSafe x = Real.pi / 2 := by
  rw [acosSafe, asinSafe, Real.arccos]
  ring

/-- C90: `sqrt_safe` is the square root of the positive part. -/
theorem sqrtSafe_spec (x : ℝ) : 0 ≤ sqrtSafe x ∧ sqrtSafe x ^ 2 = max x 0 := by
  have : stdMax x 0 = max x 0 := by
    unfold stdMax
    split_ifs with h
    · rw [max_eq_right h.le]
    · rw [max_eq_left (not_lt.1 h)]
  rw [sqrtSafe, this]
  exact ⟨Real.sqrt_nonneg _, Real.sq_sqrt (le_max_right _ _)⟩

/-- C90: `inv_sqrt` of a positive number is the positive solution of `x r² = 1`. -/
theorem invSqrt_spec {x : ℝ} (hx : 0 < x) : ∃ r, invSqrt x = .ok r ∧ 0 < r ∧ x * r ^ 2 = 1 := by
  have h := Real.sqrt_pos.2 hx
  refine ⟨1 / Real.sqrt x, by rw [invSqrt, divR, if_neg h.ne'], by positivity, ?_⟩
  rw [div_pow, Real.sq_sqrt hx.le]
  field_simp

example : (0 : ℝ) < 4 := by norm_num

/-- C90: `inv_sqrt(0)` divides by zero. -/
theorem invSqrt_zero : invSqrt 0 = .ub .divZero := by
  rw [invSqrt, divR, Real.sqrt_zero, if_pos rfl]

/-- C90: `random_polar` maps the two binary values to the two signs, one each. -/
theorem randomPolar_spec {b : Int} (h : b = 0 ∨ b = 1) :
    (randomPolar b = 1 ↔ b = 1) ∧ (randomPolar b = -1 ↔ b = 0) := by
  rcases h with rfl | rfl <;> decide

example : randomPolar 0 = -1 ∧ randomPolar 1 = 1 := by decide

/-- C90: the scalar lengths are the Euclidean ones: non-negative, with the right square, zero only at the
origin, homogeneous, and the three-dimensional one extends the two-dimensional one. -/
theorem scalar_length_spec (x y z k : ℝ) :
    0 ≤ length2 x y ∧ length2 x y ^ 2 = x ^ 2 + y ^ 2 ∧ 0 ≤ length3 x y z ∧
    length3 x y z ^ 2 = x ^ 2 + y ^ 2 + z ^ 2 ∧ (length2 x y = 0 ↔ x = 0 ∧ y = 0) ∧
    (length3 x y z = 0 ↔ x = 0 ∧ y = 0 ∧ z = 0) ∧ length3 x y 0 = length2 x y ∧
    length3 (k * x) (k * y) (k * z) = |k| * length3 x y z := by
  have e2 : lengthSquared2 x y = x ^ 2 + y ^ 2 := by unfold lengthSquared2; ring
  have e3 : lengthSquared3 x y z = x ^ 2 + y ^ 2 + z ^ 2 := by unfold lengthSquared3; ring
  have h2 : 0 ≤ x ^ 2 + y ^ 2 := by positivity
  have h3 : 0 ≤ x ^ 2 + y ^ 2 + z ^ 2 := by positivity
  refine ⟨Real.sqrt_nonneg _, by rw [length2, e2, Real.sq_sqrt h2], Real.sqrt_nonneg _,
    by rw [length3, e3, Real.sq_sqrt h3], ?_, ?_, ?_, ?_⟩
  · rw [length2, e2, Real.sqrt_eq_zero h2]
    constructor
    · intro h
      constructor <;> nlinarith [sq_nonneg x, sq_nonneg y]
    · rintro ⟨rfl, rfl⟩; norm_num
  · rw [length3, e3, Real.sqrt_eq_zero h3]
    constructor
    · intro h
      refine ⟨?_, ?_, ?_⟩ <;> nlinarith [sq_nonneg x, sq_nonneg y, sq_nonneg z]
    · rintro ⟨rfl, rfl, rfl⟩; norm_num
  · rw [length3, length2]; congr 1; unfold lengthSquared2 lengthSquared3; ring
  · rw [length3, length3, show lengthSquared3 (k * x) (k * y) (k * z) = k ^ 2 * lengthSquared3 x y z by
      unfold lengthSquared3; ring, Real.sqrt_mul (sq_nonneg k), Real.sqrt_sq_eq_abs]

/-! ### C91: printing -/

section Print
variable {E : Type} [Add E] [Sub E] [Mul E] [Div E] [Neg E]

/-- A row as it should appear: brackets around the elements, a space before each element. -/
def rowText (l : List E) : List (Tok E) :=
  .lit "[" :: (l.flatMap fun x => [.lit " ", .val x]) ++ [.lit " ]"]

theorem mPrintRow_ok {s : State E} {a : MNode E} {i c : Nat} {g : Fin c → E}
    (h : ∀ j : Fin c, a.get s i j = .ok (g j)) (os : List (Tok E)) :
    mPrintRow s a i c os = .ok (os ++ rowText (List.ofFn g)) := by
  have hl := Res.loop_fun (body := fun j os => (do let x ← a.get s i j; pure (os ++ [.lit " ", .val x]) : Res (List (Tok E))))
    (fun k => os ++ [.lit "["] ++ ((List.ofFn g).take k).flatMap fun x => [.lit " ", .val x]) (lo := 0) (n := c) (by
      intro k _ hk
      have hk' : k < c := by omega
      have e := h ⟨k, hk'⟩
      simp only at e
      simp only [e, Res.ok_bind, Res.pure_eq]
      rw [List.take_add_one]
      simp [List.getElem?_ofFn, hk'])
  simp only [List.take_zero, List.flatMap_nil, List.append_nil, Nat.zero_add] at hl
  rw [List.take_of_length_le (by simp)] at hl
  unfold mPrintRow
  simp only [Res.pure_eq] at hl ⊢
  simp only [hl, Res.ok_bind, rowText]
  simp

theorem flatten_endl (r : Nat) (g : Fin r → List (Tok E)) :
    (List.ofFn fun i => g i ++ if (i : Nat) + 1 = r then [] else [.endl]).flatten
      = List.intercalate [.endl] (List.ofFn g) := by
  induction r with
  | zero => rfl
  | succ r ih =>
    rcases r with _ | r
    · simp [List.ofFn_succ, List.intercalate]
    · have := ih (fun i => g i.succ)
      rw [List.ofFn_succ, List.flatten_cons]
      rw [List.ofFn_succ (f := g)]
      rw [List.intercalate_cons_of_ne_nil (by simp)]
      rw [← this]
      simp

/-- C91: printing an `r × c` matrix of any size (also with no rows or no columns) succeeds and writes the
rows in order, each in brackets, separated by line ends; within a row the elements appear in column order.
The storage layout plays no role. -/
theorem mprint_spec {s : State E} {a : MNode E} {r c : Nat} {A : Fin r → Fin c → E} (ha : MIs s a r c A) :
    mPrint s a = .ok (List.intercalate [.endl] (List.ofFn fun i => rowText (List.ofFn (A i)))) := by
  have hl := Res.loop_fun (body := fun i os => (do
      let os ← mPrintRow s a i ((c : Int)).toNat os
      pure (if (i : Int) ≠ (r : Int) - 1 then os ++ [.endl] else os) : Res (List (Tok E))))
    (fun k => ((List.ofFn fun i => rowText (List.ofFn (A i)) ++ if (i : Nat) + 1 = r then [] else [.endl]).take k).flatten)
    (lo := 0) (n := r) (by
      intro k _ hk
      have hk' : k < r := by omega
      have e := mPrintRow_ok (c := c) (g := A ⟨k, hk'⟩) (fun j => ha.rep.get ⟨k, hk'⟩ j)
      simp only at e
      rw [List.take_add_one]
      simp only [Int.toNat_natCast, e, Res.ok_bind, Res.pure_eq]
      by_cases h : k + 1 = r
      · have : ¬ (k : Int) ≠ (r : Int) - 1 := by omega
        simp [hk', h, this]
      · have : (k : Int) ≠ (r : Int) - 1 := by omega
        simp [hk', h, this])
  simp only [List.take_zero, List.flatten_nil, Nat.zero_add] at hl
  rw [List.take_of_length_le (by simp)] at hl
  unfold mPrint
  simp only [ha.rep.dims, Res.ok_bind, Int.toNat_natCast] at hl ⊢
  rw [hl]
  congr 1
  exact flatten_endl r fun i => rowText (List.ofFn (A i))

/-- The elements among the tokens. -/
def Tok.val? : Tok E → Option E
  | .val x => some x
  | _ => none

theorem rowText_val (l : List E) : (rowText l).filterMap Tok.val? = l := by
  simp only [rowText, List.cons_append, List.filterMap_cons, List.filterMap_append, Tok.val?]
  simp only [List.filterMap_nil, List.append_nil]
  induction l with
  | nil => rfl
  | cons x l ih =>
    rw [List.flatMap_cons, List.filterMap_append, ih]
    simp only [List.filterMap_cons, Tok.val?, List.filterMap_nil, List.cons_append, List.nil_append]

theorem rowText_endl [DecidableEq E] (l : List E) : (rowText l).count .endl = 0 := by
  rw [List.count_eq_zero]
  simp [rowText]

theorem text_val (L : List (List E)) :
    (List.intercalate [Tok.endl] (L.map rowText)).filterMap Tok.val? = L.flatten := by
  induction L with
  | nil => rfl
  | cons l L ih =>
    rcases L with _ | ⟨l', L⟩
    · simp [List.intercalate, rowText_val]
    · rw [List.map_cons, List.intercalate_cons_of_ne_nil (by simp), List.filterMap_append,
        List.filterMap_append, ih, rowText_val]
      simp [Tok.val?]

theorem text_endl [DecidableEq E] (L : List (List E)) :
    (List.intercalate [Tok.endl] (L.map rowText)).count .endl = L.length - 1 := by
  induction L with
  | nil => rfl
  | cons l L ih =>
    rcases L with _ | ⟨l', L⟩
    · simp [List.intercalate, rowText_endl]
    · rw [List.map_cons, List.intercalate_cons_of_ne_nil (by simp), List.count_append,
        List.count_append, ih, rowText_endl]
      simp [Nat.add_comm]

/-- C91: every element is printed exactly once, in row order, whatever the storage layout; the number of
line ends is one less than the number of rows. -/
theorem mprint_elements [DecidableEq E] {s : State E} {a : MNode E} {r c : Nat} {A : Fin r → Fin c → E}
    (ha : MIs s a r c A) : ∃ os, mPrint s a = .ok os ∧
      os.filterMap Tok.val? = (List.ofFn fun i => List.ofFn (A i)).flatten ∧ os.count .endl = r - 1 := by
  refine ⟨_, mprint_spec ha, ?_, ?_⟩
  · rw [← text_val, List.map_ofFn]; rfl
  · have := text_endl (List.ofFn fun i => List.ofFn (A i))
    rw [List.map_ofFn, List.length_ofFn] at this
    exact this

/-- C91: two matrices with at least one row print the same only if they have the same dimensions and the
same elements (elements being distinguishable when printed). -/
theorem mprint_injective {s : State E} {a b : MNode E} {r c r' c' : Nat} {A : Fin r → Fin c → E}
    {B : Fin r' → Fin c' → E} (ha : MIs s a r c A) (hb : MIs s b r' c' B) (hr : 0 < r) (hr' : 0 < r')
    (h : mPrint s a = mPrint s b) :
    ∃ (h1 : r = r') (h2 : c = c'), ∀ i j, A i j = B (Fin.cast h1 i) (Fin.cast h2 j) := by
  classical
  obtain ⟨o, e1, v1, n1⟩ := mprint_elements ha
  obtain ⟨o', e2, v2, n2⟩ := mprint_elements hb
  obtain rfl : o = o' := by rw [e1, e2] at h; injection h
  obtain rfl : r = r' := by omega
  rw [v1] at v2
  have hlen := congrArg List.length v2
  simp only [List.length_flatten, List.map_ofFn, Function.comp_def, List.length_ofFn, List.ofFn_const,
    List.sum_replicate, smul_eq_mul] at hlen
  obtain rfl : c = c' := Nat.eq_of_mul_eq_mul_left hr hlen
  refine ⟨rfl, rfl, fun i j => ?_⟩
  have := List.eq_iff_flatten_eq.2 ⟨v2, by simp [Function.comp_def]⟩
  have := congrFun (List.ofFn_injective (congrFun (List.ofFn_injective this) i)) j
  simpa using this

end Print

example : MIs exM (.var 0) 2 2 ![![1, 2], ![3, 4]] := ⟨exM_agree.m 0 _ rfl, typed_var_m rfl⟩
example : mPrint exM (.var 0) = .ok [.lit "[", .lit " ", .val 1, .lit " ", .val 2, .lit " ]", .endl,
    .lit "[", .lit " ", .val 3, .lit " ", .val 4, .lit " ]"] := by decide +kernel
example : mPrint exM (.transpose (.var 0)) ≠ mPrint exM (.var 0) := by decide +kernel

/-- C91: a quaternion is printed with the real part first and the imaginary parts in order, whatever its
storage order. -/
theorem qprint_spec {E : Type} [CommRing E] [Div E] [DecidableEq E] {s : QState E} {a : QNode E} {h : ℍ[E]}
    (ha : QReads s a h) :
    qPrint s a = .ok [.lit "[ ", .lit " ", .val h.re, .lit " ", .val h.imI, .lit " ", .val h.imJ,
      .lit " ", .val h.imK, .lit " ]"] := by
  unfold QReads at ha
  unfold qPrint
  cases ho : a.order <;> rw [ho] at ha <;> obtain ⟨h1, h2, h3, h4⟩ := ha <;>
    simp only [QOrder.W, QOrder.X, QOrder.Y, QOrder.Z, h1, h2, h3, h4, Res.ok_bind, Res.pure_eq]

example : QReads (fun _ i => some (![1, 2, 3, 4] (Fin.ofNat 4 i)) : QState ℚ)
    (.var ⟨0, .imagFirst, .positive⟩) ⟨4, 1, 2, 3⟩ := ⟨rfl, rfl, rfl, rfl⟩
example : qPrint (fun _ i => some (![1, 2, 3, 4] (Fin.ofNat 4 i)) : QState ℚ) (.var ⟨0, .imagFirst, .positive⟩)
    = .ok [.lit "[ ", .lit " ", .val 4, .lit " ", .val 1, .lit " ", .val 2, .lit " ", .val 3, .lit " ]"] := rfl

/-! ### C92: storage promotion with allocators -/

/-- C92: the chosen allocator is commutative and idempotent, the standard allocator is neutral, and two
different user allocators give the standard one. -/
theorem allocDisambiguate_laws (a b : Alloc) :
    allocDisambiguate a b = allocDisambiguate b a ∧ allocDisambiguate a a = a ∧
    allocDisambiguate a .std = a ∧ (a ≠ .std → b ≠ .std → a ≠ b → allocDisambiguate a b = .std) := by
  refine ⟨?_, by simp [allocDisambiguate], ?_, ?_⟩
  · rcases a with _ | i <;> rcases b with _ | j <;> simp [allocDisambiguate]
    by_cases h : i = j <;> simp [h, Ne.symm]
  · by_cases ha : a = .std <;> simp [allocDisambiguate, ha]
  · intro ha hb h
    simp [allocDisambiguate, ha, hb, h]

/-- C92: a user allocator is chosen exactly if one operand has it and the other has it too or has the
standard one. -/
theorem allocDisambiguate_user (a b : Alloc) (n : Nat) : allocDisambiguate a b = .user n ↔
    (a = .user n ∧ (b = .user n ∨ b = .std)) ∨ (b = .user n ∧ a = .std) := by
  rcases a with _ | i <;> rcases b with _ | j <;> simp [allocDisambiguate]
  by_cases h : i = j <;> simp [h]
  omega

/-- C92: storage promotion never fails: neither static assertion fires and the disambiguation is always
between storage types of the same kind; its selector is the one of the selector table. -/
theorem storagePromote_total (p f1 f2 : Bool) (a b : UStorage) :
    ∃ c, storagePromote p f1 f2 a b = some c ∧
      selectorPromote p f1 f2 a.selector b.selector = some c.selector := by
  rcases a with _ | x | _ | _ <;> rcases b with _ | y | _ | _ <;> cases p <;> cases f1 <;> cases f2 <;>
    exact ⟨_, rfl, rfl⟩

/-- C92: storage promotion does not depend on the order of the operands. -/
theorem storagePromote_comm (p f1 f2 : Bool) (a b : UStorage) :
    storagePromote p f1 f2 a b = storagePromote p f2 f1 b a := by
  rcases a with _ | x | _ | _ <;> rcases b with _ | y | _ | _ <;> cases p <;> cases f1 <;> cases f2 <;>
    first
    | rfl
    | exact congrArg (fun z => some (UStorage.allocated z)) (allocDisambiguate_laws x y).1

/-- C92: promoting a storage type with itself or with `any_storage` gives its unbound type. -/
theorem storagePromote_unit (p f1 f2 : Bool) (a : UStorage) :
    storagePromote p f1 f2 a a = some a ∧ storagePromote p f1 f2 a .any = some a := by
  rcases a with _ | x | _ | _ <;> cases p <;> cases f1 <;> cases f2 <;>
    first
    | exact ⟨rfl, rfl⟩
    | exact ⟨congrArg (fun z => some (UStorage.allocated z)) (allocDisambiguate_laws x x).2.1, rfl⟩

/-- C92: the result of promoting two storage types is one of them, except that two allocated types with
different user allocators give the standard allocator. -/
theorem storagePromote_choice (p f1 f2 : Bool) (a b : UStorage) :
    storagePromote p f1 f2 a b = some a ∨ storagePromote p f1 f2 a b = some b ∨
    (∃ i j, i ≠ j ∧ a = .allocated (.user i) ∧ b = .allocated (.user j) ∧
      storagePromote p f1 f2 a b = some (.allocated .std)) := by
  rcases a with _ | x | _ | _ <;> rcases b with _ | y | _ | _ <;> cases p <;> cases f1 <;> cases f2 <;>
    first
    | exact .inl rfl
    | exact .inr (.inl rfl)
    | (rcases x with _ | i <;> rcases y with _ | j
       · exact .inl rfl
       · exact .inr (.inl rfl)
       · exact .inl rfl
       · by_cases h : i = j
         · subst h
           exact .inl (congrArg (fun z => some (UStorage.allocated z)) (allocDisambiguate_laws _ (.user i)).2.1)
         · exact .inr (.inr ⟨i, j, h, rfl, rfl, congrArg (fun z => some (UStorage.allocated z))
             ((allocDisambiguate_laws _ _).2.2.2 (by simp) (by simp) (by simp [h]))⟩))

/-- C92 is false: promotion is not associative.  With three different user allocators the result depends
on the grouping: the conflict of two of them is forgotten and the third wins. -/
theorem storagePromote_not_assoc :
    ¬ ∀ (p f : Bool) (a b c : UStorage),
      (storagePromote p f f a b).bind (storagePromote p f f · c)
        = (storagePromote p f f b c).bind (storagePromote p f f a ·) := by
  intro h
  have := h false false (.allocated (.user 1)) (.allocated (.user 2)) (.allocated (.user 3))
  revert this
  decide

/-- Two allocators do not conflict. -/
def Alloc.Compatible (a b : Alloc) : Prop := a = .std ∨ b = .std ∨ a = b

/-- Allocators of two storage types do not conflict. -/
def UStorage.Compatible : UStorage → UStorage → Prop
  | .allocated a, .allocated b => a.Compatible b
  | _, _ => True

theorem allocDisambiguate_assoc {a b c : Alloc} (h1 : a.Compatible b) (h2 : b.Compatible c)
    (h3 : a.Compatible c) :
    allocDisambiguate (allocDisambiguate a b) c = allocDisambiguate a (allocDisambiguate b c) := by
  rcases a with _ | i <;> rcases b with _ | j <;> rcases c with _ | k <;>
    simp_all [Alloc.Compatible, allocDisambiguate]

/-- C92 restricted to operands without conflicting user allocators: promotion is associative (the size
kinds being the same throughout).  Missing: conflicting allocators, for which it is false. -/
theorem storagePromote_assoc_partial (p f : Bool) {a b c : UStorage} (h1 : a.Compatible b)
    (h2 : b.Compatible c) (h3 : a.Compatible c) :
    (storagePromote p f f a b).bind (storagePromote p f f · c)
      = (storagePromote p f f b c).bind (storagePromote p f f a ·) := by
  rcases a with _ | x | _ | _ <;> rcases b with _ | y | _ | _ <;> rcases c with _ | z | _ | _ <;>
    cases p <;> cases f <;>
    first
    | rfl
    | exact congrArg (fun z => some (UStorage.allocated z)) (allocDisambiguate_assoc h1 h2 h3)

example : (UStorage.allocated (.user 1)).Compatible (.allocated .std) ∧
    (UStorage.allocated .std).Compatible (.allocated (.user 1)) ∧
    storagePromote false false false (.allocated (.user 1)) (.allocated .std) = some (.allocated (.user 1)) :=
  ⟨.inr (.inl rfl), .inl rfl, by decide⟩
example : storagePromote true true false .compiled (.allocated (.user 1)) = some (.allocated (.user 1)) ∧
    storagePromote false true false .compiled (.allocated (.user 1)) = some .compiled := by decide

#print axioms constants_accurate
#print axioms constants_related
#print axioms deg_rad
#print axioms deg_accurate
#print axioms acosSafe_spec
#print axioms asinSafe_spec
#print axioms acosSafe_add_asinSafe
#print axioms sqrtSafe_spec
#print axioms invSqrt_spec
#print axioms invSqrt_zero
#print axioms randomPolar_spec
#print axioms scalar_length_spec
#print axioms mprint_spec
#print axioms mprint_elements
#print axioms mprint_injective
#print axioms qprint_spec
#print axioms allocDisambiguate_laws
#print axioms allocDisambiguate_user
#print axioms storagePromote_total
#print axioms storagePromote_comm
#print axioms storagePromote_unit
#print axioms storagePromote_choice
#print axioms storagePromote_not_assoc
#print axioms storagePromote_assoc_partial

end CML
