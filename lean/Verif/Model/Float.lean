import Verif.Model.Mat
import Verif.Model.Sqrt
import Mathlib.Data.Real.Archimedean
import Mathlib.Data.Int.Log
import Mathlib.Algebra.Order.Round

/-!
Arithmetic with rounding.  The library is a template over the element type; every definition of the model that
is generic in its element type can be instantiated with the type `Fl R` of rounded numbers, whose operations
return the rounded exact result (this is what `float` and `double` do, as long as nothing overflows,
underflows or becomes a NaN).  Nothing else of the model changes.
-/

namespace CML

/-- A rounding of the real numbers with relative error at most `u` (the unit roundoff; `2^-24` for `float`,
`2^-53` for `double`).  This is the arithmetic of `/repo/cml/scalar/traits.h:97-235` for floating-point types,
without overflow, underflow, infinities and NaN. -/
structure Rounding where
  fl : ℝ → ℝ
  u : ℝ
  u_nonneg : 0 ≤ u
  u_lt : u < 1
  err : ∀ x, |fl x - x| ≤ u * |x|

/-- A rounded number. -/
@[ext] structure Fl (R : Rounding) where
  val : ℝ

namespace Fl
variable {R : Rounding}

instance : Zero (Fl R) := ⟨⟨0⟩⟩
instance : One (Fl R) := ⟨⟨1⟩⟩
/-- `a + b`, rounded. -/
noncomputable instance : Add (Fl R) := ⟨fun a b => ⟨R.fl (a.val + b.val)⟩⟩
/-- `a - b`, rounded. -/
noncomputable instance : Sub (Fl R) := ⟨fun a b => ⟨R.fl (a.val - b.val)⟩⟩
/-- `a * b`, rounded. -/
noncomputable instance : Mul (Fl R) := ⟨fun a b => ⟨R.fl (a.val * b.val)⟩⟩
/-- `a / b`, rounded (used only for `b ≠ 0`, see `divR`). -/
noncomputable instance : Div (Fl R) := ⟨fun a b => ⟨R.fl (a.val / b.val)⟩⟩
/-- `-a`, exact. -/
noncomputable instance : Neg (Fl R) := ⟨fun a => ⟨-a.val⟩⟩
/-- `a < b`, `a == b`, exact. -/
noncomputable instance : LinearOrder (Fl R) :=
  LinearOrder.lift' Fl.val (fun _ _ h => Fl.ext h)
/-- `std::fabs(a)`, exact. -/
noncomputable instance : Fabs (Fl R) := ⟨fun a => ⟨|a.val|⟩⟩
/-- `std::sqrt(a)`, `/repo/cml/scalar/traits.h:129`, rounded (used only for `a ≥ 0`). -/
noncomputable instance : Sqrt (Fl R) := ⟨fun a => ⟨R.fl (Real.sqrt a.val)⟩⟩
/-- Conversion of an `int`, exact (used for `-1`, `0` and `1`). -/
noncomputable instance : IntCast (Fl R) := ⟨fun z => ⟨(z : ℝ)⟩⟩

@[simp] theorem intCast_val (z : ℤ) : (z : Fl R).val = z := rfl
@[simp] theorem zero_val : (0 : Fl R).val = 0 := rfl
@[simp] theorem one_val : (1 : Fl R).val = 1 := rfl
theorem add_val (a b : Fl R) : (a + b).val = R.fl (a.val + b.val) := rfl
theorem sub_val (a b : Fl R) : (a - b).val = R.fl (a.val - b.val) := rfl
theorem mul_val (a b : Fl R) : (a * b).val = R.fl (a.val * b.val) := rfl
theorem div_val (a b : Fl R) : (a / b).val = R.fl (a.val / b.val) := rfl
theorem sqrt_val (a : Fl R) : (Sqrt.sqrt a).val = R.fl (Real.sqrt a.val) := rfl
@[simp] theorem fabs_val (a : Fl R) : (Fabs.fabs a).val = |a.val| := rfl
theorem lt_iff (a b : Fl R) : a < b ↔ a.val < b.val := Iff.rfl
theorem le_iff (a b : Fl R) : a ≤ b ↔ a.val ≤ b.val := Iff.rfl
@[simp] theorem neg_val (a : Fl R) : (-a).val = -a.val := rfl

end Fl

/-- Rounding to nearest with a significand of `p` bits and unbounded exponents. -/
noncomputable def binaryFl (p : ℕ) (x : ℝ) : ℝ :=
  (round (x / (2 : ℝ) ^ (Int.log 2 |x| + 1 - p)) : ℝ) * (2 : ℝ) ^ (Int.log 2 |x| + 1 - p)

theorem binaryFl_err (p : ℕ) (x : ℝ) : |binaryFl p x - x| ≤ (2 : ℝ)⁻¹ ^ p * |x| := by
  by_cases hx : x = 0
  · simp [hx, binaryFl]
  · have hpos : 0 < |x| := abs_pos.mpr hx
    have h1 : (2 : ℝ) ^ Int.log 2 |x| ≤ |x| := by
      have := Int.zpow_log_le_self (R := ℝ) (b := 2) (by norm_num) hpos
      exact_mod_cast this
    set e := Int.log 2 |x| with he
    set c := (2 : ℝ) ^ (e + 1 - p) with hc
    have hc0 : 0 < c := zpow_pos (by norm_num) _
    have h2 : binaryFl p x - x = (round (x / c) - x / c) * c := by
      rw [binaryFl, ← he, ← hc, sub_mul, div_mul_cancel₀ _ hc0.ne']
    have h3 : |(round (x / c) : ℝ) - x / c| ≤ 1 / 2 := by
      rw [abs_sub_comm]; exact abs_sub_round _
    rw [h2, abs_mul, abs_of_pos hc0]
    calc |(round (x / c) : ℝ) - x / c| * c ≤ 1 / 2 * c := by gcongr
      _ = (2 : ℝ)⁻¹ ^ p * (2 : ℝ) ^ e := by
        rw [hc, zpow_sub₀ (by norm_num), zpow_add₀ (by norm_num), zpow_one, zpow_natCast, inv_pow]
        field_simp
      _ ≤ (2 : ℝ)⁻¹ ^ p * |x| := by gcongr

/-- Round to nearest with a significand of `p + 1` bits: a rounding in the above sense; `p = 52` is `double`
and `p = 23` is `float`, with unbounded exponents. -/
noncomputable def binaryRounding (p : ℕ) : Rounding where
  fl := binaryFl (p + 1)
  u := (2 : ℝ)⁻¹ ^ (p + 1)
  u_nonneg := by positivity
  u_lt := by
    have : (2 : ℝ)⁻¹ ^ (p + 1) < 1 := pow_lt_one₀ (by norm_num) (by norm_num) (by omega)
    exact this
  err := binaryFl_err (p + 1)

end CML
