import Mathlib.Analysis.Real.Sqrt

/-! Square roots of elements. -/

namespace CML

/-- `sqrt(x)` of an element (`value_type_trait_of_t<…>::sqrt`, `/repo/cml/scalar/traits.h:24-235`). -/
class Sqrt (K : Type) where
  sqrt : K → K

/-- The square root of a real number.  (The NaN of a negative argument is not modelled: the callers take
square roots of sums of squares.) -/
noncomputable instance : Sqrt ℝ := ⟨Real.sqrt⟩

@[simp] theorem sqrt_real (x : ℝ) : Sqrt.sqrt x = Real.sqrt x := rfl

end CML
