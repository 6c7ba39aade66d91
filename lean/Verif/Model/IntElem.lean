import Verif.Model.VecReal
import Verif.Model.Mat
import Mathlib.Algebra.Order.Ring.Int

/-!
Integral element types: `vector<int, …>` and `matrix<int, …>`.  The functions are those of
`Model/VecReal.lean` and `Model/Mat.lean`; only the element type is new.
-/

namespace CML

/-- An integral element type.  Simplification: integers are unbounded (C113 is about overflow). -/
def CInt : Type := ℤ

instance : CommRing CInt := inferInstanceAs (CommRing ℤ)
instance : LinearOrder CInt := inferInstanceAs (LinearOrder ℤ)

/-- The division of integers discards the fractional part.  Division by zero is undefined; `divR`
represents this, the division node of expressions (`ScalOp.apply`) does not, so that the theorems about
it assume a nonzero divisor. -/
instance : Div CInt := ⟨fun a b => Int.tdiv a b⟩

/-- `default_integral_traits::sqrt`, `/repo/cml/scalar/traits.h:49-52`: the square root converted back to
the integral type.  Simplifications: the square root in `double` is exact before the conversion; the NaN
of a negative argument is not represented (the callers take square roots of sums of squares). -/
instance : Sqrt CInt := ⟨fun x => ((Nat.sqrt (Int.toNat x) : ℕ) : ℤ)⟩

end CML
