import Verif.Model.RoundBuild

/-! The accuracy of the sine and cosine of the standard library. -/

namespace CML

/-- Sine and cosine have a relative error of at most `p` units of roundoff (`p = 1` if they are correctly rounded). -/
structure Trig.Accurate {R : Rounding} (T : Trig (Fl R)) (p : ℕ) : Prop where
  sin : ∀ x, |(T.sin x).val - Real.sin x.val| ≤ p * R.u * |Real.sin x.val|
  cos : ∀ x, |(T.cos x).val - Real.cos x.val| ≤ p * R.u * |Real.cos x.val|

end CML
