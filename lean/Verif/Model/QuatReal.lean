import Verif.Model.Quat
import Verif.Model.Sqrt
import Mathlib.Analysis.SpecialFunctions.Trigonometric.Inverse
import Mathlib.Analysis.SpecialFunctions.Log.Basic

/-! Quaternion functions that need square roots; those with logarithms or trigonometric functions over the
reals. -/

namespace CML

section
variable {E : Type} [Add E] [Sub E] [Mul E] [Div E] [Neg E] [Zero E] [DecidableEq E] [Sqrt E]

/-- `length()`, `/repo/cml/quaternion/readable_quaternion.tpp:103-108`. -/
def qLength (s : QState E) (a : QNode E) : Res E := do
  pure (Sqrt.sqrt (← qLengthSquared s a))

/-- `normalize() const`, `/repo/cml/quaternion/readable_quaternion.tpp:117-134`: the node
`*this / length()`. -/
def qNormalized (s : QState E) (a : QNode E) : Res (QNode E) := do
  pure (.scal .div a (← qLength s a))

/-- `normalize()` in place, `/repo/cml/quaternion/writable_quaternion.tpp:84-89`. -/
def qNormalize (s : QState E) (v : QVar) : Out (QState E) :=
  .withVal (qLength s (.var v)) s fun l => qScalAssign .div s v (.val l)

end

/-- `imaginary().length()`, `/repo/cml/vector/readable_vector.tpp:55-70`. -/
noncomputable def qImagLength (s : QState ℝ) (a : QNode ℝ) : Res ℝ := do
  let x ← qImag s a 0
  let q ← Res.loop (fun i acc => do let y ← qImag s a i; pure (acc + y * y)) 1 2 (x * x)
  pure (Real.sqrt q)

/-- `log()`, `/repo/cml/quaternion/writable_quaternion.tpp:176-195`.  The vector `c * v` refers to
`*this` and is read while the elements are stored. -/
noncomputable def qLog (s : QState ℝ) (v : QVar) : Out (QState ℝ) :=
  .withVal (do
    let lq ← qLength s (.var v)
    let lv ← qImagLength s (.var v)
    let r ← qReal s (.var v)
    let w ← divR r lq
    let c ← divR (Real.arccos w) lv
    pure (lq, c)) s fun r =>
  qAssignVec s v true 3 (fun s i => do pure (r.2 * (← qImag s (.var v) i))) (Real.log r.1)

/-- `exp()`, `/repo/cml/quaternion/writable_quaternion.tpp:205-224`. -/
noncomputable def qExpo (s : QState ℝ) (v : QVar) : Out (QState ℝ) :=
  .withVal (do
    let lv ← qImagLength s (.var v)
    let r ← qReal s (.var v)
    let c ← divR (Real.sin lv) lv
    pure (lv, Real.exp r, c)) s fun r =>
  qAssignVec s v true 3 (fun s i => do pure (r.2.1 * r.2.2 * (← qImag s (.var v) i)))
    (r.2.1 * Real.cos r.1)

end CML
