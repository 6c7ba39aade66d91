import Verif.Model.Rotation
import Mathlib.Analysis.SpecialFunctions.Trigonometric.Arctan

/-!
Conversions between fields of view and zoom factors, `/repo/cml/util.h`.  Simplification: exact real arithmetic;
the poles of the tangent, which no `double` hits, are undefined.
-/

namespace CML

/-- `scalar_traits<T>::tan`, `/repo/cml/scalar/traits.h:135`. -/
noncomputable def tanR (x : ℝ) : Res ℝ :=
  open Classical in if Real.cos x = 0 then .ub .divZero else .ok (Real.tan x)

/-- `xfov_to_yfov(xfov, aspect)`, `/repo/cml/util.h:12-18`. -/
noncomputable def xfovToYfov (xfov aspect : ℝ) : Res ℝ := do
  let t ← tanR (xfov / 2)
  let q ← divR t aspect
  pure (2 * Real.arctan q)

/-- `yfov_to_xfov(yfov, aspect)`, `/repo/cml/util.h:21-27`. -/
noncomputable def yfovToXfov (yfov aspect : ℝ) : Res ℝ := do
  let t ← tanR (yfov / 2)
  pure (2 * Real.arctan (t * aspect))

/-- `xzoom_to_yzoom(xzoom, aspect)`, `/repo/cml/util.h:30-35`. -/
noncomputable def xzoomToYzoom (xzoom aspect : ℝ) : Res ℝ := pure (xzoom * aspect)

/-- `yzoom_to_xzoom(yzoom, aspect)`, `/repo/cml/util.h:38-43`. -/
noncomputable def yzoomToXzoom (yzoom aspect : ℝ) : Res ℝ := divR yzoom aspect

/-- `zoom_to_fov(zoom)`, `/repo/cml/util.h:46-51`. -/
noncomputable def zoomToFov (zoom : ℝ) : Res ℝ := do
  let q ← divR 1 zoom
  pure (2 * Real.arctan q)

/-- `fov_to_zoom(fov)`, `/repo/cml/util.h:54-59`. -/
noncomputable def fovToZoom (fov : ℝ) : Res ℝ := do
  let t ← tanR (fov / 2)
  divR 1 t

end CML
