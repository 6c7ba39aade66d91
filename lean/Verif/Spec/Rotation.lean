import Verif.Spec.Lin
import Verif.Model.Orders
import Mathlib.Analysis.SpecialFunctions.Trigonometric.Basic
import Mathlib.Algebra.Quaternion

/-!
Specification side of the rotations: rotations of space as matrices, Rodrigues' formula, the rotation
of a quaternion, the meaning of the order names.  Nothing here refers to the builders.
-/

namespace CML
open Matrix Quaternion

/-- A rotation of `n`-dimensional space: orthogonal and orientation preserving. -/
def IsRotation {n : Nat} (M : Matrix (Fin n) (Fin n) ℝ) : Prop :=
  M ∈ Matrix.specialOrthogonalGroup (Fin n) ℝ

/-- The matrix of `v ↦ u × v`. -/
def crossMat (u : Fin 3 → ℝ) : Matrix (Fin 3) (Fin 3) ℝ :=
  Matrix.of fun r c => (crossProduct u (Pi.single c 1)) r

/-- Rodrigues' formula: the rotation about the unit axis `u` by the angle `θ`, counterclockwise seen
against the direction of `u`. -/
noncomputable def rodrigues (u : Fin 3 → ℝ) (θ : ℝ) : Matrix (Fin 3) (Fin 3) ℝ :=
  Real.cos θ • 1 + Real.sin θ • crossMat u + (1 - Real.cos θ) • Matrix.vecMulVec u u

/-- The unit vector of coordinate axis `i`. -/
def unitVec (i : Fin 3) : Fin 3 → ℝ := Pi.single i 1

/-- The rotation of the plane by the angle `θ`, counterclockwise. -/
noncomputable def planeRot (θ : ℝ) : Matrix (Fin 2) (Fin 2) ℝ :=
  !![Real.cos θ, -Real.sin θ; Real.sin θ, Real.cos θ]

/-- The axes an Euler order names, in the order of its name. -/
def EulerOrder.axes : EulerOrder → Fin 3 × Fin 3 × Fin 3
  | .xyz => (0, 1, 2) | .xyx => (0, 1, 0) | .xzy => (0, 2, 1) | .xzx => (0, 2, 0)
  | .yzx => (1, 2, 0) | .yzy => (1, 2, 1) | .yxz => (1, 0, 2) | .yxy => (1, 0, 1)
  | .zxy => (2, 0, 1) | .zxz => (2, 0, 2) | .zyx => (2, 1, 0) | .zyz => (2, 1, 2)

/-- The first and the third axis of the order are the same. -/
def EulerOrder.repeats (o : EulerOrder) : Prop := o.axes.1 = o.axes.2.2

instance (o : EulerOrder) : Decidable o.repeats := inferInstanceAs (Decidable (_ = _))

/-- The first two axes of the order follow each other cyclically (`x → y → z → x`). -/
def EulerOrder.even (o : EulerOrder) : Prop := o.axes.2.1 = o.axes.1 + 1

instance (o : EulerOrder) : Decidable o.even := inferInstanceAs (Decidable (_ = _))

/-- Rotate about the first named axis by `a0`, then about the second by `a1`, then about the third by
`a2` (all axes fixed in space). -/
noncomputable def eulerRot (o : EulerOrder) (a0 a1 a2 : ℝ) : Matrix (Fin 3) (Fin 3) ℝ :=
  rodrigues (unitVec o.axes.2.2) a2 * rodrigues (unitVec o.axes.2.1) a1 *
    rodrigues (unitVec o.axes.1) a0

/-- The axes an axis order names, in the order of its name. -/
def AxisOrder.axes : AxisOrder → Fin 3 × Fin 3 × Fin 3
  | .xyz => (0, 1, 2) | .xzy => (0, 2, 1) | .yzx => (1, 2, 0)
  | .yxz => (1, 0, 2) | .zxy => (2, 0, 1) | .zyx => (2, 1, 0)

/-- The first axis a two-dimensional axis order names. -/
def AxisOrder2D.first : AxisOrder2D → Fin 2
  | .xy => 0
  | .yx => 1

/-- The two matrices have the same type, shape and elements. -/
def BMat.SameMatrix {K : Type} (m m' : BMat K) : Prop :=
  m.SameShape m' ∧ ∀ i j, i < m.rows → j < m.cols → m'.el i j = m.el i j

/-- The quaternion with real part zero and imaginary part `v`. -/
def pureQ {K : Type} [CommRing K] (v : Fin 3 → K) : ℍ[K] := ⟨0, v 0, v 1, v 2⟩

/-- The imaginary part of a quaternion. -/
def imVec {K : Type} [CommRing K] (q : ℍ[K]) : Fin 3 → K := ![q.imI, q.imJ, q.imK]

/-- `v ↦ q v q̄`, the rotation of a unit quaternion. -/
def qRotate {K : Type} [CommRing K] (q : ℍ[K]) (v : Fin 3 → K) : Fin 3 → K :=
  imVec (q * pureQ v * star q)

end CML
