import Verif.Model.IntAngle
import Verif.Model.Lin

/-!
Projections whose bounds are given by integers, and the named variants of the projections.

The bounds are a template parameter `E` that only has to be convertible to the element type
(`/repo/cml/mathlib/matrix/projection.tpp:26-27`, 103-104), and the quotients are computed in `E`.  For an
integral `E` the divisions discard the fractional part.

Simplifications: the elements of the matrix are numbers of a field `K`; integers are unbounded (overflow is not
represented).
-/

namespace CML

section
variable {K : Type} [Field K] [DecidableEq K]

/-- Division of integers, undefined for the divisor zero. -/
def divZ (a b : ℤ) : Res ℤ := if b = 0 then .ub .divZero else .ok (a.tdiv b)

/-- `matrix_orthographic(m, left, right, bottom, top, n, f, handedness, z_clip)` for `E = int`,
`/repo/cml/mathlib/matrix/projection.tpp:21-51`. -/
def orthographicI (m : BMat K) (left right bottom top n f : ℤ) (h : Handed) (zc : ZClip) : Res (BMat K) := do
  m.checkMinimumSize 4 4
  let m := m.identity
  let invWidth ← divZ 1 (right - left)
  let invHeight ← divZ 1 (top - bottom)
  let invDepth ← divZ 1 (f - n)
  let s : ℤ := h.s
  let m ← (match zc with
    | .negOne => do
      let m ← m.bput 2 2 ((s * 2 * invDepth : ℤ) : K)
      m.bput 3 2 ((-(f + n) * invDepth : ℤ) : K)
    | .zero => do
      let m ← m.bput 2 2 ((s * invDepth : ℤ) : K)
      m.bput 3 2 ((-n * invDepth : ℤ) : K))
  let m ← m.bput 0 0 ((2 * invWidth : ℤ) : K)
  let m ← m.bput 1 1 ((2 * invHeight : ℤ) : K)
  let m ← m.bput 3 0 ((-(right + left) * invWidth : ℤ) : K)
  m.bput 3 1 ((-(top + bottom) * invHeight : ℤ) : K)

/-- `matrix_orthographic(m, width, height, n, f, handedness, z_clip)` for `E = int`,
`/repo/cml/mathlib/matrix/projection.tpp:69-78`. -/
def orthographicWHI (m : BMat K) (width height n f : ℤ) (h : Handed) (zc : ZClip) : Res (BMat K) := do
  let hw ← divZ width 2
  let hh ← divZ height 2
  orthographicI m (-hw) hw (-hh) hh n f h zc

/-- `matrix_perspective(m, left, right, bottom, top, n, f, handedness, z_clip)` for `E = int`,
`/repo/cml/mathlib/matrix/projection.tpp:98-131`; the element read at line 120 has the element type. -/
def perspectiveI (m : BMat K) (left right bottom top n f : ℤ) (h : Handed) (zc : ZClip) : Res (BMat K) := do
  m.checkMinimumSize 4 4
  let m := m.identity
  let invWidth ← divZ 1 (right - left)
  let invHeight ← divZ 1 (top - bottom)
  let invDepth ← divZ 1 (f - n)
  let near2 := 2 * n
  let s : ℤ := h.s
  let m ← (match zc with
    | .negOne => do
      let m ← m.bput 2 2 ((s * (f + n) * invDepth : ℤ) : K)
      m.bput 3 2 ((-2 * f * n * invDepth : ℤ) : K)
    | .zero => do
      let m ← m.bput 2 2 ((s * f * invDepth : ℤ) : K)
      let b ← m.bget 2 2
      m.bput 3 2 (((-s * n : ℤ) : K) * b))
  let m ← m.bput 0 0 ((near2 * invWidth : ℤ) : K)
  let m ← m.bput 1 1 ((near2 * invHeight : ℤ) : K)
  let m ← m.bput 2 0 ((-s * (right + left) * invWidth : ℤ) : K)
  let m ← m.bput 2 1 ((-s * (top + bottom) * invHeight : ℤ) : K)
  let m ← m.bput 2 3 ((s : ℤ) : K)
  m.bput 3 3 0

/-- `matrix_perspective(m, width, height, n, f, handedness, z_clip)` for `E = int`,
`/repo/cml/mathlib/matrix/projection.tpp:149-158`. -/
def perspectiveWHI (m : BMat K) (width height n f : ℤ) (h : Handed) (zc : ZClip) : Res (BMat K) := do
  let hw ← divZ width 2
  let hh ← divZ height 2
  perspectiveI m (-hw) hw (-hh) hh n f h zc

/-- `matrix_perspective_xfov(m, xfov, aspect, n, f, handedness, z_clip)` for `E = int`,
`/repo/cml/mathlib/matrix/projection.tpp:176-186`.  `tan` is `scalar_traits<int>::tan`
(`/repo/cml/scalar/traits.h:65-68`), any function from integers to integers here. -/
def perspectiveXfovI (tan : ℤ → ℤ) (m : BMat K) (xfov aspect n f : ℤ) (h : Handed) (zc : ZClip) :
    Res (BMat K) := do
  let half ← divZ xfov 2
  let width := 2 * n * tan half
  let height ← divZ width aspect
  perspectiveWHI m width height n f h zc

/-- `matrix_perspective_yfov(m, yfov, aspect, n, f, handedness, z_clip)` for `E = int`,
`/repo/cml/mathlib/matrix/projection.tpp:204-214`. -/
def perspectiveYfovI (tan : ℤ → ℤ) (m : BMat K) (yfov aspect n f : ℤ) (h : Handed) (zc : ZClip) :
    Res (BMat K) := do
  let half ← divZ yfov 2
  let height := 2 * n * tan half
  perspectiveWHI m (height * aspect) height n f h zc

/-! ### Named variants -/

/-- `matrix_orthographic_LH(m, left, right, bottom, top, n, f, z_clip)`,
`/repo/cml/mathlib/matrix/projection.tpp:53-59`. -/
def orthographicLH (m : BMat K) (left right bottom top n f : K) (zc : ZClip) : Res (BMat K) :=
  orthographic m left right bottom top n f .left zc

/-- `matrix_orthographic_RH`, `/repo/cml/mathlib/matrix/projection.tpp:61-67`. -/
def orthographicRH (m : BMat K) (left right bottom top n f : K) (zc : ZClip) : Res (BMat K) :=
  orthographic m left right bottom top n f .right zc

/-- `matrix_orthographic_LH(m, width, height, n, f, z_clip)`, `/repo/cml/mathlib/matrix/projection.tpp:80-86`. -/
def orthographicWHLH (m : BMat K) (width height n f : K) (zc : ZClip) : Res (BMat K) :=
  orthographicWH m width height n f .left zc

/-- `matrix_orthographic_RH(m, width, height, n, f, z_clip)`, `/repo/cml/mathlib/matrix/projection.tpp:88-94`. -/
def orthographicWHRH (m : BMat K) (width height n f : K) (zc : ZClip) : Res (BMat K) :=
  orthographicWH m width height n f .right zc

/-- `matrix_perspective_LH(m, left, right, bottom, top, n, f, z_clip)`,
`/repo/cml/mathlib/matrix/projection.tpp:133-139`. -/
def perspectiveLH (m : BMat K) (left right bottom top n f : K) (zc : ZClip) : Res (BMat K) :=
  perspective m left right bottom top n f .left zc

/-- `matrix_perspective_RH`, `/repo/cml/mathlib/matrix/projection.tpp:141-147`. -/
def perspectiveRH (m : BMat K) (left right bottom top n f : K) (zc : ZClip) : Res (BMat K) :=
  perspective m left right bottom top n f .right zc

/-- `matrix_perspective_LH(m, width, height, n, f, z_clip)`, `/repo/cml/mathlib/matrix/projection.tpp:160-166`. -/
def perspectiveWHLH (m : BMat K) (width height n f : K) (zc : ZClip) : Res (BMat K) :=
  perspectiveWH m width height n f .left zc

/-- `matrix_perspective_RH(m, width, height, n, f, z_clip)`, `/repo/cml/mathlib/matrix/projection.tpp:168-174`. -/
def perspectiveWHRH (m : BMat K) (width height n f : K) (zc : ZClip) : Res (BMat K) :=
  perspectiveWH m width height n f .right zc

end

/-- `matrix_perspective_xfov_LH`, `/repo/cml/mathlib/matrix/projection.tpp:188-194`. -/
noncomputable def perspectiveXfovLH (m : BMat ℝ) (xfov aspect n f : ℝ) (zc : ZClip) : Res (BMat ℝ) :=
  perspectiveXfov m xfov aspect n f .left zc

/-- `matrix_perspective_xfov_RH`, `/repo/cml/mathlib/matrix/projection.tpp:196-202`. -/
noncomputable def perspectiveXfovRH (m : BMat ℝ) (xfov aspect n f : ℝ) (zc : ZClip) : Res (BMat ℝ) :=
  perspectiveXfov m xfov aspect n f .right zc

/-- `matrix_perspective_yfov_LH`, `/repo/cml/mathlib/matrix/projection.tpp:216-222`. -/
noncomputable def perspectiveYfovLH (m : BMat ℝ) (yfov aspect n f : ℝ) (zc : ZClip) : Res (BMat ℝ) :=
  perspectiveYfov m yfov aspect n f .left zc

/-- `matrix_perspective_yfov_RH`, `/repo/cml/mathlib/matrix/projection.tpp:224-230`. -/
noncomputable def perspectiveYfovRH (m : BMat ℝ) (yfov aspect n f : ℝ) (zc : ZClip) : Res (BMat ℝ) :=
  perspectiveYfov m yfov aspect n f .right zc

end CML
