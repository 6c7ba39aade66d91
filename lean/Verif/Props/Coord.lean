import Verif.Model.Geometry
import Verif.Lemmas.Geom
import Verif.Lemmas.Lin
import Verif.Props.Angles

/-!
C67: coordinate conversions.
-/

namespace CML
open Matrix

/-! ### Specification -/

/-- The point `x` of the plane has the polar coordinates `(r, θ)`. -/
def IsPolar (x : Fin 2 → ℝ) (r θ : ℝ) : Prop := x 0 = r * Real.cos θ ∧ x 1 = r * Real.sin θ

/-- The point `x` has the cylindrical coordinates `(r, θ, h)` with respect to axis `i`; `θ` is measured
from the axis that follows `i` cyclically. -/
def IsCylindrical (i : Fin 3) (x : Fin 3 → ℝ) (r θ h : ℝ) : Prop :=
  x i = h ∧ x (i + 1) = r * Real.cos θ ∧ x (i + 2) = r * Real.sin θ

/-- The angle between the point and the axis, from the latitude or colatitude. -/
noncomputable def polarAngle : LatitudeType → ℝ → ℝ
  | .latitude, φ => Real.pi / 2 - φ
  | .colatitude, φ => φ

/-- The point `x` has the spherical coordinates `(r, θ, φ)` with respect to axis `i`. -/
def IsSpherical (i : Fin 3) (type : LatitudeType) (x : Fin 3 → ℝ) (r θ φ : ℝ) : Prop :=
  x i = r * Real.cos (polarAngle type φ) ∧
  x (i + 1) = r * Real.sin (polarAngle type φ) * Real.cos θ ∧
  x (i + 2) = r * Real.sin (polarAngle type φ) * Real.sin θ

/-- The angle `φ` is in its documented range. -/
def PhiRange : LatitudeType → ℝ → Prop
  | .latitude, φ => -(Real.pi / 2) ≤ φ ∧ φ ≤ Real.pi / 2
  | .colatitude, φ => 0 ≤ φ ∧ φ ≤ Real.pi

/-! ### Auxiliary lemmas -/

private theorem perm_eq (i : Fin 3) : cyclicPermutation3 (((i : Nat) : Int).toNat) =
    ((i : Nat), ((i + 1 : Fin 3) : Nat), ((i + 2 : Fin 3) : Nat)) := by
  fin_cases i <;> rfl

private theorem axis_ok (i : Fin 3) : requireAxis ((i : Nat) : Int) = .ok () := by
  fin_cases i <;> rfl

private theorem put3 {v : AVec ℝ} (hs : v.size = 3) (i : Fin 3) (a b c : ℝ) :
    ∃ w x, (do
      let v ← v.put (i : Nat) a
      let v ← v.put ((i + 1 : Fin 3) : Nat) b
      v.put ((i + 2 : Fin 3) : Nat) c) = .ok w ∧ w.Is 3 x ∧ w.fixed = v.fixed ∧ x i = a ∧ x (i + 1) = b ∧
      x (i + 2) = c := by
  fin_cases i <;> simp [AVec.put, hs, AVec.Is, AVec.vec]

/-- The three indices are all indices. -/
private theorem ext3 (i : Fin 3) {x y : Fin 3 → ℝ} (h0 : x i = y i) (h1 : x (i + 1) = y (i + 1))
    (h2 : x (i + 2) = y (i + 2)) : x = y := by
  funext j
  fin_cases i <;> fin_cases j <;> simp at h0 h1 h2 ⊢ <;> assumption

private theorem sum3 (i : Fin 3) (f : Fin 3 → ℝ) : ∑ j, f j = f i + f (i + 1) + f (i + 2) := by
  rw [Fin.sum_univ_three]
  fin_cases i <;> simp <;> ring

private theorem eucl_nonneg {n : Nat} (x : Fin n → ℝ) : 0 ≤ eucl x := Real.sqrt_nonneg _

private theorem polar_of {x y : ℝ} :
    x = len2 x y * Real.cos (atan2 y x) ∧ y = len2 x y * Real.sin (atan2 y x) := by
  by_cases h : len2 x y = 0
  · obtain ⟨rfl, rfl⟩ := len2_eq_zero.1 h
    simp [h]
  · have hr : 0 < len2 x y := lt_of_le_of_ne (len2_nonneg x y) (Ne.symm h)
    rw [cos_atan2 hr (len2_sq x y), sin_atan2 hr (len2_sq x y), mul_div_cancel₀ _ h, mul_div_cancel₀ _ h]
    exact ⟨rfl, rfl⟩

private theorem len2_polar {r : ℝ} (hr : 0 ≤ r) (θ : ℝ) : len2 (r * Real.cos θ) (r * Real.sin θ) = r := by
  rw [len2]
  have : r * Real.cos θ * (r * Real.cos θ) + r * Real.sin θ * (r * Real.sin θ) = r * r := by
    linear_combination r * r * Real.sin_sq_add_cos_sq θ
  rw [this, Real.sqrt_mul_self hr]

/-! ### To Cartesian coordinates -/

/-- C67: `polar_to_cartesian` sets the vector to the point with these polar coordinates. -/
theorem polarToCartesian_spec {v : AVec ℝ} (hs : v.size = 2) (r θ : ℝ) :
    ∃ w x, polarToCartesian v r θ = .ok w ∧ w.Is 2 x ∧ w.fixed = v.fixed ∧ IsPolar x r θ := by
  simp [polarToCartesian, AVec.checkSize_ok hs, AVec.put, hs, AVec.Is, IsPolar, AVec.vec, mul_comm]

/-- C67: `cylindrical_to_cartesian` sets the vector to the point with these cylindrical coordinates, for
each axis. -/
theorem cylindricalToCartesian_spec {v : AVec ℝ} (hs : v.size = 3) (i : Fin 3) (r θ h : ℝ) :
    ∃ w x, cylindricalToCartesian v (i : Nat) r θ h = .ok w ∧ w.Is 3 x ∧ w.fixed = v.fixed ∧
      IsCylindrical i x r θ h := by
  obtain ⟨w, x, e1, e2, e3, e4, e5, e6⟩ := put3 hs i h (Real.cos θ * r) (Real.sin θ * r)
  refine ⟨w, x, ?_, e2, e3, e4, by rw [e5, mul_comm], by rw [e6, mul_comm]⟩
  simp only [cylindricalToCartesian, axis_ok, AVec.checkSize_ok hs, Res.ok_bind, perm_eq]
  exact e1

/-- C67: `spherical_to_cartesian` sets the vector to the point with these spherical coordinates, for each
axis and both kinds of latitude. -/
theorem sphericalToCartesian_spec {v : AVec ℝ} (hs : v.size = 3) (i : Fin 3) (type : LatitudeType)
    (r θ φ : ℝ) :
    ∃ w x, sphericalToCartesian v (i : Nat) type r θ φ = .ok w ∧ w.Is 3 x ∧ w.fixed = v.fixed ∧
      IsSpherical i type x r θ φ := by
  have hp : (if type = .latitude then Real.pi / 2 - φ else φ) = polarAngle type φ := by
    cases type <;> simp [polarAngle]
  obtain ⟨w, x, e1, e2, e3, e4, e5, e6⟩ := put3 hs i (Real.cos (polarAngle type φ) * r)
    (Real.sin (polarAngle type φ) * r * Real.cos θ) (Real.sin (polarAngle type φ) * r * Real.sin θ)
  refine ⟨w, x, ?_, e2, e3, by rw [e4, mul_comm], by rw [e5, mul_comm r], by rw [e6, mul_comm r]⟩
  simp only [sphericalToCartesian, axis_ok, AVec.checkSize_ok hs, Res.ok_bind, perm_eq, hp]
  exact e1

/-! ### From Cartesian coordinates -/

/-- C67: `cartesian_to_polar` returns the distance from the origin and, unless it is below the tolerance,
an angle in `(-π, π]` that makes polar coordinates of the point; below the tolerance the angle is zero. -/
theorem cartesianToPolar_spec {v : AVec ℝ} {x : Fin 2 → ℝ} (hv : v.Is 2 x) (tol : ℝ) :
    ∃ r θ, cartesianToPolar v tol = .ok (r, θ) ∧ r = eucl x ∧ -Real.pi < θ ∧ θ ≤ Real.pi ∧
      (tol ≤ r → IsPolar x r θ) ∧ (r < tol → θ = 0) := by
  have e0 : v.el 0 = x 0 := hv.el 0
  have e1 : v.el 1 = x 1 := hv.el 1
  have hl : Real.sqrt (x ⬝ᵥ x) = len2 (x 0) (x 1) := by
    rw [len2, dotProduct, Fin.sum_univ_two]
  have hp := Real.pi_pos
  have run : cartesianToPolar v tol = .ok (len2 (x 0) (x 1),
      if len2 (x 0) (x 1) < tol then 0 else atan2 (x 1) (x 0)) := by
    simp only [cartesianToPolar, AVec.checkSize_ok hv.1, Res.ok_bind, AVec.length_is hv (by norm_num), hl]
    split <;> simp [AVec.get, hv.1, e0, e1]
  rw [run]
  refine ⟨_, _, rfl, hl.symm, ?_, ?_, ?_, ?_⟩
  · split
    · linarith
    · exact (atan2_range _ _).1
  · split
    · linarith
    · exact (atan2_range _ _).2
  · intro h
    rw [if_neg (not_lt.2 h)]
    exact polar_of
  · intro h
    rw [if_pos h]

/-- C67: `cartesian_to_cylindrical`. -/
theorem cartesianToCylindrical_spec {v : AVec ℝ} {x : Fin 3 → ℝ} (hv : v.Is 3 x) (i : Fin 3) (tol : ℝ) :
    ∃ r θ h, cartesianToCylindrical v (i : Nat) tol = .ok (r, θ, h) ∧
      r = eucl ![x (i + 1), x (i + 2)] ∧ -Real.pi < θ ∧ θ ≤ Real.pi ∧ h = x i ∧
      (tol ≤ r → IsCylindrical i x r θ h) ∧ (r < tol → θ = 0) := by
  have e : ∀ j : Fin 3, v.get (j : Nat) = .ok (x j) := fun j => by
    rw [AVec.get_ok (by rw [hv.1]; exact j.isLt), hv.el]
  have hp := Real.pi_pos
  have run : cartesianToCylindrical v (i : Nat) tol = .ok (len2 (x (i + 1)) (x (i + 2)),
      if len2 (x (i + 1)) (x (i + 2)) < tol then 0 else atan2 (x (i + 2)) (x (i + 1)), x i) := by
    simp only [cartesianToCylindrical, axis_ok, AVec.checkSize_ok hv.1, Res.ok_bind, perm_eq, e, Res.pure_eq]
  rw [run]
  refine ⟨_, _, _, rfl, by simp [eucl, len2, dotProduct, Fin.sum_univ_two], ?_, ?_, rfl, ?_, ?_⟩
  · split
    · linarith
    · exact (atan2_range _ _).1
  · split
    · linarith
    · exact (atan2_range _ _).2
  · intro h
    rw [if_neg (not_lt.2 h)]
    exact ⟨rfl, polar_of⟩
  · intro h
    rw [if_pos h]

/-- The two lengths of `cartesian_to_spherical` combine to the distance from the origin. -/
private theorem len2_len2 (i : Fin 3) (x : Fin 3 → ℝ) :
    len2 (x i) (len2 (x (i + 1)) (x (i + 2))) = eucl x := by
  rw [len2, len2_sq, eucl, dotProduct, sum3 i]
  congr 1
  ring

/-- C67: `cartesian_to_spherical`: the radius is the distance from the origin, the angles are in their
ranges, and the result is spherical coordinates of the point unless the distance from the axis is below the
tolerance.  Near the axis `θ` is zero, near the origin `φ` is zero as well. -/
theorem cartesianToSpherical_spec {v : AVec ℝ} {x : Fin 3 → ℝ} (hv : v.Is 3 x) (i : Fin 3)
    (type : LatitudeType) (tol : ℝ) :
    ∃ r θ φ, cartesianToSpherical v (i : Nat) type tol = .ok (r, θ, φ) ∧ r = eucl x ∧
      -Real.pi < θ ∧ θ ≤ Real.pi ∧ PhiRange type φ ∧
      (tol ≤ eucl ![x (i + 1), x (i + 2)] → IsSpherical i type x r θ φ) ∧
      (eucl ![x (i + 1), x (i + 2)] < tol → θ = 0) ∧ (r < tol → φ = 0) ∧
      (tol ≤ r → x i = r * Real.cos (polarAngle type φ) ∧
        eucl ![x (i + 1), x (i + 2)] = r * Real.sin (polarAngle type φ)) := by
  have e : ∀ j : Fin 3, v.get (j : Nat) = .ok (x j) := fun j => by
    rw [AVec.get_ok (by rw [hv.1]; exact j.isLt), hv.el]
  have hp := Real.pi_pos
  have hl : eucl ![x (i + 1), x (i + 2)] = len2 (x (i + 1)) (x (i + 2)) := by
    simp [eucl, len2, dotProduct, Fin.sum_univ_two]
  have hle : len2 (x (i + 1)) (x (i + 2)) ≤ eucl x := by
    rw [← len2_len2 i x, len2]
    refine Real.le_sqrt_of_sq_le ?_
    nlinarith [mul_self_nonneg (x i)]
  have run : cartesianToSpherical v (i : Nat) type tol = .ok (eucl x,
      if len2 (x (i + 1)) (x (i + 2)) < tol then 0 else atan2 (x (i + 2)) (x (i + 1)),
      if eucl x < tol then 0 else
        if type = .latitude then Real.pi / 2 - atan2 (len2 (x (i + 1)) (x (i + 2))) (x i)
        else atan2 (len2 (x (i + 1)) (x (i + 2))) (x i)) := by
    simp only [cartesianToSpherical, axis_ok, AVec.checkSize_ok hv.1, Res.ok_bind, perm_eq, e, Res.pure_eq,
      len2_len2]
  rw [run, hl]
  have hn := (atan2_nonneg.2 (len2_nonneg (x (i + 1)) (x (i + 2))) : 0 ≤ atan2 _ (x i))
  have hr := atan2_range (len2 (x (i + 1)) (x (i + 2))) (x i)
  have hpa : ∀ φ, polarAngle type (if type = .latitude then Real.pi / 2 - φ else φ) = φ := by
    intro φ
    cases type <;> simp [polarAngle]
  have hout : tol ≤ eucl x → x i = eucl x * Real.cos (atan2 (len2 (x (i + 1)) (x (i + 2))) (x i)) ∧
      len2 (x (i + 1)) (x (i + 2)) = eucl x * Real.sin (atan2 (len2 (x (i + 1)) (x (i + 2))) (x i)) := by
    intro _
    have := polar_of (x := x i) (y := len2 (x (i + 1)) (x (i + 2)))
    rwa [len2_len2] at this
  refine ⟨_, _, _, rfl, rfl, ?_, ?_, ?_, ?_, ?_, ?_, ?_⟩
  · split
    · linarith
    · exact (atan2_range _ _).1
  · split
    · linarith
    · exact (atan2_range _ _).2
  · cases type <;> simp only [PhiRange, reduceCtorEq, if_true, if_false] <;> split <;>
      constructor <;> linarith
  · intro h
    rw [if_neg (not_lt.2 h), if_neg (not_lt.2 (h.trans hle)), IsSpherical, hpa]
    obtain ⟨h1, h2⟩ := hout (h.trans hle)
    refine ⟨h1, ?_, ?_⟩
    · rw [← h2]; exact polar_of.1
    · rw [← h2]; exact polar_of.2
  · intro h
    rw [if_pos h]
  · intro h
    rw [if_pos h]
  · intro h
    rw [if_neg (not_lt.2 h), hpa]
    exact hout h

/-! ### Round trips -/

/-- C67: from Cartesian to polar coordinates and back. -/
theorem polar_roundtrip {v w : AVec ℝ} {x : Fin 2 → ℝ} (hv : v.Is 2 x) (hw : w.size = 2) (tol : ℝ) :
    ∃ r θ w' x', cartesianToPolar v tol = .ok (r, θ) ∧ polarToCartesian w r θ = .ok w' ∧ w'.Is 2 x' ∧
      (tol ≤ eucl x → x' = x) ∧ (eucl x < tol → eucl (x' - x) ≤ 2 * eucl x) := by
  obtain ⟨r, θ, e1, e2, -, -, e5, e6⟩ := cartesianToPolar_spec hv tol
  obtain ⟨w', x', f1, f2, -, f4⟩ := polarToCartesian_spec hw r θ
  refine ⟨r, θ, w', x', e1, f1, f2, fun h => ?_, fun h => ?_⟩
  · have h5 := e5 (e2 ▸ h)
    funext j
    fin_cases j
    · exact f4.1.trans h5.1.symm
    · exact f4.2.trans h5.2.symm
  · have h0 := e6 (e2 ▸ h)
    rw [h0, IsPolar] at f4
    simp at f4
    have hsq := eucl_sq x
    rw [eucl, Real.sqrt_le_left (mul_nonneg (by norm_num) (eucl_nonneg _))]
    rw [← e2] at hsq ⊢
    have hr : 0 ≤ r := e2 ▸ Real.sqrt_nonneg _
    simp only [dotProduct, Fin.sum_univ_two, Pi.sub_apply, f4.1, f4.2] at hsq ⊢
    have : -r ≤ x 0 := by nlinarith [mul_self_nonneg (x 1)]
    nlinarith

/-- C67: from polar to Cartesian coordinates and back. -/
theorem polar_roundtrip' {v : AVec ℝ} (hs : v.size = 2) {r θ tol : ℝ} (hr : 0 < r) (ht : tol ≤ r)
    (h1 : -Real.pi < θ) (h2 : θ ≤ Real.pi) :
    ∃ w, polarToCartesian v r θ = .ok w ∧ cartesianToPolar w tol = .ok (r, θ) := by
  obtain ⟨w, x, f1, f2, -, f4⟩ := polarToCartesian_spec hs r θ
  obtain ⟨r', θ', e1, e2, e3, e4, e5, -⟩ := cartesianToPolar_spec f2 tol
  refine ⟨w, f1, ?_⟩
  have hx : eucl x = r := by
    have := len2_polar hr.le θ
    rw [← f4.1, ← f4.2] at this
    rw [← this, eucl, len2, dotProduct, Fin.sum_univ_two]
  rw [hx] at e2
  subst e2
  have h5 := e5 ht
  have a1 := atan2_polar hr e3 e4
  rw [← h5.1, ← h5.2, f4.1, f4.2, atan2_polar hr h1 h2] at a1
  rw [e1, a1]

/-- C67: from Cartesian to cylindrical coordinates and back, for each axis. -/
theorem cylindrical_roundtrip {v w : AVec ℝ} {x : Fin 3 → ℝ} (hv : v.Is 3 x) (hw : w.size = 3) (i : Fin 3)
    (tol : ℝ) :
    ∃ r θ h w' x', cartesianToCylindrical v (i : Nat) tol = .ok (r, θ, h) ∧
      cylindricalToCartesian w (i : Nat) r θ h = .ok w' ∧ w'.Is 3 x' ∧
      (tol ≤ eucl ![x (i + 1), x (i + 2)] → x' = x) ∧
      (eucl ![x (i + 1), x (i + 2)] < tol → eucl (x' - x) ≤ 2 * eucl ![x (i + 1), x (i + 2)]) := by
  obtain ⟨r, θ, h, e1, e2, -, -, e3, e5, e6⟩ := cartesianToCylindrical_spec hv i tol
  obtain ⟨w', x', f1, f2, -, f4⟩ := cylindricalToCartesian_spec hw i r θ h
  refine ⟨r, θ, h, w', x', e1, f1, f2, fun ht => ?_, fun ht => ?_⟩
  · have h5 := e5 (e2 ▸ ht)
    exact ext3 i (f4.1.trans h5.1.symm) (f4.2.1.trans h5.2.1.symm) (f4.2.2.trans h5.2.2.symm)
  · have h0 := e6 (e2 ▸ ht)
    rw [h0, IsCylindrical, e3] at f4
    simp at f4
    obtain ⟨g0, g1, g2⟩ := f4
    have hsq := eucl_sq ![x (i + 1), x (i + 2)]
    rw [eucl, Real.sqrt_le_left (mul_nonneg (by norm_num) (eucl_nonneg _))]
    rw [← e2] at hsq ⊢
    have hr : 0 ≤ r := e2 ▸ Real.sqrt_nonneg _
    rw [dotProduct, sum3 i]
    simp only [Pi.sub_apply, g0, g1, g2]
    simp [dotProduct, Fin.sum_univ_two] at hsq ⊢
    have : -r ≤ x (i + 1) := by nlinarith [mul_self_nonneg (x (i + 2))]
    nlinarith

/-- C67: from cylindrical to Cartesian coordinates and back, for each axis. -/
theorem cylindrical_roundtrip' {v : AVec ℝ} (hs : v.size = 3) (i : Fin 3) {r θ tol : ℝ} (h : ℝ) (hr : 0 < r)
    (ht : tol ≤ r) (h1 : -Real.pi < θ) (h2 : θ ≤ Real.pi) :
    ∃ w, cylindricalToCartesian v (i : Nat) r θ h = .ok w ∧
      cartesianToCylindrical w (i : Nat) tol = .ok (r, θ, h) := by
  obtain ⟨w, x, f1, f2, -, f4⟩ := cylindricalToCartesian_spec hs i r θ h
  obtain ⟨r', θ', h', e1, e2, e3, e4, e0, e5, -⟩ := cartesianToCylindrical_spec f2 i tol
  refine ⟨w, f1, ?_⟩
  have hx : eucl ![x (i + 1), x (i + 2)] = r := by
    have := len2_polar hr.le θ
    rw [← f4.2.1, ← f4.2.2] at this
    rw [← this]
    simp [eucl, len2, dotProduct, Fin.sum_univ_two]
  rw [hx] at e2
  subst e2
  have h5 := e5 ht
  have a1 := atan2_polar hr e3 e4
  rw [← h5.2.1, ← h5.2.2, f4.2.1, f4.2.2, atan2_polar hr h1 h2] at a1
  rw [e1, a1, e0, f4.1]

/-- C67: from Cartesian to spherical coordinates and back, for each axis and both kinds of latitude.
Within the tolerance of the axis the point is moved by at most twice its distance from the axis, within the
tolerance of the origin by at most twice its distance from the origin. -/
theorem spherical_roundtrip {v w : AVec ℝ} {x : Fin 3 → ℝ} (hv : v.Is 3 x) (hw : w.size = 3) (i : Fin 3)
    (type : LatitudeType) (tol : ℝ) :
    ∃ r θ φ w' x', cartesianToSpherical v (i : Nat) type tol = .ok (r, θ, φ) ∧
      sphericalToCartesian w (i : Nat) type r θ φ = .ok w' ∧ w'.Is 3 x' ∧
      (tol ≤ eucl ![x (i + 1), x (i + 2)] → x' = x) ∧
      (tol ≤ eucl x → eucl ![x (i + 1), x (i + 2)] < tol →
        eucl (x' - x) ≤ 2 * eucl ![x (i + 1), x (i + 2)]) ∧
      (eucl x < tol → eucl (x' - x) ≤ 2 * eucl x) := by
  obtain ⟨r, θ, φ, e1, e2, -, -, -, e5, e6, e7, e8⟩ := cartesianToSpherical_spec hv i type tol
  obtain ⟨w', x', f1, f2, -, f4⟩ := sphericalToCartesian_spec hw i type r θ φ
  refine ⟨r, θ, φ, w', x', e1, f1, f2, fun ht => ?_, fun h ht => ?_, fun h => ?_⟩
  · have h5 := e5 ht
    exact ext3 i (f4.1.trans h5.1.symm) (f4.2.1.trans h5.2.1.symm) (f4.2.2.trans h5.2.2.symm)
  · obtain ⟨g0, g1, g2⟩ := f4
    obtain ⟨h1, h2⟩ := e8 (e2 ▸ h)
    rw [e6 ht] at g1 g2
    simp only [Real.cos_zero, Real.sin_zero, mul_one, mul_zero] at g1 g2
    rw [← h1] at g0
    rw [← h2] at g1
    have hsq := eucl_sq ![x (i + 1), x (i + 2)]
    have hr : 0 ≤ eucl ![x (i + 1), x (i + 2)] := Real.sqrt_nonneg _
    generalize eucl ![x (i + 1), x (i + 2)] = l at *
    rw [eucl, Real.sqrt_le_left (mul_nonneg (by norm_num) hr), dotProduct, sum3 i]
    simp only [Pi.sub_apply, g0, g1, g2]
    simp [dotProduct, Fin.sum_univ_two] at hsq ⊢
    have : -l ≤ x (i + 1) := by nlinarith [mul_self_nonneg (x (i + 2))]
    nlinarith
  · have hl : eucl ![x (i + 1), x (i + 2)] ≤ eucl x := by
      rw [eucl, eucl]
      refine Real.sqrt_le_sqrt ?_
      rw [dotProduct, dotProduct, sum3 i, Fin.sum_univ_two]
      simp
      nlinarith [mul_self_nonneg (x i)]
    obtain ⟨g0, g1, g2⟩ := f4
    rw [e6 (hl.trans_lt h), e7 (e2 ▸ h)] at g1 g2
    rw [e7 (e2 ▸ h)] at g0
    have hsq := eucl_sq x
    have hr : 0 ≤ r := e2 ▸ Real.sqrt_nonneg _
    rw [← e2] at hsq ⊢
    rw [dotProduct, sum3 i] at hsq
    rw [eucl, Real.sqrt_le_left (mul_nonneg (by norm_num) hr), dotProduct, sum3 i]
    simp only [Pi.sub_apply, g0, g1, g2]
    have b0 : -r ≤ x i := by nlinarith [mul_self_nonneg (x (i + 1)), mul_self_nonneg (x (i + 2))]
    have b1 : -r ≤ x (i + 1) := by nlinarith [mul_self_nonneg (x i), mul_self_nonneg (x (i + 2))]
    cases type <;> simp [polarAngle] <;> nlinarith

/-- C67: from spherical to Cartesian coordinates and back, for each axis and both kinds of latitude, for
points off the axis. -/
theorem spherical_roundtrip' {v : AVec ℝ} (hs : v.size = 3) (i : Fin 3) (type : LatitudeType)
    {r θ φ tol : ℝ} (hr : 0 < r) (hp1 : 0 < polarAngle type φ) (hp2 : polarAngle type φ < Real.pi)
    (ht : tol ≤ r * Real.sin (polarAngle type φ)) (h1 : -Real.pi < θ) (h2 : θ ≤ Real.pi) :
    ∃ w, sphericalToCartesian v (i : Nat) type r θ φ = .ok w ∧
      cartesianToSpherical w (i : Nat) type tol = .ok (r, θ, φ) := by
  obtain ⟨w, x, f1, f2, -, f4⟩ := sphericalToCartesian_spec hs i type r θ φ
  obtain ⟨r', θ', φ', e1, e2, e3, e4, e0, e5, -⟩ := cartesianToSpherical_spec f2 i type tol
  refine ⟨w, f1, ?_⟩
  have hsin := Real.sin_pos_of_pos_of_lt_pi hp1 hp2
  have hrs := mul_pos hr hsin
  have hl : eucl ![x (i + 1), x (i + 2)] = r * Real.sin (polarAngle type φ) := by
    have := len2_polar hrs.le θ
    rw [← f4.2.1, ← f4.2.2] at this
    rw [← this]
    simp [eucl, len2, dotProduct, Fin.sum_univ_two]
  have hx : eucl x = r := by
    rw [← len2_len2 i]
    have e : len2 (x (i + 1)) (x (i + 2)) = r * Real.sin (polarAngle type φ) := by
      rw [← hl]; simp [eucl, len2, dotProduct, Fin.sum_univ_two]
    rw [e, f4.1, len2_polar hr.le]
  rw [hx] at e2
  subst e2
  obtain ⟨g0, g1, g2⟩ := e5 (by rw [hl]; exact ht)
  have hr' := e0
  -- the polar angle
  have hpa : 0 ≤ polarAngle type φ' ∧ polarAngle type φ' ≤ Real.pi := by
    cases type <;> simp only [PhiRange, polarAngle] at e0 ⊢ <;> constructor <;> linarith
  have hpe : polarAngle type φ' = polarAngle type φ := by
    refine Real.injOn_cos ⟨hpa.1, hpa.2⟩ ⟨hp1.le, hp2.le⟩ ?_
    have := g0.symm.trans f4.1
    exact mul_left_cancel₀ hr.ne' this
  have hφ : φ' = φ := by
    cases type <;> simp only [polarAngle] at hpe <;> linarith
  subst hφ
  have a1 := atan2_polar hrs e3 e4
  rw [← g1, ← g2, f4.2.1, f4.2.2, atan2_polar hrs h1 h2] at a1
  rw [e1, a1]

/-! ### Errors -/

/-- C67: an axis other than 0, 1, 2 is an invalid argument, and vectors of the wrong size are rejected. -/
theorem coord_throws (v : AVec ℝ) (axis : Int) (type : LatitudeType) (r θ φ tol : ℝ) :
    (v.size ≠ 2 → polarToCartesian v r θ = .throw v.sizeErr ∧ cartesianToPolar v tol = .throw v.sizeErr) ∧
    (axis < 0 ∨ 2 < axis → cylindricalToCartesian v axis r θ φ = .throw .invalidArgument ∧
      sphericalToCartesian v axis type r θ φ = .throw .invalidArgument ∧
      cartesianToCylindrical v axis tol = .throw .invalidArgument ∧
      cartesianToSpherical v axis type tol = .throw .invalidArgument) ∧
    (0 ≤ axis → axis ≤ 2 → v.size ≠ 3 → cylindricalToCartesian v axis r θ φ = .throw v.sizeErr ∧
      sphericalToCartesian v axis type r θ φ = .throw v.sizeErr ∧
      cartesianToCylindrical v axis tol = .throw v.sizeErr ∧
      cartesianToSpherical v axis type tol = .throw v.sizeErr) := by
  refine ⟨fun h => ?_, fun h => ?_, fun h1 h2 h => ?_⟩
  · simp [polarToCartesian, cartesianToPolar, AVec.checkSize_throw h]
  · have : requireAxis axis = .throw .invalidArgument := by
      rw [requireAxis, Res.require, decide_eq_false (by omega)]
      rfl
    simp [cylindricalToCartesian, sphericalToCartesian, cartesianToCylindrical, cartesianToSpherical, this]
  · have : requireAxis axis = .ok () := by
      rw [requireAxis, Res.require, decide_eq_true ⟨h1, h2⟩]
      rfl
    simp [cylindricalToCartesian, sphericalToCartesian, cartesianToCylindrical, cartesianToSpherical, this,
      AVec.checkSize_throw h]

/-! ### Examples -/

/-- With axis 1 (`y`), the angle is measured from `z`: the point `(0, 5, 2)` has the cylindrical coordinates
`(2, 0, 5)`. -/
example : IsCylindrical 1 ![0, 5, 2] 2 0 5 := by simp [IsCylindrical]

/-- Latitude zero is the equator, colatitude zero the pole. -/
example : IsSpherical 2 .latitude ![3, 0, 0] 3 0 0 ∧ IsSpherical 2 .colatitude ![0, 0, 3] 3 0 0 := by
  simp [IsSpherical, polarAngle]

/-- The hypotheses of `spherical_roundtrip'` are met. -/
example : 0 < polarAngle .latitude (Real.pi / 6) ∧ polarAngle .latitude (Real.pi / 6) < Real.pi ∧
    (1 : ℝ) ≤ 4 * Real.sin (polarAngle .latitude (Real.pi / 3)) := by
  have := Real.pi_pos
  refine ⟨?_, ?_, ?_⟩
  · simp only [polarAngle]; linarith
  · simp only [polarAngle]; linarith
  · have : Real.pi / 2 - Real.pi / 3 = Real.pi / 6 := by ring
    simp only [polarAngle, this, Real.sin_pi_div_six]
    norm_num

end CML

#print axioms CML.polarToCartesian_spec
#print axioms CML.cylindricalToCartesian_spec
#print axioms CML.sphericalToCartesian_spec
#print axioms CML.cartesianToPolar_spec
#print axioms CML.cartesianToCylindrical_spec
#print axioms CML.cartesianToSpherical_spec
#print axioms CML.polar_roundtrip
#print axioms CML.polar_roundtrip'
#print axioms CML.cylindrical_roundtrip
#print axioms CML.cylindrical_roundtrip'
#print axioms CML.spherical_roundtrip
#print axioms CML.spherical_roundtrip'
#print axioms CML.coord_throws
