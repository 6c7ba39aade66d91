import Verif.Lemmas.Geom
import Verif.Props.Basis
import Verif.Props.QuatRot

/-!
C58 (orthonormal bases, alignment and aiming), C59 (view transforms).
-/

namespace CML
open Matrix BMat Quaternion

/-! ### Vectors -/

theorem AVec.cross_is {a b : AVec ℝ} {x y : Fin 3 → ℝ} (ha : a.Is 3 x) (hb : b.Is 3 y) :
    ∃ w, a.cross b = .ok w ∧ w.Is 3 (crossProduct x y) ∧ w.fixed = (a.fixed || b.fixed) := by
  obtain ⟨ha, rfl⟩ := ha
  obtain ⟨hb, rfl⟩ := hb
  rw [AVec.cross, AVec.checkSize_ok ha, AVec.checkSize_ok hb]
  refine ⟨_, rfl, ⟨rfl, ?_⟩, rfl⟩
  rw [cross_apply]
  funext i
  fin_cases i <;> simp [AVec.vec]

theorem AVec.sub_is {a b : AVec ℝ} {n : Nat} {x y : Fin n → ℝ} (ha : a.Is n x) (hb : b.Is n y) :
    ∃ w, a.sub b = .ok w ∧ w.Is n (x - y) ∧ w.fixed = (a.fixed || b.fixed) := by
  obtain ⟨ha, rfl⟩ := ha
  obtain ⟨hb, rfl⟩ := hb
  rw [AVec.sub, AVec.checkSame_ok (ha.trans hb.symm)]
  exact ⟨_, rfl, ⟨ha, rfl⟩, rfl⟩

theorem AVec.neg_is {a : AVec ℝ} {n : Nat} {x : Fin n → ℝ} (ha : a.Is n x) : a.neg.Is n (-x) := by
  obtain ⟨ha, rfl⟩ := ha
  exact ⟨ha, rfl⟩

theorem AVec.smul_is {a : AVec ℝ} {n : Nat} {x : Fin n → ℝ} (ha : a.Is n x) (k : ℝ) :
    (a.smul k).Is n (k • x) := by
  obtain ⟨ha, rfl⟩ := ha
  exact ⟨ha, rfl⟩

theorem AVec.dot_is {a b : AVec ℝ} {n : Nat} {x y : Fin n → ℝ} (ha : a.Is n x) (hb : b.Is n y)
    (hn : 0 < n) : a.dot b = .ok (x ⬝ᵥ y) := by
  rw [AVec.dot_ok ha.1 hb.1 hn]
  simp only [ha.el, hb.el]
  rfl

/-! ### Frames -/

/-- Three orthonormal vectors of determinant one are the columns of a rotation. -/
theorem frame_isRotation {x y z : Fin 3 → ℝ} (hx : x ⬝ᵥ x = 1) (hy : y ⬝ᵥ y = 1) (hz : z ⬝ᵥ z = 1)
    (hxy : x ⬝ᵥ y = 0) (hxz : x ⬝ᵥ z = 0) (hyz : y ⬝ᵥ z = 0) (hd : x ⬝ᵥ crossProduct y z = 1) :
    IsRotation (Matrix.of fun r c => ![x, y, z] c r) := by
  rw [isRotation_iff']
  simp only [dotProduct, Fin.sum_univ_three, cross_apply] at *
  constructor
  · ext r c
    fin_cases r <;> fin_cases c <;> simp [Matrix.mul_apply, Fin.sum_univ_three] <;> linarith
  · rw [det_fin_three]
    simp at *
    linarith

private theorem smul_unit {n : Nat} {a : Fin n → ℝ} (ha : a ⬝ᵥ a = 1) : (Real.sqrt (a ⬝ᵥ a))⁻¹ • a = a := by
  rw [ha, Real.sqrt_one, inv_one, one_smul]

/-- The vectors `n`, `k = n × r / |n × r|`, `j = k × n` of a unit vector `n` and a vector `r` not
parallel to it. -/
private theorem gram {n r : Fin 3 → ℝ} (hn : n ⬝ᵥ n = 1) (hr : crossProduct n r ≠ 0) {l : ℝ}
    (hl : l = Real.sqrt (crossProduct n r ⬝ᵥ crossProduct n r)) {k : Fin 3 → ℝ}
    (hk : k = l⁻¹ • crossProduct n r) {j : Fin 3 → ℝ} (hj : j = crossProduct k n) :
    k ⬝ᵥ k = 1 ∧ j ⬝ᵥ j = 1 ∧ n ⬝ᵥ k = 0 ∧ n ⬝ᵥ j = 0 ∧ j ⬝ᵥ k = 0 ∧ n ⬝ᵥ crossProduct j k = 1 ∧
      k ⬝ᵥ r = 0 ∧ 0 < j ⬝ᵥ r := by
  have hp := dot_self_pos hr
  have hl0 : 0 < l := by rw [hl]; exact Real.sqrt_pos.2 hp
  have hll : l * l = crossProduct n r ⬝ᵥ crossProduct n r := by rw [hl, Real.mul_self_sqrt hp.le]
  have hkk : k ⬝ᵥ k = 1 := by
    rw [hk, smul_dotProduct, dotProduct_smul, ← hll]
    simp only [smul_eq_mul]
    field_simp
  have hnk : n ⬝ᵥ k = 0 := by
    rw [hk, dotProduct_smul, dot_self_cross, smul_zero]
  have hkr : k ⬝ᵥ r = 0 := by
    rw [hk, smul_dotProduct, dotProduct_comm, dot_cross_self, smul_zero]
  have hlc : l • k = crossProduct n r := by
    rw [hk, smul_smul, mul_inv_cancel₀ hl0.ne', one_smul]
  have hjj : j ⬝ᵥ j = 1 := by
    rw [hj, cross_dot_cross, hkk, hn, dotProduct_comm k n, hnk]; norm_num
  have hnj : n ⬝ᵥ j = 0 := by rw [hj, dot_cross_self]
  have hjk : j ⬝ᵥ k = 0 := by rw [hj, dotProduct_comm, dot_self_cross]
  refine ⟨hkk, hjj, hnk, hnj, hjk, ?_, hkr, ?_⟩
  · have h := triple_product_permutation n j k
    have h2 := triple_product_permutation j k n
    rw [h, ← hj, hjj]
  · have h : j ⬝ᵥ r = l := by
      rw [hj, dotProduct_comm, triple_product_permutation, ← hlc, dotProduct_smul, hkk]
      simp
    rw [h]; exact hl0

/-! ### C58 -/

theorem axesPut_ok {axes : Nat → AVec ℝ} {i : Nat} {v : AVec ℝ} (h : (axes i).size = v.size) :
    axesPut axes i v = .ok (Function.update axes i { axes i with el := v.el }) := by
  rw [axesPut, AVec.checkSame_ok h, Res.ok_bind, Res.pure_eq]
  congr 1
  funext j
  by_cases hj : j = i <;> simp [Function.update, hj]

private theorem axes_ne (o : AxisOrder) : (unpackAxisOrder o.code).i ≠ (unpackAxisOrder o.code).j ∧
    (unpackAxisOrder o.code).i ≠ (unpackAxisOrder o.code).k ∧
    (unpackAxisOrder o.code).j ≠ (unpackAxisOrder o.code).k := by
  cases o <;> decide

/-- The part of `orthonormalBasis` after the first axis has been stored. -/
private noncomputable def onbTail (reference : AVec ℝ) (u : AxisUnpacked) (axes : Nat → AVec ℝ) :
    Res (AVec ℝ × AVec ℝ × AVec ℝ) := do
  let c ← (axes u.i).cross reference
  let axes ← axesPut axes u.k (← c.normalized)
  let axes ← axesPut axes u.j (← (axes u.k).cross (axes u.i))
  let axes ← if u.odd then axesPut axes u.k (axes u.k).neg else .ok axes
  pure (axes 0, axes 1, axes 2)

/-- The first steps of `orthonormalBasis`: the first axis holds the normalised vector. -/
private theorem onb_head {align : AVec ℝ} {a : Fin 3 → ℝ} (ha : align.Is 3 a) (ha0 : a ≠ 0)
    {normalize : Bool} (hn : normalize = true ∨ a ⬝ᵥ a = 1) (o : AxisOrder) (reference : AVec ℝ) :
    ∃ f : Nat → AVec ℝ, orthonormalBasis align reference normalize o =
        onbTail reference (unpackAxisOrder o.code) f ∧
      (∀ q, (f q).size = 3) ∧
      (f (unpackAxisOrder o.code).i).Is 3 ((Real.sqrt (a ⬝ᵥ a))⁻¹ • a) := by
  unfold orthonormalBasis
  generalize unpackAxisOrder o.code = u
  simp only []
  rw [axesPut_ok (by exact ha.1.symm), Res.ok_bind]
  have hA : AVec.Is (⟨true, 3, align.el⟩ : AVec ℝ) 3 a := ⟨rfl, ha.2⟩
  by_cases hN : normalize = true
  · rw [if_pos hN]
    obtain ⟨w, w1, w2, -⟩ := AVec.normalized_is hA ha0
    simp only [Function.update_self, w1, Res.ok_bind]
    rw [axesPut_ok (by simp [w2.1]), Res.ok_bind]
    refine ⟨_, rfl, ?_, ?_⟩
    · intro q
      by_cases hq : q = u.i <;> simp [Function.update, hq]
    · simp only [Function.update_self]
      exact ⟨rfl, w2.2⟩
  · rw [if_neg hN]
    refine ⟨_, rfl, ?_, ?_⟩
    · intro q
      by_cases hq : q = u.i <;> simp [Function.update, hq]
    · rw [smul_unit (by rcases hn with h | h; exact absurd h hN; exact h)]
      simp only [Function.update_self]
      exact hA

private theorem onb_run {align reference : AVec ℝ} {a r : Fin 3 → ℝ} (ha : align.Is 3 a)
    (hr : reference.Is 3 r) (ha0 : a ≠ 0) {normalize : Bool}
    (hn : normalize = true ∨ a ⬝ᵥ a = 1) (o : AxisOrder) {n k : Fin 3 → ℝ}
    (en : n = (Real.sqrt (a ⬝ᵥ a))⁻¹ • a)
    (ek : k = (Real.sqrt (crossProduct n r ⬝ᵥ crossProduct n r))⁻¹ • crossProduct n r)
    (hp' : crossProduct n r ≠ 0) :
    ∃ f : Nat → AVec ℝ, orthonormalBasis align reference normalize o = .ok (f 0, f 1, f 2) ∧
      (f (unpackAxisOrder o.code).i).Is 3 n ∧
      (f (unpackAxisOrder o.code).j).Is 3 (crossProduct k n) ∧
      (f (unpackAxisOrder o.code).k).Is 3 (if (unpackAxisOrder o.code).odd then -k else k) := by
  obtain ⟨hij, hik, hjk⟩ := axes_ne o
  obtain ⟨f, f1, f2, f3⟩ := onb_head ha ha0 hn o reference
  rw [f1, ← en] at *
  generalize unpackAxisOrder o.code = u at *
  obtain ⟨c, c1, c2, -⟩ := AVec.cross_is f3 hr
  obtain ⟨w, w1, w2, -⟩ := AVec.normalized_is c2 hp'
  rw [← ek] at w2
  have hK : AVec.Is ({ f u.k with el := w.el }) 3 k := ⟨f2 _, w2.2⟩
  obtain ⟨d, d1, d2, -⟩ := AVec.cross_is hK f3
  rw [onbTail, c1, Res.ok_bind, w1, Res.ok_bind, axesPut_ok (by rw [f2, w2.1]), Res.ok_bind]
  simp only [Function.update_self, Function.update_of_ne hik, d1, Res.ok_bind]
  rw [axesPut_ok (by rw [Function.update_of_ne hjk, f2, d2.1]), Res.ok_bind]
  by_cases hodd : u.odd = true
  · rw [if_pos hodd, if_pos hodd, axesPut_ok (by rfl), Res.ok_bind, Res.pure_eq]
    refine ⟨_, rfl, ?_, ?_, ?_⟩
    · rw [Function.update_of_ne hik, Function.update_of_ne hij, Function.update_of_ne hik]
      exact f3
    · rw [Function.update_of_ne hjk, Function.update_self]
      exact ⟨by rw [Function.update_of_ne hjk]; exact f2 _, d2.2⟩
    · rw [Function.update_self, Function.update_of_ne hjk.symm, Function.update_self]
      exact AVec.neg_is hK
  · rw [if_neg hodd, if_neg hodd, Res.pure_eq]
    refine ⟨_, rfl, ?_, ?_, ?_⟩
    · rw [Function.update_of_ne hij, Function.update_of_ne hik]
      exact f3
    · rw [Function.update_self]
      exact ⟨by rw [Function.update_of_ne hjk]; exact f2 _, d2.2⟩
    · rw [Function.update_of_ne hjk.symm, Function.update_self]
      exact hK

/-- C58: `orthonormal_basis` of a vector and a reference that is not parallel to it returns a
right-handed orthonormal frame, for all six orders.  The first axis of the order is the direction of the
vector, the reference lies in the plane of the first two axes of the order, on the positive side of the
second. -/
theorem orthonormalBasis_spec {align reference : AVec ℝ} {a r : Fin 3 → ℝ} (ha : align.Is 3 a)
    (hr : reference.Is 3 r) (hp : crossProduct a r ≠ 0) {normalize : Bool}
    (hn : normalize = true ∨ a ⬝ᵥ a = 1) (o : AxisOrder) :
    ∃ X Y Z x y z, orthonormalBasis align reference normalize o = .ok (X, Y, Z) ∧
      X.Is 3 x ∧ Y.Is 3 y ∧ Z.Is 3 z ∧ IsRotation (Matrix.of fun r c => ![x, y, z] c r) ∧
      ![x, y, z] o.axes.1 = (Real.sqrt (a ⬝ᵥ a))⁻¹ • a ∧ 0 < ![x, y, z] o.axes.2.1 ⬝ᵥ r ∧
      ![x, y, z] o.axes.2.2 ⬝ᵥ r = 0 := by
  have ha0 : a ≠ 0 := by rintro rfl; simp at hp
  have hu := normalize_unit ha0
  have hs : 0 < Real.sqrt (a ⬝ᵥ a) := Real.sqrt_pos.2 (dot_self_pos ha0)
  have hp' : crossProduct ((Real.sqrt (a ⬝ᵥ a))⁻¹ • a) r ≠ 0 := by
    rw [map_smul, LinearMap.smul_apply]
    exact smul_ne_zero (inv_ne_zero hs.ne') hp
  obtain ⟨f, f1, f2, f3, f4⟩ := onb_run ha hr ha0 hn o rfl rfl hp'
  obtain ⟨kk, jj, nk, nj, jk, tr, kr, jr⟩ := gram hu hp' rfl rfl rfl
  generalize (Real.sqrt (a ⬝ᵥ a))⁻¹ • a = n at *
  generalize (Real.sqrt (crossProduct n r ⬝ᵥ crossProduct n r))⁻¹ • crossProduct n r = k at *
  generalize crossProduct k n = j at *
  have tr2 : j ⬝ᵥ crossProduct k n = 1 := by rw [← triple_product_permutation, tr]
  have tr3 : k ⬝ᵥ crossProduct n j = 1 := by rw [← triple_product_permutation, tr2]
  have kn := (dotProduct_comm n k).symm.trans nk
  have jn := (dotProduct_comm n j).symm.trans nj
  have kj := (dotProduct_comm j k).symm.trans jk
  cases o <;>
    simp only [unpackAxisOrder, AxisOrder.code, EulerOrder.code] at f2 f3 f4 <;>
    simp at f2 f3 f4
  · exact ⟨_, _, _, _, _, _, f1, f2, f3, f4, frame_isRotation hu jj kk nj nk jk tr, rfl, jr, kr⟩
  · exact ⟨_, _, _, _, _, _, f1, f2, f4, f3, frame_isRotation hu (by simpa using kk) jj
      (by simpa using nk) nj (by simpa using kj)
      (by rw [map_neg, LinearMap.neg_apply, cross_anticomm, tr]), rfl, jr,
      by simpa [AxisOrder.axes] using kr⟩
  · exact ⟨_, _, _, _, _, _, f1, f4, f2, f3, frame_isRotation kk hu jj kn kj nj tr3, rfl, jr, kr⟩
  · exact ⟨_, _, _, _, _, _, f1, f3, f2, f4, frame_isRotation jj hu (by simpa using kk) jn
      (by simpa using jk) (by simpa using nk)
      (by rw [map_neg, cross_anticomm, tr2]), rfl, jr,
      by simpa [AxisOrder.axes] using kr⟩
  · exact ⟨_, _, _, _, _, _, f1, f3, f4, f2, frame_isRotation jj kk hu jk jn kn tr2, rfl, jr, kr⟩
  · exact ⟨_, _, _, _, _, _, f1, f4, f3, f2, frame_isRotation (by simpa using kk) jj hu
      (by simpa using kj) (by simpa using kn) jn
      (by rw [neg_dotProduct, ← dotProduct_neg, cross_anticomm, tr3]), rfl, jr,
      by simpa [AxisOrder.axes] using kr⟩


/-- C58: for parallel vectors (in particular for a zero reference, or a zero vector that is not to be
normalised) the division by the length of the cross product is a division by zero. -/
theorem orthonormalBasis_parallel {align reference : AVec ℝ} {a r : Fin 3 → ℝ} (ha : align.Is 3 a)
    (hr : reference.Is 3 r) (hp : crossProduct a r = 0) (normalize : Bool) (o : AxisOrder) :
    orthonormalBasis align reference normalize o = .ub .divZero := by
  unfold orthonormalBasis
  generalize unpackAxisOrder o.code = u
  simp only []
  have hA : AVec.Is (⟨true, 3, align.el⟩ : AVec ℝ) 3 a := ⟨rfl, ha.2⟩
  rw [axesPut_ok (by exact ha.1.symm), Res.ok_bind]
  have key : ∀ (f : Nat → AVec ℝ) (n : Fin 3 → ℝ), (f u.i).Is 3 n → crossProduct n r = 0 →
      onbTail reference u f = .ub .divZero := by
    intro f n hf hn
    obtain ⟨c, c1, c2, -⟩ := AVec.cross_is hf hr
    rw [hn] at c2
    rw [onbTail, c1, Res.ok_bind, AVec.normalized_zero c2 (by norm_num)]
    rfl
  by_cases hN : normalize = true
  · rw [if_pos hN]
    simp only [Function.update_self]
    by_cases ha0 : a = 0
    · subst ha0
      rw [AVec.normalized_zero hA (by norm_num)]
      rfl
    · obtain ⟨w, w1, w2, -⟩ := AVec.normalized_is hA ha0
      rw [w1, Res.ok_bind, axesPut_ok (by simp [w2.1]), Res.ok_bind]
      refine key _ ((Real.sqrt (a ⬝ᵥ a))⁻¹ • a) ?_ ?_
      · simp only [Function.update_self]
        exact ⟨rfl, w2.2⟩
      · rw [map_smul, LinearMap.smul_apply, hp, smul_zero]
  · rw [if_neg hN]
    exact key _ a (by simpa only [Function.update_self] using hA) hp

/-- C58: vectors that do not have three elements are rejected. -/
theorem orthonormalBasis_throws (align reference : AVec ℝ) (normalize : Bool) (o : AxisOrder) :
    (align.size ≠ 3 → orthonormalBasis align reference normalize o =
      .throw (if align.fixed then .staticAssert else .vecIncompatible)) ∧
    (∀ a : Fin 3 → ℝ, align.Is 3 a → a ≠ 0 → (normalize = true ∨ a ⬝ᵥ a = 1) → reference.size ≠ 3 →
      orthonormalBasis align reference normalize o = .throw reference.sizeErr) := by
  constructor
  · intro h
    simp [orthonormalBasis, axesPut, AVec.checkSameSize, Res.require, Ne.symm h]
  · intro a ha ha0 hn hr
    obtain ⟨f, f1, f2, f3⟩ := onb_head ha ha0 hn o reference
    rw [f1, onbTail, AVec.cross, AVec.checkSize_ok f3.1, AVec.checkSize_throw hr]
    rfl

/-- C58, two dimensions. -/
theorem orthonormalBasis2D_spec {align : AVec ℝ} {a : Fin 2 → ℝ} (ha : align.Is 2 a) (ha0 : a ≠ 0)
    {normalize : Bool} (hn : normalize = true ∨ a ⬝ᵥ a = 1) (o : AxisOrder2D) :
    ∃ X Y x y, orthonormalBasis2D align normalize o = .ok (X, Y) ∧
      X.Is 2 x ∧ Y.Is 2 y ∧ IsRotation (Matrix.of fun r c => ![x, y] c r) ∧
      ![x, y] o.first = (Real.sqrt (a ⬝ᵥ a))⁻¹ • a := by
  have hA : AVec.Is (⟨true, 2, align.el⟩ : AVec ℝ) 2 a := ⟨rfl, ha.2⟩
  have hu := normalize_unit ha0
  have h1 : ∃ w : AVec ℝ, w.Is 2 ((Real.sqrt (a ⬝ᵥ a))⁻¹ • a) ∧
      (normalize = true → AVec.normalized ⟨true, 2, align.el⟩ = .ok w) ∧
      (normalize ≠ true → align.el = w.el) := by
    by_cases hN : normalize = true
    · obtain ⟨w, w1, w2, -⟩ := AVec.normalized_is hA ha0
      exact ⟨w, w2, fun _ => w1, fun h => absurd hN h⟩
    · refine ⟨⟨true, 2, align.el⟩, ?_, fun h => absurd h hN, fun _ => rfl⟩
      rw [smul_unit (by rcases hn with h | h; exact absurd h hN; exact h)]
      exact hA
  obtain ⟨w, w1, w2, w3⟩ := h1
  generalize (Real.sqrt (a ⬝ᵥ a))⁻¹ • a = n at *
  have hw : AVec.Is (⟨true, 2, w.el⟩ : AVec ℝ) 2 n := ⟨rfl, w1.2⟩
  have e0 : w.el 0 = n 0 := w1.el 0
  have e1 : w.el 1 = n 1 := w1.el 1
  have hv : w.size = 2 := w1.1
  simp only [dotProduct, Fin.sum_univ_two] at hu
  have run : orthonormalBasis2D align normalize o = .ok
      (match o with
        | .xy => (⟨true, 2, w.el⟩, ⟨true, 2, (AVec.mk2 true (-w.el 1) (w.el 0)).el⟩)
        | .yx => ((⟨true, 2, (AVec.mk2 true (-w.el 1) (w.el 0)).el⟩ : AVec ℝ).neg, ⟨true, 2, w.el⟩)) := by
    have hup : ∀ (i : Nat) (x y : AVec ℝ), Function.update (Function.update
        (fun _ => (⟨true, 2, fun _ => 0⟩ : AVec ℝ)) i x) i y = Function.update
        (fun _ => (⟨true, 2, fun _ => 0⟩ : AVec ℝ)) i y := fun i x y => Function.update_idem ..
    have head : ∀ {β : Type} (i : Nat) (F : (Nat → AVec ℝ) → Res β), (do
        let axes ← axesPut (fun _ => (⟨true, 2, fun _ => 0⟩ : AVec ℝ)) i align
        let axes ← if normalize then do axesPut axes i (← (axes i).normalized) else .ok axes
        F axes) = F (Function.update (fun _ => ⟨true, 2, fun _ => 0⟩) i ⟨true, 2, w.el⟩) := by
      intro β i F
      rw [axesPut_ok (by exact ha.1.symm), Res.ok_bind]
      by_cases hN : normalize = true
      · rw [if_pos hN]
        simp only [Function.update_self, w2 hN, Res.ok_bind]
        rw [axesPut_ok (by simp [hv]), Res.ok_bind, hup]
        simp
      · rw [if_neg hN, Res.ok_bind, w3 hN]
    unfold orthonormalBasis2D
    rw [head]
    have hx : unpackAxisOrder2D AxisOrder2D.xy.code = (0, 1, false) := by decide
    have hy : unpackAxisOrder2D AxisOrder2D.yx.code = (1, 0, true) := by decide
    cases o <;> simp only [hx, hy] <;>
      simp [perp, AVec.checkSize, AVec.get, Res.require, axesPut, AVec.checkSameSize, AVec.mk2, AVec.neg]
  rw [run]
  have R1 : IsRotation (Matrix.of fun r c => ![n, ![-n 1, n 0]] c r) := by
    rw [isRotation_iff2]
    constructor
    · ext r c
      fin_cases r <;> fin_cases c <;> simp [Matrix.mul_apply, Fin.sum_univ_two] <;> linarith
    · rw [det_fin_two]
      simp
      linarith
  have R2 : IsRotation (Matrix.of fun r c => ![![n 1, -n 0], n] c r) := by
    rw [isRotation_iff2]
    constructor
    · ext r c
      fin_cases r <;> fin_cases c <;> simp [Matrix.mul_apply, Fin.sum_univ_two] <;> linarith
    · rw [det_fin_two]
      simp
      linarith
  cases o
  · exact ⟨_, _, n, ![-n 1, n 0], rfl, hw, e0 ▸ e1 ▸ AVec.mk2_is true _ _, R1, rfl⟩
  · refine ⟨_, _, ![n 1, -n 0], n, rfl, ⟨rfl, ?_⟩, hw, R2, rfl⟩
    funext i
    fin_cases i <;> simp [AVec.vec, AVec.neg, AVec.mk2, e0, e1]

/-- C58, two dimensions: a vector that does not have two elements is rejected; normalising a zero vector
is a division by zero. -/
theorem orthonormalBasis2D_throws (align : AVec ℝ) (normalize : Bool) (o : AxisOrder2D) :
    (align.size ≠ 2 → orthonormalBasis2D align normalize o =
      .throw (if align.fixed then .staticAssert else .vecIncompatible)) ∧
    (align.Is 2 0 → orthonormalBasis2D align true o = .ub .divZero) := by
  constructor
  · intro h
    simp [orthonormalBasis2D, axesPut, AVec.checkSameSize, Res.require, Ne.symm h]
  · intro h
    have hA : AVec.Is (⟨true, 2, align.el⟩ : AVec ℝ) 2 0 := ⟨rfl, h.2⟩
    unfold orthonormalBasis2D
    simp only []
    rw [axesPut_ok (by exact h.1.symm), Res.ok_bind]
    simp [AVec.normalized_zero hA]

/-- Elements outside of the leading block of an identity matrix are not changed. -/
private theorem idOutside_of {n : Nat} {m m' : BMat ℝ} (h : m.identity.SameOutside n m') : m'.IdOutside n := by
  intro i j _ _ hij
  rw [h i j hij]
  rfl

/-- C58: `matrix_rotation_align` creates the rotation whose columns (row basis: rows) are the frame of
`orthonormal_basis`: it takes the first axis of the order to the direction of the vector, the second axis
to a vector that has a positive product with the reference, and the third to a vector perpendicular to
it. -/
theorem rotationAlign_spec {m : BMat ℝ} (h : m.HasLin 3) {align reference : AVec ℝ} {a r : Fin 3 → ℝ}
    (ha : align.Is 3 a) (hr : reference.Is 3 r) (hp : crossProduct a r ≠ 0) {normalize : Bool}
    (hn : normalize = true ∨ a ⬝ᵥ a = 1) (o : AxisOrder) :
    ∃ m', rotationAlign m align reference normalize o = .ok m' ∧ m.SameShape m' ∧ m'.IdOutside 3 ∧
      IsRotation (linOf m' 3) ∧
      (linOf m' 3).mulVec (unitVec o.axes.1) = (Real.sqrt (a ⬝ᵥ a))⁻¹ • a ∧
      0 < (linOf m' 3).mulVec (unitVec o.axes.2.1) ⬝ᵥ r ∧
      (linOf m' 3).mulVec (unitVec o.axes.2.2) ⬝ᵥ r = 0 := by
  obtain ⟨X, Y, Z, x, y, z, e1, hX, hY, hZ, hR, h1, h2, h3⟩ := orthonormalBasis_spec ha hr hp hn o
  obtain ⟨m', f1, f2, f3, f4⟩ := setBasisVectors_spec (m := m.identity) h hX hY hZ
  have hc : ∀ i : Fin 3, (linOf m' 3).mulVec (unitVec i) = ![x, y, z] i := by
    intro i
    rw [f3]
    funext q
    fin_cases i <;> fin_cases q <;> simp [unitVec, Matrix.mulVec, dotProduct, Fin.sum_univ_three]
  refine ⟨m', ?_, (SameShape.identity m).trans f2, idOutside_of f4, f3 ▸ hR, ?_, ?_, ?_⟩
  · simp only [rotationAlign, e1, Res.ok_bind, f1]
  · rw [hc, h1]
  · rw [hc]; exact h2
  · rw [hc]; exact h3

/-- C58: `matrix_rotation_align` fails where `orthonormal_basis` does, and if the matrix is too small. -/
theorem rotationAlign_throws (m : BMat ℝ) {align reference : AVec ℝ} (normalize : Bool) (o : AxisOrder) :
    (∀ e, orthonormalBasis align reference normalize o = .throw e →
      rotationAlign m align reference normalize o = .throw e) ∧
    (∀ u, orthonormalBasis align reference normalize o = .ub u →
      rotationAlign m align reference normalize o = .ub u) ∧
    (¬m.HasLin 3 → ∀ b, orthonormalBasis align reference normalize o = .ok b →
      rotationAlign m align reference normalize o = .throw m.minErr) := by
  refine ⟨fun e h => by simp [rotationAlign, h], fun u h => by simp [rotationAlign, h], fun hm b h => ?_⟩
  have hm' : ¬m.identity.HasLin 3 := hm
  have : m.identity.minErr = m.minErr := rfl
  simp [rotationAlign, h, setBasisVectors, ((basisVector_throws m.identity 0 b.1).1 hm').1, this]

/-- C58, two dimensions: `matrix_rotation_align_2D` creates the rotation that takes the first axis of the
order to the direction of the vector. -/
theorem rotationAlign2D_spec {m : BMat ℝ} (h : m.HasLin 2) {align : AVec ℝ} {a : Fin 2 → ℝ}
    (ha : align.Is 2 a) (ha0 : a ≠ 0) {normalize : Bool} (hn : normalize = true ∨ a ⬝ᵥ a = 1)
    (o : AxisOrder2D) :
    ∃ m', rotationAlign2D m align normalize o = .ok m' ∧ m.SameShape m' ∧ m'.IdOutside 2 ∧
      IsRotation (linOf m' 2) ∧
      (linOf m' 2).mulVec (Pi.single o.first 1) = (Real.sqrt (a ⬝ᵥ a))⁻¹ • a := by
  obtain ⟨X, Y, x, y, e1, hX, hY, hR, h1⟩ := orthonormalBasis2D_spec ha ha0 hn o
  obtain ⟨m', f1, f2, f3, f4⟩ := (setBasisVectors2D_spec (m := m.identity) h hX hY).1
  refine ⟨m', ?_, (SameShape.identity m).trans f2, idOutside_of f4, f3 ▸ hR, ?_⟩
  · simp only [rotationAlign2D, checkLinear2D_ok h, e1, Res.ok_bind, f1]
  · rw [← h1, f3, Matrix.mulVec_single_one]
    rfl

/-- C58: `matrix_rotation_aim_at` is the alignment with the direction from the position to the target. -/
theorem rotationAimAt_spec {m : BMat ℝ} (h : m.HasLin 3) {pos target reference : AVec ℝ}
    {p t r : Fin 3 → ℝ} (hpos : pos.Is 3 p) (ht : target.Is 3 t) (hr : reference.Is 3 r)
    (hp : crossProduct (t - p) r ≠ 0) (o : AxisOrder) :
    ∃ m', rotationAimAt m pos target reference o = .ok m' ∧ m.SameShape m' ∧ m'.IdOutside 3 ∧
      IsRotation (linOf m' 3) ∧
      (linOf m' 3).mulVec (unitVec o.axes.1) = (Real.sqrt ((t - p) ⬝ᵥ (t - p)))⁻¹ • (t - p) ∧
      0 < (linOf m' 3).mulVec (unitVec o.axes.2.1) ⬝ᵥ r ∧
      (linOf m' 3).mulVec (unitVec o.axes.2.2) ⬝ᵥ r = 0 := by
  obtain ⟨d, d1, d2, -⟩ := AVec.sub_is ht hpos
  rw [rotationAimAt, d1, Res.ok_bind]
  exact rotationAlign_spec h d2 hr hp (.inl rfl) o

private theorem tmp33_hasLin : tmp33.HasLin 3 := ⟨le_refl 3, le_refl 3⟩

/-- C58: `quaternion_rotation_align` and `quaternion_rotation_aim_at` create the unit quaternion of the
rotation of the matrix version. -/
theorem qRotationAlign_spec (s : QState ℝ) (v : QVar) {align reference : AVec ℝ} {a r : Fin 3 → ℝ}
    (ha : align.Is 3 a) (hr : reference.Is 3 r) (hp : crossProduct a r ≠ 0) {normalize : Bool}
    (hn : normalize = true ∨ a ⬝ᵥ a = 1) (o : AxisOrder) :
    ∃ s' h, qRotationAlign s v align reference normalize o = .ok s' ∧ (∀ y, y ≠ v.id → s' y = s y) ∧
      QIs s' v h ∧ normSq h = 1 ∧
      qRotate h (unitVec o.axes.1) = (Real.sqrt (a ⬝ᵥ a))⁻¹ • a ∧
      0 < qRotate h (unitVec o.axes.2.1) ⬝ᵥ r ∧ qRotate h (unitVec o.axes.2.2) ⬝ᵥ r = 0 := by
  obtain ⟨m, e1, e2, -, e4, e5, e6, e7⟩ := rotationAlign_spec tmp33_hasLin ha hr hp hn o
  obtain ⟨s', h, f1, f2, f3, f4, f5⟩ := qRotationMatrix_ok s v (e2.hasLin tmp33_hasLin) e4
  refine ⟨s', h, ?_, f2, f3, f4, ?_, ?_, ?_⟩
  · rw [qRotationAlign, e1, Out.withVal_ok, f1]
  · rw [← e5, ← f5, quatMat_mulVec]
  · rw [← quatMat_mulVec, f5]; exact e6
  · rw [← quatMat_mulVec, f5]; exact e7

/-- C58: `quaternion_rotation_aim_at`. -/
theorem qRotationAimAt_spec (s : QState ℝ) (v : QVar) {pos target reference : AVec ℝ}
    {p t r : Fin 3 → ℝ} (hpos : pos.Is 3 p) (ht : target.Is 3 t) (hr : reference.Is 3 r)
    (hp : crossProduct (t - p) r ≠ 0) (o : AxisOrder) :
    ∃ s' h, qRotationAimAt s v pos target reference o = .ok s' ∧ (∀ y, y ≠ v.id → s' y = s y) ∧
      QIs s' v h ∧ normSq h = 1 ∧
      qRotate h (unitVec o.axes.1) = (Real.sqrt ((t - p) ⬝ᵥ (t - p)))⁻¹ • (t - p) ∧
      0 < qRotate h (unitVec o.axes.2.1) ⬝ᵥ r ∧ qRotate h (unitVec o.axes.2.2) ⬝ᵥ r = 0 := by
  obtain ⟨d, d1, d2, -⟩ := AVec.sub_is ht hpos
  have : qRotationAimAt s v pos target reference o = qRotationAlign s v d reference true o := by
    simp only [qRotationAimAt, qRotationAlign, rotationAimAt, d1, Res.ok_bind]
  rw [this]
  exact qRotationAlign_spec s v d2 hr hp (.inl rfl) o

/-! ### C59 -/

/-- Setting the translation does not change the linear part. -/
private theorem linOf_eq_of_trans {m1 m2 : BMat ℝ} (hb : m2.basis = m1.basis)
    (h : ∀ i j, ¬m1.TransPos 3 i j → m2.el i j = m1.el i j) : linOf m2 3 = linOf m1 3 := by
  have : ∀ i j, i < 3 → j < 3 → m2.el i j = m1.el i j := fun i j hi hj => h i j (by
    unfold TransPos; cases m1.basis <;> simp <;> omega)
  unfold linOf
  rw [hb]
  cases m1.basis <;> ext r c <;> simp only [Mat.toMatrix, Matrix.transpose_apply, Matrix.of_apply] <;>
    exact this _ _ (by omega) (by omega)

/-- The frame of `matrix_look_at`. -/
private theorem look_frame {z u : Fin 3 → ℝ} (hz : z ⬝ᵥ z = 1) (hp : crossProduct u z ≠ 0)
    {x y : Fin 3 → ℝ} (hx : x = (Real.sqrt (crossProduct u z ⬝ᵥ crossProduct u z))⁻¹ • crossProduct u z)
    (hy : y = crossProduct z x) :
    IsRotation (Matrix.of ![x, y, z]) ∧ x ⬝ᵥ u = 0 ∧ 0 < y ⬝ᵥ u ∧ x ⬝ᵥ z = 0 ∧ y ⬝ᵥ z = 0 := by
  have hc : crossProduct u z = -crossProduct z u := (cross_anticomm z u).symm
  rw [hc, neg_ne_zero] at hp
  rw [hc, neg_dotProduct, dotProduct_neg, neg_neg, smul_neg] at hx
  obtain ⟨kk, jj, nk, nj, jk, tr, kr, jr⟩ := gram hz hp rfl rfl rfl
  generalize (Real.sqrt (crossProduct z u ⬝ᵥ crossProduct z u))⁻¹ • crossProduct z u = k at *
  have hyj : y = crossProduct k z := by rw [hy, hx, map_neg, cross_anticomm]
  rw [← hyj] at jj nj jk tr jr
  subst hx
  have tr3 : k ⬝ᵥ crossProduct z y = 1 := by
    rw [← triple_product_permutation, ← triple_product_permutation, tr]
  have kn := (dotProduct_comm z k).symm.trans nk
  have jn := (dotProduct_comm z y).symm.trans nj
  have kj := (dotProduct_comm y k).symm.trans jk
  refine ⟨?_, by simpa using kr, jr, by simpa using kn, jn⟩
  have := (frame_isRotation (x := -k) (y := y) (z := z) (by simpa using kk) jj hz (by simpa using kj)
    (by simpa using kn) jn (by rw [neg_dotProduct, ← dotProduct_neg, cross_anticomm, tr3])).transpose
  exact this

/-- C59: `matrix_look_at` is a rigid transform that takes the position to the origin and the target to
the point at the same distance on the positive (left-handed) or negative (right-handed) `z` axis; up has
no `x` and a positive `y` component. -/
theorem lookAt_spec {m : BMat ℝ} (hm : m.HasAff 3) {position target up : AVec ℝ} {p t u : Fin 3 → ℝ}
    (hpos : position.Is 3 p) (ht : target.Is 3 t) (hu : up.Is 3 u) (hp : crossProduct u (t - p) ≠ 0)
    (h : Handed) :
    ∃ m', lookAt m position target up h = .ok m' ∧ m.SameShape m' ∧ m'.IdOutsideAff 3 ∧
      IsRotation (linOf m' 3) ∧ affOf m' 3 p = 0 ∧
      affOf m' 3 t = (match h with
        | .left => ![0, 0, Real.sqrt ((t - p) ⬝ᵥ (t - p))]
        | .right => ![0, 0, -Real.sqrt ((t - p) ⬝ᵥ (t - p))]) ∧
      (linOf m' 3).mulVec u 0 = 0 ∧ 0 < (linOf m' 3).mulVec u 1 := by
  obtain ⟨d, d1, d2, -⟩ := AVec.sub_is ht hpos
  have hd0 : t - p ≠ 0 := by intro h0; rw [h0] at hp; simp at hp
  obtain ⟨dn, n1, n2, -⟩ := AVec.normalized_is d2 hd0
  have hs : 0 < Real.sqrt ((t - p) ⬝ᵥ (t - p)) := Real.sqrt_pos.2 (dot_self_pos hd0)
  have hss : (h.s : ℝ) * h.s = 1 := by cases h <;> simp [Handed.s]
  have hz := AVec.smul_is n2 (h.s : ℝ)
  have hzz : ((h.s : ℝ) • (Real.sqrt ((t - p) ⬝ᵥ (t - p)))⁻¹ • (t - p)) ⬝ᵥ
      ((h.s : ℝ) • (Real.sqrt ((t - p) ⬝ᵥ (t - p)))⁻¹ • (t - p)) = 1 := by
    rw [smul_dotProduct, dotProduct_smul, normalize_unit hd0, smul_eq_mul, smul_eq_mul, mul_one, hss]
  have hdz : t - p = ((h.s : ℝ) * Real.sqrt ((t - p) ⬝ᵥ (t - p))) •
      ((h.s : ℝ) • (Real.sqrt ((t - p) ⬝ᵥ (t - p)))⁻¹ • (t - p)) := by
    rw [smul_smul, smul_smul, mul_right_comm (h.s : ℝ), hss, one_mul, mul_inv_cancel₀ hs.ne', one_smul]
  generalize Real.sqrt ((t - p) ⬝ᵥ (t - p)) = l at *
  have hpz : crossProduct u ((h.s : ℝ) • l⁻¹ • (t - p)) ≠ 0 := by
    rw [map_smul, map_smul]
    refine smul_ne_zero (fun h0 => by rw [h0] at hss; simp at hss) (smul_ne_zero (inv_ne_zero hs.ne') hp)
  generalize (h.s : ℝ) • l⁻¹ • (t - p) = z at *
  obtain ⟨c, c1, c2, -⟩ := AVec.cross_is hu hz
  obtain ⟨x, x1, x2, -⟩ := AVec.normalized_is c2 hpz
  obtain ⟨y, y1, y2, -⟩ := AVec.cross_is hz x2
  obtain ⟨R, fu, fy, fxz, fyz⟩ := look_frame hzz hpz rfl rfl
  generalize (Real.sqrt (crossProduct u z ⬝ᵥ crossProduct u z))⁻¹ • crossProduct u z = X at *
  generalize crossProduct z X = Y at *
  have hid : m.identity.HasAff 3 := hm
  obtain ⟨m1, a1, a2, a3, a4⟩ := setTransposedBasisVectors_spec (m := m.identity) hid.hasLin x2 y2 hz
  obtain ⟨m2, b1, b2, b3, b4⟩ := setTranslation_spec (a2.hasAff hid) (-(p ⬝ᵥ X)) (-(p ⬝ᵥ Y)) (-(p ⬝ᵥ z))
  have hlin : linOf m2 3 = Matrix.of ![X, Y, z] := by
    rw [← a3, linOf_eq_of_trans b2.basis b4]
  refine ⟨m2, ?_, ((SameShape.identity m).trans a2).trans b2, ?_, hlin ▸ R, ?_, ?_, ?_, ?_⟩
  · simp only [lookAt, checkAffine3D_ok hm, Res.ok_bind, d1, n1, c1, x1, y1, a1,
      AVec.dot_is hpos x2 (by norm_num), AVec.dot_is hpos y2 (by norm_num),
      AVec.dot_is hpos hz (by norm_num), b1]
  · intro i j _ _ hij htp
    rw [b4 i j (by unfold TransPos at *; rwa [← b2.basis]), a4 i j hij]
    rfl
  · funext i
    rw [affOf, hlin, b3]
    fin_cases i <;> simp [Matrix.mulVec, dotProduct_comm]
  · have : ∀ q : Fin 3, affOf m2 3 t q = (Matrix.of ![X, Y, z]).mulVec (t - p) q := by
      intro q
      rw [affOf, hlin, b3]
      fin_cases q <;> simp [Matrix.mulVec, dotProduct_comm p, dotProduct_sub, sub_eq_add_neg]
    funext q
    rw [this, hdz]
    cases h <;> fin_cases q <;> simp [Matrix.mulVec, fxz, fyz, hzz, Handed.s]
  · rw [hlin]; simpa [Matrix.mulVec] using fu
  · rw [hlin]; simpa [Matrix.mulVec] using fy

/-- C59: the two versions with the handedness in the name. -/
theorem lookAt_variants (m : BMat ℝ) (position target up : AVec ℝ) :
    lookAtLH m position target up = lookAt m position target up .left ∧
    lookAtRH m position target up = lookAt m position target up .right := ⟨rfl, rfl⟩

/-- C59: up parallel to the view direction (in particular a target equal to the position) is a division
by zero. -/
theorem lookAt_parallel {m : BMat ℝ} (hm : m.HasAff 3) {position target up : AVec ℝ} {p t u : Fin 3 → ℝ}
    (hpos : position.Is 3 p) (ht : target.Is 3 t) (hu : up.Is 3 u) (hp : crossProduct u (t - p) = 0)
    (h : Handed) : lookAt m position target up h = .ub .divZero := by
  obtain ⟨d, d1, d2, -⟩ := AVec.sub_is ht hpos
  simp only [lookAt, checkAffine3D_ok hm, Res.ok_bind, d1]
  by_cases hd0 : t - p = 0
  · rw [hd0] at d2
    rw [AVec.normalized_zero d2 (by norm_num)]
    rfl
  · obtain ⟨dn, n1, n2, -⟩ := AVec.normalized_is d2 hd0
    obtain ⟨c, c1, c2, -⟩ := AVec.cross_is hu (AVec.smul_is n2 (h.s : ℝ))
    rw [map_smul, map_smul, hp, smul_zero, smul_zero] at c2
    rw [n1, Res.ok_bind, c1, Res.ok_bind, AVec.normalized_zero c2 (by norm_num)]
    rfl

/-- C59: the size checks of `matrix_look_at`. -/
theorem lookAt_throws (m : BMat ℝ) (position target up : AVec ℝ) (h : Handed) :
    (¬m.HasAff 3 → lookAt m position target up h = .throw m.minErr) ∧
    (m.HasAff 3 → target.size ≠ position.size → lookAt m position target up h =
      .throw (if target.fixed && position.fixed then .staticAssert else .vecIncompatible)) ∧
    (m.HasAff 3 → ∀ (n : Nat) (p t : Fin n → ℝ), position.Is n p → target.Is n t → t ≠ p →
      (up.size ≠ 3 → lookAt m position target up h = .throw up.sizeErr) ∧
      (up.size = 3 → n ≠ 3 → lookAt m position target up h =
        .throw (if target.fixed || position.fixed then .staticAssert else .vecSize))) := by
  refine ⟨fun hm => ?_, fun hm hs => ?_, fun hm n p t hpos ht hne => ?_⟩
  · rw [lookAt, checkAffine3D_throw hm]; rfl
  · simp [lookAt, checkAffine3D_ok hm, AVec.sub, AVec.checkSameSize, Res.require, hs]
  · obtain ⟨d, d1, d2, d3⟩ := AVec.sub_is ht hpos
    obtain ⟨dn, n1, n2, n3⟩ := AVec.normalized_is d2 (sub_ne_zero.2 hne)
    simp only [lookAt, checkAffine3D_ok hm, Res.ok_bind, d1, n1]
    constructor
    · intro hu
      rw [AVec.cross, AVec.checkSize_throw hu]
      rfl
    · intro hu hn
      rw [AVec.cross, AVec.checkSize_ok hu, Res.ok_bind,
        AVec.checkSize_throw (by have := (AVec.smul_is n2 (h.s : ℝ)).1; omega)]
      have : (AVec.smul (h.s : ℝ) dn).sizeErr =
          (if target.fixed || position.fixed then .staticAssert else .vecSize) := by
        rw [AVec.sizeErr, ← d3, ← n3]
        rfl
      rw [this]
      rfl

/-- `matrix_affine_transform` with an axis, an angle and a translation creates the rotation about the
(normalised) axis followed by the translation. -/
theorem affineAxisAngle_spec {m : BMat ℝ} (hm : m.HasAff 3) {axis translation : AVec ℝ}
    {u t : Fin 3 → ℝ} (ha : axis.Is 3 u) (hu : u ≠ 0) (ht : translation.Is 3 t) {normalize : Bool}
    (hn : normalize = true ∨ u ⬝ᵥ u = 1) (a : ℝ) :
    ∃ m', affineAxisAngle m axis a translation normalize = .ok m' ∧ m.SameShape m' ∧
      m'.IdOutsideAff 3 ∧ linOf m' 3 = rodrigues ((Real.sqrt (u ⬝ᵥ u))⁻¹ • u) a ∧ transOf m' 3 = t := by
  have key : ∀ {w : AVec ℝ}, w.Is 3 ((Real.sqrt (u ⬝ᵥ u))⁻¹ • u) → ∃ m1 m2,
      rotationAxisAngle m w a = .ok m1 ∧ setTranslationV m1 translation = .ok m2 ∧ m.SameShape m2 ∧
      m2.IdOutsideAff 3 ∧ linOf m2 3 = rodrigues ((Real.sqrt (u ⬝ᵥ u))⁻¹ • u) a ∧ transOf m2 3 = t := by
    intro w hw
    obtain ⟨m1, a1, a2, a3, a4⟩ := rotationAxisAngle_spec hm.hasLin hw a
    have h1 := a2.hasAff hm
    obtain ⟨m2, b1, b2, b3, b4⟩ := setTranslation_spec h1 (t 0) (t 1) (t 2)
    refine ⟨m1, m2, a1, ?_, a2.trans b2, ?_, ?_, ?_⟩
    · rw [(setTranslation_variants h1).2.1 _ _ ht, b1]
    · intro i j hi hj hij htp
      rw [b4 i j (by unfold TransPos at *; rwa [← b2.basis])]
      exact a3 i j (b2.rows ▸ hi) (b2.cols ▸ hj) hij
    · rw [← a4, linOf_eq_of_trans b2.basis b4]
    · rw [b3]
      funext i
      fin_cases i <;> rfl
  rw [affineAxisAngle, checkAffine3D_ok hm, Res.ok_bind]
  by_cases hN : normalize = true
  · obtain ⟨w, w1, w2, -⟩ := AVec.normalized_is ha hu
    obtain ⟨m1, m2, e1, e2, e3⟩ := key w2
    refine ⟨m2, ?_, e3⟩
    simp only [if_pos hN, w1, Res.ok_bind, e1, e2]
  · obtain ⟨m1, m2, e1, e2, e3⟩ := key (w := axis) (by
      rw [smul_unit (by rcases hn with h | h; exact absurd h hN; exact h)]; exact ha)
    refine ⟨m2, ?_, e3⟩
    simp only [if_neg hN, Res.ok_bind, e1, e2]

/-! ### Examples -/

/-- The hypotheses of C58 and C59 are met: two vectors that are neither parallel nor orthogonal, the
first of which is not a unit vector, and a view direction with an up vector that is not orthogonal to
it. -/
example : crossProduct ![1, 2, 2] ![0, 1, (0 : ℝ)] ≠ 0 ∧ ![1, 2, 2] ⬝ᵥ ![0, 1, (0 : ℝ)] ≠ 0 ∧
    ![1, 2, 2] ⬝ᵥ ![1, 2, (2 : ℝ)] ≠ 1 ∧
    crossProduct ![0, 1, (0 : ℝ)] (![2, 4, 5] - ![1, 2, 3]) ≠ 0 := by
  refine ⟨fun h => ?_, ?_, ?_, fun h => ?_⟩
  · have := congrFun h 0
    simp [cross_apply] at this
  · simp [dotProduct, Fin.sum_univ_three]
  · simp [dotProduct, Fin.sum_univ_three]; norm_num
  · have := congrFun h 0
    simp [cross_apply] at this
    norm_num at this

/-- A unit vector for the versions without normalisation. -/
example : ![3 / 5, 4 / 5] ⬝ᵥ ![3 / 5, (4 / 5 : ℝ)] = 1 := by
  simp [dotProduct, Fin.sum_univ_two]; norm_num

/-- The frame of `z` and `y` in the order `zyx` is the standard frame with `x` inverted twice. -/
example : ∃ X Y Z, orthonormalBasis (AVec.mk3 true 0 0 2) (AVec.mk3 true 0 1 3) true .zyx =
    .ok (X, Y, Z) ∧ Z.Is 3 ![0, 0, 1] := by
  have hc : crossProduct ![0, 0, 2] ![0, 1, (3 : ℝ)] ≠ 0 := by
    intro h
    have := congrFun h 0
    simp [cross_apply] at this
  obtain ⟨X, Y, Z, x, y, z, h1, -, -, h4, -, h6, -⟩ := orthonormalBasis_spec (AVec.mk3_is true 0 0 2)
    (AVec.mk3_is true 0 1 3) hc (.inl rfl) .zyx
  refine ⟨X, Y, Z, h1, ?_⟩
  have h6 : z = _ := h6
  rw [h6] at h4
  have e : (![0, 0, 2] : Fin 3 → ℝ) ⬝ᵥ ![0, 0, 2] = 2 ^ 2 := by
    simp [dotProduct, Fin.sum_univ_three]; norm_num
  rw [e, Real.sqrt_sq (by norm_num)] at h4
  convert h4 using 1
  funext i
  fin_cases i <;> simp

end CML

#print axioms CML.orthonormalBasis_spec
#print axioms CML.orthonormalBasis_parallel
#print axioms CML.orthonormalBasis_throws
#print axioms CML.orthonormalBasis2D_spec
#print axioms CML.orthonormalBasis2D_throws
#print axioms CML.rotationAlign_spec
#print axioms CML.rotationAlign_throws
#print axioms CML.rotationAlign2D_spec
#print axioms CML.rotationAimAt_spec
#print axioms CML.qRotationAlign_spec
#print axioms CML.qRotationAimAt_spec
#print axioms CML.lookAt_spec
#print axioms CML.lookAt_variants
#print axioms CML.lookAt_parallel
#print axioms CML.lookAt_throws
#print axioms CML.affineAxisAngle_spec
