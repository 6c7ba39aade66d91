import Verif.Spec.OutArg
import Verif.Lemmas.Geom
import Verif.Lemmas.Lin

/-!
Lemmas for C124: the exact outcome of the functions of `Model/OutArg.lean`, for every placement of their arguments.
-/

namespace CML

theorem Cells.wr_same (σ : Cells) (a : Nat) (x : ℝ) : σ.wr a x a = x := if_pos rfl

theorem Cells.wr_ne (σ : Cells) {a b : Nat} (x : ℝ) (h : b ≠ a) : σ.wr a x b = σ b := if_neg h

theorem OutArg.axis_lt {axis : Int} (h : 0 ≤ axis ∧ axis ≤ 2) : ∃ i : Fin 3, axis = ((i : Nat) : Int) := by
  refine ⟨⟨axis.toNat, by omega⟩, ?_⟩
  simp only
  omega

theorem OutArg.perm (i : Fin 3) : cyclicPermutation3 (((i : Nat) : Int).toNat) =
    ((i : Nat), ((i + 1 : Fin 3) : Nat), ((i + 2 : Fin 3) : Nat)) := by
  fin_cases i <;> rfl

theorem OutArg.axis_ok (i : Fin 3) : requireAxis ((i : Nat) : Int) = .ok () := by
  fin_cases i <;> rfl

theorem OutArg.axis_bad {axis : Int} (h : ¬ (0 ≤ axis ∧ axis ≤ 2)) : requireAxis axis = .throw .invalidArgument := by
  simp [requireAxis, Res.require, h]

theorem VAt.get_load {σ : Cells} {v : VAt} {i : Nat} (h : i < v.size) : (v.load σ).get i = .ok (σ (v.addr i)) :=
  AVec.get_ok (by exact h)

theorem VAt.check_load {σ : Cells} {v : VAt} {n : Nat} (h : v.size = n) : (v.load σ).checkSize n = .ok () :=
  AVec.checkSize_ok h

theorem VAt.length2 {σ : Cells} {v : VAt} (h : v.size = 2) :
    (v.load σ).length = .ok (len2 (σ (v.addr 0)) (σ (v.addr 1))) := by
  rw [AVec.length, AVec.lengthSquared_ok (a := v.load σ) h (by norm_num), Res.ok_bind, Fin.sum_univ_two]
  rfl

theorem VAt.length3 {σ : Cells} {v : VAt} (h : v.size = 3) :
    (v.load σ).length = .ok (len3 (σ (v.addr 0)) (σ (v.addr 1)) (σ (v.addr 2))) := by
  rw [AVec.length, AVec.lengthSquared_ok (a := v.load σ) h (by norm_num), Res.ok_bind, Fin.sum_univ_three]
  rfl

theorem MAt.bget_load {σ : Cells} {m : MAt} (hr : 3 ≤ m.rows) (hc : 3 ≤ m.cols) {i j : Nat} (hi : i < 3) (hj : j < 3) :
    (m.load σ).bget i j = .ok (σ (m.cell i j)) := by
  unfold BMat.bget MAt.cell MAt.load
  rcases m.basis with _ | _
  · exact if_pos ⟨by simp only; omega, by simp only; omega⟩
  · exact if_pos ⟨by simp only; omega, by simp only; omega⟩

/-! ### Outcomes -/

theorem polarInto_run (σ : Cells) {v : VAt} (h : v.size = 2) (r t : Nat) (tol : ℝ) :
    polarInto σ v r t tol =
      let L := len2 (σ (v.addr 0)) (σ (v.addr 1))
      let σ' := σ.wr r L
      .ok (σ'.wr t (if L < tol then 0 else atan2 (σ' (v.addr 1)) (σ' (v.addr 0)))) := by
  simp only [polarInto, VAt.check_load h, VAt.length2 h, Res.ok_bind, Cells.wr_same]
  split
  · rfl
  · rw [VAt.get_load (by omega), VAt.get_load (by omega)]
    rfl

theorem cartesianToPolar_load (σ : Cells) {v : VAt} (h : v.size = 2) (tol : ℝ) :
    cartesianToPolar (v.load σ) tol = .ok (len2 (σ (v.addr 0)) (σ (v.addr 1)),
      if len2 (σ (v.addr 0)) (σ (v.addr 1)) < tol then 0 else atan2 (σ (v.addr 1)) (σ (v.addr 0))) := by
  simp only [cartesianToPolar, VAt.check_load h, VAt.length2 h, Res.ok_bind]
  split
  · rfl
  · rw [VAt.get_load (by omega), VAt.get_load (by omega)]
    rfl

theorem cylindricalInto_run (σ : Cells) {v : VAt} (hv : v.size = 3) (i : Fin 3) (r t h : Nat) (tol : ℝ) :
    cylindricalInto σ v (i : Nat) r t h tol =
      let σ1 := σ.wr h (σ (v.addr i))
      let L := len2 (σ1 (v.addr (i + 1 : Fin 3))) (σ1 (v.addr (i + 2 : Fin 3)))
      let σ2 := σ1.wr r L
      .ok (σ2.wr t (if L < tol then 0 else atan2 (σ2 (v.addr (i + 2 : Fin 3))) (σ2 (v.addr (i + 1 : Fin 3))))) := by
  have hi : ∀ (σ : Cells) (i : Fin 3), (v.load σ).get (i : Nat) = .ok (σ (v.addr i)) := fun σ i =>
    VAt.get_load (by have := i.isLt; omega)
  simp only [cylindricalInto, OutArg.axis_ok, VAt.check_load hv, Res.ok_bind, OutArg.perm, hi, Cells.wr_same]
  split <;> rfl

theorem cartesianToCylindrical_load (σ : Cells) {v : VAt} (hv : v.size = 3) (i : Fin 3) (tol : ℝ) :
    cartesianToCylindrical (v.load σ) (i : Nat) tol =
      let L := len2 (σ (v.addr (i + 1 : Fin 3))) (σ (v.addr (i + 2 : Fin 3)))
      .ok (L, (if L < tol then 0 else atan2 (σ (v.addr (i + 2 : Fin 3))) (σ (v.addr (i + 1 : Fin 3)))),
        σ (v.addr i)) := by
  have hi : ∀ (σ : Cells) (i : Fin 3), (v.load σ).get (i : Nat) = .ok (σ (v.addr i)) := fun σ i =>
    VAt.get_load (by have := i.isLt; omega)
  simp only [cartesianToCylindrical, OutArg.axis_ok, VAt.check_load hv, Res.ok_bind, OutArg.perm, hi, Res.pure_eq]

/-- The angle from the axis of `cartesian_to_spherical`. -/
noncomputable def sphPhi (type : LatitudeType) (len z radius tol : ℝ) : ℝ :=
  if radius < tol then 0 else if type = .latitude then Real.pi / 2 - atan2 len z else atan2 len z

theorem sphericalInto_run (σ : Cells) {v : VAt} (hv : v.size = 3) (i : Fin 3) (type : LatitudeType) (r t p : Nat)
    (tol : ℝ) :
    sphericalInto σ v (i : Nat) type r t p tol =
      let x := σ (v.addr (i + 1 : Fin 3))
      let y := σ (v.addr (i + 2 : Fin 3))
      let L := len2 x y
      let σ1 := σ.wr t (if L < tol then 0 else atan2 y x)
      let R := len2 (σ1 (v.addr i)) L
      let σ2 := σ1.wr r R
      .ok (σ2.wr p (sphPhi type L (σ2 (v.addr i)) R tol)) := by
  have hi : ∀ (σ : Cells) (i : Fin 3), (v.load σ).get (i : Nat) = .ok (σ (v.addr i)) := fun σ i =>
    VAt.get_load (by have := i.isLt; omega)
  have hw : ∀ (σ : Cells) (a : Nat) (x y : ℝ), (σ.wr a x).wr a y = σ.wr a y := fun σ a x y => by
    funext b
    simp only [Cells.wr]
    split <;> rfl
  simp only [sphericalInto, OutArg.axis_ok, VAt.check_load hv, Res.ok_bind, OutArg.perm, hi, Cells.wr_same, sphPhi]
  by_cases h1 : len2 (σ (v.addr (i + 1 : Fin 3))) (σ (v.addr (i + 2 : Fin 3))) < tol <;>
    simp only [h1, if_true, if_false, Res.ok_bind] <;> split <;> try rfl
  · split
    · rw [hw]
    · rfl
  · split
    · rw [hw]
    · rfl

theorem cartesianToSpherical_load (σ : Cells) {v : VAt} (hv : v.size = 3) (i : Fin 3) (type : LatitudeType)
    (tol : ℝ) :
    cartesianToSpherical (v.load σ) (i : Nat) type tol =
      let x := σ (v.addr (i + 1 : Fin 3))
      let y := σ (v.addr (i + 2 : Fin 3))
      let L := len2 x y
      let R := len2 (σ (v.addr i)) L
      .ok (R, (if L < tol then 0 else atan2 y x), sphPhi type L (σ (v.addr i)) R tol) := by
  have hi : ∀ (σ : Cells) (i : Fin 3), (v.load σ).get (i : Nat) = .ok (σ (v.addr i)) := fun σ i =>
    VAt.get_load (by have := i.isLt; omega)
  simp only [cartesianToSpherical, OutArg.axis_ok, VAt.check_load hv, Res.ok_bind, OutArg.perm, hi, Res.pure_eq, sphPhi]

end CML
