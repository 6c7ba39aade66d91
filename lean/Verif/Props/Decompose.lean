import Verif.Lemmas.Lin
import Mathlib.Algebra.Order.BigOperators.Group.Finset
import Mathlib.LinearAlgebra.Matrix.DotProduct
import Mathlib.Tactic.Linarith
import Mathlib.Tactic.FieldSimp
import Mathlib.Algebra.Order.Ring.Rat

/-!
C69: projections onto a vector and a hyperplane, `perp` and the Manhattan distance.
-/

set_option linter.unusedSectionVars false

namespace CML
open Matrix
variable {K : Type} [Field K] [LinearOrder K] [IsStrictOrderedRing K]

private theorem dot_of_is {a b : AVec K} {n : Nat} {x y : Fin n → K} (ha : a.Is n x) (hb : b.Is n y)
    (hn : 0 < n) : a.dot b = .ok (x ⬝ᵥ y) := by
  rw [AVec.dot_ok ha.1 hb.1 hn, ← ha.2, ← hb.2]
  rfl

private theorem lsq_of_is {a : AVec K} {n : Nat} {x : Fin n → K} (ha : a.Is n x) (hn : 0 < n) :
    a.lengthSquared = .ok (x ⬝ᵥ x) := by
  rw [AVec.lengthSquared_ok ha.1 hn, ← ha.2]
  rfl

private theorem smul_is {b : AVec K} {n : Nat} {y : Fin n → K} (hb : b.Is n y) (k : K) :
    (b.smul k).Is n (k • y) := by
  refine ⟨hb.1, ?_⟩
  rw [← hb.2]
  rfl

/-- C69: projection onto a non-zero vector of any dimension. -/
theorem projectToVector_spec {a b : AVec K} {n : Nat} {x y : Fin n → K} (ha : a.Is n x) (hb : b.Is n y)
    (hy : y ≠ 0) :
    ∃ w, projectToVector a b = .ok w ∧ w.Is n ((x ⬝ᵥ y / y ⬝ᵥ y) • y) := by
  have hn : 0 < n := by
    rcases Nat.eq_zero_or_pos n with rfl | h
    · exact absurd (Subsingleton.elim y 0) hy
    · exact h
  have hd : y ⬝ᵥ y ≠ 0 := fun h => hy (dotProduct_self_eq_zero.1 h)
  refine ⟨_, ?_, smul_is hb _⟩
  simp only [projectToVector, dot_of_is ha hb hn, lsq_of_is hb hn, Res.ok_bind, divR, if_neg hd,
    Res.pure_eq]

/-- C69: projection onto the zero vector divides by zero. -/
theorem projectToVector_zero {a b : AVec K} {n : Nat} {x : Fin n → K} (ha : a.Is n x)
    (hb : b.Is n 0) (hn : 0 < n) : projectToVector a b = .ub .divZero := by
  simp [projectToVector, dot_of_is ha hb hn, lsq_of_is hb hn, divR]

/-- C69: removal of the component along the normal. -/
theorem projectToHplane_spec {a b : AVec K} {n : Nat} {x y : Fin n → K} (ha : a.Is n x) (hb : b.Is n y)
    (hn : 0 < n) : ∃ w, projectToHplane a b = .ok w ∧ w.Is n (x - (x ⬝ᵥ y) • y) := by
  refine ⟨⟨a.fixed || b.fixed, a.size, fun i => a.el i - (x ⬝ᵥ y) * b.el i⟩, ?_, ha.1, ?_⟩
  · simp only [projectToHplane, dot_of_is ha hb hn, Res.ok_bind, AVec.sub,
      AVec.checkSame_ok (show a.size = (b.smul (x ⬝ᵥ y)).size from ha.1.trans hb.1.symm), Res.pure_eq]
    rfl
  · funext i
    have h1 := congrFun ha.2 i
    have h2 := congrFun hb.2 i
    simp only [AVec.vec] at h1 h2
    simp [AVec.vec, h1, h2]

/-- C69: for a unit normal the two projections are orthogonal, add up to the vector, and projecting
again changes nothing. -/
theorem project_decompose {a b : AVec K} {n : Nat} {x y : Fin n → K} (ha : a.Is n x) (hb : b.Is n y)
    (hu : y ⬝ᵥ y = 1) :
    ∃ p h p' h' z z', projectToVector a b = .ok p ∧ projectToHplane a b = .ok h ∧
      p.vec n + h.vec n = x ∧ p.vec n ⬝ᵥ h.vec n = 0 ∧ h.vec n ⬝ᵥ y = 0 ∧
      projectToVector p b = .ok p' ∧ p'.vec n = p.vec n ∧
      projectToHplane h b = .ok h' ∧ h'.vec n = h.vec n ∧
      projectToVector h b = .ok z ∧ z.vec n = 0 ∧ projectToHplane p b = .ok z' ∧ z'.vec n = 0 := by
  have hy : y ≠ 0 := by rintro rfl; simp at hu
  have hn : 0 < n := by
    rcases Nat.eq_zero_or_pos n with rfl | h
    · exact absurd (Subsingleton.elim y 0) hy
    · exact h
  obtain ⟨p, p1, p2⟩ := projectToVector_spec ha hb hy
  obtain ⟨h, h1, h2⟩ := projectToHplane_spec ha hb hn
  obtain ⟨p', p3, p4⟩ := projectToVector_spec p2 hb hy
  obtain ⟨h', h3, h4⟩ := projectToHplane_spec h2 hb hn
  obtain ⟨z, z1, z2⟩ := projectToVector_spec h2 hb hy
  obtain ⟨z', z3, z4⟩ := projectToHplane_spec p2 hb hn
  simp only [hu, div_one] at p2 p4 z2 z4
  have e1 : (x - (x ⬝ᵥ y) • y) ⬝ᵥ y = 0 := by
    rw [sub_dotProduct, smul_dotProduct, hu, smul_eq_mul, mul_one, sub_self]
  have e2 : ((x ⬝ᵥ y) • y) ⬝ᵥ y = x ⬝ᵥ y := by rw [smul_dotProduct, hu, smul_eq_mul, mul_one]
  refine ⟨p, h, p', h', z, z', p1, h1, ?_, ?_, ?_, p3, ?_, h3, ?_, z1, ?_, z3, ?_⟩
  · rw [p2.2, h2.2]; abel
  · rw [p2.2, h2.2, smul_dotProduct, dotProduct_comm y, e1, smul_zero]
  · rw [h2.2, e1]
  · rw [p4.2, p2.2, e2]
  · rw [h4.2, h2.2, e1, zero_smul, sub_zero]
  · rw [z2.2, e1, zero_smul]
  · rw [z4.2, e2, sub_self]

/-- C69: the projection onto a vector depends only on its direction. -/
theorem projectToVector_scale {a b : AVec K} {n : Nat} {x y : Fin n → K} (ha : a.Is n x)
    (hb : b.Is n y) (hy : y ≠ 0) (k : K) (hk : k ≠ 0) :
    ∃ p p', projectToVector a b = .ok p ∧ projectToVector a (b.smul k) = .ok p' ∧
      p'.vec n = p.vec n := by
  obtain ⟨p, p1, p2⟩ := projectToVector_spec ha hb hy
  obtain ⟨p', p3, p4⟩ := projectToVector_spec ha (smul_is hb k) (smul_ne_zero hk hy)
  refine ⟨p, p', p1, p3, ?_⟩
  have hd : y ⬝ᵥ y ≠ 0 := fun h => hy (dotProduct_self_eq_zero.1 h)
  rw [p2.2, p4.2, smul_smul, dotProduct_smul, smul_dotProduct, dotProduct_smul]
  congr 1
  simp only [smul_eq_mul]
  field_simp

/-- C69: operands of different sizes are rejected by both projections. -/
theorem project_throws {a b : AVec K} (h : a.size ≠ b.size) (h1 : 0 < a.size) (h2 : 0 < b.size) :
    projectToVector a b = .throw (if a.fixed && b.fixed then .staticAssert else .vecIncompatible) ∧
    projectToHplane a b = .throw (if a.fixed && b.fixed then .staticAssert else .vecIncompatible) := by
  have hd : a.dot b = .throw (if a.fixed && b.fixed then .staticAssert else .vecIncompatible) := by
    simp [AVec.dot, AVec.checkMin_ok (show 1 ≤ a.size by omega),
      AVec.checkMin_ok (show 1 ≤ b.size by omega), AVec.checkSameSize, Res.require, h]
  simp [projectToVector, projectToHplane, hd]

/-- C69: `perp` is the quarter turn counter-clockwise: orthogonal to the vector, of the same length,
on its left side, and applying it twice gives the opposite vector. -/
theorem perp_spec {v : AVec K} {x : Fin 2 → K} (hv : v.Is 2 x) :
    ∃ p pp, perp v = .ok p ∧ perp p = .ok pp ∧ p.size = 2 ∧ p.vec 2 = ![-x 1, x 0] ∧
      p.vec 2 ⬝ᵥ x = 0 ∧ p.vec 2 ⬝ᵥ p.vec 2 = x ⬝ᵥ x ∧ v.perpDot p = .ok (x ⬝ᵥ x) ∧
      pp.size = 2 ∧ pp.vec 2 = -x := by
  have e0 : v.el 0 = x 0 := congrFun hv.2 0
  have e1 : v.el 1 = x 1 := congrFun hv.2 1
  have hs := hv.1
  have hp : perp v = .ok (.mk2 v.fixed (-x 1) (x 0)) := by
    simp [perp, AVec.checkSize_ok hs, AVec.get, hs, e0, e1]
  have hpp : perp (.mk2 v.fixed (-x 1) (x 0)) = .ok (.mk2 v.fixed (-x 0) (-x 1)) := by
    simp [perp, AVec.checkSize, Res.require, AVec.get, AVec.mk2]
  have hvec := (AVec.mk2_is v.fixed (-x 1) (x 0)).2
  refine ⟨_, _, hp, hpp, rfl, hvec, ?_, ?_, ?_, rfl, ?_⟩
  · rw [hvec]; simp [dotProduct, Fin.sum_univ_two]; ring
  · rw [hvec]; simp [dotProduct, Fin.sum_univ_two]; ring
  · simp [AVec.perpDot, AVec.get, hs, e0, e1, AVec.mk2, AVec.checkSize,
      Res.require, dotProduct, Fin.sum_univ_two]
  · rw [(AVec.mk2_is v.fixed (-x 0) (-x 1)).2]
    funext i; fin_cases i <;> simp

/-- C69: `perp` rejects vectors of other sizes. -/
theorem perp_throws {v : AVec K} (h : v.size ≠ 2) : perp v = .throw v.sizeErr := by
  simp [perp, AVec.checkSize_throw h]

/-- C69: the Manhattan distance is the sum of the absolute differences, in any dimension. -/
theorem manhattan_spec {a b : AVec K} {n : Nat} {x y : Fin n → K} (ha : a.Is n x) (hb : b.Is n y)
    (hn : 0 < n) : manhattanDistance a b = .ok (∑ i, |x i - y i|) := by
  have h := AVec.loop_sum (fun k => |a.el k - b.el k|) n hn
  have e : (∑ i : Fin n, |a.el i - b.el i|) = ∑ i, |x i - y i| := by
    refine Finset.sum_congr rfl (fun i _ => ?_)
    have h1 := congrFun ha.2 i
    have h2 := congrFun hb.2 i
    simp only [AVec.vec] at h1 h2
    rw [h1, h2]
  rw [e] at h
  have h1 := ha.1
  have h2 := hb.1
  simp only [manhattanDistance, AVec.checkMin_ok (show 1 ≤ a.size by omega),
    AVec.checkMin_ok (show 1 ≤ b.size by omega), AVec.checkSame_ok (h1.trans h2.symm), Res.ok_bind,
    AVec.get_ok (show 0 < a.size by omega), AVec.get_ok (show 0 < b.size by omega)]
  rw [← h, h1]
  refine Res.loop_congr (fun k hk hk' s => ?_)
  rw [AVec.get_ok (by omega), Res.ok_bind, AVec.get_ok (by omega), Res.ok_bind]
  rfl

/-- C69: the Manhattan distance is a metric. -/
theorem manhattan_metric {a b c : AVec K} {n : Nat} {x y z : Fin n → K} (ha : a.Is n x)
    (hb : b.Is n y) (hc : c.Is n z) (hn : 0 < n) :
    ∃ ab ba ac bc, manhattanDistance a b = .ok ab ∧ manhattanDistance b a = .ok ba ∧
      manhattanDistance a c = .ok ac ∧ manhattanDistance b c = .ok bc ∧
      0 ≤ ab ∧ ab = ba ∧ (ab = 0 ↔ x = y) ∧ ac ≤ ab + bc := by
  refine ⟨_, _, _, _, manhattan_spec ha hb hn, manhattan_spec hb ha hn, manhattan_spec ha hc hn,
    manhattan_spec hb hc hn, Finset.sum_nonneg (fun _ _ => abs_nonneg _), ?_, ?_, ?_⟩
  · exact Finset.sum_congr rfl (fun i _ => abs_sub_comm _ _)
  · rw [Finset.sum_eq_zero_iff_of_nonneg (fun _ _ => abs_nonneg _)]
    constructor
    · intro h
      funext i
      have := h i (Finset.mem_univ _)
      rwa [abs_eq_zero, sub_eq_zero] at this
    · rintro rfl i -
      simp
  · rw [← Finset.sum_add_distrib]
    exact Finset.sum_le_sum (fun i _ => abs_sub_le _ _ _)

/-- C69: empty or differently sized operands are rejected. -/
theorem manhattan_throws {a b : AVec K} :
    (a.size = 0 → manhattanDistance a b = .throw (if a.fixed then .staticAssert else .vecMinimum)) ∧
    (0 < a.size → b.size = 0 →
      manhattanDistance a b = .throw (if b.fixed then .staticAssert else .vecMinimum)) ∧
    (0 < a.size → 0 < b.size → a.size ≠ b.size → manhattanDistance a b
      = .throw (if a.fixed && b.fixed then .staticAssert else .vecIncompatible)) := by
  refine ⟨fun h => ?_, fun h h' => ?_, fun h h' h'' => ?_⟩
  · simp [manhattanDistance, AVec.checkMinimumSize, Res.require, h]
  · simp [manhattanDistance, AVec.checkMinimumSize, Res.require, h', show 1 ≤ a.size by omega]
  · simp [manhattanDistance, AVec.checkMin_ok (show 1 ≤ a.size by omega),
      AVec.checkMin_ok (show 1 ≤ b.size by omega), AVec.checkSameSize, Res.require, h'']

section Examples

/-- A unit normal that is not an axis, and a vector. -/
example : (AVec.of true ![(3 : ℚ) / 5, 0, 4 / 5]).Is 3 ![3 / 5, 0, 4 / 5] ∧
    (![(3 : ℚ) / 5, 0, 4 / 5] ⬝ᵥ ![3 / 5, 0, 4 / 5] = 1) ∧
    AVec.list (projectToVector (AVec.of true ![(5 : ℚ), 1, 0]) (AVec.of true ![3 / 5, 0, 4 / 5]))
      = .ok [9 / 5, 0, 12 / 5] := by
  refine ⟨AVec.of_is _ _, ?_, ?_⟩ <;> decide +kernel

example : manhattanDistance (AVec.of false ![(1 : ℚ), 2, 3, 4]) (AVec.of true ![2, 0, 3, 8]) = .ok 7 := by
  decide +kernel

example : AVec.list (perp (AVec.of true ![(2 : ℚ), 1])) = .ok [-1, 2] := by decide +kernel

end Examples

end CML

#print axioms CML.projectToVector_spec
#print axioms CML.projectToVector_zero
#print axioms CML.projectToHplane_spec
#print axioms CML.project_decompose
#print axioms CML.projectToVector_scale
#print axioms CML.project_throws
#print axioms CML.perp_spec
#print axioms CML.perp_throws
#print axioms CML.manhattan_spec
#print axioms CML.manhattan_metric
#print axioms CML.manhattan_throws
