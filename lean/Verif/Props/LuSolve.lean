import Verif.Lemmas.LuSolve
import Verif.Props.LuPivot
import Verif.Props.Lu
import Mathlib.LinearAlgebra.Matrix.ToLin

/-! C40: solving linear systems. -/

set_option linter.unusedSectionVars false

namespace CML

section
variable {K : Type} [Field K] [DecidableEq K]

private theorem unique_of_det {n : Nat} {A : Matrix (Fin n) (Fin n) K} (h : A.det ≠ 0)
    {p q : Fin n → K} (hpq : A.mulVec p = A.mulVec q) : p = q := by
  have hu : IsUnit A.det := isUnit_iff_ne_zero.mpr h
  have := congrArg (A⁻¹).mulVec hpq
  rwa [Matrix.mulVec_mulVec, Matrix.mulVec_mulVec, Matrix.nonsing_inv_mul _ hu, Matrix.one_mulVec,
    Matrix.one_mulVec] at this

/-- C40: with a nonzero diagonal `lu_solve(LU, x, b)` writes the unique solution of `L U x = b` into
`x`, whatever `x` held before (in particular if `x` and `b` are the same vector); with a zero on the
diagonal it divides by zero. -/
theorem lu_solve_spec (fixed fx fb : Bool) (LU : Mat K) (n : Nat) (B : Matrix (Fin n) (Fin n) K)
    (hB : LU.Is n B) (x b : Vec K) (p : Fin n → K) (hb : b.Is n p) (hx : x.size = n) :
    ((∀ i, B i i ≠ 0) → ∃ x' q, luSolve fixed fx fb LU x b = .ok x' ∧ x'.Is n q ∧
      (unitLower B * upper B).mulVec q = p ∧
      ∀ q', (unitLower B * upper B).mulVec q' = p → q' = q) ∧
    ((∃ i, B i i = 0) → luSolve fixed fx fb LU x b = .ub .divZero) := by
  obtain ⟨r, c, e⟩ := LU
  obtain ⟨h1, h2, rfl⟩ := hB
  simp only at h1 h2
  subst h1; subst h2
  have hs : luSolve fixed fx fb (⟨c, c, e⟩ : Mat K) x b = (do
      let y ← forwardSubst (⟨c, c, e⟩ : Mat K) (fun i => i) b
      backwardSubst ⟨c, c, e⟩ y x c) := by
    simp [luSolve, checkSquare, Res.require, hx, hb.size]
  rw [hs]
  obtain ⟨k1, k2⟩ := subst_cases c e (fun i => i) (fun i hi => hi) b x p hb hx
  refine ⟨fun hd => ?_, fun ⟨i, h0⟩ => k2 ⟨i, i.2, h0⟩⟩
  obtain ⟨x', q, g1, g2, g3⟩ := k1 (fun i hi => hd ⟨i, hi⟩)
  refine ⟨x', q, g1, g2, g3, fun q' hq' => ?_⟩
  refine unique_of_det (A := unitLower (blk c e) * upper (blk c e)) ?_ (hq'.trans g3.symm)
  rw [Matrix.det_mul, det_unitLower, det_upper, one_mul]
  exact Finset.prod_ne_zero_iff.mpr (fun i _ => hd i)

/-- C40: `lu_solve(lu(M), b)` solves `M x = b` (and `M` is then nonsingular). -/
theorem lu_solve_lu (fixed fx fb : Bool) (M LU : Mat K) (n : Nat) (A : Matrix (Fin n) (Fin n) K)
    (hM : M.Is n A) (hL : lu fixed M = .ok LU) (x b : Vec K) (p : Fin n → K) (hb : b.Is n p)
    (hx : x.size = n) (h0 : A.det ≠ 0) :
    ∃ x' q, luSolve fixed fx fb LU x b = .ok x' ∧ x'.Is n q ∧ A.mulVec q = p ∧
      ∀ q', A.mulVec q' = p → q' = q := by
  obtain ⟨B, h1, h2, h3⟩ := lu_factors fixed M LU n A hM hL
  rw [h3] at h0
  obtain ⟨x', q, g1, g2, g3, g4⟩ := (lu_solve_spec fixed fx fb LU n B h1 x b p hb hx).1
    (fun i => Finset.prod_ne_zero_iff.mp h0 i (Finset.mem_univ i))
  rw [h2] at g3 g4
  exact ⟨x', q, g1, g2, g3, g4⟩

/-- C40: `lu_solve(LU, b)` into a new vector is the same. -/
theorem lu_solve_new (fixed fb : Bool) (LU : Mat K) (n : Nat) (B : Matrix (Fin n) (Fin n) K)
    (hB : LU.Is n B) (b : Vec K) (p : Fin n → K) (hb : b.Is n p) (hd : ∀ i, B i i ≠ 0) :
    ∃ x' q, luSolveNew fixed fb LU b = .ok x' ∧ x'.Is n q ∧ (unitLower B * upper B).mulVec q = p := by
  obtain ⟨x', q, h1, h2, h3, _⟩ :=
    (lu_solve_spec fixed fb fb LU n B hB (Vec.fresh b.size) b p hb hb.size).1 hd
  exact ⟨x', q, h1, h2, h3⟩

/-- C40: sizes that do not fit are rejected and nothing is written. -/
theorem lu_solve_size_error (fixed fx fb : Bool) (LU : Mat K) (x b : Vec K)
    (h : LU.rows ≠ LU.cols ∨ LU.cols ≠ x.size ∨ LU.cols ≠ b.size) :
    ∃ e, luSolve fixed fx fb LU x b = .throw e := by
  unfold luSolve checkSquare
  by_cases h1 : LU.rows = LU.cols
  · by_cases h2 : LU.cols = x.size
    · have h3 : LU.cols ≠ b.size := by tauto
      have h2' : x.size ≠ b.size := h2 ▸ h3
      refine ⟨if fb then .staticAssert else .matIncompatible, ?_⟩
      simp [Res.require, h1, h2, h2']
    · refine ⟨if fx then .staticAssert else .matIncompatible, ?_⟩
      simp [Res.require, h1, h2]
  · refine ⟨if fixed then .staticAssert else .nonSquare, ?_⟩
    simp [Res.require, h1]

/-- C40: the pivoted form throws `std::invalid_argument` when the decomposition was given up. -/
theorem lu_pivot_solve_singular (fx fb : Bool) (r : LuPivot K) (x b : Vec K)
    (hx : r.lu.cols = x.size) (hb : r.lu.cols = b.size) (hs : r.sign = 0) :
    luPivotSolve fx fb r x b = .throw .invalidArgument := by
  simp [luPivotSolve, Res.require, hx, ← hb, hs]

end

section
variable {K : Type} [Field K] [LinearOrder K] [IsStrictOrderedRing K]

/-- C40: `lu_solve(lu_pivot(M), x, b)` writes the unique solution of `M x = b` into `x` when `M` is
nonsingular and the decomposition was not given up; for singular `M` it divides by zero. -/
theorem lu_pivot_solve_spec (fixed fx fb : Bool) (eps : K) (M : Mat K) (n : Nat)
    (A : Matrix (Fin n) (Fin n) K) (hM : M.Is n A) (r : LuPivot K)
    (hr : luPivot fixed eps M = .ok r) (hs : r.sign ≠ 0) (x b : Vec K) (p : Fin n → K)
    (hb : b.Is n p) (hx : x.size = n) :
    (A.det ≠ 0 → ∃ x' q, luPivotSolve fx fb r x b = .ok x' ∧ x'.Is n q ∧ A.mulVec q = p ∧
      ∀ q', A.mulVec q' = p → q' = q) ∧
    (A.det = 0 → luPivotSolve fx fb r x b = .ub .divZero) := by
  obtain ⟨σ, B, h1, h2, h3, h4, h5, h6⟩ := lu_pivot_factors fixed eps M n A hM r hr hs
  obtain ⟨⟨rr, cc, e⟩, o, s⟩ := r
  obtain ⟨g1, g2, rfl⟩ := h3
  simp only at g1 g2 h1 h2 hs h6
  subst g1; subst g2
  have hP : ∀ i, i < cc → o i < cc := by
    intro i hi
    have := h1 ⟨i, hi⟩
    simp only at this
    rw [this]
    exact (σ ⟨i, hi⟩).2
  have he : luPivotSolve fx fb (⟨⟨cc, cc, e⟩, o, s⟩ : LuPivot K) x b = (do
      let y ← forwardSubst (⟨cc, cc, e⟩ : Mat K) o b
      backwardSubst ⟨cc, cc, e⟩ y x cc) := by
    simp [luPivotSolve, Res.require, hx, hb.size, hs]
  rw [he]
  obtain ⟨k1, k2⟩ := subst_cases cc e o hP b x p hb hx
  have hs' : (s : K) ≠ 0 := by exact_mod_cast hs
  have hdiag : A.det ≠ 0 ↔ ∀ i, i < cc → e i i ≠ 0 := by
    rw [h6]
    constructor
    · intro h i hi
      exact Finset.prod_ne_zero_iff.mp (right_ne_zero_of_mul h) ⟨i, hi⟩ (Finset.mem_univ _)
    · intro h
      exact mul_ne_zero hs' (Finset.prod_ne_zero_iff.mpr (fun i _ => h i i.2))
  constructor
  · intro h0
    obtain ⟨x', q, j1, j2, j3⟩ := k1 (hdiag.mp h0)
    have hsol : A.mulVec q = p := by
      have h4' : unitLower (blk cc e) * upper (blk cc e) = A.submatrix σ id := h4
      rw [h4'] at j3
      funext i
      have := congrFun j3 (σ⁻¹ i)
      have e1 : (⟨o (σ⁻¹ i), hP _ (σ⁻¹ i).2⟩ : Fin cc) = i := by
        apply Fin.ext
        simp only [h1]
        simp
      rw [e1] at this
      rw [← this]
      simp [Matrix.mulVec, dotProduct, Matrix.submatrix_apply]
    exact ⟨x', q, j1, j2, hsol, fun q' hq' => unique_of_det h0 (hq'.trans hsol.symm)⟩
  · intro h0
    refine k2 ?_
    by_contra hall
    exact absurd h0 (hdiag.mpr (fun i hi h => hall ⟨i, hi, h⟩))

end

/-- Example for C40: a pivoted solve in which the destination is the right-hand side itself. -/
example : ((luPivot false (1 / 1000000) (Mat.of (K := ℚ) !![0, 2, 1; 1, 1, 0; 2, 0, 3])).bind
      (fun r => luPivotSolve false false r ⟨3, fun i => [some 5, some 2, some 8][i]?.join⟩
        ⟨3, fun i => [some 5, some 2, some 8][i]?.join⟩)).bind
      (fun x => .ok ((List.range 3).map x.el)) =
    Res.ok [some (5 / 8), some (11 / 8), some (9 / 4)] := by
  decide +kernel

end CML

#print axioms CML.lu_solve_spec
#print axioms CML.lu_solve_lu
#print axioms CML.lu_solve_new
#print axioms CML.lu_solve_size_error
#print axioms CML.lu_pivot_solve_singular
#print axioms CML.lu_pivot_solve_spec
