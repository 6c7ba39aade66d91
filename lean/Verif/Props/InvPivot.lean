import Verif.Lemmas.InvPivot
import Verif.Props.MatSmall

/-! C36: the general inverse. -/

set_option linter.unusedSectionVars false

namespace CML

section
variable {K : Type} [Field K] [LinearOrder K] [IsStrictOrderedRing K]

/-- The pivots chosen by the elimination loop of `inverse_pivot`, as (row, column) in the order of the
steps (`row_index`, `col_index`). -/
def chosenPivots (M : Mat K) : Res (List (Nat × Nat)) :=
  (Res.loop (fun _ s => invStep s) 0 M.rows ⟨M, [], fun _ => false⟩).bind fun s => .ok s.idx

/-- C36, what holds.  Full claim (false, see `inverse_pivot_false` and `inverse_swaps_false`): the
result is the inverse of every invertible matrix.  Proved: if the loop ends without a division by
zero and has used every column once as the pivot column, then the matrix is invertible and the result
is its inverse with the columns permuted by the square of the permutation `ρ` made by the row
exchanges.  So the result is the inverse exactly if `ρ` is its own inverse, in particular if the
exchanges are disjoint or absent. -/
theorem inverse_pivot_partial (fixed : Bool) (M : Mat K) (n : Nat) (A : Matrix (Fin n) (Fin n) K)
    (h : M.Is n A) (hn : ¬ (n = 2 ∨ n = 3 ∨ n = 4)) (l : List (Nat × Nat))
    (hl : chosenPivots M = .ok l) (hd : (l.map Prod.snd).Nodup) :
    A.det ≠ 0 ∧ ∃ M', inverse fixed M = .ok M' ∧
      M'.Is n (A⁻¹.submatrix id ⇑(swapsPerm n l * swapsPerm n l)) ∧
      (M'.Is n A⁻¹ ↔ swapsPerm n l * swapsPerm n l = 1) := by
  obtain ⟨rr, c, a⟩ := M
  obtain ⟨h1, h2, rfl⟩ := h
  simp only at h1 h2
  subst h1; subst h2
  rcases invLoop_cases c a with ⟨s, g1, g2⟩ | ⟨g1, _⟩
  · unfold chosenPivots at hl
    simp only at hl
    rw [g1] at hl
    cases hl
    obtain ⟨e, k1, k2⟩ := g2.final hd
    obtain ⟨e', u1, u2⟩ := undoSwaps_ok c s.idx g2.rng e
    obtain ⟨ρ, hρ⟩ : ∃ ρ, ρ = swapsPerm c s.idx := ⟨_, rfl⟩
    rw [← hρ] at k2 u2 ⊢
    have hinv : ((blk c a).submatrix ρ id)⁻¹ = blk c e := Matrix.inv_eq_left_inv k2
    have hA : (blk c a).det ≠ 0 := by
      have := congrArg Matrix.det k2
      rw [Matrix.det_mul, Matrix.det_permute, Matrix.det_one] at this
      intro h0
      rw [h0, mul_zero, mul_zero] at this
      exact zero_ne_one this
    have he : blk c e = (blk c a)⁻¹.submatrix id ρ := by
      rw [← hinv]
      have := Matrix.inv_submatrix_equiv (blk c a) ρ (Equiv.refl (Fin c))
      simpa using this
    have hres : blk c e' = (blk c a)⁻¹.submatrix id (ρ * ρ) := by
      rw [u2, he, Matrix.submatrix_submatrix]
      rfl
    have hok : inverse fixed (⟨c, c, a⟩ : Mat K) = .ok ⟨c, c, e'⟩ := by
      have : inverse fixed (⟨c, c, a⟩ : Mat K) = inversePivot ⟨c, c, a⟩ := by
        simp only [inverse, checkSquare, Res.require, decide_true, if_true, Res.ok_bind]
        split <;> first | omega | rfl
      rw [this, inversePivot, g1, Res.ok_bind, k1]
      exact u1
    refine ⟨hA, _, hok, ⟨rfl, rfl, hres⟩, ?_⟩
    have hu : IsUnit (blk c a).det := isUnit_iff_ne_zero.mpr hA
    constructor
    · rintro ⟨_, _, hM⟩
      have hM : blk c e' = (blk c a)⁻¹ := hM
      rw [hres] at hM
      -- permuting the columns of an invertible matrix changes it
      have h3 : (blk c a)⁻¹ * (1 : Matrix (Fin c) (Fin c) K).submatrix id (ρ * ρ) =
          (blk c a)⁻¹ * 1 := by
        rw [Matrix.mul_one]
        refine Eq.trans ?_ hM
        have := Matrix.submatrix_mul_equiv (blk c a)⁻¹ 1 id (Equiv.refl (Fin c)) (ρ * ρ)
        simpa using this
      have h4 := congrArg (fun X => blk c a * X) h3
      simp only [← Matrix.mul_assoc] at h4
      rw [Matrix.mul_nonsing_inv _ hu, Matrix.one_mul, Matrix.one_mul] at h4
      ext i
      have h5 := congrFun (congrFun h4 ((ρ * ρ) i)) i
      rw [Matrix.submatrix_apply, Matrix.one_apply, Matrix.one_apply, id] at h5
      by_contra hne
      rw [if_pos rfl, if_neg (fun h => hne (by rw [h]; rfl))] at h5
      exact one_ne_zero h5
    · intro hid
      refine ⟨rfl, rfl, ?_⟩
      show blk c e' = (blk c a)⁻¹
      rw [hres, hid]
      rfl
  · unfold chosenPivots at hl
    simp only at hl
    rw [g1] at hl
    cases hl

/-- C36 for 1×1 matrices: unconditional. -/
theorem inverse_one (fixed : Bool) (M : Mat K) (A : Matrix (Fin 1) (Fin 1) K) (h : M.Is 1 A) :
    (A.det ≠ 0 → ∃ M', inverse fixed M = .ok M' ∧ M'.Is 1 A⁻¹) ∧
    (A.det = 0 → inverse fixed M = .ub .divZero) := by
  obtain ⟨rr, c, a⟩ := M
  obtain ⟨h1, h2, rfl⟩ := h
  simp only at h1 h2
  subst h1; subst h2
  have hdet : (Mat.toMatrix (⟨1, 1, a⟩ : Mat K) 1 1).det = a 0 0 := by
    rw [Matrix.det_fin_one]; rfl
  obtain ⟨r, cc, x, hs, hrc⟩ := invSearch_ok 1 (by decide) a (fun _ => false)
  have hr : r = 0 := by rcases hrc with ⟨h1, _⟩ | ⟨h1, _⟩ <;> omega
  have hc : cc = 0 := by rcases hrc with ⟨_, h1⟩ | ⟨_, h1, _⟩ <;> omega
  subst hr; subst hc
  rw [hdet]
  constructor
  · intro h0
    have hstep : invStep (⟨⟨1, 1, a⟩, [], fun _ => false⟩ : InvState K) =
        .ok ⟨⟨1, 1, gjOthers 1 0 1 (gjRow 1 0 a)⟩, [(0, 0)],
          fun i => if i = 0 then true else false⟩ := by
      unfold invStep
      rw [hs, Res.ok_bind]
      simp only [ne_eq, not_true_eq_false, if_false, Res.pure_eq, Res.ok_bind]
      rw [invPivotRow_ok 1 0 (by decide) a h0, Res.ok_bind, invOthers_loop 1 0 (by decide)]
      rfl
    have hp : chosenPivots (⟨1, 1, a⟩ : Mat K) = .ok [(0, 0)] := by
      simp [chosenPivots, Res.loop, hstep, Res.bind]
    obtain ⟨_, M', g1, _, g3⟩ := inverse_pivot_partial fixed (⟨1, 1, a⟩ : Mat K) 1 _
      ⟨rfl, rfl, rfl⟩ (by decide) [(0, 0)] hp (by simp)
    exact ⟨M', g1, g3.mpr (Subsingleton.elim _ _)⟩
  · intro h0
    have hstep : invStep (⟨⟨1, 1, a⟩, [], fun _ => false⟩ : InvState K) = .ub .divZero := by
      unfold invStep
      rw [hs, Res.ok_bind]
      simp only [ne_eq, not_true_eq_false, if_false, Res.pure_eq, Res.ok_bind]
      rw [invPivotRow_fail 1 0 (by decide) a h0, Res.ub_bind]
    simp [inverse, checkSquare, Res.require, inversePivot, Res.loop, hstep, Res.bind]

end

/-- C36 is false: `diag(1, 1/2, 1/2, 1/2, 1/2)` is returned unchanged, because the search for the pivot
starts with the element (0,0) although it has been used already. -/
theorem inverse_pivot_false : ∃ (M : Mat ℚ) (A : Matrix (Fin 5) (Fin 5) ℚ), M.Is 5 A ∧ A.det ≠ 0 ∧
    Mat.table (inverse false M) = Mat.table (.ok M) ∧ A * A ≠ 1 := by
  refine ⟨Mat.of (Matrix.diagonal ![1, 1 / 2, 1 / 2, 1 / 2, 1 / 2]), _, Mat.of_is _, ?_,
    by decide +kernel, ?_⟩
  · rw [Matrix.det_diagonal]
    simp [Fin.prod_univ_succ]
  · rw [Matrix.diagonal_mul_diagonal]
    intro h
    have := congrFun (congrFun h 1) 1
    norm_num [Matrix.diagonal] at this

/-- C36 is false also when all pivots are good: the column exchanges at the end are made in the order of
the row exchanges instead of the reverse order, which is wrong if the exchanges overlap. -/
theorem inverse_swaps_false : ∃ (M : Mat ℚ) (A : Matrix (Fin 5) (Fin 5) ℚ), M.Is 5 A ∧ A.det ≠ 0 ∧
    chosenPivots M = .ok [(2, 0), (1, 2), (1, 1), (3, 3), (4, 4)] ∧
    ∃ (M' : Mat ℚ) (B : Matrix (Fin 5) (Fin 5) ℚ), M'.Is 5 B ∧
      Mat.table (inverse false M) = Mat.table (.ok M') ∧ B * A ≠ 1 := by
  have hp : chosenPivots (Mat.of (K := ℚ)
      !![0, 3, 0, 0, 0; 0, 0, 4, 0, 0; 5, 0, 0, 0, 0; 0, 0, 0, 2, 0; 0, 0, 0, 0, 1]) =
      .ok [(2, 0), (1, 2), (1, 1), (3, 3), (4, 4)] := by decide +kernel
  refine ⟨_, _, Mat.of_is _, ?_, hp, Mat.of
    !![0, 1 / 5, 0, 0, 0; 0, 0, 1 / 3, 0, 0; 1 / 4, 0, 0, 0, 0; 0, 0, 0, 1 / 2, 0; 0, 0, 0, 0, 1],
    _, Mat.of_is _, by decide +kernel, ?_⟩
  · exact (inverse_pivot_partial false _ 5 _ (Mat.of_is _) (by decide) _ hp (by decide)).1
  · intro h
    have := congrFun (congrFun h 0) 0
    simp [Matrix.mul_apply, Fin.sum_univ_succ] at this

/-- Example for C36: two disjoint exchanges; the hypotheses of `inverse_pivot_partial` hold and the
result is the inverse. -/
example : chosenPivots (Mat.of (K := ℚ)
      !![0, 3, 0, 0, 0; 4, 0, 0, 0, 0; 0, 0, 0, 5, 0; 0, 0, 6, 2, 0; 0, 0, 0, 0, 1]) =
      .ok [(3, 2), (3, 3), (1, 0), (1, 1), (4, 4)] ∧
    ([(3, 2), (3, 3), (1, 0), (1, 1), (4, 4)].map Prod.snd : List Nat).Nodup ∧
    swapsPerm 5 [(3, 2), (3, 3), (1, 0), (1, 1), (4, 4)] *
      swapsPerm 5 [(3, 2), (3, 3), (1, 0), (1, 1), (4, 4)] = 1 := by
  decide +kernel

end CML

#print axioms CML.inverse_pivot_partial
#print axioms CML.inverse_one
#print axioms CML.inverse_pivot_false
#print axioms CML.inverse_swaps_false
