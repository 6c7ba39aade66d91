import Verif.Lemmas.Lu

/-! C37: LU decomposition without pivoting. -/

set_option linter.unusedSectionVars false

namespace CML

section
variable {K : Type} [Field K] [DecidableEq K]

/-- Leading `k × k` part of a matrix. -/
def leading {n : Nat} (A : Matrix (Fin n) (Fin n) K) (k : Nat) (hk : k ≤ n) :
    Matrix (Fin k) (Fin k) K :=
  A.submatrix (Fin.castLE hk) (Fin.castLE hk)

private theorem lu_eq (fixed : Bool) (n : Nat) (e : Nat → Nat → K) :
    lu fixed (⟨n, n, e⟩ : Mat K) = luInplace ⟨n, n, e⟩ := by
  simp [lu, checkSquare, Res.require]

private theorem minors_of_inv {n : Nat} {a e : Nat → Nat → K} (h : LuInv n a n e) (k : Nat)
    (hk : k < n) : (leading (blk n a) k hk.le).det ≠ 0 := by
  have hP : Packed n a e := fun i j hi hj => h.done i j hi hj (.inl hi)
  have h1 : leading (blk n a) k hk.le = blk k a := rfl
  rw [h1, hP.det hk.le]
  exact Finset.prod_ne_zero_iff.mpr (fun i hi => h.piv i (by have := Finset.mem_range.mp hi; omega)
    (by have := Finset.mem_range.mp hi; omega))

/-- C37: if `lu` returns, the unit lower and the upper triangular factor packed in the result multiply
to the argument, and the determinant of the argument is the product of the diagonal. -/
theorem lu_factors (fixed : Bool) (M M' : Mat K) (n : Nat) (A : Matrix (Fin n) (Fin n) K)
    (h : M.Is n A) (hr : lu fixed M = .ok M') :
    ∃ B, M'.Is n B ∧ unitLower B * upper B = A ∧ A.det = ∏ i, B i i := by
  obtain ⟨r, c, a⟩ := M
  obtain ⟨h1, h2, rfl⟩ := h
  simp only at h1 h2
  subst h1; subst h2
  rw [lu_eq] at hr
  rcases luInplace_cases c a with ⟨e, h1, h2⟩ | ⟨h1, _⟩
  · rw [h1] at hr
    cases hr
    have hP : Packed c a e := fun i j hi hj => h2.done i j hi hj (.inl hi)
    refine ⟨blk c e, ⟨rfl, rfl, rfl⟩, hP.mul le_rfl, ?_⟩
    have := hP.mul le_rfl
    have h3 : Mat.toMatrix (⟨c, c, a⟩ : Mat K) c c = blk c a := rfl
    rw [h3, ← this, Matrix.det_mul, det_unitLower, det_upper, one_mul]
  · rw [h1] at hr; cases hr

/-- C37: `lu` returns exactly if all leading minors of order smaller than `n` are nonzero; otherwise it
divides by zero. -/
theorem lu_ok_iff (fixed : Bool) (M : Mat K) (n : Nat) (A : Matrix (Fin n) (Fin n) K)
    (h : M.Is n A) :
    ((∃ M', lu fixed M = .ok M') ↔ ∀ k (hk : k < n), (leading A k hk.le).det ≠ 0) ∧
    ((∃ k, ∃ hk : k < n, (leading A k hk.le).det = 0) → lu fixed M = .ub .divZero) := by
  obtain ⟨r, c, a⟩ := M
  obtain ⟨h1, h2, rfl⟩ := h
  simp only at h1 h2
  subst h1; subst h2
  have h3 : Mat.toMatrix (⟨c, c, a⟩ : Mat K) c c = blk c a := rfl
  rw [h3, lu_eq]
  rcases luInplace_cases c a with ⟨e, h1, h2⟩ | ⟨h1, k, e, hk, hp, h0⟩
  · exact ⟨⟨fun _ k hk => minors_of_inv h2 k hk, fun _ => ⟨_, h1⟩⟩,
      fun ⟨k, hk, h0⟩ => absurd h0 (minors_of_inv h2 k hk)⟩
  · refine ⟨⟨fun ⟨M', hM⟩ => ?_, fun hall => ?_⟩, fun _ => h1⟩
    · rw [h1] at hM; cases hM
    · refine absurd ?_ (hall (k + 1) hk)
      have h4 : leading (blk c a) (k + 1) hk.le = blk (k + 1) a := rfl
      rw [h4, hp.det le_rfl]
      exact Finset.prod_eq_zero (Finset.self_mem_range_succ k) h0

/-- C37: the factors are unique: any unit lower triangular `L` and upper triangular `U` with
`L * U = A` are the ones returned. -/
theorem lu_unique (fixed : Bool) (M M' : Mat K) (n : Nat) (A B L U : Matrix (Fin n) (Fin n) K)
    (h : M.Is n A) (hr : lu fixed M = .ok M') (hB : M'.Is n B)
    (hL : ∀ i j, i < j → L i j = 0) (hL1 : ∀ i, L i i = 1) (hU : ∀ i j, j < i → U i j = 0)
    (hLU : L * U = A) : L = unitLower B ∧ U = upper B := by
  obtain ⟨r, c, a⟩ := M
  obtain ⟨h1, h2, rfl⟩ := h
  simp only at h1 h2
  subst h1; subst h2
  rw [lu_eq] at hr
  rcases luInplace_cases c a with ⟨e, h1, h2⟩ | ⟨h1, _⟩
  · rw [h1] at hr
    cases hr
    obtain ⟨_, _, rfl⟩ := hB
    have hP : Packed c a e := fun i j hi hj => h2.done i j hi hj (.inl hi)
    have hQ := packed_of_mul L U hL hL1 hU hLU
    have hu := hP.unique hQ (fun j hj => h2.piv j (by omega) hj)
    constructor
    · funext i j
      have := hu i j i.2 j.2
      simp only [unitLower, Mat.toMatrix]
      by_cases c1 : j < i
      · rw [if_pos c1, this, dif_pos ⟨i.2, j.2⟩, if_pos (by simpa using c1)]
      · rw [if_neg c1]
        by_cases c2 : i = j
        · rw [if_pos c2, c2, hL1]
        · rw [if_neg c2, hL i j (by omega)]
    · funext i j
      have := hu i j i.2 j.2
      simp only [upper, Mat.toMatrix]
      by_cases c1 : i ≤ j
      · rw [if_pos c1, this, dif_pos ⟨i.2, j.2⟩, if_neg (by simpa using c1)]
      · rw [if_neg c1, hU i j (by omega)]
  · rw [h1] at hr; cases hr

/-- C37: a matrix that is not square is rejected. -/
theorem lu_square_required (fixed : Bool) (M : Mat K) (h : M.rows ≠ M.cols) :
    ∃ e, lu fixed M = .throw e ∧ (e = .staticAssert ↔ fixed = true) := by
  cases fixed <;> simp [lu, checkSquare, Res.require, h]

end

/-- Example for C37: a 3×3 matrix for which `lu` returns (leading minors 2 and 4), and its packed
factors. -/
example : Mat.table (lu false (Mat.of (K := ℚ) !![2, 1, 1; 4, 4, 3; 6, 7, 9])) =
    Res.ok [[2, 1, 1], [2, 2, 1], [3, 2, 4]] := by
  decide +kernel

/-- Example for C37: a nonsingular matrix with a zero leading minor. -/
example : Mat.table (lu false (Mat.of (K := ℚ) !![0, 1; 1, 0])) =
    Res.ub .divZero := by
  decide +kernel

end CML

#print axioms CML.lu_factors
#print axioms CML.lu_ok_iff
#print axioms CML.lu_unique
#print axioms CML.lu_square_required
