import Verif.Lemmas.LuPivot
import Verif.Props.MatSmall

/-! C38, C39, C34: pivoted LU decomposition and the general determinant. -/

set_option linter.unusedSectionVars false

namespace CML

section
variable {K : Type} [Field K] [LinearOrder K] [IsStrictOrderedRing K]

private theorem luPivot_eq (fixed : Bool) (eps : K) (n : Nat) (e : Nat → Nat → K) :
    luPivot fixed eps (⟨n, n, e⟩ : Mat K) = luPivotInplace eps ⟨n, n, e⟩ := by
  simp [luPivot, checkSquare, Res.require]

private theorem perm_rows {n : Nat} (a : Nat → Nat → K) (σ : Equiv.Perm (Fin n)) :
    blk n (fun i j => if hi : i < n then a (σ ⟨i, hi⟩) j else 0) = (blk n a).submatrix σ id := by
  funext i j
  simp [blk]

private theorem det_of_packed {n : Nat} {a e : Nat → Nat → K} {σ : Equiv.Perm (Fin n)}
    (h : PivInv a (n - 1) σ e) :
    (blk n a).det = ((Equiv.Perm.sign σ : Int) : K) * ∏ i : Fin n, e i i := by
  have h1 := h.packed.mul le_rfl
  rw [perm_rows] at h1
  have h2 := congrArg Matrix.det h1
  rw [Matrix.det_mul, det_unitLower, det_upper, one_mul, Matrix.det_permute] at h2
  have h3 : ((Equiv.Perm.sign σ : Int) : K) * ((Equiv.Perm.sign σ : Int) : K) = 1 := by
    rw [← Int.cast_mul, ← Units.val_mul, Int.units_mul_self]
    simp
  have h4 : ∏ i : Fin n, e i i = ((Equiv.Perm.sign σ : Int) : K) * (blk n a).det := h2
  rw [h4, ← mul_assoc, h3, one_mul]

/-- C38: when `lu_pivot` returns a nonzero sign, `order` is a permutation, `sign` its parity, the packed
factors multiply to the rows of the argument in that order, all divisors (the diagonal except the
last element) are nonzero, and the determinant is `sign` times the product of the diagonal. -/
theorem lu_pivot_factors (fixed : Bool) (eps : K) (M : Mat K) (n : Nat)
    (A : Matrix (Fin n) (Fin n) K) (h : M.Is n A) (r : LuPivot K)
    (hr : luPivot fixed eps M = .ok r) (hs : r.sign ≠ 0) :
    ∃ (σ : Equiv.Perm (Fin n)) (B : Matrix (Fin n) (Fin n) K),
      (∀ i : Fin n, r.order i = σ i) ∧ r.sign = Equiv.Perm.sign σ ∧ r.lu.Is n B ∧
      unitLower B * upper B = A.submatrix σ id ∧ (∀ j : Fin n, j.1 + 1 < n → B j j ≠ 0) ∧
      A.det = (r.sign : K) * ∏ i, B i i := by
  obtain ⟨rr, c, a⟩ := M
  obtain ⟨h1, h2, rfl⟩ := h
  simp only at h1 h2
  subst h1; subst h2
  rw [luPivot_eq] at hr
  rcases luPivotInplace_cases c a eps with ⟨r', h1, h2⟩ | ⟨h1, _⟩
  · rw [h1] at hr
    cases hr
    rcases h2 with ⟨e, σ, g1, g2, g3, g4⟩ | h2
    · refine ⟨σ, blk c e, g2, g3, ?_, ?_, ?_, ?_⟩
      · rw [g1]; exact ⟨rfl, rfl, rfl⟩
      · have := g4.packed.mul le_rfl
        rwa [perm_rows] at this
      · exact fun j hj => g4.piv j (by omega)
      · have := det_of_packed g4
        rw [g3]
        exact this
    · exact absurd h2.1 hs
  · rw [h1] at hr; cases hr

/-- C38: `order` is a permutation also when the decomposition is given up. -/
theorem lu_pivot_order (fixed : Bool) (eps : K) (M : Mat K) (n : Nat)
    (A : Matrix (Fin n) (Fin n) K) (h : M.Is n A) (r : LuPivot K)
    (hr : luPivot fixed eps M = .ok r) : ∃ σ : Equiv.Perm (Fin n), ∀ i : Fin n, r.order i = σ i := by
  obtain ⟨rr, c, a⟩ := M
  obtain ⟨h1, h2, rfl⟩ := h
  simp only at h1 h2
  subst h1; subst h2
  rw [luPivot_eq] at hr
  rcases luPivotInplace_cases c a eps with ⟨r', h1, h2⟩ | ⟨h1, _⟩
  · rw [h1] at hr
    cases hr
    rcases h2 with ⟨e, σ, g1, g2, g3, g4⟩ | ⟨_, e, σ, k', g1, g2, _⟩
    · exact ⟨σ, g2⟩
    · exact ⟨σ, g2⟩
  · rw [h1] at hr; cases hr

/-- C38: with a positive epsilon nothing is ever divided by zero: `lu_pivot` of a square matrix always
returns. -/
theorem lu_pivot_total (fixed : Bool) (eps : K) (he : 0 < eps) (M : Mat K) (hM : M.rows = M.cols) :
    ∃ r, luPivot fixed eps M = .ok r := by
  obtain ⟨rr, c, a⟩ := M
  simp only at hM
  subst hM
  rw [luPivot_eq]
  rcases luPivotInplace_cases rr a eps with ⟨r', h1, h2⟩ | ⟨_, h1⟩
  · exact ⟨r', h1⟩
  · exact absurd h1 (not_le.mpr he)

/-- C38: a matrix that is not square is rejected. -/
theorem lu_pivot_square_required (fixed : Bool) (eps : K) (M : Mat K) (h : M.rows ≠ M.cols) :
    ∃ e, luPivot fixed eps M = .throw e ∧ (e = .staticAssert ↔ fixed = true) := by
  cases fixed <;> simp [luPivot, checkSquare, Res.require, h]

/-- C39, what holds.  Full claim (false, see `lu_pivot_sign_false`): sign 0 exactly for singular
matrices.  Proved: for a nonzero sign the matrix is singular iff the last diagonal element of the
result is zero; sign zero is returned only if in some column `k` (not the last) the diagonal element
is below epsilon (possibly negative and large: the magnitude is not taken) and all elements below it
are smaller than epsilon in magnitude. -/
theorem lu_pivot_sign_partial (fixed : Bool) (eps : K) (M : Mat K) (n : Nat)
    (A : Matrix (Fin (n + 1)) (Fin (n + 1)) K) (h : M.Is (n + 1) A) (r : LuPivot K)
    (hr : luPivot fixed eps M = .ok r) :
    (r.sign ≠ 0 → (A.det = 0 ↔ r.lu.el n n = 0)) ∧
    (r.sign = 0 → ∃ k, k < n ∧ r.lu.el k k < eps ∧
      ∀ i, k < i → i < n + 1 → |r.lu.el i k| < eps) := by
  constructor
  · intro hs
    obtain ⟨σ, B, _, h2, h3, _, h5, h6⟩ := lu_pivot_factors fixed eps M _ A h r hr hs
    have hB : B (Fin.last n) (Fin.last n) = r.lu.el n n := by rw [← h3.el]; rfl
    rw [h6, ← hB, Fin.prod_univ_castSucc]
    have h7 : (r.sign : K) ≠ 0 := by exact_mod_cast hs
    have h8 : ∏ i : Fin n, B i.castSucc i.castSucc ≠ 0 :=
      Finset.prod_ne_zero_iff.mpr (fun i _ => h5 i.castSucc (by simp))
    constructor
    · intro h0
      rcases mul_eq_zero.mp h0 with h | h
      · exact absurd h h7
      · exact (mul_eq_zero.mp h).resolve_left h8
    · intro h0; rw [h0, mul_zero, mul_zero]
  · intro hs
    obtain ⟨rr, c, a⟩ := M
    obtain ⟨h1, h2, rfl⟩ := h
    simp only at h1 h2
    subst h1; subst h2
    rw [luPivot_eq] at hr
    rcases luPivotInplace_cases (n + 1) a eps with ⟨r', h1, h2⟩ | ⟨h1, _⟩
    · rw [h1] at hr
      cases hr
      rcases h2 with ⟨e, σ, g1, g2, g3, g4⟩ | ⟨_, e, σ, k', g1, g2, g3, _, g5, g6⟩
      · rw [g3] at hs
        simp at hs
      · rw [g1]
        exact ⟨k', by omega, g5, g6⟩
    · rw [h1] at hr; cases hr

/-! ### The general determinant -/

theorem diagonalProduct_ok (n : Nat) (e : Nat → Nat → K) :
    diagonalProduct (⟨n + 1, n + 1, e⟩ : Mat K) = .ok (∏ i : Fin (n + 1), e i i) := by
  have key := Res.loop_fun (lo := 1) (n := n) (body := fun i d => do
      let x ← (⟨n + 1, n + 1, e⟩ : Mat K).get i i
      pure (d * x)) (fun t => ∏ i ∈ Finset.range t, e i i) (by
      intro k h1 h2
      have hk : k < n + 1 := by omega
      simp [Mat.get, hk, Finset.prod_range_succ])
  have h0 : (⟨n + 1, n + 1, e⟩ : Mat K).get 0 0 = .ok (e 0 0) := by simp [Mat.get]
  unfold diagonalProduct
  rw [h0, Res.ok_bind, Fin.prod_univ_eq_prod_range (fun i => e i i) (n + 1)]
  simp only [Finset.prod_range_one] at key
  simpa [add_comm] using key

/-- C34, what holds.  Full claim (false, see `determinant_false`): `determinant(M)` is the determinant
for every size `≥ 1`.  Proved: with a positive epsilon the result is the determinant whenever the
pivoted decomposition does not give up (`sign ≠ 0`), it is 0 otherwise, and it is right without any
condition for sizes 1 to 4. -/
theorem determinant_partial (fixed : Bool) (eps : K) (M : Mat K) (n : Nat)
    (A : Matrix (Fin (n + 1)) (Fin (n + 1)) K) (h : M.Is (n + 1) A) :
    (n < 4 → determinant fixed eps M = .ok A.det) ∧
    (∀ r, luPivot fixed eps M = .ok r → r.sign ≠ 0 → determinant fixed eps M = .ok A.det) ∧
    (∀ r, luPivot fixed eps M = .ok r → r.sign = 0 → 4 ≤ n → determinant fixed eps M = .ok 0) ∧
    (0 < eps → ∃ d, determinant fixed eps M = .ok d) := by
  have main : ∀ r, ¬ (n + 1 = 2 ∨ n + 1 = 3 ∨ n + 1 = 4) → luPivot fixed eps M = .ok r →
      determinant fixed eps M = .ok ((r.sign : K) * ∏ i : Fin (n + 1), r.lu.el i i) := by
    intro r hn hr
    obtain ⟨rr, c, a⟩ := M
    obtain ⟨h1, h2, rfl⟩ := h
    simp only at h1 h2
    subst h1; subst h2
    have hd : determinant fixed eps (⟨n + 1, n + 1, a⟩ : Mat K) = detLu eps ⟨n + 1, n + 1, a⟩ := by
      simp only [determinant, checkSquare, Res.require, decide_true, if_true, Res.ok_bind]
      split <;> first | omega | rfl
    rw [hd, detLu]
    rw [luPivot_eq] at hr
    rw [hr, Res.ok_bind]
    have hshape : ∃ e, r.lu = ⟨n + 1, n + 1, e⟩ := by
      rcases luPivotInplace_cases (n + 1) a eps with ⟨r', h1, h2⟩ | ⟨h1, _⟩
      · rw [h1] at hr
        cases hr
        rcases h2 with ⟨e, σ, g1, _⟩ | ⟨_, e, σ, k', g1, _⟩
        · exact ⟨e, g1⟩
        · exact ⟨e, g1⟩
      · rw [h1] at hr; cases hr
    obtain ⟨e, he⟩ := hshape
    rw [he, diagonalProduct_ok]
    rfl
  have hsgn : ∀ r, luPivot fixed eps M = .ok r → r.sign ≠ 0 → determinant fixed eps M = .ok A.det := by
    intro r hr hs
    by_cases hn : n + 1 = 2 ∨ n + 1 = 3 ∨ n + 1 = 4
    · exact determinant_small fixed eps M _ hn A h
    · rw [main r hn hr]
      obtain ⟨σ, B, _, _, h3, _, _, h6⟩ := lu_pivot_factors fixed eps M _ A h r hr hs
      rw [h6, ← h3.el]
      rfl
  refine ⟨?_, hsgn, ?_, ?_⟩
  · intro hn
    by_cases hn1 : n = 0
    · subst hn1
      have hr : luPivot fixed eps M = .ok ⟨M, fun i => i, 1⟩ := by
        simp [luPivot, checkSquare, h.rows, h.cols, Res.require, luPivotInplace, Res.loop]
      exact hsgn _ hr (by simp)
    · exact determinant_small fixed eps M _ (by omega) A h
  · intro r hr hs hn
    rw [main r (by omega) hr, hs]
    simp
  · intro he
    by_cases hn : n + 1 = 2 ∨ n + 1 = 3 ∨ n + 1 = 4
    · exact ⟨_, determinant_small fixed eps M _ hn A h⟩
    · obtain ⟨r, hr⟩ := lu_pivot_total fixed eps he M (by rw [h.rows, h.cols])
      exact ⟨_, main r hn hr⟩

end

/-- C39 is false in both directions: `diag(-1, 1)` is nonsingular but gets sign 0 (the magnitude of the
diagonal element is not taken), and the singular matrix of ones gets sign 1 (the last pivot is not
examined). -/
theorem lu_pivot_sign_false :
    (∃ M : Mat ℚ, ∃ A, M.Is 2 A ∧ A.det ≠ 0 ∧
      ∃ r, luPivot false (1 / 4503599627370496) M = .ok r ∧ r.sign = 0) ∧
    (∃ M : Mat ℚ, ∃ A, M.Is 2 A ∧ A.det = 0 ∧
      ∃ r, luPivot false (1 / 4503599627370496) M = .ok r ∧ r.sign ≠ 0) := by
  have sgn : ∀ M : Mat ℚ, (∃ r, luPivot false (1 / 4503599627370496) M = .ok r ∧ r.sign = 0) ↔
      (luPivot false (1 / 4503599627370496) M).bind (fun r => .ok r.sign) = .ok 0 := by
    intro M
    cases luPivot false (1 / 4503599627370496) M <;> simp [Res.bind]
  have sgn' : ∀ M : Mat ℚ, (luPivot false (1 / 4503599627370496) M).bind (fun r => .ok r.sign) = .ok 1 →
      (∃ r, luPivot false (1 / 4503599627370496) M = .ok r ∧ r.sign ≠ 0) := by
    intro M
    cases luPivot false (1 / 4503599627370496) M <;> simp [Res.bind]
    intro h; rw [h]; decide
  constructor
  · refine ⟨Mat.of !![-1, 0; 0, 1], _, Mat.of_is _, ?_, (sgn _).mpr (by decide +kernel)⟩
    rw [Matrix.det_fin_two]; simp
  · refine ⟨Mat.of !![1, 1; 1, 1], _, Mat.of_is _, ?_, sgn' _ (by decide +kernel)⟩
    rw [Matrix.det_fin_two]; simp

/-- C34 is false: the determinant of `diag(-1, 1, 1, 1, 1)` is `-1` but 0 is returned; and the
determinant of a 0×0 matrix reads outside the matrix. -/
theorem determinant_false :
    (∃ M : Mat ℚ, ∃ A, M.Is 5 A ∧ A.det = -1 ∧
      determinant false (1 / 4503599627370496) M = .ok 0) ∧
    (∀ M : Mat ℚ, ∀ A, M.Is 0 A → determinant false (1 / 4503599627370496) M = .ub .oob) := by
  constructor
  · refine ⟨Mat.of (Matrix.diagonal ![-1, 1, 1, 1, 1]), _, Mat.of_is _, ?_, by decide +kernel⟩
    rw [Matrix.det_diagonal]
    simp [Fin.prod_univ_succ]
  · intro M A h
    simp [determinant, checkSquare, h.rows, h.cols, Res.require, detLu, luPivotInplace, Res.loop,
      diagonalProduct, Mat.get]

/-- Example for C38, C34: a 5×5 matrix that needs row exchanges; sign, order and determinant. -/
example : (luPivot false (1 / 1000000) (Mat.of (K := ℚ)
      !![0, 2, 0, 0, 1; 3, 0, 1, 0, 0; 0, 0, 0, 4, 1; 1, 1, 2, 0, 0; 0, 1, 0, 1, 1])).bind
      (fun r => .ok (r.sign, (List.range 5).map r.order)) = Res.ok (1, [1, 0, 3, 2, 4]) ∧
    determinant false (1 / 1000000) (Mat.of (K := ℚ)
      !![0, 2, 0, 0, 1; 3, 0, 1, 0, 0; 0, 0, 0, 4, 1; 1, 1, 2, 0, 0; 0, 1, 0, 1, 1]) =
      Res.ok 10 := by
  decide +kernel

end CML

#print axioms CML.lu_pivot_factors
#print axioms CML.lu_pivot_order
#print axioms CML.lu_pivot_total
#print axioms CML.lu_pivot_square_required
#print axioms CML.lu_pivot_sign_partial
#print axioms CML.lu_pivot_sign_false
#print axioms CML.determinant_partial
#print axioms CML.determinant_false
