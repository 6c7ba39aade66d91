import Verif.Lemmas.RoundExpr
import Verif.Props.MatSmall
import Verif.Props.Rounding

/-!
C100, C101: rounding errors of determinants and of the closed-form inverses.
-/

set_option linter.unusedSectionVars false

namespace CML

open Finset

variable {R : Rounding}

/-- The three forms of `plusDet` that occur in the closed forms. -/
theorem plusDet_two (A : Matrix (Fin 2) (Fin 2) ℝ) : plusDet 2 A = A 0 0 * A 1 1 + A 0 1 * A 1 0 := by
  simp [plusDet, Fin.sum_univ_succ]

theorem plusDet_three (A : Matrix (Fin 3) (Fin 3) ℝ) : plusDet 3 A =
    A 0 0 * (A 1 1 * A 2 2 + A 1 2 * A 2 1) + A 0 1 * (A 1 0 * A 2 2 + A 1 2 * A 2 0)
      + A 0 2 * (A 1 0 * A 2 1 + A 1 1 * A 2 0) := by
  show ∑ j : Fin 3, _ = _
  rw [Fin.sum_univ_three, plusDet_two, plusDet_two, plusDet_two]
  rfl

theorem plusDet_four (A : Matrix (Fin 4) (Fin 4) ℝ) : plusDet 4 A =
    A 0 0 * (A 1 1 * (A 2 2 * A 3 3 + A 2 3 * A 3 2) + A 1 2 * (A 2 1 * A 3 3 + A 2 3 * A 3 1)
      + A 1 3 * (A 2 1 * A 3 2 + A 2 2 * A 3 1))
    + A 0 1 * (A 1 0 * (A 2 2 * A 3 3 + A 2 3 * A 3 2) + A 1 2 * (A 2 0 * A 3 3 + A 2 3 * A 3 0)
      + A 1 3 * (A 2 0 * A 3 2 + A 2 2 * A 3 0))
    + A 0 2 * (A 1 0 * (A 2 1 * A 3 3 + A 2 3 * A 3 1) + A 1 1 * (A 2 0 * A 3 3 + A 2 3 * A 3 0)
      + A 1 3 * (A 2 0 * A 3 1 + A 2 1 * A 3 0))
    + A 0 3 * (A 1 0 * (A 2 1 * A 3 2 + A 2 2 * A 3 1) + A 1 1 * (A 2 0 * A 3 2 + A 2 2 * A 3 0)
      + A 1 2 * (A 2 0 * A 3 1 + A 2 1 * A 3 0)) := by
  show ∑ j : Fin 4, _ = _
  rw [Fin.sum_univ_four, plusDet_three, plusDet_three, plusDet_three, plusDet_three]
  rfl

/-- Bring the exact value, the magnitude and the count of a tracked number into another form. -/
theorem Tracks.as {x : Fl R} {X X' : ℝ} {A : Mag} {A' : ℝ} {k : Cnt} {k' : ℕ} (h : Tracks x X A k) (hX : X = X')
    (hA : A.val = A') (hk : k.val = k') : Tracks x X' ⟨A'⟩ ⟨k'⟩ := by
  subst hX hA hk
  exact h

section
variable (e : Nat → Nat → Fl R)

/-- An element, with its magnitude. -/
private theorem el (i j : Nat) : Tracks (e i j) (e i j).val ⟨|(e i j).val|⟩ ⟨0⟩ := Tracks.exact _

end

private theorem det_small_tracks (fixed : Bool) (eps : Fl R) (a : Nat → Nat → Fl R) (c : Nat)
    (hn : c = 2 ∨ c = 3 ∨ c = 4) :
    ∃ d, determinant fixed eps (⟨c, c, a⟩ : Mat (Fl R)) = .ok d ∧
      Tracks d (realM (Mat.toMatrix ⟨c, c, a⟩ c c)).det ⟨plusDet c (absM (realM (Mat.toMatrix ⟨c, c, a⟩ c c)))⟩
        ⟨c * (c + 1) / 2 - 1⟩ := by
  have L := fun i j => el a i j
  rcases hn with rfl | rfl | rfl
  · simp only [determinant, checkSquare, Res.require, decide_true, if_true, Res.ok_bind, det2, Mat.get]
    refine ⟨_, rfl, (((L 0 0).mul (L 1 1)).sub ((L 1 0).mul (L 0 1))).as ?_ ?_ rfl⟩
    · simp [Matrix.det_fin_two, realM, Mat.toMatrix, mul_comm]
    · rw [plusDet_two]
      show _ * _ + _ * _ = _
      simp only [absM, realM, Mat.toMatrix]
      simp [mul_comm]
  · simp only [determinant, checkSquare, Res.require, decide_true, if_true, Res.ok_bind, det3, Mat.get]
    refine ⟨_, rfl, (((L 0 0).mul (((L 1 1).mul (L 2 2)).sub ((L 1 2).mul (L 2 1)))).add
      ((L 0 1).mul (((L 1 2).mul (L 2 0)).sub ((L 1 0).mul (L 2 2))))).add
      ((L 0 2).mul (((L 1 0).mul (L 2 1)).sub ((L 1 1).mul (L 2 0)))) |>.as ?_ ?_ rfl⟩
    · simp [Matrix.det_fin_three, realM, Mat.toMatrix]; ring
    · rw [plusDet_three]
      show _ * (_ * _ + _ * _) + _ * (_ * _ + _ * _) + _ * (_ * _ + _ * _) = _
      simp only [absM, realM, Mat.toMatrix, Fin.isValue, Fin.val_zero, Fin.val_one, Fin.val_two,
        show ((3 : Fin 4) : Nat) = 3 from rfl]
      ring
  · simp only [determinant, checkSquare, Res.require, decide_true, if_true, Res.ok_bind, det4, els4, Mat.get]
    refine ⟨_, rfl, ((((L 0 0).mul ((((L 1 1).mul (((L 2 2).mul (L 3 3)).sub ((L 2 3).mul (L 3 2)))).add
        ((L 1 2).mul (((L 2 3).mul (L 3 1)).sub ((L 2 1).mul (L 3 3))))).add
        ((L 1 3).mul (((L 2 1).mul (L 3 2)).sub ((L 2 2).mul (L 3 1)))))).sub
      ((L 0 1).mul ((((L 1 0).mul (((L 2 2).mul (L 3 3)).sub ((L 2 3).mul (L 3 2)))).add
        ((L 1 2).mul (((L 2 3).mul (L 3 0)).sub ((L 2 0).mul (L 3 3))))).add
        ((L 1 3).mul (((L 2 0).mul (L 3 2)).sub ((L 2 2).mul (L 3 0))))))).add
      ((L 0 2).mul ((((L 1 0).mul (((L 2 3).mul (L 3 1)).sub ((L 2 1).mul (L 3 3))).neg).add
        ((L 1 1).mul (((L 2 3).mul (L 3 0)).sub ((L 2 0).mul (L 3 3))))).add
        ((L 1 3).mul (((L 2 0).mul (L 3 1)).sub ((L 2 1).mul (L 3 0))))))).sub
      ((L 0 3).mul ((((L 1 0).mul (((L 2 1).mul (L 3 2)).sub ((L 2 2).mul (L 3 1)))).add
        ((L 1 1).mul (((L 2 0).mul (L 3 2)).sub ((L 2 2).mul (L 3 0))).neg)).add
        ((L 1 2).mul (((L 2 0).mul (L 3 1)).sub ((L 2 1).mul (L 3 0)))))) |>.as ?_ ?_ rfl⟩
    · simp [det4_expand, realM, Mat.toMatrix]
    · rw [plusDet_four]
      show _ * (_ * (_ * _ + _ * _) + _ * (_ * _ + _ * _) + _ * (_ * _ + _ * _)) +
        _ * (_ * (_ * _ + _ * _) + _ * (_ * _ + _ * _) + _ * (_ * _ + _ * _)) +
        _ * (_ * (_ * _ + _ * _) + _ * (_ * _ + _ * _) + _ * (_ * _ + _ * _)) +
        _ * (_ * (_ * _ + _ * _) + _ * (_ * _ + _ * _) + _ * (_ * _ + _ * _)) = _
      simp only [absM, realM, Mat.toMatrix, Fin.isValue, Fin.val_zero, Fin.val_one, Fin.val_two,
        show ((3 : Fin 4) : Nat) = 3 from rfl]
      ring

/-- C100: the determinant of a 2×2, 3×3 or 4×4 matrix computed in rounded arithmetic differs from the determinant
by at most `γ_k` times the determinant with all terms taken positive, where `k` is 2, 5 or 9. -/
theorem determinant_small_error (fixed : Bool) (eps : Fl R) (M : Mat (Fl R)) (n : Nat)
    (hn : n = 2 ∨ n = 3 ∨ n = 4) (A : Matrix (Fin n) (Fin n) (Fl R)) (h : M.Is n A)
    (hu : (n * (n + 1) / 2 - 1 : ℕ) * R.u < 1) :
    ∃ d, determinant fixed eps M = .ok d ∧
      |d.val - (realM A).det| ≤ gamma R.u (n * (n + 1) / 2 - 1) * plusDet n (absM (realM A)) := by
  obtain ⟨rr, c, a⟩ := M
  obtain ⟨h1, h2, rfl⟩ := h
  simp only at h1 h2
  subst h1; subst h2
  obtain ⟨d, hd, ht⟩ := det_small_tracks fixed eps a c hn
  exact ⟨d, hd, le_trans ht.err (mul_le_mul_of_nonneg_right (phi_le_gamma R.u_nonneg R.u_lt hu) ht.nonneg)⟩

/-! ### The general determinant -/

/-- `e 0 0 * e 1 1 * … * e k k`, multiplied from the left. -/
private noncomputable def diagAcc (e : Nat → Nat → Fl R) : Nat → Fl R
  | 0 => e 0 0
  | k + 1 => diagAcc e k * e (k + 1) (k + 1)

private theorem diagonalProduct_acc (n : Nat) (e : Nat → Nat → Fl R) :
    diagonalProduct (⟨n + 1, n + 1, e⟩ : Mat (Fl R)) = .ok (diagAcc e n) := by
  have key := Res.loop_fun (lo := 1) (n := n) (body := fun i d => do
      let x ← (⟨n + 1, n + 1, e⟩ : Mat (Fl R)).get i i
      pure (d * x)) (fun t => diagAcc e (t - 1)) (by
      intro k h1 h2
      obtain ⟨m, rfl⟩ : ∃ m, k = m + 1 := ⟨k - 1, by omega⟩
      have hk : m + 1 < n + 1 := by omega
      have hk' : m < n := by omega
      simp [Mat.get, hk', diagAcc])
  have h0 : (⟨n + 1, n + 1, e⟩ : Mat (Fl R)).get 0 0 = .ok (e 0 0) := by simp [Mat.get]
  unfold diagonalProduct
  rw [h0, Res.ok_bind]
  have e1 : 1 + n - 1 = n := by omega
  simpa [diagAcc, e1] using key

private theorem diagAcc_val (e : Nat → Nat → Fl R) : ∀ k, ∃ t, Fac R.u k t ∧
    (diagAcc e k).val = (∏ i ∈ range (k + 1), (e i i).val) * t
  | 0 => ⟨1, Fac.one, by simp [diagAcc]⟩
  | k + 1 => by
    obtain ⟨t, h1, h2⟩ := diagAcc_val e k
    obtain ⟨d, h3, -, -, h4⟩ := R.fac ((diagAcc e k).val * (e (k + 1) (k + 1)).val)
    refine ⟨t * d, h1.mul R.u_nonneg R.u_lt h3, ?_⟩
    rw [diagAcc, Fl.mul_val, h4, h2, prod_range_succ _ (k + 1)]
    ring

private theorem det_packed {n : Nat} (B : Matrix (Fin n) (Fin n) (Fl R)) :
    (realM (unitLower B) * realM (upper B)).det = ∏ i, (B i i).val := by
  rw [Matrix.det_mul, Matrix.det_of_lowerTriangular, Matrix.det_of_upperTriangular]
  · simp [realM, unitLower, upper]
  · intro i j hij
    have : ¬ i ≤ j := not_le.mpr hij
    simp [realM, upper, this]
  · intro i j hij
    have hij : i < j := hij
    have h1 : ¬ j < i := not_lt.mpr hij.le
    have h2 : i ≠ j := hij.ne
    simp [realM, unitLower, h1, h2]

/-- C100: for all other sizes the determinant is computed from the pivoted decomposition.  If that succeeds in
rounded arithmetic, the result is up to a relative error of `γ_n` the determinant of a matrix `A'` that differs
from `A` by at most `γ_n |L| |U|` (rows in the order of the pivots); if it gives up, the result is zero. -/
theorem determinant_lu_backward_stable (fixed : Bool) (eps : Fl R) (M : Mat (Fl R)) (n : Nat) (hn : 1 ≤ n)
    (hn' : n ≠ 2 ∧ n ≠ 3 ∧ n ≠ 4) (A : Matrix (Fin n) (Fin n) (Fl R)) (h : M.Is n A) (r : LuPivot (Fl R))
    (hr : luPivot fixed eps M = .ok r) (hu : n * R.u < 1) :
    (r.sign = 0 → ∃ d, determinant fixed eps M = .ok d ∧ d.val = 0) ∧
    (r.sign ≠ 0 → ∃ (d : Fl R) (t : ℝ) (A' : Matrix (Fin n) (Fin n) ℝ) (σ : Equiv.Perm (Fin n))
      (B : Matrix (Fin n) (Fin n) (Fl R)),
      determinant fixed eps M = .ok d ∧ d.val = A'.det * t ∧ |t - 1| ≤ gamma R.u n ∧ r.lu.Is n B ∧
      (∀ i : Fin n, r.order i = σ i) ∧
      ∀ i j, |A' (σ i) j - realM A (σ i) j| ≤
        gamma R.u n * (absM (realM (unitLower B)) * absM (realM (upper B))) i j) := by
  obtain ⟨m, rfl⟩ : ∃ m, n = m + 1 := ⟨n - 1, by omega⟩
  have main : ∃ e, r.lu = ⟨m + 1, m + 1, e⟩ ∧ determinant fixed eps M = .ok ((r.sign : Fl R) * diagAcc e m) := by
    obtain ⟨rr, c, a⟩ := M
    obtain ⟨h1, h2, rfl⟩ := h
    simp only at h1 h2
    subst h1; subst h2
    have he : luPivot fixed eps (⟨m + 1, m + 1, a⟩ : Mat (Fl R)) = luPivotInplace eps ⟨m + 1, m + 1, a⟩ := by
      simp [luPivot, checkSquare, Res.require]
    rw [he] at hr
    have hd : determinant fixed eps (⟨m + 1, m + 1, a⟩ : Mat (Fl R)) = detLu eps ⟨m + 1, m + 1, a⟩ := by
      simp only [determinant, checkSquare, Res.require, decide_true, if_true, Res.ok_bind]
      split <;> first | omega | rfl
    have hf : Fabs.fabs (0 : Fl R) = 0 := Fl.ext (by simp)
    have hshape : ∃ e, r.lu = ⟨m + 1, m + 1, e⟩ := by
      rcases luPivotInplace_gen (FlInv.kept (n := m + 1) a) hf a (FlInv.start a) eps with ⟨r', h1, h2⟩ | ⟨h1, _⟩
      · rw [h1] at hr
        cases hr
        rcases h2 with ⟨e, σ, g1, _⟩ | ⟨_, e, σ, k', g1, _⟩
        · exact ⟨e, g1⟩
        · exact ⟨e, g1⟩
      · rw [h1] at hr; cases hr
    obtain ⟨e, he⟩ := hshape
    refine ⟨e, he, ?_⟩
    rw [hd, detLu, hr, Res.ok_bind, he, diagonalProduct_acc]
    rfl
  obtain ⟨e, he, hd⟩ := main
  refine ⟨fun hs => ⟨_, hd, ?_⟩, fun hs => ?_⟩
  · obtain ⟨d, -, -, -, h4⟩ := R.fac ((r.sign : ℝ) * (diagAcc e m).val)
    rw [Fl.mul_val, Fl.intCast_val, h4, hs]
    simp
  · obtain ⟨σ, B, h1, h2, h3, h4⟩ := lu_pivot_backward_stable fixed eps M _ A h r hr hs hu
    obtain ⟨t, t1, t2⟩ := diagAcc_val e m
    obtain ⟨d, d1, -, -, d4⟩ := R.fac ((r.sign : ℝ) * (diagAcc e m).val)
    refine ⟨_, t * d, (realM (unitLower B) * realM (upper B)).submatrix σ.symm id, σ, B, hd, ?_, ?_, h3, h1, ?_⟩
    · rw [Fl.mul_val, Fl.intCast_val, d4, t2]
      rw [show (realM (unitLower B) * realM (upper B)).submatrix σ.symm id =
        (realM (unitLower B) * realM (upper B)).submatrix σ.symm (Equiv.refl _) from rfl]
      have := Matrix.det_permute σ.symm (realM (unitLower B) * realM (upper B))
      rw [show (realM (unitLower B) * realM (upper B)).submatrix σ.symm (Equiv.refl _) =
        (realM (unitLower B) * realM (upper B)).submatrix σ.symm id from rfl, this, det_packed, Equiv.Perm.sign_symm,
        h2]
      have hb : ∏ i : Fin (m + 1), (B i i).val = ∏ i ∈ range (m + 1), (e i i).val := by
        rw [← Fin.prod_univ_eq_prod_range (fun i => (e i i).val) (m + 1)]
        refine prod_congr rfl (fun i _ => ?_)
        rw [← h3.el, he]; rfl
      rw [hb]
      push_cast
      ring
    · have := (t1.mul R.u_nonneg R.u_lt d1)
      exact le_trans this (phi_le_gamma R.u_nonneg R.u_lt hu)
    · intro i j
      have := h4 i j
      simpa using this

/-! ### The closed-form inverses -/

/-- The error of a quotient of two tracked numbers. -/
theorem Tracks.quot {x y : Fl R} {X Y : ℝ} {A B : Mag} {k l : Cnt} (h : Tracks x X A k) (h' : Tracks y Y B l)
    (hy : y ≠ 0) :
    |(x / y).val * Y - X| ≤ phi R.u l.val * B.val * |(x / y).val| + phi R.u (k.val + 1) * A.val := by
  have hy' : y.val ≠ 0 := fun h => hy (Fl.ext h)
  obtain ⟨t, h1, -, -, h4⟩ := R.fac (x.val / y.val)
  have e : (x / y).val * y.val = x.val * t := by
    rw [Fl.div_val, h4]; field_simp
  have h5 : |x.val * t - X| ≤ phi R.u (k.val + 1) * A.val := by
    have h6 : |x.val * t - x.val| ≤ phi R.u 1 * |x.val| := h1.abs_le
    have h7 : |x.val| ≤ phi R.u k.val * A.val + A.val := by
      calc |x.val| = |(x.val - X) + X| := by rw [sub_add_cancel]
        _ ≤ |x.val - X| + |X| := abs_add_le _ _
        _ ≤ _ := add_le_add h.err h.mag
    have h8 := mul_le_mul_of_nonneg_left h7 (phi_nonneg R.u_nonneg R.u_lt 1)
    have h9 := h.err
    rw [← phi_add]
    calc |x.val * t - X| = |(x.val * t - x.val) + (x.val - X)| := by rw [sub_add_sub_cancel]
      _ ≤ |x.val * t - x.val| + |x.val - X| := abs_add_le _ _
      _ ≤ phi R.u 1 * (phi R.u k.val * A.val + A.val) + phi R.u k.val * A.val := by linarith
      _ = _ := by ring
  have h10 : |(x / y).val * (Y - y.val)| ≤ phi R.u l.val * B.val * |(x / y).val| := by
    rw [abs_mul, mul_comm, abs_sub_comm]
    exact mul_le_mul_of_nonneg_right h'.err (abs_nonneg _)
  calc |(x / y).val * Y - X| = |(x / y).val * (Y - y.val) + (x.val * t - X)| := by
        rw [← e]; ring_nf
    _ ≤ _ := le_trans (abs_add_le _ _) (add_le_add h10 h5)

private theorem t2 (x y z w : Fl R) : Tracks (x * y - z * w) (x.val * y.val - z.val * w.val)
    ⟨|x.val| * |y.val| + |z.val| * |w.val|⟩ ⟨2⟩ :=
  ((Tracks.exact x).mul (Tracks.exact y)).sub ((Tracks.exact z).mul (Tracks.exact w))

private theorem t2n (x y z w : Fl R) : Tracks (-(x * y - z * w)) (-(x.val * y.val - z.val * w.val))
    ⟨|x.val| * |y.val| + |z.val| * |w.val|⟩ ⟨2⟩ := (t2 x y z w).neg

private theorem t3 {x y z p q r : Fl R} {P Q S p' q' r' : ℝ} (hp : Tracks p P ⟨p'⟩ ⟨2⟩) (hq : Tracks q Q ⟨q'⟩ ⟨2⟩)
    (hr : Tracks r S ⟨r'⟩ ⟨2⟩) : Tracks (x * p + y * q + z * r) (x.val * P + y.val * Q + z.val * S)
      ⟨|x.val| * p' + |y.val| * q' + |z.val| * r'⟩ ⟨5⟩ :=
  (((Tracks.exact x).mul hp).add ((Tracks.exact y).mul hq)).add ((Tracks.exact z).mul hr)

private theorem t3n {x y z p q r : Fl R} {P Q S p' q' r' : ℝ} (hp : Tracks p P ⟨p'⟩ ⟨2⟩) (hq : Tracks q Q ⟨q'⟩ ⟨2⟩)
    (hr : Tracks r S ⟨r'⟩ ⟨2⟩) : Tracks (-(x * p + y * q + z * r)) (-(x.val * P + y.val * Q + z.val * S))
      ⟨|x.val| * p' + |y.val| * q' + |z.val| * r'⟩ ⟨5⟩ := (t3 hp hq hr).neg

private theorem succAbove_tab :
    ((((0 : Fin 3).succAbove (0 : Fin 2) : Fin 3) : Nat) = 1) ∧
    ((((0 : Fin 3).succAbove (1 : Fin 2) : Fin 3) : Nat) = 2) ∧
    ((((1 : Fin 3).succAbove (0 : Fin 2) : Fin 3) : Nat) = 0) ∧
    ((((1 : Fin 3).succAbove (1 : Fin 2) : Fin 3) : Nat) = 2) ∧
    ((((2 : Fin 3).succAbove (0 : Fin 2) : Fin 3) : Nat) = 0) ∧
    ((((2 : Fin 3).succAbove (1 : Fin 2) : Fin 3) : Nat) = 1) ∧
    ((((0 : Fin 4).succAbove (0 : Fin 3) : Fin 4) : Nat) = 1) ∧
    ((((0 : Fin 4).succAbove (1 : Fin 3) : Fin 4) : Nat) = 2) ∧
    ((((0 : Fin 4).succAbove (2 : Fin 3) : Fin 4) : Nat) = 3) ∧
    ((((1 : Fin 4).succAbove (0 : Fin 3) : Fin 4) : Nat) = 0) ∧
    ((((1 : Fin 4).succAbove (1 : Fin 3) : Fin 4) : Nat) = 2) ∧
    ((((1 : Fin 4).succAbove (2 : Fin 3) : Fin 4) : Nat) = 3) ∧
    ((((2 : Fin 4).succAbove (0 : Fin 3) : Fin 4) : Nat) = 0) ∧
    ((((2 : Fin 4).succAbove (1 : Fin 3) : Fin 4) : Nat) = 1) ∧
    ((((2 : Fin 4).succAbove (2 : Fin 3) : Fin 4) : Nat) = 3) ∧
    ((((3 : Fin 4).succAbove (0 : Fin 3) : Fin 4) : Nat) = 0) ∧
    ((((3 : Fin 4).succAbove (1 : Fin 3) : Fin 4) : Nat) = 1) ∧
    ((((3 : Fin 4).succAbove (2 : Fin 3) : Fin 4) : Nat) = 2) := by decide

/-- The numerators of the 4×4 inverse. -/
private noncomputable def num4 (a : Nat → Nat → Fl R) : Fin 4 → Fin 4 → Fl R :=
  let u0 := a 2 2 * a 3 3 - a 2 3 * a 3 2
  let u1 := a 2 3 * a 3 0 - a 2 0 * a 3 3
  let u2 := a 2 0 * a 3 1 - a 2 1 * a 3 0
  let u3 := a 2 1 * a 3 2 - a 2 2 * a 3 1
  let u4 := a 2 3 * a 3 1 - a 2 1 * a 3 3
  let u5 := a 2 0 * a 3 2 - a 2 2 * a 3 0
  let v0 := a 0 2 * a 1 3 - a 0 3 * a 1 2
  let v1 := a 0 3 * a 1 0 - a 0 0 * a 1 3
  let v2 := a 0 0 * a 1 1 - a 0 1 * a 1 0
  let v3 := a 0 1 * a 1 2 - a 0 2 * a 1 1
  let v4 := a 0 3 * a 1 1 - a 0 1 * a 1 3
  let v5 := a 0 0 * a 1 2 - a 0 2 * a 1 0
  ![![a 1 1 * u0 + a 1 2 * u4 + a 1 3 * u3, -(a 0 1 * u0 + a 0 2 * u4 + a 0 3 * u3),
      a 3 1 * v0 + a 3 2 * v4 + a 3 3 * v3, -(a 2 1 * v0 + a 2 2 * v4 + a 2 3 * v3)],
    ![-(a 1 0 * u0 + a 1 2 * u1 + a 1 3 * u5), a 0 0 * u0 + a 0 2 * u1 + a 0 3 * u5,
      -(a 3 0 * v0 + a 3 2 * v1 + a 3 3 * v5), a 2 0 * v0 + a 2 2 * v1 + a 2 3 * v5],
    ![a 1 0 * -u4 + a 1 1 * u1 + a 1 3 * u2, -(a 0 0 * -u4 + a 0 1 * u1 + a 0 3 * u2),
      a 3 0 * -v4 + a 3 1 * v1 + a 3 3 * v2, -(a 2 0 * -v4 + a 2 1 * v1 + a 2 3 * v2)],
    ![-(a 1 0 * u3 + a 1 1 * -u5 + a 1 2 * u2), a 0 0 * u3 + a 0 1 * -u5 + a 0 2 * u2,
      -(a 3 0 * v3 + a 3 1 * -v5 + a 3 2 * v2), a 2 0 * v3 + a 2 1 * -v5 + a 2 2 * v2]]

set_option maxHeartbeats 1000000 in
private theorem inverse_eval (fixed : Bool) (m : Nat) (hm : m = 1 ∨ m = 2 ∨ m = 3) (a : Nat → Nat → Fl R) :
    ∃ (D : Fl R) (N : Fin (m + 1) → Fin (m + 1) → Fl R),
      Tracks D (realM (Mat.toMatrix ⟨m + 1, m + 1, a⟩ (m + 1) (m + 1))).det
        ⟨plusDet (m + 1) (absM (realM (Mat.toMatrix ⟨m + 1, m + 1, a⟩ (m + 1) (m + 1))))⟩
        ⟨(m + 1) * (m + 1 + 1) / 2 - 1⟩ ∧
      (∀ i j, Tracks (N i j) ((realM (Mat.toMatrix ⟨m + 1, m + 1, a⟩ (m + 1) (m + 1))).adjugate i j)
        ⟨plusDet m ((absM (realM (Mat.toMatrix ⟨m + 1, m + 1, a⟩ (m + 1) (m + 1)))).submatrix
          j.succAbove i.succAbove)⟩ ⟨m * (m + 1) / 2 - 1⟩) ∧
      (D = 0 → inverse fixed (⟨m + 1, m + 1, a⟩ : Mat (Fl R)) = .ub .divZero) ∧
      (D ≠ 0 → ∃ M', inverse fixed (⟨m + 1, m + 1, a⟩ : Mat (Fl R)) = .ok M' ∧
        M'.Is (m + 1) (fun i j => N i j / D)) := by
  obtain ⟨D, hD, hT⟩ := det_small_tracks fixed 0 a (m + 1) (by omega)
  rcases hm with rfl | rfl | rfl
  · simp only [determinant, checkSquare, Res.require, decide_true, if_true, Res.ok_bind, det2, Mat.get] at hD
    have hD : a 0 0 * a 1 1 - a 1 0 * a 0 1 = D := by simpa using hD
    have hD' : a 0 0 * a 1 1 - a 0 1 * a 1 0 = D := by
      rw [← hD]; exact Fl.ext (by simp only [Fl.sub_val, Fl.mul_val, mul_comm])
    refine ⟨D, ![![a 1 1, -a 0 1], ![-a 1 0, a 0 0]], hT, ?_, ?_, ?_⟩
    · intro i j
      fin_cases i <;> fin_cases j
      · refine (Tracks.exact (a 1 1)).as ?_ ?_ rfl <;>
          simp [Matrix.adjugate_fin_two, realM, Mat.toMatrix, plusDet, absM]
      · refine (Tracks.exact (a 0 1)).neg.as ?_ ?_ rfl
        · simp [Matrix.adjugate_fin_two, realM, Mat.toMatrix, plusDet, absM]
        · show |(a 0 1).val| = _
          simp [realM, Mat.toMatrix, plusDet, absM]
      · refine (Tracks.exact (a 1 0)).neg.as ?_ ?_ rfl
        · simp [Matrix.adjugate_fin_two, realM, Mat.toMatrix, plusDet, absM]
        · show |(a 1 0).val| = _
          simp [realM, Mat.toMatrix, plusDet, absM]
      · refine (Tracks.exact (a 0 0)).as ?_ ?_ rfl <;>
          simp [Matrix.adjugate_fin_two, realM, Mat.toMatrix, plusDet, absM]
    · intro h0
      simp [inverse, checkSquare, Res.require, inverse2, Mat.get, divR, hD', h0]
    · intro h0
      simp only [inverse, checkSquare, Res.require, inverse2, Mat.get, divR, hD', h0,
        Mat.put, Mat.set, decide_true, if_true, if_false, Res.ok_bind,
        and_self, show (0:Nat) < 2 from by decide, show (1:Nat) < 2 from by decide]
      refine ⟨_, rfl, rfl, rfl, ?_⟩
      ext i j
      fin_cases i <;> fin_cases j <;> rfl
  · simp only [determinant, checkSquare, Res.require, decide_true, if_true, Res.ok_bind, det3, Mat.get] at hD
    have hD : a 0 0 * (a 1 1 * a 2 2 - a 1 2 * a 2 1) + a 0 1 * (a 1 2 * a 2 0 - a 1 0 * a 2 2) +
        a 0 2 * (a 1 0 * a 2 1 - a 1 1 * a 2 0) = D := by simpa using hD
    refine ⟨D,
      ![![a 1 1 * a 2 2 - a 1 2 * a 2 1, a 0 2 * a 2 1 - a 0 1 * a 2 2, a 0 1 * a 1 2 - a 0 2 * a 1 1],
        ![a 1 2 * a 2 0 - a 1 0 * a 2 2, a 0 0 * a 2 2 - a 0 2 * a 2 0, a 0 2 * a 1 0 - a 0 0 * a 1 2],
        ![a 1 0 * a 2 1 - a 1 1 * a 2 0, a 0 1 * a 2 0 - a 0 0 * a 2 1, a 0 0 * a 1 1 - a 0 1 * a 1 0]],
      hT, ?_, ?_, ?_⟩
    · intro i j
      fin_cases i <;> fin_cases j <;> refine (t2 _ _ _ _).as ?_ ?_ rfl
      all_goals first
        | (simp [Matrix.adjugate_fin_three, realM, Mat.toMatrix]; done)
        | (simp [Matrix.adjugate_fin_three, realM, Mat.toMatrix]; ring; done)
        | (rw [plusDet_two]
           simp only [Matrix.submatrix_apply, absM, realM, Mat.toMatrix, Fin.zero_eta, Fin.mk_one, Fin.reduceFinMk,
             succAbove_tab]
           try ring)
    · intro h0
      simp [inverse, checkSquare, Res.require, inverse3, Mat.get, divR, hD, h0]
    · intro h0
      simp only [inverse, checkSquare, Res.require, inverse3, Mat.get, divR, hD, h0,
        Mat.put, Mat.set, decide_true, if_true, if_false, Res.ok_bind,
        and_self, show (0:Nat) < 3 from by decide, show (1:Nat) < 3 from by decide,
        show (2:Nat) < 3 from by decide]
      refine ⟨_, rfl, rfl, rfl, ?_⟩
      ext i j
      fin_cases i <;> fin_cases j <;> rfl
  · simp only [determinant, checkSquare, Res.require, decide_true, if_true, Res.ok_bind, det4, els4, Mat.get,
      and_self, show (0:Nat) < 4 from by decide, show (1:Nat) < 4 from by decide,
      show (2:Nat) < 4 from by decide, show (3:Nat) < 4 from by decide, Res.pure_eq, Res.ok.injEq] at hD
    refine ⟨D, num4 a, hT, ?_, ?_, ?_⟩
    · intro i j
      fin_cases i <;> fin_cases j
      all_goals first
        | refine (t3 (t2 _ _ _ _) (t2 _ _ _ _) (t2 _ _ _ _)).as ?_ ?_ rfl
        | refine (t3n (t2 _ _ _ _) (t2 _ _ _ _) (t2 _ _ _ _)).as ?_ ?_ rfl
        | refine (t3 (t2n _ _ _ _) (t2 _ _ _ _) (t2 _ _ _ _)).as ?_ ?_ rfl
        | refine (t3n (t2n _ _ _ _) (t2 _ _ _ _) (t2 _ _ _ _)).as ?_ ?_ rfl
        | refine (t3 (t2 _ _ _ _) (t2n _ _ _ _) (t2 _ _ _ _)).as ?_ ?_ rfl
        | refine (t3n (t2 _ _ _ _) (t2n _ _ _ _) (t2 _ _ _ _)).as ?_ ?_ rfl
      all_goals first
        | (rw [plusDet_three]
           simp only [Matrix.submatrix_apply, absM, realM, Mat.toMatrix, Fin.zero_eta, Fin.mk_one, Fin.reduceFinMk,
             succAbove_tab]
           try ring
           done)
        | (rw [Matrix.adjugate_fin_succ_eq_det_submatrix, Matrix.det_fin_three]
           simp only [Matrix.submatrix_apply, realM, Mat.toMatrix, Fin.zero_eta, Fin.mk_one, Fin.reduceFinMk,
             succAbove_tab, Fin.val_zero, Fin.val_one, Fin.val_two, show ((3 : Fin 4) : Nat) = 3 from rfl]
           ring)
    · intro h0
      simp only [inverse, checkSquare, Res.require, inverse4, els4, Mat.get, divR, hD, h0,
        decide_true, if_true, Res.ok_bind, Res.pure_eq,
        and_self, show (0:Nat) < 4 from by decide, show (1:Nat) < 4 from by decide,
        show (2:Nat) < 4 from by decide, show (3:Nat) < 4 from by decide, Res.ub_bind]
    · intro h0
      simp only [inverse, checkSquare, Res.require, inverse4, els4, Mat.get, divR, hD, h0,
        Mat.put, Mat.set, decide_true, if_true, if_false, Res.ok_bind, Res.pure_eq,
        and_self, show (0:Nat) < 4 from by decide, show (1:Nat) < 4 from by decide,
        show (2:Nat) < 4 from by decide, show (3:Nat) < 4 from by decide]
      refine ⟨_, rfl, rfl, rfl, ?_⟩
      ext i j
      fin_cases i <;> fin_cases j <;> rfl

/-- C101: the 2×2, 3×3 and 4×4 inverse in rounded arithmetic.  If the determinant is larger than its own error bound
the inverse is computed (no division by zero), and element `(i, j)` differs from that of the exact inverse by at
most `(γ_k |X i j| plusDet |A| + γ_l plusDet |minor|) / |det A|`, where the minor is that of the cofactor formula,
`k` is 2, 5 or 9 and `l` is 1, 3 or 6. -/
theorem inverse_small_error (fixed : Bool) (M : Mat (Fl R)) (m : Nat) (hm : m = 1 ∨ m = 2 ∨ m = 3)
    (A : Matrix (Fin (m + 1)) (Fin (m + 1)) (Fl R)) (h : M.Is (m + 1) A)
    (hu : ((m + 1) * (m + 2) / 2 - 1 : ℕ) * R.u < 1) (hu' : (m * (m + 1) / 2 : ℕ) * R.u < 1)
    (hd : gamma R.u ((m + 1) * (m + 2) / 2 - 1) * plusDet (m + 1) (absM (realM A)) < |(realM A).det|) :
    ∃ M' X, inverse fixed M = .ok M' ∧ M'.Is (m + 1) X ∧ ∀ i j,
      |realM X i j - (realM A)⁻¹ i j| ≤
        (gamma R.u ((m + 1) * (m + 2) / 2 - 1) * plusDet (m + 1) (absM (realM A)) * |realM X i j| +
          gamma R.u (m * (m + 1) / 2) * plusDet m ((absM (realM A)).submatrix j.succAbove i.succAbove)) /
        |(realM A).det| := by
  obtain ⟨rr, c, a⟩ := M
  obtain ⟨h1, h2, rfl⟩ := h
  simp only at h1 h2
  subst h1; subst h2
  obtain ⟨D, N, hD, hN, -, hok⟩ := inverse_eval fixed m hm a
  set B := realM (Mat.toMatrix ⟨m + 1, m + 1, a⟩ (m + 1) (m + 1)) with hB
  have hg := phi_le_gamma R.u_nonneg R.u_lt hu
  have hDe := hD.err
  simp only at hDe
  have hD0 := hD.nonneg
  simp only at hD0
  have hdet : B.det ≠ 0 := by
    intro h0
    rw [h0, abs_zero] at hd
    have := mul_nonneg (le_trans (phi_nonneg R.u_nonneg R.u_lt _) hg) hD0
    linarith
  have hne : D ≠ 0 := by
    intro h0
    rw [h0, Fl.zero_val, zero_sub, abs_neg] at hDe
    have := mul_le_mul_of_nonneg_right hg hD0
    linarith
  obtain ⟨M', e1, e2⟩ := hok hne
  refine ⟨M', _, e1, e2, fun i j => ?_⟩
  have hq := (hN i j).quot hD hne
  have hN0 := (hN i j).nonneg
  simp only at hq hN0
  have hk : m * (m + 1) / 2 - 1 + 1 = m * (m + 1) / 2 := by
    rcases hm with rfl | rfl | rfl <;> rfl
  rw [hk] at hq
  have hinv : B⁻¹ i j = B.adjugate i j / B.det := by
    rw [Matrix.inv_def, Ring.inverse_eq_inv', Matrix.smul_apply, smul_eq_mul]; ring
  rw [le_div_iff₀ (abs_pos.mpr hdet), hinv, ← abs_mul, sub_mul, div_mul_cancel₀ _ hdet]
  refine le_trans hq (add_le_add ?_ ?_)
  · exact mul_le_mul_of_nonneg_right (mul_le_mul_of_nonneg_right hg hD0) (abs_nonneg _)
  · exact mul_le_mul_of_nonneg_right (phi_le_gamma R.u_nonneg R.u_lt hu') hN0

/-! ### Examples: double precision -/

private theorem ex_u {k : ℕ} (h : k ≤ 10) : (k : ℝ) * double.u < 1 := by
  have : (k : ℝ) ≤ 10 := by exact_mod_cast h
  rw [show double.u = (2 : ℝ)⁻¹ ^ 53 from rfl]
  nlinarith [show (2 : ℝ)⁻¹ ^ 53 ≤ 1 / 100 by norm_num, show (0 : ℝ) ≤ (2 : ℝ)⁻¹ ^ 53 by positivity]

/-- A 3×3 determinant: all hypotheses hold. -/
example := determinant_small_error true ⟨1 / 1000⟩
  (Mat.of !![(⟨1 / 3⟩ : Fl double), ⟨2⟩, ⟨-5⟩; ⟨7⟩, ⟨1 / 7⟩, ⟨0⟩; ⟨1⟩, ⟨3⟩, ⟨9⟩]) 3 (by decide) _ (Mat.of_is _)
  (ex_u (k := 5) (by norm_num))

/-- A 5×5 determinant of arbitrary numbers: the decomposition returns. -/
example (A : Matrix (Fin 5) (Fin 5) (Fl double)) : ∃ r, luPivot true ⟨1 / 1000⟩ (Mat.of A) = .ok r ∧
    (r.sign = 0 → ∃ d, determinant true ⟨1 / 1000⟩ (Mat.of A) = .ok d ∧ d.val = 0) := by
  obtain ⟨r, hr, -⟩ := lu_pivot_rounded_returns true ⟨1 / 1000⟩ (Mat.of A) 5 A (Mat.of_is _)
    (by rw [Fl.lt_iff]; norm_num)
  exact ⟨r, hr, (determinant_lu_backward_stable true ⟨1 / 1000⟩ (Mat.of A) 5 (by norm_num) (by norm_num) A
    (Mat.of_is _) r hr (ex_u (k := 5) (by norm_num))).1⟩

/-- A matrix of size 1 whose decomposition does not give up. -/
example : ∃ r, luPivot true ⟨1 / 1000⟩ (Mat.of (n := 1) fun _ _ => (⟨7⟩ : Fl double)) = .ok r ∧ r.sign ≠ 0 := by
  simp [luPivot, checkSquare, Res.require, luPivotInplace, Mat.of, Res.loop]

/-- An inverse: the determinant `3 · 5 - 1 · 2 = 13` is far larger than its error bound. -/
example : ∃ M' X, inverse true (Mat.of !![(⟨3⟩ : Fl double), ⟨1⟩; ⟨2⟩, ⟨5⟩]) = .ok M' ∧ M'.Is 2 X ∧
    |(X 0 1).val + 1 / 13| ≤ (gamma double.u 2 * 17 * |(X 0 1).val| + gamma double.u 1) / 13 := by
  have hd : (realM !![(⟨3⟩ : Fl double), ⟨1⟩; ⟨2⟩, ⟨5⟩]) = !![3, 1; 2, 5] := by
    ext i j; fin_cases i <;> fin_cases j <;> rfl
  have hp : plusDet 2 (absM !![(3 : ℝ), 1; 2, 5]) = 17 := by
    rw [plusDet_two]; simp [absM]; norm_num
  obtain ⟨M', X, h1, h2, h3⟩ := inverse_small_error true (Mat.of !![(⟨3⟩ : Fl double), ⟨1⟩; ⟨2⟩, ⟨5⟩]) 1
    (by decide) _ (Mat.of_is _) (ex_u (k := 2) (by norm_num)) (ex_u (k := 1) (by norm_num)) (by
      show gamma double.u 2 * plusDet 2 _ < _
      rw [hd, hp, Matrix.det_fin_two_of, gamma, show double.u = (2 : ℝ)⁻¹ ^ 53 from rfl]
      norm_num)
  refine ⟨M', X, h1, h2, ?_⟩
  have h4 := h3 0 1
  change |(X 0 1).val - _| ≤ (gamma double.u 2 * plusDet 2 _ * |(X 0 1).val| + gamma double.u 1 * _) / _ at h4
  rw [hd, hp, Matrix.det_fin_two_of] at h4
  have h5 : (!![(3 : ℝ), 1; 2, 5])⁻¹ 0 1 = -(1 / 13) := by
    rw [Matrix.inv_def, Matrix.det_fin_two_of, Matrix.adjugate_fin_two_of, Ring.inverse_eq_inv']
    simp; norm_num
  rw [h5] at h4
  have h6 : plusDet 1 ((absM !![(3 : ℝ), 1; 2, 5]).submatrix (Fin.succAbove 1) (Fin.succAbove 0)) = 1 := by
    simp [plusDet, absM]
  rw [h6] at h4
  norm_num at h4 ⊢
  exact h4

#print axioms determinant_small_error
#print axioms determinant_lu_backward_stable
#print axioms inverse_small_error

end CML
