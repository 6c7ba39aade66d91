import Verif.Lemmas.Round
import Verif.Lemmas.VecRead
import Verif.Props.MatProduct

/-!
C95–C98: rounding errors.  The element type is a type of rounded numbers (`Fl R`): every `+`, `-`, `*` and `/`
of the code returns the exact result with a relative error of at most the unit roundoff `R.u`.
-/

set_option linter.unusedSectionVars false

namespace CML

open Finset

variable {R : Rounding}

section
variable {s : State (Fl R)} {a b : VNode (Fl R)} {n : Nat} {p q : Fin n → Fl R}

/-- C95: the computed `dot(a, b)` is the exact inner product of `b` with a vector that differs from `a` in each
element by a relative error of at most `γ_n`. -/
theorem dot_backward_stable (ha : VIs s a n p) (hb : VIs s b n q) (hn : 0 < n) (hu : n * R.u < 1) :
    ∃ (d : Fl R) (p' : Fin n → ℝ), vDot s a b = .ok d ∧ d.val = ∑ i, p' i * realV q i ∧
      ∀ i, |p' i - realV p i| ≤ gamma R.u n * |realV p i| := by
  obtain ⟨f, hf⟩ := ha.known
  obtain ⟨g, hg⟩ := hb.known
  obtain ⟨t, t1, t2⟩ := dotLeft_val n hn p q
  refine ⟨_, fun i => (p i).val * t i, vDot_left ha.rep hb.rep hf hg hn, ?_, fun i => ?_⟩
  · rw [t2]
    refine sum_congr rfl (fun i _ => ?_)
    simp only [realV]; ring
  · exact le_trans (t1 i).abs_le
      (mul_le_mul_of_nonneg_right (phi_le_gamma R.u_nonneg R.u_lt hu) (abs_nonneg _))

/-- C95: the error of the computed `dot(a, b)` is at most `γ_n Σ |aᵢ| |bᵢ|`. -/
theorem dot_error (ha : VIs s a n p) (hb : VIs s b n q) (hn : 0 < n) (hu : n * R.u < 1) :
    ∃ d, vDot s a b = .ok d ∧
      |d.val - realV p ⬝ᵥ realV q| ≤ gamma R.u n * (absV (realV p) ⬝ᵥ absV (realV q)) := by
  obtain ⟨f, hf⟩ := ha.known
  obtain ⟨g, hg⟩ := hb.known
  obtain ⟨t, t1, t2⟩ := dotLeft_val n hn p q
  refine ⟨_, vDot_left ha.rep hb.rep hf hg hn, ?_⟩
  rw [t2]
  refine le_trans (abs_sum_sub_le univ (fun i => (p i).val * (q i).val) t (fun i _ => t1 i)) ?_
  refine mul_le_mul (phi_le_gamma R.u_nonneg R.u_lt hu) ?_ (sum_nonneg fun i _ => abs_nonneg _)
    (le_trans (phi_nonneg R.u_nonneg R.u_lt n) (phi_le_gamma R.u_nonneg R.u_lt hu))
  exact le_of_eq (sum_congr rfl fun i _ => abs_mul _ _)

/-- C95: the computed `length_squared()` has a relative error of at most `γ_n`. -/
theorem length_squared_error (ha : VIs s a n p) (hn : 0 < n) (hu : n * R.u < 1) :
    ∃ d, vLengthSquared s a = .ok d ∧
      |d.val - realV p ⬝ᵥ realV p| ≤ gamma R.u n * (realV p ⬝ᵥ realV p) := by
  obtain ⟨f, hf⟩ := ha.known
  obtain ⟨d, h1, h2⟩ := dot_error ha ha hn hu
  refine ⟨d, by rw [vLengthSquared_eq_dot s a ha.rep hf, h1], ?_⟩
  have : absV (realV p) ⬝ᵥ absV (realV p) = realV p ⬝ᵥ realV p :=
    sum_congr rfl fun i _ => abs_mul_abs_self _
  rwa [this] at h2

/-- C95: with fewer than `1/(2u)` elements the computed `length_squared()` is never negative, and zero only for
the zero vector. -/
theorem length_squared_pos (ha : VIs s a n p) (hn : 0 < n) (hu : 2 * (n * R.u) < 1) :
    ∃ d, vLengthSquared s a = .ok d ∧ 0 ≤ d.val ∧ (d.val = 0 ↔ realV p = 0) := by
  have hnu : (0 : ℝ) ≤ n * R.u := mul_nonneg (Nat.cast_nonneg n) R.u_nonneg
  obtain ⟨d, h1, h2⟩ := length_squared_error ha hn (by linarith)
  have hg : gamma R.u n < 1 := by
    unfold gamma
    rw [div_lt_one (by linarith)]
    linarith
  have h0 : 0 ≤ realV p ⬝ᵥ realV p := sum_nonneg fun i _ => mul_self_nonneg _
  have h3 := abs_le.mp h2
  refine ⟨d, h1, by nlinarith, fun hd => ?_, fun hp => ?_⟩
  · have h4 : realV p ⬝ᵥ realV p = 0 := by nlinarith
    funext i
    have h5 := (sum_eq_zero_iff_of_nonneg fun i _ => mul_self_nonneg (realV p i)).mp h4 i (mem_univ i)
    exact mul_self_eq_zero.mp h5
  · rw [hp] at h3
    simp at h3
    linarith

end

section
variable {s : State (Fl R)}

private theorem dotLeft_bound {m : Nat} (hm : 0 < m) (hu : m * R.u < 1) (p q : Fin m → Fl R) :
    |(dotLeft m hm p q).val - ∑ k, (p k).val * (q k).val| ≤
      gamma R.u m * ∑ k, |(p k).val| * |(q k).val| := by
  obtain ⟨t, t1, t2⟩ := dotLeft_val m hm p q
  rw [t2]
  refine le_trans (abs_sum_sub_le univ (fun i => (p i).val * (q i).val) t (fun i _ => t1 i)) ?_
  refine mul_le_mul (phi_le_gamma R.u_nonneg R.u_lt hu) ?_ (sum_nonneg fun i _ => abs_nonneg _)
    (le_trans (phi_nonneg R.u_nonneg R.u_lt m) (phi_le_gamma R.u_nonneg R.u_lt hu))
  exact le_of_eq (sum_congr rfl fun i _ => abs_mul _ _)

/-- C96: the computed matrix product has an error of at most `γ_m |A||B|` in each element. -/
theorem matMul_error {a b : MNode (Fl R)} {l m n : Nat} (hm : 0 < m) {A : Matrix (Fin l) (Fin m) (Fl R)}
    {B : Matrix (Fin m) (Fin n) (Fl R)} (ha : MMat s a A) (hb : MMat s b B) (sa : a.Straight s)
    (sb : b.Straight s) (hu : m * R.u < 1) :
    ∃ t C, matMul s a b = .ok t ∧ MMat s (.temp t) C ∧
      ∀ i j, |realM C i j - (realM A * realM B) i j| ≤
        gamma R.u m * (absM (realM A) * absM (realM B)) i j := by
  obtain ⟨f, hf⟩ := ha.known
  obtain ⟨g, hg⟩ := hb.known
  obtain ⟨e, e1, -, e3⟩ := matMul_ok ha.rep hb.rep hf hg sa sb ⟨rfl, hm⟩
  refine ⟨_, fun i j => dotLeft m hm (fun k => A i k) (fun k => B k j), e1,
    ⟨⟨rfl, fun i j => ?_⟩, _, MNode.Typed.temp⟩, fun i j => ?_⟩
  · have := MTemp.get_eq (t := ⟨f && g, l, n, e⟩) i.2 j.2 (e3 i j)
    rw [MNode.get, this]
    rfl
  · rw [Matrix.mul_apply, Matrix.mul_apply]
    exact dotLeft_bound hm hu _ _

/-- C96: matrix times vector. -/
theorem matVec_error {a : MNode (Fl R)} {v : VNode (Fl R)} {l m : Nat} (hm : 0 < m)
    {A : Matrix (Fin l) (Fin m) (Fl R)} {p : Fin m → Fl R} (ha : MMat s a A) (hv : VIs s v m p)
    (sa : a.Straight s) (hu : m * R.u < 1) :
    ∃ f q, matVec s a v = .ok (f, List.ofFn q) ∧
      ∀ i, |realV q i - (realM A).mulVec (realV p) i| ≤
        gamma R.u m * (absM (realM A)).mulVec (absV (realV p)) i := by
  obtain ⟨f, hf⟩ := ha.known
  obtain ⟨g, hg⟩ := hv.known
  refine ⟨f, _, matVec_ok ha.rep hv.rep hf hg sa ⟨rfl, hm⟩, fun i => ?_⟩
  exact dotLeft_bound hm hu (fun k => A i k) p

/-- C96: vector times matrix. -/
theorem vecMat_error {v : VNode (Fl R)} {b : MNode (Fl R)} {m n : Nat} (hm : 0 < m)
    {p : Fin m → Fl R} {B : Matrix (Fin m) (Fin n) (Fl R)} (hv : VIs s v m p) (hb : MMat s b B)
    (sb : b.Straight s) (hu : m * R.u < 1) :
    ∃ f q, vecMat s v b = .ok (f, List.ofFn q) ∧
      ∀ j, |realV q j - Matrix.vecMul (realV p) (realM B) j| ≤
        gamma R.u m * Matrix.vecMul (absV (realV p)) (absM (realM B)) j := by
  obtain ⟨f, hf⟩ := hv.known
  obtain ⟨g, hg⟩ := hb.known
  refine ⟨g, _, vecMat_ok hv.rep hb.rep hf hg sb ⟨rfl, hm⟩, fun j => ?_⟩
  exact dotLeft_bound hm hu p (fun k => B k j)

end

section

private theorem lu_eq (fixed : Bool) (n : Nat) (e : Nat → Nat → Fl R) :
    lu fixed (⟨n, n, e⟩ : Mat (Fl R)) = luInplace ⟨n, n, e⟩ := by
  simp [lu, checkSquare, Res.require]

/-- C97: the product of the computed factors `L` and `U` differs from the argument by at most
`γ_n |L||U|`. -/
theorem lu_backward_stable (fixed : Bool) (M M' : Mat (Fl R)) (n : Nat) (A : Matrix (Fin n) (Fin n) (Fl R))
    (h : M.Is n A) (hr : lu fixed M = .ok M') (hu : n * R.u < 1) :
    ∃ B, M'.Is n B ∧ ∀ i j,
      |(realM (unitLower B) * realM (upper B)) i j - realM A i j| ≤
        gamma R.u n * (absM (realM (unitLower B)) * absM (realM (upper B))) i j := by
  obtain ⟨r, c, a⟩ := M
  obtain ⟨h1, h2, rfl⟩ := h
  simp only at h1 h2
  subst h1; subst h2
  rw [lu_eq] at hr
  rcases luInplace_eqs c a with ⟨e, h1, h2⟩ | h1
  · rw [h1] at hr
    cases hr
    refine ⟨blk c e, ⟨rfl, rfl, rfl⟩, fun i j => ?_⟩
    rw [realM_unitLower, realM_upper, absM_unitLower, absM_upper]
    refine le_trans (h2.error i j) (mul_le_mul_of_nonneg_right (phi_le_gamma R.u_nonneg R.u_lt hu) ?_)
    rw [Matrix.mul_apply]
    refine sum_nonneg fun k _ => mul_nonneg ?_ ?_
    · rw [← absM_unitLower]; exact abs_nonneg _
    · rw [← absM_upper]; exact abs_nonneg _
  · rw [h1] at hr; cases hr

/-- C97: with rounded arithmetic, too, `lu` of a square matrix either returns or divides by a zero pivot. -/
theorem lu_rounded_outcome (fixed : Bool) (M : Mat (Fl R)) (n : Nat) (A : Matrix (Fin n) (Fin n) (Fl R))
    (h : M.Is n A) : (∃ M', lu fixed M = .ok M') ∨ lu fixed M = .ub .divZero := by
  obtain ⟨r, c, a⟩ := M
  obtain ⟨h1, h2, rfl⟩ := h
  simp only at h1 h2
  subst h1; subst h2
  rw [lu_eq]
  rcases luInplace_eqs c a with ⟨e, h1, -⟩ | h1
  · exact .inl ⟨_, h1⟩
  · exact .inr h1

private theorem solve_core {c : Nat} (e : Nat → Nat → Fl R) (P : Fin c → Fin c) (o : Nat → Nat)
    (ho : ∀ i : Fin c, o i = P i) (x b : Vec (Fl R)) (p : Fin c → Fl R)
    (hb : b.Is c p) (hx : x.size = c) (hu : (c + 1 : ℕ) * R.u < 1) :
    ((∀ i : Fin c, e i i ≠ 0) → ∃ (x' : Vec (Fl R)) (q : Fin c → Fl R) (L' U' : Matrix (Fin c) (Fin c) ℝ),
      (forwardSubst (⟨c, c, e⟩ : Mat (Fl R)) o b >>= fun y => backwardSubst ⟨c, c, e⟩ y x c) = .ok x' ∧
      x'.Is c q ∧ (L' * U').mulVec (realV q) = (fun i => realV p (P i)) ∧
      (∀ i j, |L' i j - realM (unitLower (blk c e)) i j| ≤ gamma R.u c * |realM (unitLower (blk c e)) i j|) ∧
      (∀ i j, |U' i j - realM (upper (blk c e)) i j| ≤ gamma R.u (c + 1) * |realM (upper (blk c e)) i j|)) ∧
    ((∃ i : Fin c, e i i = 0) →
      (forwardSubst (⟨c, c, e⟩ : Mat (Fl R)) o b >>= fun y => backwardSubst ⟨c, c, e⟩ y x c) =
        .ub .divZero) := by
  have h0 := R.u_nonneg
  have h1 := R.u_lt
  have hcu : (c : ℝ) * R.u < 1 := by push_cast at hu; linarith
  have ho' : ∀ i, i < c → o i < c := fun i hi => by rw [ho ⟨i, hi⟩]; exact (P ⟨i, hi⟩).2
  obtain ⟨y, yv, f1, f2, f3⟩ := forward_acc c e o ho' b
    (fun i => if h : i < c then p ⟨i, h⟩ else 0) hb.size (fun i hi => by
      rw [dif_pos hi]; exact hb.el ⟨i, hi⟩)
  rw [f1, Res.ok_bind]
  have key := backward_acc c e y x yv f2 (fun i hi => (f3 i hi).1) hx
  constructor
  · intro hd
    rcases key with ⟨x', xv, g1, g2, g3⟩ | ⟨-, i, hi, hz⟩
    · obtain ⟨T, T1, T2⟩ := forward_backward_error
        (bv := fun i => if h : o i < c then p ⟨o i, h⟩ else 0) (fun i hi => (f3 i hi).2)
      obtain ⟨S, S1, S2⟩ := backward_backward_error (fun i hi => (g3 i hi).2)
      obtain ⟨L', hL⟩ : ∃ L' : Matrix (Fin c) (Fin c) ℝ,
          ∀ i j, L' i j = unitLower (blk c fun i j => (e i j).val) i j * T i j := ⟨_, fun _ _ => rfl⟩
      obtain ⟨U', hU⟩ : ∃ U' : Matrix (Fin c) (Fin c) ℝ,
          ∀ i j, U' i j = upper (blk c fun i j => (e i j).val) i j * S i j := ⟨_, fun _ _ => rfl⟩
      refine ⟨x', fun i => xv i, L', U', g1, ⟨g2, fun i => (g3 i i.2).1⟩, ?_, fun i j => ?_, fun i j => ?_⟩
      · rw [← Matrix.mulVec_mulVec]
        have e1 : U'.mulVec (realV fun i : Fin c => xv i) = fun i : Fin c => (yv i).val := by
          funext i
          have := upper_mulVec (n := c) (fun i j => (e i j).val) (fun j => S i j * (xv j).val) i
          rw [← S2 i i.2] at this
          rw [← this]
          simp only [Matrix.mulVec, dotProduct, realV, hU, mul_assoc]
        rw [e1]
        funext i
        have := unitLower_mulVec (n := c) (fun i j => (e i j).val) (fun j => T i j * (yv j).val) i
        have hT := T2 i i.2
        rw [dif_pos (ho' i i.2)] at hT
        rw [← hT] at this
        have hpi : (p ⟨o i, ho' i i.2⟩) = p (P i) := by congr 1; exact Fin.ext (ho i)
        rw [hpi] at this
        simp only [realV]
        rw [← this]
        simp only [Matrix.mulVec, dotProduct, hL, mul_assoc]
      · rw [hL, realM_unitLower]
        exact le_trans (T1 i j i.2).abs_le
          (mul_le_mul_of_nonneg_right (phi_le_gamma h0 h1 hcu) (abs_nonneg _))
      · rw [hU, realM_upper]
        exact le_trans (S1 i j i.2).abs_le
          (mul_le_mul_of_nonneg_right (phi_le_gamma h0 h1 hu) (abs_nonneg _))
    · exact absurd hz (hd ⟨i, hi⟩)
  · rintro ⟨i, hi⟩
    rcases key with ⟨x', xv, g1, g2, g3⟩ | ⟨g, -⟩
    · exact absurd hi (g3 i i.2).2.1
    · exact g


/-- C98: `lu_solve(LU, x, b)` solves a system with slightly different triangular factors exactly: each element
of `L` changes by a relative error of at most `γ_n`, each element of `U` by at most `γ_{n+1}`. -/
theorem lu_solve_backward_stable (fixed fx fb : Bool) (LU : Mat (Fl R)) (n : Nat)
    (B : Matrix (Fin n) (Fin n) (Fl R)) (hB : LU.Is n B) (x b : Vec (Fl R)) (p : Fin n → Fl R)
    (hb : b.Is n p) (hx : x.size = n) (hu : (n + 1 : ℕ) * R.u < 1) :
    ((∀ i, B i i ≠ 0) → ∃ (x' : Vec (Fl R)) (q : Fin n → Fl R) (L' U' : Matrix (Fin n) (Fin n) ℝ),
      luSolve fixed fx fb LU x b = .ok x' ∧ x'.Is n q ∧ (L' * U').mulVec (realV q) = realV p ∧
      (∀ i j, |L' i j - realM (unitLower B) i j| ≤ gamma R.u n * |realM (unitLower B) i j|) ∧
      (∀ i j, |U' i j - realM (upper B) i j| ≤ gamma R.u (n + 1) * |realM (upper B) i j|)) ∧
    ((∃ i, B i i = 0) → luSolve fixed fx fb LU x b = .ub .divZero) := by
  obtain ⟨r, c, e⟩ := LU
  obtain ⟨h1, h2, rfl⟩ := hB
  simp only at h1 h2
  subst h1; subst h2
  have hs : luSolve fixed fx fb (⟨c, c, e⟩ : Mat (Fl R)) x b = (do
      let y ← forwardSubst (⟨c, c, e⟩ : Mat (Fl R)) (fun i => i) b
      backwardSubst ⟨c, c, e⟩ y x c) := by
    simp [luSolve, checkSquare, Res.require, hx, hb.size]
  rw [hs]
  exact solve_core e id (fun i => i) (fun _ => rfl) x b p hb hx hu

private theorem absM_mul_le {n : Nat} {L U X Y : Matrix (Fin n) (Fin n) ℝ} {α β : ℝ} (hα : 0 ≤ α)
    (hX : ∀ i j, |X i j - L i j| ≤ α * |L i j|) (hY : ∀ i j, |Y i j - U i j| ≤ β * |U i j|) (i j : Fin n) :
    |(X * Y) i j - (L * U) i j| ≤ (α + β + α * β) * (absM L * absM U) i j := by
  rw [Matrix.mul_apply, Matrix.mul_apply, Matrix.mul_apply, ← sum_sub_distrib, mul_sum]
  refine le_trans (abs_sum_le_sum_abs _ _) (sum_le_sum fun k _ => ?_)
  have e : X i k * Y k j - L i k * U k j =
      (X i k - L i k) * U k j + L i k * (Y k j - U k j) + (X i k - L i k) * (Y k j - U k j) := by ring
  have h1 : |(X i k - L i k) * U k j| ≤ α * (|L i k| * |U k j|) := by
    rw [abs_mul, ← mul_assoc]; exact mul_le_mul_of_nonneg_right (hX i k) (abs_nonneg _)
  have h2 : |L i k * (Y k j - U k j)| ≤ β * (|L i k| * |U k j|) := by
    rw [abs_mul, mul_left_comm]; exact mul_le_mul_of_nonneg_left (hY k j) (abs_nonneg _)
  have h3 : |(X i k - L i k) * (Y k j - U k j)| ≤ α * β * (|L i k| * |U k j|) := by
    rw [abs_mul, show α * β * (|L i k| * |U k j|) = (α * |L i k|) * (β * |U k j|) by ring]
    exact mul_le_mul (hX i k) (hY k j) (abs_nonneg _) (mul_nonneg hα (abs_nonneg _))
  rw [e]
  refine le_trans (abs_add_le _ _) (le_trans (add_le_add (abs_add_le _ _) h3) ?_)
  simp only [absM]
  linarith

private theorem gamma_nonneg {u : ℝ} (h0 : 0 ≤ u) {k : ℕ} (h : k * u < 1) : 0 ≤ gamma u k :=
  div_nonneg (mul_nonneg (Nat.cast_nonneg k) h0) (by linarith)

private theorem gamma_add {u : ℝ} (h0 : 0 ≤ u) {j k : ℕ} (h : (j + k : ℕ) * u < 1) :
    gamma u j + gamma u k + gamma u j * gamma u k ≤ gamma u (j + k) := by
  push_cast at h
  have hj : 0 ≤ j * u := mul_nonneg (Nat.cast_nonneg j) h0
  have hk : 0 ≤ k * u := mul_nonneg (Nat.cast_nonneg k) h0
  have e1 : ∀ m : ℕ, (m * u < 1) → gamma u m = (1 - m * u)⁻¹ - 1 := by
    intro m hm
    unfold gamma
    have : 1 - m * u ≠ 0 := by linarith
    field_simp; ring
  rw [e1 j (by linarith), e1 k (by linarith), e1 (j + k) (by push_cast; linarith)]
  have e2 : (1 - ((j + k : ℕ) : ℝ) * u) ≤ (1 - j * u) * (1 - k * u) := by
    push_cast; nlinarith [mul_nonneg hj hk]
  have e3 := inv_anti₀ (by push_cast; linarith) e2
  rw [mul_inv] at e3
  linarith

/-- C98: solving with `lu` and `lu_solve` in rounded arithmetic solves a nearby system exactly: the computed
solution `q` satisfies `(A + ΔA) q = b` with `|ΔA| ≤ γ_{3n+1} |L||U|` for the computed factors. -/
theorem lu_lu_solve_backward_stable (fixed fx fb : Bool) (M LU : Mat (Fl R)) (n : Nat)
    (A : Matrix (Fin n) (Fin n) (Fl R)) (hM : M.Is n A) (hL : lu fixed M = .ok LU)
    (x b x' : Vec (Fl R)) (p : Fin n → Fl R) (hb : b.Is n p) (hx : x.size = n)
    (hs : luSolve fixed fx fb LU x b = .ok x') (hu : (3 * n + 1 : ℕ) * R.u < 1) :
    ∃ (B : Matrix (Fin n) (Fin n) (Fl R)) (q : Fin n → Fl R) (A' : Matrix (Fin n) (Fin n) ℝ),
      LU.Is n B ∧ x'.Is n q ∧ A'.mulVec (realV q) = realV p ∧
      ∀ i j, |A' i j - realM A i j| ≤
        gamma R.u (3 * n + 1) * (absM (realM (unitLower B)) * absM (realM (upper B))) i j := by
  have h0 := R.u_nonneg
  have hn0 : 0 ≤ (n : ℝ) * R.u := mul_nonneg (Nat.cast_nonneg n) h0
  have hu' : 3 * ((n : ℝ) * R.u) + R.u < 1 := by push_cast at hu; linarith
  have hn : (n : ℝ) * R.u < 1 := by linarith
  have hn1 : ((n + 1 : ℕ) : ℝ) * R.u < 1 := by push_cast; linarith
  have hn2 : ((n + (n + 1) : ℕ) : ℝ) * R.u < 1 := by push_cast; linarith
  have hn3 : ((n + (n + (n + 1)) : ℕ) : ℝ) * R.u < 1 := by push_cast; linarith
  obtain ⟨B, hB, h1⟩ := lu_backward_stable fixed M LU n A hM hL hn
  obtain ⟨g1, g2⟩ := lu_solve_backward_stable fixed fx fb LU n B hB x b p hb hx hn1
  by_cases hz : ∃ i, B i i = 0
  · rw [g2 hz] at hs; cases hs
  · obtain ⟨x'', q, L', U', e1, e2, e3, e4, e5⟩ := g1 (fun i hi => hz ⟨i, hi⟩)
    rw [e1] at hs
    cases hs
    refine ⟨B, q, L' * U', hB, e2, e3, fun i j => ?_⟩
    have h2 := absM_mul_le (gamma_nonneg h0 hn) e4 e5 i j
    have h3 : 0 ≤ (absM (realM (unitLower B)) * absM (realM (upper B))) i j := by
      rw [Matrix.mul_apply]
      exact sum_nonneg fun k _ => mul_nonneg (abs_nonneg _) (abs_nonneg _)
    have h4 := gamma_add h0 hn2
    have h5 := gamma_add h0 hn3
    have h6 := mul_nonneg (gamma_nonneg h0 hn) (gamma_nonneg h0 hn2)
    rw [show n + (n + (n + 1)) = 3 * n + 1 by omega] at h5
    rw [show (L' * U') i j - realM A i j = ((L' * U') i j - (realM (unitLower B) * realM (upper B)) i j) +
      ((realM (unitLower B) * realM (upper B)) i j - realM A i j) by ring]
    refine le_trans (abs_add_le _ _) (le_trans (add_le_add h2 (h1 i j)) ?_)
    rw [← add_mul]
    exact mul_le_mul_of_nonneg_right (by linarith) h3

/-- C97: the same for the pivoted decomposition: if `lu_pivot` does not give up, its factors multiply to the
rows of the argument, in the order `order`, up to an error of at most `γ_n |L||U|`. -/
theorem lu_pivot_backward_stable (fixed : Bool) (eps : Fl R) (M : Mat (Fl R)) (n : Nat)
    (A : Matrix (Fin n) (Fin n) (Fl R)) (h : M.Is n A) (r : LuPivot (Fl R))
    (hr : luPivot fixed eps M = .ok r) (hs : r.sign ≠ 0) (hu : n * R.u < 1) :
    ∃ (σ : Equiv.Perm (Fin n)) (B : Matrix (Fin n) (Fin n) (Fl R)),
      (∀ i : Fin n, r.order i = σ i) ∧ r.sign = Equiv.Perm.sign σ ∧ r.lu.Is n B ∧
      ∀ i j, |(realM (unitLower B) * realM (upper B)) i j - realM A (σ i) j| ≤
        gamma R.u n * (absM (realM (unitLower B)) * absM (realM (upper B))) i j := by
  obtain ⟨rr, c, a⟩ := M
  obtain ⟨h1, h2, rfl⟩ := h
  simp only at h1 h2
  subst h1; subst h2
  have he : luPivot fixed eps (⟨c, c, a⟩ : Mat (Fl R)) = luPivotInplace eps ⟨c, c, a⟩ := by
    simp [luPivot, checkSquare, Res.require]
  rw [he] at hr
  have hf : Fabs.fabs (0 : Fl R) = 0 := Fl.ext (by simp)
  rcases luPivotInplace_gen (FlInv.kept (n := c) a) hf a (FlInv.start a) eps with ⟨r', h1, h2⟩ | ⟨h1, _⟩
  · rw [h1] at hr
    cases hr
    rcases h2 with ⟨e, σ, g1, g2, g3, g4⟩ | h2
    · refine ⟨σ, blk c e, g2, g3, by rw [g1]; exact ⟨rfl, rfl, rfl⟩, fun i j => ?_⟩
      rw [realM_unitLower, realM_upper, absM_unitLower, absM_upper]
      refine le_trans (g4.error i j) (mul_le_mul_of_nonneg_right (phi_le_gamma R.u_nonneg R.u_lt hu) ?_)
      rw [Matrix.mul_apply]
      refine sum_nonneg fun k _ => mul_nonneg ?_ ?_
      · rw [← absM_unitLower]; exact abs_nonneg _
      · rw [← absM_upper]; exact abs_nonneg _
    · exact absurd h2.1 hs
  · rw [h1] at hr; cases hr

/-- C97: with rounded arithmetic, too, `lu_pivot` of a square matrix with a positive threshold always
returns. -/
theorem lu_pivot_rounded_returns (fixed : Bool) (eps : Fl R) (M : Mat (Fl R)) (n : Nat)
    (A : Matrix (Fin n) (Fin n) (Fl R)) (h : M.Is n A) (he : 0 < eps) :
    ∃ r, luPivot fixed eps M = .ok r ∧ ∃ σ : Equiv.Perm (Fin n), ∀ i : Fin n, r.order i = σ i := by
  obtain ⟨rr, c, a⟩ := M
  obtain ⟨h1, h2, rfl⟩ := h
  simp only at h1 h2
  subst h1; subst h2
  have hr : luPivot fixed eps (⟨c, c, a⟩ : Mat (Fl R)) = luPivotInplace eps ⟨c, c, a⟩ := by
    simp [luPivot, checkSquare, Res.require]
  rw [hr]
  have hf : Fabs.fabs (0 : Fl R) = 0 := Fl.ext (by simp)
  rcases luPivotInplace_gen (FlInv.kept (n := c) a) hf a (FlInv.start a) eps with ⟨r', h1, h2⟩ | ⟨_, h2⟩
  · refine ⟨r', h1, ?_⟩
    rcases h2 with ⟨e, σ, g1, g2, g3, g4⟩ | ⟨-, e, σ, k', g1, g2, -⟩
    · exact ⟨σ, g2⟩
    · exact ⟨σ, g2⟩
  · exact absurd he (not_lt.mpr h2)

/-- C98: solving with `lu_pivot` and `lu_solve` in rounded arithmetic solves a nearby system exactly: the
computed solution `q` satisfies `(A + ΔA) q = b` with `|ΔA| ≤ γ_{3n+1} Pᵀ|L||U|`. -/
theorem lu_pivot_solve_backward_stable (fixed fx fb : Bool) (eps : Fl R) (M : Mat (Fl R)) (n : Nat)
    (A : Matrix (Fin n) (Fin n) (Fl R)) (hM : M.Is n A) (r : LuPivot (Fl R))
    (hr : luPivot fixed eps M = .ok r) (x b x' : Vec (Fl R)) (p : Fin n → Fl R) (hb : b.Is n p)
    (hx : x.size = n) (hs : luPivotSolve fx fb r x b = .ok x') (hu : (3 * n + 1 : ℕ) * R.u < 1) :
    ∃ (σ : Equiv.Perm (Fin n)) (B : Matrix (Fin n) (Fin n) (Fl R)) (q : Fin n → Fl R)
      (A' : Matrix (Fin n) (Fin n) ℝ), (∀ i : Fin n, r.order i = σ i) ∧ r.lu.Is n B ∧ x'.Is n q ∧
      A'.mulVec (realV q) = realV p ∧
      ∀ i j, |A' (σ i) j - realM A (σ i) j| ≤
        gamma R.u (3 * n + 1) * (absM (realM (unitLower B)) * absM (realM (upper B))) i j := by
  have h0 := R.u_nonneg
  have hn0 : 0 ≤ (n : ℝ) * R.u := mul_nonneg (Nat.cast_nonneg n) h0
  have hu' : 3 * ((n : ℝ) * R.u) + R.u < 1 := by push_cast at hu; linarith
  have hn : (n : ℝ) * R.u < 1 := by linarith
  have hn1 : ((n + 1 : ℕ) : ℝ) * R.u < 1 := by push_cast; linarith
  have hn2 : ((n + (n + 1) : ℕ) : ℝ) * R.u < 1 := by push_cast; linarith
  have hn3 : ((n + (n + (n + 1)) : ℕ) : ℝ) * R.u < 1 := by push_cast; linarith
  have hsign : r.sign ≠ 0 := by
    intro hz
    unfold luPivotSolve at hs
    simp only [Res.require, hz] at hs
    split at hs <;> split at hs <;> simp at hs
  obtain ⟨σ, B, g1, -, hB, h1⟩ := lu_pivot_backward_stable fixed eps M n A hM r hr hsign hn
  obtain ⟨⟨rr, c, e⟩, o, sg⟩ := r
  obtain ⟨k1, k2, rfl⟩ := hB
  simp only at k1 k2 g1 hsign
  subst k1; subst k2
  have hs' : luPivotSolve fx fb ⟨⟨c, c, e⟩, o, sg⟩ x b = (do
      let y ← forwardSubst (⟨c, c, e⟩ : Mat (Fl R)) o b
      backwardSubst ⟨c, c, e⟩ y x c) := by
    simp [luPivotSolve, Res.require, hx, hb.size, hsign]
  rw [hs'] at hs
  obtain ⟨s1, s2⟩ := solve_core e σ o g1 x b p hb hx hn1
  by_cases hz : ∃ i : Fin c, e i i = 0
  · rw [s2 hz] at hs; cases hs
  · obtain ⟨x'', q, L', U', e1, e2, e3, e4, e5⟩ := s1 (fun i hi => hz ⟨i, hi⟩)
    rw [e1] at hs
    cases hs
    refine ⟨σ, blk c e, q, (L' * U').submatrix σ.symm id, g1, ⟨rfl, rfl, rfl⟩, e2, ?_, fun i j => ?_⟩
    · funext i
      have := congrFun e3 (σ.symm i)
      rw [Equiv.apply_symm_apply] at this
      rw [← this]
      rfl
    · rw [Matrix.submatrix_apply, Equiv.symm_apply_apply, id]
      have h2 := absM_mul_le (gamma_nonneg h0 hn) e4 e5 i j
      have h3 : 0 ≤ (absM (realM (unitLower (blk c e))) * absM (realM (upper (blk c e)))) i j := by
        rw [Matrix.mul_apply]
        exact sum_nonneg fun k _ => mul_nonneg (abs_nonneg _) (abs_nonneg _)
      have h4 := gamma_add h0 hn2
      have h5 := gamma_add h0 hn3
      have h6 := mul_nonneg (gamma_nonneg h0 hn) (gamma_nonneg h0 hn2)
      have h7 : |(realM (unitLower (blk c e)) * realM (upper (blk c e))) i j - realM A (σ i) j| ≤
        gamma R.u c * (absM (realM (unitLower (blk c e))) * absM (realM (upper (blk c e)))) i j := h1 i j
      rw [show c + (c + (c + 1)) = 3 * c + 1 by omega] at h5
      have h8 := abs_add_le ((L' * U') i j - (realM (unitLower (blk c e)) * realM (upper (blk c e))) i j)
        ((realM (unitLower (blk c e)) * realM (upper (blk c e))) i j - realM A (σ i) j)
      rw [sub_add_sub_cancel] at h8
      refine le_trans h8 (le_trans (add_le_add h2 h7) ?_)
      rw [← add_mul]
      exact mul_le_mul_of_nonneg_right (by linarith) h3

end

/-! ### Examples: double precision -/

/-- Double precision (without bounds on the exponent). -/
noncomputable abbrev double : Rounding := binaryRounding 52

private theorem double_u : double.u = (2 : ℝ)⁻¹ ^ 53 := rfl

/-- Rounding really changes numbers: `1 + 2⁻⁵³` is not a double. -/
example : double.fl (1 + (2 : ℝ)⁻¹ ^ 53) ≠ 1 + (2 : ℝ)⁻¹ ^ 53 := by
  have hl : Int.log 2 |(1 + (2 : ℝ)⁻¹ ^ 53)| = 0 := by
    rw [abs_of_pos (by positivity), Int.log_of_one_le_right _ (by norm_num)]
    have : ⌊(1 + (2 : ℝ)⁻¹ ^ 53)⌋₊ = 1 := by
      rw [Nat.floor_eq_iff (by positivity)]; norm_num
    rw [this]; rfl
  intro h
  simp only [double, binaryRounding, binaryFl, hl] at h
  set c : ℝ := (2 : ℝ) ^ ((0 : ℤ) + 1 - ((52 + 1 : ℕ) : ℤ)) with hc
  have hc2 : c = (2 : ℝ)⁻¹ ^ 52 := by
    rw [hc, show (0 : ℤ) + 1 - ((52 + 1 : ℕ) : ℤ) = -((52 : ℕ) : ℤ) by norm_num, zpow_neg, zpow_natCast, inv_pow]
  rw [hc2] at h
  set z : ℤ := round ((1 + (2 : ℝ)⁻¹ ^ 53) / (2 : ℝ)⁻¹ ^ 52) with hz
  have h2 : (2 * z : ℝ) = 2 ^ 53 + 1 := by
    have : (2 * z : ℝ) = (z * (2 : ℝ)⁻¹ ^ 52) * 2 ^ 53 := by norm_num
    rw [this, h]; norm_num
  have h3 : 2 * z = 2 ^ 53 + 1 := by exact_mod_cast h2
  omega

/-- Two vectors. -/
private theorem ex_is (s : State (Fl double)) (x y : Fl double) : VIs s (.temp true [x, y]) 2 ![x, y] :=
  ⟨⟨rfl, fun i => by fin_cases i <;> rfl⟩, true, VNode.Typed.temp rfl⟩

private theorem ex_u {k : ℕ} (h : k ≤ 10) : (k : ℝ) * double.u < 1 := by
  have : (k : ℝ) ≤ 10 := by exact_mod_cast h
  rw [double_u]
  nlinarith [show (2 : ℝ)⁻¹ ^ 53 ≤ 1 / 100 by norm_num, show (0 : ℝ) ≤ (2 : ℝ)⁻¹ ^ 53 by positivity]

example (s : State (Fl double)) := dot_error (ex_is s ⟨1 / 3⟩ ⟨1 / 7⟩) (ex_is s ⟨5⟩ ⟨-8⟩) (by norm_num)
  (ex_u (k := 2) (by norm_num))
example (s : State (Fl double)) := dot_backward_stable (ex_is s ⟨1 / 3⟩ ⟨1 / 7⟩) (ex_is s ⟨5⟩ ⟨-8⟩) (by norm_num)
  (ex_u (k := 2) (by norm_num))
example (s : State (Fl double)) := length_squared_error (ex_is s ⟨1 / 3⟩ ⟨1 / 7⟩) (by norm_num)
  (ex_u (k := 2) (by norm_num))
example (s : State (Fl double)) := length_squared_pos (ex_is s ⟨1 / 3⟩ ⟨1 / 7⟩) (by norm_num)
  (by have := ex_u (k := 4) (by norm_num); push_cast at this ⊢; linarith)

/-- A matrix. -/
private theorem ex_mat (s : State (Fl double)) (x y z w : Fl double) :
    MMat s (.temp ⟨false, 2, 2, [x, y, z, w]⟩) !![x, y; z, w] :=
  ⟨⟨rfl, fun i j => by fin_cases i <;> fin_cases j <;> rfl⟩, false, MNode.Typed.temp⟩

example (s : State (Fl double)) := matMul_error (by norm_num) (ex_mat s ⟨1 / 3⟩ ⟨2⟩ ⟨1⟩ ⟨-1⟩)
  (ex_mat s ⟨5⟩ ⟨1 / 11⟩ ⟨0⟩ ⟨6⟩) (by rintro ⟨⟩) (by rintro ⟨⟩) (ex_u (k := 2) (by norm_num))
example (s : State (Fl double)) := matVec_error (by norm_num) (ex_mat s ⟨1 / 3⟩ ⟨2⟩ ⟨1⟩ ⟨-1⟩)
  (ex_is s ⟨5⟩ ⟨-8⟩) (by rintro ⟨⟩) (ex_u (k := 2) (by norm_num))
example (s : State (Fl double)) := vecMat_error (by norm_num) (ex_is s ⟨5⟩ ⟨-8⟩)
  (ex_mat s ⟨1 / 3⟩ ⟨2⟩ ⟨1⟩ ⟨-1⟩) (by rintro ⟨⟩) (ex_u (k := 2) (by norm_num))

private theorem fl_ne_zero {x : ℝ} (hx : x ≠ 0) : R.fl x ≠ 0 := by
  obtain ⟨t, -, -, h1, h2⟩ := R.fac x
  rw [h2]
  exact mul_ne_zero hx h1

private theorem fl_zero : R.fl 0 = 0 := by
  obtain ⟨t, -, -, h1, h2⟩ := R.fac 0
  rw [h2, zero_mul]

/-- A matrix that has a decomposition in any arithmetic. -/
private noncomputable def exMat (R : Rounding) : Mat (Fl R) := Mat.of !![⟨3⟩, ⟨1⟩; ⟨0⟩, ⟨5⟩]

private theorem ex_ops (x : Fl R) : (⟨0⟩ : Fl R) / x = 0 ∧ 0 * x = 0 ∧ (0 : Fl R) + 0 = 0 ∧ (0 : Fl R) - 0 = 0 := by
  refine ⟨?_, ?_, ?_, ?_⟩ <;> apply Fl.ext
  · rw [Fl.div_val]; simp [fl_zero]
  · rw [Fl.mul_val]; simp [fl_zero]
  · rw [Fl.add_val]; simp [fl_zero]
  · rw [Fl.sub_val]; simp [fl_zero]

private theorem ex_sub {x : ℝ} (hx : x ≠ 0) : (⟨x⟩ : Fl R) - 0 ≠ 0 := fun h =>
  fl_ne_zero (R := R) (x := x - 0) (by simpa using hx) (congrArg Fl.val h)

private theorem ex_lu : ∃ M', lu true (exMat R) = .ok M' ∧ M'.rows = 2 ∧ M'.cols = 2 ∧
    M'.el 0 0 ≠ 0 ∧ M'.el 1 1 ≠ 0 := by
  have h3 : (⟨3⟩ : Fl R) - 0 ≠ 0 := ex_sub (by norm_num)
  have h5 : (⟨5⟩ : Fl R) - 0 ≠ 0 := ex_sub (by norm_num)
  have hz : (⟨0⟩ : Fl R) = 0 := rfl
  have hd : ∀ x : Fl R, 0 / x = 0 := fun x => (ex_ops x).1
  have hm : ∀ x : Fl R, 0 * x = 0 := fun x => (ex_ops x).2.1
  have ha := (ex_ops (0 : Fl R)).2.2.1
  have hs := (ex_ops (0 : Fl R)).2.2.2
  simp [exMat, lu, luInplace, Mat.of, checkSquare, Res.require, Res.loop, luUpperStep, luLowerStep, luSum, Mat.get,
    Mat.put, Mat.set, divR, h3, h5, hz, hd, hm, ha, hs, Res.bind]

private theorem ex_solve : ∃ (LU : Mat (Fl double)) (x' : Vec (Fl double)), lu true (exMat double) = .ok LU ∧
    luSolve true true true LU (Vec.fresh 2) ⟨2, fun i => some (![⟨7⟩, ⟨1 / 9⟩] (Fin.ofNat 2 i))⟩ = .ok x' := by
  obtain ⟨M', h, hr, hc, h0, h1⟩ := ex_lu (R := double)
  obtain ⟨x', q, -, -, h2, -⟩ := (lu_solve_backward_stable true true true M' 2 (M'.toMatrix 2 2) ⟨hr, hc, rfl⟩
    (Vec.fresh 2) ⟨2, fun i => some (![⟨7⟩, ⟨1 / 9⟩] (Fin.ofNat 2 i))⟩ ![⟨7⟩, ⟨1 / 9⟩]
    ⟨rfl, fun i => by fin_cases i <;> rfl⟩ rfl (ex_u (k := 3) (by norm_num))).1
    (fun i => by fin_cases i <;> assumption)
  exact ⟨M', x', h, h2⟩

example : ∃ (B : Matrix (Fin 2) (Fin 2) (Fl double)) (q : Fin 2 → Fl double) (A' : Matrix (Fin 2) (Fin 2) ℝ),
    A'.mulVec (realV q) = ![7, 1 / 9] ∧
    ∀ i j, |A' i j - !![3, 1; 0, 5] i j| ≤
      gamma double.u 7 * (absM (realM (unitLower B)) * absM (realM (upper B))) i j := by
  obtain ⟨LU, x', h1, h2⟩ := ex_solve
  obtain ⟨B, q, A', -, -, h3, h4⟩ := lu_lu_solve_backward_stable true true true (exMat double) LU 2 _
    (Mat.of_is _) h1 _ _ x' ![⟨7⟩, ⟨1 / 9⟩] ⟨rfl, fun i => by fin_cases i <;> rfl⟩ rfl h2
    (ex_u (k := 7) (by norm_num))
  refine ⟨B, q, A', ?_, fun i j => ?_⟩
  · rw [h3]; funext i; fin_cases i <;> rfl
  · have := h4 i j
    fin_cases i <;> fin_cases j <;> exact this

private theorem ex_pivot : ∃ r, luPivot true ⟨1 / 1000⟩ (exMat double) = .ok r ∧ r.sign ≠ 0 := by
  have hz : (⟨0⟩ : Fl double) = 0 := rfl
  have h3 : (⟨3⟩ : Fl double) ≠ 0 := fun h => by
    have := congrArg Fl.val h; norm_num at this
  have h4 : ¬ (⟨3⟩ : Fl double) < Fabs.fabs 0 := by rw [Fl.lt_iff]; norm_num
  have h5 : ¬ (⟨3⟩ : Fl double) < ⟨1000⁻¹⟩ := by rw [Fl.lt_iff]; norm_num
  simp [exMat, luPivot, luPivotInplace, luPivotBody, luPivotStep, pivotSearch, Mat.of, checkSquare, Res.require,
    Res.loop, Mat.get, Mat.put, Mat.set, divR, schurRow, h3, h4, h5, hz, Res.bind]

example : ∃ (r : LuPivot (Fl double)) (σ : Equiv.Perm (Fin 2)) (B : Matrix (Fin 2) (Fin 2) (Fl double)),
    luPivot true ⟨1 / 1000⟩ (exMat double) = .ok r ∧ r.lu.Is 2 B ∧ ∀ i : Fin 2, r.order i = σ i := by
  obtain ⟨r, h1, h2⟩ := ex_pivot
  obtain ⟨σ, B, h3, -, h4, -⟩ := lu_pivot_backward_stable true _ (exMat double) 2 _ (Mat.of_is _) r h1 h2
    (ex_u (k := 2) (by norm_num))
  exact ⟨r, σ, B, h1, h4, h3⟩

#print axioms lu_pivot_backward_stable
#print axioms lu_pivot_rounded_returns
#print axioms lu_pivot_solve_backward_stable
#print axioms dot_backward_stable
#print axioms dot_error
#print axioms length_squared_error
#print axioms length_squared_pos
#print axioms matMul_error
#print axioms matVec_error
#print axioms vecMat_error
#print axioms lu_backward_stable
#print axioms lu_rounded_outcome
#print axioms lu_solve_backward_stable
#print axioms lu_lu_solve_backward_stable

end CML
