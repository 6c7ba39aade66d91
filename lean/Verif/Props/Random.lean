import Mathlib.Analysis.SpecialFunctions.Trigonometric.Inverse
import Verif.Model.Geometry
import Verif.Lemmas.Geom
import Verif.Lemmas.Lin
import Verif.Props.Align
import Verif.Props.Scalar
import Verif.Props.Angles

/-!
C74: random unit vectors, for every sequence of values that the random number generators may return.
-/

namespace CML
open Matrix

/-! ### Specification -/

/-- The `k`-th attempt at a vector of `s` elements: the next `s` values of the generator. -/
def attempt (gen : Nat → ℝ) (s k : Nat) : Fin s → ℝ := fun i => gen (k * s + i)

/-- The direction of a vector. -/
noncomputable def direction {n : Nat} (x : Fin n → ℝ) : Fin n → ℝ := (eucl x)⁻¹ • x

/-! ### Auxiliary lemmas -/

private theorem add_is {a b : AVec ℝ} {n : Nat} {x y : Fin n → ℝ} (ha : a.Is n x) (hb : b.Is n y) :
    ∃ w, a.add b = .ok w ∧ w.Is n (x + y) := by
  obtain ⟨ha, rfl⟩ := ha
  obtain ⟨hb, rfl⟩ := hb
  rw [AVec.add, AVec.checkSame_ok (ha.trans hb.symm)]
  exact ⟨_, rfl, ha, rfl⟩

/-- Spherical interpolation stays on the unit sphere and turns by the angle `α`. -/
private theorem slerp_unit {n : Nat} {A B : Fin n → ℝ} (hA : A ⬝ᵥ A = 1) (hB : B ⬝ᵥ B = 1) {O : ℝ}
    (hO : A ⬝ᵥ B = Real.cos O) (hs : Real.sin O ≠ 0) (α : ℝ) :
    ((Real.sin O)⁻¹ • (Real.sin (O - α) • A + Real.sin α • B)) ⬝ᵥ
      ((Real.sin O)⁻¹ • (Real.sin (O - α) • A + Real.sin α • B)) = 1 ∧
    A ⬝ᵥ ((Real.sin O)⁻¹ • (Real.sin (O - α) • A + Real.sin α • B)) = Real.cos α := by
  have hO' : B ⬝ᵥ A = Real.cos O := by rw [dotProduct_comm, hO]
  have e1 := Real.sin_sq_add_cos_sq O
  have e2 := Real.sin_sq_add_cos_sq α
  constructor
  · simp only [smul_dotProduct, dotProduct_smul, dotProduct_add, add_dotProduct, hA, hB, hO, hO', smul_eq_mul,
      Real.sin_sub]
    field_simp
    linear_combination (-Real.sin α ^ 2) * e1 + Real.sin O ^ 2 * e2
  · simp only [dotProduct_smul, dotProduct_add, hA, hO, smul_eq_mul, Real.sin_sub]
    field_simp
    ring

/-! ### The whole sphere -/

private theorem loop_run {gen : Nat → ℝ} {s : Nat} (hs : 0 < s) : ∀ (fuel : Nat) (n : AVec ℝ) (p : Nat),
    n.size = s →
    (∀ k, (∀ j, j < k → attempt gen s (p + j) = 0) → attempt gen s (p + k) ≠ 0 → k < fuel →
      ∃ w, randomUnitLoop gen fuel n (p * s) = some (.ok w) ∧ w.Is s (direction (attempt gen s (p + k))) ∧
        w.fixed = n.fixed) ∧
    ((∀ j, j < fuel → attempt gen s (p + j) = 0) → randomUnitLoop gen fuel n (p * s) = none)
  | 0, n, p, hn => ⟨fun k _ _ h => absurd h (Nat.not_lt_zero _), fun _ => rfl⟩
  | fuel + 1, n, p, hn => by
    have his : (⟨n.fixed, n.size, fun i => if i < n.size then gen (p * s + i) else n.el i⟩ : AVec ℝ).Is s
        (attempt gen s p) := by
      refine ⟨hn, ?_⟩
      funext i
      simp [AVec.vec, hn, attempt]
    have hl := AVec.lengthSquared_ok (a := ⟨n.fixed, n.size, fun i => if i < n.size then gen (p * s + i)
      else n.el i⟩) hn hs
    have hsum : (∑ i : Fin s, (if (i : Nat) < n.size then gen (p * s + i) else n.el i) *
        (if (i : Nat) < n.size then gen (p * s + i) else n.el i)) = attempt gen s p ⬝ᵥ attempt gen s p := by
      simp [dotProduct, attempt, hn]
    simp only [hsum] at hl
    have ih := loop_run (gen := gen) hs fuel ⟨n.fixed, n.size, fun i => if i < n.size then gen (p * s + i) else n.el i⟩
      (p + 1) hn
    have hp : p * s + n.size = (p + 1) * s := by rw [hn]; ring
    constructor
    · intro k h1 h2 h3
      rcases Nat.eq_zero_or_pos k with rfl | hk
      · have hx : attempt gen s p ≠ 0 := h2
        obtain ⟨w, e1, e2, e3⟩ := AVec.normalized_is his hx
        refine ⟨w, ?_, e2, e3⟩
        rw [randomUnitLoop]
        simp only [hl, (dot_self_pos hx).ne', if_false, e1]
      · have hx : attempt gen s p = 0 := h1 0 hk
        obtain ⟨w, e1, e2, e3⟩ := ih.1 (k - 1)
          (fun j hj => by
            have := h1 (j + 1) (by omega)
            rwa [← Nat.add_assoc, Nat.add_right_comm] at this)
          (by rwa [show p + 1 + (k - 1) = p + k by omega]) (by omega)
        rw [show p + 1 + (k - 1) = p + k by omega] at e2
        refine ⟨w, ?_, e2, e3⟩
        rw [randomUnitLoop]
        simp only [hl, hx, dotProduct_zero, if_true, hp]
        exact e1
    · intro h1
      have hx : attempt gen s p = 0 := h1 0 (Nat.succ_pos _)
      rw [randomUnitLoop]
      simp only [hl, hx, dotProduct_zero, if_true, hp]
      exact ih.2 fun j hj => by
        have := h1 (j + 1) (by omega)
        rwa [← Nat.add_assoc, Nat.add_right_comm] at this

theorem direction_unit {n : Nat} {x : Fin n → ℝ} (hx : x ≠ 0) : direction x ⬝ᵥ direction x = 1 :=
  normalize_unit hx

/-- C74: `random_unit(n, gen)` returns the direction of the first attempt that is not zero, which is a unit
vector. -/
theorem randomUnit_spec {n : AVec ℝ} (hs : 0 < n.size) (gen : Nat → ℝ) {k fuel : Nat}
    (h1 : ∀ j, j < k → attempt gen n.size j = 0) (h2 : attempt gen n.size k ≠ 0) (hf : k < fuel) :
    ∃ w x, randomUnit n gen fuel = some (.ok w) ∧ w.Is n.size x ∧ w.fixed = n.fixed ∧
      x = direction (attempt gen n.size k) ∧ x ⬝ᵥ x = 1 := by
  obtain ⟨w, e1, e2, e3⟩ := (loop_run hs fuel n 0 rfl (gen := gen)).1 k (by simpa using h1)
    (by simpa using h2) hf
  simp only [Nat.zero_mul, Nat.zero_add] at e1 e2
  refine ⟨w, _, ?_, e2, e3, rfl, direction_unit h2⟩
  simp only [randomUnit, AVec.checkMin_ok (show 1 ≤ n.size from hs), e1]

/-- C74: while all attempts are zero, the loop does not end. -/
theorem randomUnit_continues {n : AVec ℝ} (hs : 0 < n.size) (gen : Nat → ℝ) {fuel : Nat}
    (h : ∀ j, j < fuel → attempt gen n.size j = 0) : randomUnit n gen fuel = none := by
  have := (loop_run hs fuel n 0 rfl (gen := gen)).2 (by simpa using h)
  simp only [Nat.zero_mul] at this
  simp only [randomUnit, AVec.checkMin_ok (show 1 ≤ n.size from hs), this]

/-- C74: so the loop ends exactly if some attempt is not zero. -/
theorem randomUnit_ends_iff {n : AVec ℝ} (hs : 0 < n.size) (gen : Nat → ℝ) :
    (∃ fuel r, randomUnit n gen fuel = some r) ↔ ∃ k, attempt gen n.size k ≠ 0 := by
  constructor
  · rintro ⟨fuel, r, h⟩
    by_contra hc
    push Not at hc
    rw [randomUnit_continues hs gen fun j _ => hc j] at h
    cases h
  · intro h
    classical
    obtain ⟨w, x, e1, -⟩ := randomUnit_spec hs gen (k := Nat.find h)
      (fun j hj => not_not.1 (Nat.find_min h hj)) (Nat.find_spec h) (Nat.lt_succ_self _)
    exact ⟨_, _, e1⟩

/-- C74: a vector without elements is rejected. -/
theorem randomUnit_throws {n : AVec ℝ} (hs : n.size = 0) (gen : Nat → ℝ) (fuel : Nat) :
    randomUnit n gen fuel = some (.throw (if n.fixed then .staticAssert else .vecMinimum)) := by
  simp [randomUnit, AVec.checkMinimumSize, Res.require, hs]

/-! ### The cone -/

/-- C74: in two dimensions the result is `d` turned by the random angle, so within the cone. -/
theorem randomCone2D_spec {n d : AVec ℝ} {y : Fin 2 → ℝ} (hn : n.size = 2) (hd : d.Is 2 y)
    (hy : y ⬝ᵥ y = 1) (θ : ℝ) :
    ∃ w z, randomCone2D n d θ = .ok w ∧ w.Is 2 z ∧ w.fixed = n.fixed ∧ z ⬝ᵥ z = 1 ∧
      y ⬝ᵥ z = Real.cos θ ∧ z = (planeRot θ).mulVec y := by
  have e0 : d.el 0 = y 0 := hd.el 0
  have e1 : d.el 1 = y 1 := hd.el 1
  have hyy : y 0 * y 0 + y 1 * y 1 = 1 := by rw [← hy, dotProduct, Fin.sum_univ_two]
  set z : Fin 2 → ℝ := ![Real.cos θ * y 0 - Real.sin θ * y 1, Real.sin θ * y 0 + Real.cos θ * y 1] with hz
  have hzz : z ⬝ᵥ z = 1 := by
    simp only [hz, dotProduct, Fin.sum_univ_two, cons_val_zero, cons_val_one]
    linear_combination (Real.sin θ ^ 2 + Real.cos θ ^ 2) * hyy + Real.sin_sq_add_cos_sq θ
  have hz0 : z ≠ 0 := by
    intro h
    rw [h] at hzz
    simp at hzz
  have hput : ∃ v : AVec ℝ, (do
      let n ← n.put 0 (Real.cos θ * y 0 - Real.sin θ * y 1)
      n.put 1 (Real.sin θ * y 0 + Real.cos θ * y 1)) = .ok v ∧ v.Is 2 z ∧ v.fixed = n.fixed := by
    simp [AVec.put, hn, AVec.Is, AVec.vec, hz, funext_iff, Fin.forall_fin_two]
  obtain ⟨v, f1, f2, f3⟩ := hput
  obtain ⟨w, g1, g2, g3⟩ := AVec.normalized_is f2 hz0
  rw [hzz, Real.sqrt_one, inv_one, one_smul] at g2
  refine ⟨w, z, ?_, g2, g3.trans f3, hzz, ?_, ?_⟩
  · simp only [AVec.put, hn] at f1
    simp only [randomCone2D, AVec.get, hd.1, e0, e1, AVec.put, hn]
    simp at f1 ⊢
    rw [f1]
    exact g1
  · simp only [hz, dotProduct, Fin.sum_univ_two, cons_val_zero, cons_val_one]
    linear_combination Real.cos θ * hyy
  · funext i
    fin_cases i <;> simp [hz, planeRot, Matrix.mulVec, dotProduct, Fin.sum_univ_two] <;> ring

/-- C74: in any dimension, a unit vector that is not parallel to `d` is mapped to a unit vector whose angle
to `d` is the angle to `d` (folded to at most a quarter turn) scaled from the quarter turn to `a`. -/
theorem randomConeMap_spec {n d : AVec ℝ} {k : Nat} {x y : Fin k → ℝ} (hn : n.Is k x) (hd : d.Is k y)
    (hk : 0 < k) (hx : x ⬝ᵥ x = 1) (hy : y ⬝ᵥ y = 1) (hp : x ≠ y) (hm : x ≠ -y) {a : ℝ} (ha0 : 0 < a)
    (ha1 : a ≤ Real.pi / 2) :
    ∃ w z, randomConeMap n d a = .ok w ∧ w.Is k z ∧ w.fixed = n.fixed ∧ z ⬝ᵥ z = 1 ∧
      y ⬝ᵥ z = Real.cos (Real.arccos |x ⬝ᵥ y| / (Real.pi / 2) * a) ∧ Real.cos a ≤ y ⬝ᵥ z := by
  have hpi := Real.pi_pos
  have hc1 : x ⬝ᵥ y < 1 := by
    have := dot_self_pos (sub_ne_zero.2 hp)
    simp only [sub_dotProduct, dotProduct_sub, hx, hy, dotProduct_comm y x] at this
    linarith
  have hc2 : -1 < x ⬝ᵥ y := by
    have := dot_self_pos (x := x + y) (fun h => hm (eq_neg_of_add_eq_zero_left h))
    simp only [add_dotProduct, dotProduct_add, hx, hy, dotProduct_comm y x] at this
    linarith
  set c := x ⬝ᵥ y with hcdef
  -- the reoriented vector
  obtain ⟨X, hX, hXX, hXy⟩ : ∃ X : Fin k → ℝ, (if c < 0 then n.neg else n).Is k X ∧ X ⬝ᵥ X = 1 ∧
      y ⬝ᵥ X = |c| := by
    by_cases h : c < 0
    · refine ⟨-x, ?_, ?_, ?_⟩
      · rw [if_pos h]; exact AVec.neg_is hn
      · simp [hx]
      · rw [dotProduct_neg, dotProduct_comm, ← hcdef, abs_of_neg h]
    · refine ⟨x, ?_, hx, ?_⟩
      · rw [if_neg h]; exact hn
      · rw [dotProduct_comm, ← hcdef, abs_of_nonneg (not_lt.1 h)]
  have hCabs : (if c < 0 then -c else c) = |c| := by
    split
    · rw [abs_of_neg ‹_›]
    · rw [abs_of_nonneg (not_lt.1 ‹_›)]
  have hC1 : |c| < 1 := abs_lt.2 ⟨hc2, hc1⟩
  have hC0 : 0 ≤ |c| := abs_nonneg c
  generalize |c| = C at *
  have hacos : acosSafe C = Real.arccos C := by
    rw [acosSafe, (clamp_cases (by norm_num : (-1 : ℝ) ≤ 1)).2.2 (by linarith) hC1.le]
  have hcosO : Real.cos (Real.arccos C) = C := Real.cos_arccos (by linarith) hC1.le
  have hO0 : 0 < Real.arccos C := Real.arccos_pos.2 hC1
  have hO1 : Real.arccos C ≤ Real.pi / 2 := Real.arccos_le_pi_div_two.2 hC0
  generalize Real.arccos C = O at *
  have hsO : 0 < Real.sin O := Real.sin_pos_of_pos_of_lt_pi hO0 (by linarith)
  have hsa : 0 < Real.sin a := Real.sin_pos_of_pos_of_lt_pi ha0 (by linarith)
  have hXy' : y ⬝ᵥ X = Real.cos O := by rw [hXy, hcosO]
  obtain ⟨u1, u2⟩ := slerp_unit hy hXX hXy' hsO.ne' a
  obtain ⟨e1, p1, q1⟩ := add_is (AVec.smul_is hd (Real.sin (O - a))) (AVec.smul_is hX (Real.sin a))
  obtain ⟨na, p2, q2, -⟩ := AVec.sdiv_is q1 hsO.ne'
  generalize (Real.sin O)⁻¹ • (Real.sin (O - a) • y + Real.sin a • X) = nA at *
  obtain ⟨v1, v2⟩ := slerp_unit hy u1 u2 hsa.ne' (O / (Real.pi / 2) * a)
  have harg : (1 - O / (Real.pi / 2)) * a = a - O / (Real.pi / 2) * a := by ring
  obtain ⟨e2, p3, q3⟩ := add_is (AVec.smul_is hd (Real.sin ((1 - O / (Real.pi / 2)) * a)))
    (AVec.smul_is q2 (Real.sin (O / (Real.pi / 2) * a)))
  obtain ⟨r, p4, q4, -⟩ := AVec.sdiv_is q3 hsa.ne'
  rw [harg] at q4
  generalize (Real.sin a)⁻¹ • (Real.sin (a - O / (Real.pi / 2) * a) • y +
    Real.sin (O / (Real.pi / 2) * a) • nA) = z at *
  refine ⟨{ n with el := r.el }, z, ?_, ?_, rfl, v1, v2, ?_⟩
  · rw [randomConeMap, AVec.dot_is hn hd hk]
    simp only [Res.ok_bind, ← hcdef, hCabs, hacos, p1, p2, p3, p4, Res.pure_eq]
  · refine ⟨hn.1, ?_⟩
    funext i
    exact q4.el i
  · rw [v2]
    have ht : O / (Real.pi / 2) ≤ 1 := (div_le_one (by linarith)).2 hO1
    have ht0 : 0 ≤ O / (Real.pi / 2) := by positivity
    refine Real.cos_le_cos_of_nonneg_of_le_pi (mul_nonneg ht0 ha0.le) (by linarith) ?_
    nlinarith

/-- C74: if the random vector is parallel to `d`, the code divides by zero. -/
theorem randomConeMap_parallel {n d : AVec ℝ} {k : Nat} {x y : Fin k → ℝ} (hn : n.Is k x) (hd : d.Is k y)
    (hk : 0 < k) (hy : y ⬝ᵥ y = 1) (hp : x = y ∨ x = -y) (a : ℝ) :
    randomConeMap n d a = .ub .divZero := by
  have hc : x ⬝ᵥ y = 1 ∨ x ⬝ᵥ y = -1 := by
    rcases hp with rfl | rfl
    · exact Or.inl hy
    · exact Or.inr (by rw [neg_dotProduct, hy])
  set c := x ⬝ᵥ y with hcdef
  obtain ⟨X, hX⟩ : ∃ X : Fin k → ℝ, (if c < 0 then n.neg else n).Is k X := by
    by_cases h : c < 0
    · rw [if_pos h]; exact ⟨_, AVec.neg_is hn⟩
    · rw [if_neg h]; exact ⟨_, hn⟩
  have hCabs : (if c < 0 then -c else c) = 1 := by
    rcases hc with h | h <;> rw [h] <;> norm_num
  have hacos : acosSafe 1 = 0 := by
    rw [acosSafe, (clamp_cases (by norm_num : (-1 : ℝ) ≤ 1)).2.2 (by norm_num) le_rfl, Real.arccos_one]
  obtain ⟨e1, p1, q1⟩ := add_is (AVec.smul_is hd (Real.sin (0 - a))) (AVec.smul_is hX (Real.sin a))
  have hsz : e1.size ≠ 0 := by rw [q1.1]; omega
  rw [randomConeMap, AVec.dot_is hn hd hk]
  simp only [Res.ok_bind, ← hcdef, hCabs, hacos, p1, AVec.sdiv, Real.sin_zero, if_true, if_neg hsz]
  rfl

/-! ### `random_unit(n, d, a)` -/

/-- The vector that is filled: resized to the size of `d` if that is possible. -/
private theorem resized {n d : AVec ℝ} {resizable : Bool} (hsz : resizable = true ∨ n.size = d.size) :
    (if resizable then { n with size := d.size } else n : AVec ℝ).size = d.size := by
  rcases hsz with h | h
  · rw [if_pos h]
  · split
    · rfl
    · exact h

/-- C74, two dimensions known at compile time: for every direction `d`, angle `a` in `(0, π/2]` and every
random angle in `[-a, a]`, `random_unit(n, d, a)` returns a unit vector whose angle to `d` is at most `a`. -/
theorem randomCone_two {n d : AVec ℝ} {y : Fin 2 → ℝ} (resizable : Bool)
    (hsz : resizable = true ∨ n.size = 2) (hf : d.fixed = true) (hd : d.Is 2 y) (hy : y ⬝ᵥ y = 1)
    {a : ℝ} (ha0 : 0 < a) (ha1 : a ≤ Real.pi / 2) (src : RandomSource) (hang : |src.angle| ≤ a) (fuel : Nat) :
    ∃ w z, randomCone n resizable d a src fuel = some (.ok w) ∧ w.Is 2 z ∧ z ⬝ᵥ z = 1 ∧
      Real.cos a ≤ y ⬝ᵥ z := by
  have hpi := Real.pi_pos
  have hs' := resized (n := n) (d := d) (resizable := resizable) (by rw [hd.1]; exact hsz)
  obtain ⟨w, z, e1, e2, -, e4, e5, -⟩ := randomCone2D_spec (hs'.trans hd.1) hd hy src.angle
  refine ⟨w, z, ?_, e2, e4, ?_⟩
  · rw [randomCone, if_pos ⟨ha0, ha1⟩]
    simp only [AVec.checkSame_ok hs', if_pos (show d.fixed = true ∧ d.size = 2 from ⟨hf, hd.1⟩), e1]
  · rw [e5, ← Real.cos_abs src.angle]
    exact Real.cos_le_cos_of_nonneg_of_le_pi (abs_nonneg _) (by linarith) hang

/-- C74 (partial: the drawn vector must not be parallel to `d`, see `randomCone_parallel`): for every
direction `d` of any dimension, angle `a` in `(0, π/2]` and every sequence of draws with a non-zero attempt,
`random_unit(n, d, a)` returns a unit vector whose angle to `d` is at most `a`. -/
theorem randomCone_partial {n d : AVec ℝ} {y : Fin d.size → ℝ} (resizable : Bool)
    (hsz : resizable = true ∨ n.size = d.size) (hd : d.Is d.size y) (hs : 0 < d.size) (hy : y ⬝ᵥ y = 1)
    {a : ℝ} (ha0 : 0 < a) (ha1 : a ≤ Real.pi / 2) (src : RandomSource)
    {k fuel : Nat} (h1 : ∀ j, j < k → attempt src.normal d.size j = 0)
    (h2 : attempt src.normal d.size k ≠ 0) (hf : k < fuel) (h2d : ¬(d.fixed = true ∧ d.size = 2))
    (hpar : direction (attempt src.normal d.size k) ≠ y ∧
      direction (attempt src.normal d.size k) ≠ -y) :
    ∃ w z, randomCone n resizable d a src fuel = some (.ok w) ∧ w.Is d.size z ∧ z ⬝ᵥ z = 1 ∧
      Real.cos a ≤ y ⬝ᵥ z := by
  have hs' := resized (n := n) hsz
  set n' : AVec ℝ := if resizable then { n with size := d.size } else n with hn'
  have run : randomCone n resizable d a src fuel =
      match randomUnit n' src.normal fuel with
        | some (.ok n) => some (randomConeMap n d a)
        | r => r := by
    rw [randomCone, if_pos ⟨ha0, ha1⟩]
    simp only [← hn', AVec.checkSame_ok hs', if_neg h2d]
    rfl
  rw [run]
  obtain ⟨w, x, e1, e2, -, e4, e5⟩ := randomUnit_spec (n := n') (by rw [hs']; exact hs) src.normal
    (k := k) (fuel := fuel) (by rw [hs']; exact h1) (by rw [hs']; exact h2) hf
  generalize hsn : n'.size = s at *
  subst hs'
  subst e4
  obtain ⟨w', z, f1, f2, -, f4, -, f6⟩ := randomConeMap_spec e2 hd hs e5 hy hpar.1 hpar.2 ha0 ha1
  exact ⟨w', z, by rw [e1]; simp only [f1], f2, f4, f6⟩

/-- C74, the case that fails: if the first non-zero attempt has the direction of `d` or `-d`, the result is
undefined.  For vectors of one element this is always so. -/
theorem randomCone_parallel {n d : AVec ℝ} {y : Fin d.size → ℝ} (resizable : Bool)
    (hsz : resizable = true ∨ n.size = d.size) (hd : d.Is d.size y) (hs : 0 < d.size) (hy : y ⬝ᵥ y = 1)
    {a : ℝ} (ha0 : 0 < a) (ha1 : a ≤ Real.pi / 2) (src : RandomSource)
    {k fuel : Nat} (h1 : ∀ j, j < k → attempt src.normal d.size j = 0)
    (h2 : attempt src.normal d.size k ≠ 0) (hf : k < fuel) (h2d : ¬(d.fixed = true ∧ d.size = 2))
    (hpar : direction (attempt src.normal d.size k) = y ∨ direction (attempt src.normal d.size k) = -y) :
    randomCone n resizable d a src fuel = some (.ub .divZero) := by
  set n' : AVec ℝ := if resizable then { n with size := d.size } else n with hn'
  have hs' : n'.size = d.size := by
    rw [hn']
    rcases hsz with h | h
    · rw [if_pos h]
    · split
      · rfl
      · exact h
  have run : randomCone n resizable d a src fuel =
      match randomUnit n' src.normal fuel with
        | some (.ok n) => some (randomConeMap n d a)
        | r => r := by
    rw [randomCone, if_pos ⟨ha0, ha1⟩]
    simp only [← hn', AVec.checkSame_ok hs', if_neg h2d]
    rfl
  rw [run]
  obtain ⟨w, x, e1, e2, -, e4, e5⟩ := randomUnit_spec (n := n') (by rw [hs']; exact hs) src.normal
    (k := k) (fuel := fuel) (by rw [hs']; exact h1) (by rw [hs']; exact h2) hf
  generalize hsn : n'.size = s at *
  subst hs'
  subst e4
  rw [e1]
  simp only [randomConeMap_parallel e2 hd hs hy hpar a]

/-- Vectors of one element are always parallel. -/
theorem parallel_of_one {x y : Fin 1 → ℝ} (hx : x ⬝ᵥ x = 1) (hy : y ⬝ᵥ y = 1) : x = y ∨ x = -y := by
  simp only [dotProduct, Fin.sum_univ_one] at hx hy
  rcases mul_self_eq_mul_self_iff.1 (hx.trans hy.symm) with h | h
  · left; funext i; rw [Subsingleton.elim i 0, h]
  · right; funext i; rw [Subsingleton.elim i 0, Pi.neg_apply, h]

/-- C74: hence `random_unit(n, d, a)` never succeeds for vectors of one element. -/
theorem randomCone_one {n d : AVec ℝ} (resizable : Bool) (h1 : d.size = 1)
    (hsz : resizable = true ∨ n.size = 1) (hd : d.el 0 * d.el 0 = 1) {a : ℝ} (ha0 : 0 < a)
    (ha1 : a ≤ Real.pi / 2) (src : RandomSource) (fuel : Nat) :
    randomCone n resizable d a src fuel = none ∨
      randomCone n resizable d a src fuel = some (.ub .divZero) := by
  obtain ⟨df, ds, de⟩ := d
  subst h1
  by_cases h : ∃ k, k < fuel ∧ attempt src.normal 1 k ≠ 0
  · right
    classical
    have hlt := (Nat.find_spec h).1
    have hy : AVec.vec ⟨df, 1, de⟩ 1 ⬝ᵥ AVec.vec ⟨df, 1, de⟩ 1 = 1 := by
      simpa [dotProduct, AVec.vec] using hd
    refine randomCone_parallel resizable hsz (y := AVec.vec ⟨df, 1, de⟩ 1) ⟨rfl, rfl⟩ Nat.one_pos hy
      ha0 ha1 src (k := Nat.find h)
      (fun j hj => ?_) (Nat.find_spec h).2 hlt (by simp) (parallel_of_one (direction_unit (Nat.find_spec h).2) hy)
    have := Nat.find_min h hj
    push Not at this
    exact this (by omega)
  · left
    push Not at h
    set n' : AVec ℝ := if resizable then { n with size := 1 } else n with hn'
    have hs' : n'.size = 1 := by
      rw [hn']
      rcases hsz with h | h
      · rw [if_pos h]
      · split
        · rfl
        · exact h
    have e := randomUnit_continues (n := n') (by omega) src.normal (fuel := fuel)
      (by rw [hs']; exact h)
    rw [randomCone, if_pos ⟨ha0, ha1⟩]
    simp only [← hn', AVec.checkSame_ok (show n'.size = AVec.size ⟨df, 1, de⟩ from hs'), e]
    simp

/-- C74: an angle outside of `(0, π/2]` is an invalid argument; a vector that cannot be resized must have
the size of `d`. -/
theorem randomCone_throws (n d : AVec ℝ) (resizable : Bool) (a : ℝ) (src : RandomSource) (fuel : Nat) :
    (a ≤ 0 ∨ Real.pi / 2 < a → randomCone n resizable d a src fuel = some (.throw .invalidArgument)) ∧
    (0 < a → a ≤ Real.pi / 2 → n.size ≠ d.size → randomCone n false d a src fuel =
      some (.throw (if n.fixed && d.fixed then .staticAssert else .vecIncompatible))) := by
  constructor
  · intro h
    rw [randomCone, if_neg]
    rintro ⟨h1, h2⟩
    rcases h with h | h <;> linarith
  · intro h1 h2 h3
    rw [randomCone, if_pos ⟨h1, h2⟩]
    simp [AVec.checkSameSize, Res.require, h3]

/-! ### Examples -/

/-- The hypotheses of `randomUnit_spec` and `randomCone_partial` are met: the first attempt is zero, the
second one is not and has another direction than `d`. -/
example :
    attempt (fun i => if i = 4 then 2 else 0) 3 0 = 0 ∧
    attempt (fun i => if i = 4 then 2 else 0) 3 1 = ![0, 2, 0] ∧
    direction ![(0 : ℝ), 2, 0] = ![0, 1, 0] ∧
    (![0, 1, 0] : Fin 3 → ℝ) ≠ ![1, 0, 0] ∧ (![0, 1, 0] : Fin 3 → ℝ) ≠ -![1, 0, 0] := by
  have e : eucl ![(0 : ℝ), 2, 0] = 2 := by
    rw [eucl, show ![(0 : ℝ), 2, 0] ⬝ᵥ ![0, 2, 0] = 2 * 2 by simp [dotProduct, Fin.sum_univ_three],
      Real.sqrt_mul_self (by norm_num)]
  refine ⟨?_, ?_, ?_, ?_, ?_⟩
  · funext i; fin_cases i <;> simp [attempt]
  · funext i; fin_cases i <;> simp [attempt]
  · rw [direction, e]
    funext i; fin_cases i <;> simp
  · intro h; have := congrFun h 0; simp at this
  · intro h; have := congrFun h 0; simp at this

/-- The hypothesis of `randomCone_parallel` is met. -/
example : direction ![(0 : ℝ), 0, 2] = ![0, 0, 1] := by
  have e : eucl ![(0 : ℝ), 0, 2] = 2 := by
    rw [eucl, show ![(0 : ℝ), 0, 2] ⬝ᵥ ![0, 0, 2] = 2 * 2 by simp [dotProduct, Fin.sum_univ_three],
      Real.sqrt_mul_self (by norm_num)]
  rw [direction, e]
  funext i; fin_cases i <;> simp

end CML

#print axioms CML.randomUnit_spec
#print axioms CML.randomUnit_continues
#print axioms CML.randomUnit_ends_iff
#print axioms CML.randomUnit_throws
#print axioms CML.randomCone2D_spec
#print axioms CML.randomConeMap_spec
#print axioms CML.randomConeMap_parallel
#print axioms CML.randomCone_two
#print axioms CML.randomCone_partial
#print axioms CML.randomCone_parallel
#print axioms CML.parallel_of_one
#print axioms CML.randomCone_one
#print axioms CML.randomCone_throws
