import Verif.Spec.Mat
import Verif.Tactics
import Mathlib.LinearAlgebra.Matrix.Block
import Mathlib.Algebra.BigOperators.Intervals

/-! Lemmas about the Doolittle decomposition `luInplace`. -/

set_option linter.unusedSectionVars false

namespace CML

open Finset

/-- Loop whose states are known in advance. -/
theorem Res.loop_fun {σ : Type u} {body : Nat → σ → Res σ} (f : Nat → σ) {lo n : Nat}
    (h : ∀ k, lo ≤ k → k < lo + n → body k (f k) = .ok (f (k + 1))) :
    Res.loop body lo n (f lo) = .ok (f (lo + n)) := by
  obtain ⟨s, h1, h2⟩ := Res.loop_inv (body := body) (lo := lo) (n := n) (s := f lo)
    (fun k s => s = f k) rfl (fun k s h1 h2 hs => ⟨f (k + 1), by rw [hs]; exact h k h1 h2, rfl⟩)
  rw [h1, h2]

/-- Loop that may end with one kind of failure. -/
theorem Res.loop_cases {σ : Type u} {body : Nat → σ → Res σ} (P : Nat → σ → Prop) (r : Res σ)
    (hr : ∀ f : σ → Res σ, r.bind f = r) (Q : Prop) {lo n : Nat} {s : σ} (h0 : P lo s)
    (hs : ∀ k s, lo ≤ k → k < lo + n → P k s →
      (∃ s', body k s = .ok s' ∧ P (k + 1) s') ∨ (body k s = r ∧ Q)) :
    (∃ s', Res.loop body lo n s = .ok s' ∧ P (lo + n) s') ∨ (Res.loop body lo n s = r ∧ Q) := by
  induction n generalizing lo s with
  | zero => exact .inl ⟨s, rfl, h0⟩
  | succ n ih =>
    rcases hs lo s (Nat.le_refl _) (by omega) h0 with ⟨s1, h1, hp⟩ | ⟨h1, hq⟩
    · rcases ih hp (fun k s hk hk' => hs k s (by omega) (by omega)) with ⟨s2, h2, hp2⟩ | ⟨h2, hq⟩
      · refine .inl ⟨s2, ?_, by rwa [show lo + 1 + n = lo + (n + 1) by omega] at hp2⟩
        simp only [Res.loop, h1, Res.bind, h2]
      · exact .inr ⟨by simp only [Res.loop, h1, Res.bind, h2], hq⟩
    · exact .inr ⟨by rw [Res.loop, h1, hr], hq⟩

section
variable {K : Type} [Field K] [DecidableEq K]

theorem luSum_ok (M : Mat K) (i j k : Nat) (hi : i < M.rows) (hj : j < M.cols) (hk : k ≤ M.rows)
    (hk' : k ≤ M.cols) : luSum M i j k = .ok (∑ p ∈ range k, M.el i p * M.el p j) := by
  have := Res.loop_fun (lo := 0) (n := k) (body := fun p sum => do
      let a ← M.get i p
      let b ← M.get p j
      pure (sum + a * b)) (fun t => ∑ p ∈ range t, M.el i p * M.el p j)
    (by
      intro t _ ht
      have h1 : i < M.rows ∧ t < M.cols := ⟨hi, by omega⟩
      have h2 : t < M.rows ∧ j < M.cols := ⟨by omega, hj⟩
      simp only [Mat.get, h1, h2, and_self, if_true, Res.ok_bind, Res.pure_eq, sum_range_succ])
  simpa [luSum] using this

/-- Elements after the upper loop of step `k`. -/
def luUp (n k : Nat) (e : Nat → Nat → K) : Nat → Nat → K := fun a b =>
  if a = k ∧ k ≤ b ∧ b < n then e k b - ∑ p ∈ range k, e k p * e p b else e a b

/-- Elements after the lower loop of step `k`. -/
def luLow (n k : Nat) (e : Nat → Nat → K) : Nat → Nat → K := fun a b =>
  if b = k ∧ k < a ∧ a < n then (e a k - ∑ p ∈ range k, e a p * e p k) / e k k else e a b

theorem luUpper_loop (n k : Nat) (hk : k < n) (e : Nat → Nat → K) :
    Res.loop (luUpperStep k) k (n - k) (⟨n, n, e⟩ : Mat K) = .ok ⟨n, n, luUp n k e⟩ := by
  have := Res.loop_fun (lo := k) (n := n - k) (body := luUpperStep k)
    (fun t => (⟨n, n, luUp t k e⟩ : Mat K)) (by
      intro t h1 h2
      have ht : t < n := by omega
      unfold luUpperStep
      rw [luSum_ok _ _ _ _ hk ht (by simp; omega) (by simp; omega)]
      simp only [Mat.get, Mat.put, hk, ht, and_self, if_true, Res.ok_bind, Mat.set]
      congr 2
      funext a b
      have hs : ∑ p ∈ range k, luUp t k e k p * luUp t k e p t = ∑ p ∈ range k, e k p * e p t := by
        refine sum_congr rfl (fun p hp => ?_)
        have := mem_range.mp hp
        simp only [luUp]
        rw [if_neg (by omega), if_neg (by omega)]
      rw [hs]
      simp only [luUp]
      by_cases c : a = k ∧ b = t
      · obtain ⟨rfl, rfl⟩ := c
        rw [if_pos ⟨rfl, rfl⟩, if_neg (by omega), if_pos (by omega)]
      · rw [if_neg c]
        by_cases c2 : a = k ∧ k ≤ b ∧ b < t
        · rw [if_pos c2, if_pos (by omega)]
        · rw [if_neg c2, if_neg (by omega)])
  have h0 : (⟨n, n, luUp k k e⟩ : Mat K) = ⟨n, n, e⟩ := by
    congr 1
    funext a b
    simp only [luUp]
    rw [if_neg (by omega)]
  rw [h0] at this
  rwa [show k + (n - k) = n by omega] at this

theorem luLower_loop (n k : Nat) (hk : k < n) (e : Nat → Nat → K) (h0 : e k k ≠ 0) :
    Res.loop (luLowerStep k) (k + 1) (n - (k + 1)) (⟨n, n, e⟩ : Mat K) = .ok ⟨n, n, luLow n k e⟩ := by
  have := Res.loop_fun (lo := k + 1) (n := n - (k + 1)) (body := luLowerStep k)
    (fun t => (⟨n, n, luLow t k e⟩ : Mat K)) (by
      intro t h1 h2
      have ht : t < n := by omega
      unfold luLowerStep
      rw [luSum_ok _ _ _ _ ht hk (by simp; omega) (by simp; omega)]
      have hkk : luLow t k e k k = e k k := by simp [luLow]
      simp only [Mat.get, Mat.put, hk, ht, and_self, if_true, Res.ok_bind, Mat.set, divR, hkk, h0,
        if_false]
      congr 2
      funext a b
      have hs : ∑ p ∈ range k, luLow t k e t p * luLow t k e p k = ∑ p ∈ range k, e t p * e p k := by
        refine sum_congr rfl (fun p hp => ?_)
        have := mem_range.mp hp
        simp only [luLow]
        rw [if_neg (by omega), if_neg (by omega)]
      rw [hs]
      simp only [luLow]
      by_cases c : a = t ∧ b = k
      · obtain ⟨rfl, rfl⟩ := c
        rw [if_pos ⟨rfl, rfl⟩, if_neg (by omega), if_pos (by omega)]
      · rw [if_neg c]
        by_cases c2 : b = k ∧ k < a ∧ a < t
        · rw [if_pos c2, if_pos (by omega)]
        · rw [if_neg c2, if_neg (by omega)])
  have h0 : (⟨n, n, luLow (k + 1) k e⟩ : Mat K) = ⟨n, n, e⟩ := by
    congr 1
    funext a b
    simp only [luLow]
    rw [if_neg (by omega)]
  rw [h0] at this
  rwa [show k + 1 + (n - (k + 1)) = n by omega] at this

theorem luLower_fail (n k : Nat) (hk : k + 1 < n) (e : Nat → Nat → K) (h0 : e k k = 0) :
    Res.loop (luLowerStep k) (k + 1) (n - (k + 1)) (⟨n, n, e⟩ : Mat K) = .ub .divZero := by
  obtain ⟨m, hm⟩ : ∃ m, n - (k + 1) = m + 1 := ⟨n - (k + 1) - 1, by omega⟩
  rw [hm, Res.loop]
  have h1 : k < n := by omega
  unfold luLowerStep
  rw [luSum_ok _ _ _ _ (by simpa using hk) (by simpa using h1) (by simp; omega) (by simp; omega)]
  simp [Mat.get, hk, h1, divR, h0, Res.bind]

/-- The packed factors reproduce the leading `m × m` part of `a`. -/
def Packed (m : Nat) (a e : Nat → Nat → K) : Prop :=
  ∀ i j, i < m → j < m → a i j = ∑ p ∈ range (min i j), e i p * e p j
    + (if i ≤ j then e i j else e i j * e j j)

/-- Invariant of the outer loop of `luInplace` on an `n × n` matrix with elements `a`. -/
structure LuInv (n : Nat) (a : Nat → Nat → K) (k : Nat) (e : Nat → Nat → K) : Prop where
  rest : ∀ i j, i < n → j < n → k ≤ i → k ≤ j → e i j = a i j
  done : ∀ i j, i < n → j < n → (i < k ∨ j < k) →
    a i j = ∑ p ∈ range (min i j), e i p * e p j + (if i ≤ j then e i j else e i j * e j j)
  piv : ∀ j, j < k → j + 1 < n → e j j ≠ 0

/-- The state in which a zero pivot is found in step `k`. -/
theorem LuInv.up {n k : Nat} {a e : Nat → Nat → K} (h : LuInv n a k e) (hk : k < n) :
    Packed (k + 1) a (luUp n k e) := by
  intro i j hi hj
  have hs : ∑ p ∈ range (min i j), luUp n k e i p * luUp n k e p j =
      ∑ p ∈ range (min i j), e i p * e p j := by
    refine sum_congr rfl (fun p hp => ?_)
    have := mem_range.mp hp
    simp only [luUp]
    rw [if_neg (by omega), if_neg (by omega)]
  rw [hs]
  by_cases c : i < k ∨ j < k
  · rw [h.done i j (by omega) (by omega) c]
    have h1 : luUp n k e i j = e i j := by simp only [luUp]; rw [if_neg (by omega)]
    have h2 : i ≤ j ∨ luUp n k e j j = e j j := by
      by_cases c2 : i ≤ j
      · exact .inl c2
      · right; simp only [luUp]; rw [if_neg (by omega)]
    rw [h1]
    rcases h2 with h2 | h2
    · rw [if_pos h2, if_pos h2]
    · rw [h2]
  · have hi' : i = k := by omega
    have hj' : j = k := by omega
    subst hi'; subst hj'
    simp only [luUp, le_refl, if_true, hk, and_self, Nat.min_self]
    rw [h.rest j j hk hk (le_refl _) (le_refl _)]
    ring

theorem LuInv.next {n k : Nat} {a e : Nat → Nat → K} (h : LuInv n a k e) (hk : k < n)
    (h0 : luUp n k e k k ≠ 0 ∨ k + 1 = n) : LuInv n a (k + 1) (luLow n k (luUp n k e)) := by
  have e1 : ∀ i j, (i < k ∨ j < k) → luLow n k (luUp n k e) i j = e i j := by
    intro i j hij
    simp only [luLow, luUp]
    rw [if_neg (by omega), if_neg (by omega)]
  have hs : ∀ i j m, m ≤ k → ∑ p ∈ range m, luLow n k (luUp n k e) i p * luLow n k (luUp n k e) p j =
      ∑ p ∈ range m, e i p * e p j := by
    intro i j m hm
    refine sum_congr rfl (fun p hp => ?_)
    have := mem_range.mp hp
    rw [e1 i p (by omega), e1 p j (by omega)]
  have hkk : luLow n k (luUp n k e) k k = luUp n k e k k := by simp [luLow]
  refine ⟨?_, ?_, ?_⟩
  · intro i j hi hj hi' hj'
    simp only [luLow, luUp]
    rw [if_neg (by omega), if_neg (by omega)]
    exact h.rest i j hi hj (by omega) (by omega)
  · intro i j hi hj hij
    by_cases c : i < k ∨ j < k
    · rw [hs i j _ (by omega), e1 i j c, h.done i j hi hj c]
      by_cases c2 : i ≤ j
      · rw [if_pos c2, if_pos c2]
      · rw [e1 j j (by omega)]
    · rw [hs i j _ (by omega)]
      by_cases c2 : i ≤ j
      · have hi' : i = k := by omega
        subst hi'
        rw [if_pos c2, show min i j = i by omega]
        simp only [luLow, luUp]
        rw [if_neg (by omega), if_pos ⟨trivial, c2, hj⟩, h.rest i j hi hj (le_refl _) c2]
        ring
      · have hj' : j = k := by omega
        subst hj'
        have h0' : luUp n j e j j ≠ 0 := h0.resolve_right (by omega)
        rw [if_neg c2, show min i j = j by omega, hkk]
        have hl : luLow n j (luUp n j e) i j =
            (luUp n j e i j - ∑ p ∈ range j, luUp n j e i p * luUp n j e p j) / luUp n j e j j := by
          rw [luLow, if_pos (by omega)]
        have hs2 : ∑ p ∈ range j, luUp n j e i p * luUp n j e p j = ∑ p ∈ range j, e i p * e p j := by
          refine sum_congr rfl (fun p hp => ?_)
          have := mem_range.mp hp
          simp only [luUp]
          rw [if_neg (by omega), if_neg (by omega)]
        have hu : luUp n j e i j = a i j := by
          rw [luUp, if_neg (by omega)]
          exact h.rest i j hi hj (by omega) (le_refl _)
        rw [hl, hs2, hu, div_mul_cancel₀ _ h0']
        ring
  · intro j hj hj'
    by_cases c : j < k
    · rw [e1 j j (by omega)]; exact h.piv j c hj'
    · have : j = k := by omega
      subst this
      rw [hkk]
      exact h0.resolve_right (by omega)

/-- Outcome of `luInplace`: the packed factors, or a zero pivot (with the factors of the leading
part up to it). -/
theorem luInplace_cases (n : Nat) (a : Nat → Nat → K) :
    (∃ e, luInplace (⟨n, n, a⟩ : Mat K) = .ok ⟨n, n, e⟩ ∧ LuInv n a n e) ∨
    (luInplace (⟨n, n, a⟩ : Mat K) = .ub .divZero ∧
      ∃ k e, k + 1 < n ∧ Packed (k + 1) a e ∧ e k k = 0) := by
  have key := Res.loop_cases (lo := 0) (n := n) (s := (⟨n, n, a⟩ : Mat K))
    (body := fun k M => do
      let M ← Res.loop (luUpperStep k) k (n - k) M
      Res.loop (luLowerStep k) (k + 1) (n - (k + 1)) M)
    (fun k M => ∃ e, M = ⟨n, n, e⟩ ∧ LuInv n a k e) (.ub .divZero) (fun _ => rfl)
    (∃ k e, k + 1 < n ∧ Packed (k + 1) a e ∧ e k k = 0)
    ⟨a, rfl, ⟨fun _ _ _ _ _ _ => rfl, fun i j _ _ h => by omega, fun j h => by omega⟩⟩
    (by
      rintro k _ _ hk ⟨e, rfl, he⟩
      have hk : k < n := by omega
      rw [luUpper_loop n k hk]
      by_cases c : luUp n k e k k = 0 ∧ k + 1 < n
      · right
        exact ⟨luLower_fail n k c.2 _ c.1, k, _, c.2, he.up hk, c.1⟩
      · left
        by_cases c2 : luUp n k e k k = 0
        · have hn : k + 1 = n := by
            by_contra hne
            exact c ⟨c2, by omega⟩
          refine ⟨⟨n, n, luLow n k (luUp n k e)⟩, ?_, _, rfl, he.next hk (.inr hn)⟩
          rw [Res.ok_bind, show n - (k + 1) = 0 by omega, Res.loop]
          congr 2
          funext x y
          simp only [luLow]
          rw [if_neg (by omega)]
        · exact ⟨_, luLower_loop n k hk _ c2, _, rfl, he.next hk (.inl c2)⟩)
  rw [Nat.zero_add] at key
  rcases key with ⟨M, h1, e, rfl, h2⟩ | ⟨h1, h2⟩
  · exact .inl ⟨e, h1, h2⟩
  · exact .inr ⟨h1, h2⟩

end

section
variable {K : Type} [Field K]

/-- The leading `m × m` block of a table of elements. -/
def blk (m : Nat) (e : Nat → Nat → K) : Matrix (Fin m) (Fin m) K := fun i j => e i j

theorem Packed.mul {m n : Nat} {a e : Nat → Nat → K} (h : Packed n a e) (hm : m ≤ n) :
    unitLower (blk m e) * upper (blk m e) =
      (blk m a) := by
  funext i j
  rw [Matrix.mul_apply, blk, h i j (by omega) (by omega)]
  have hf : ∀ p : Fin m, unitLower (blk m e) i p *
      upper (blk m e) p j =
      (fun p : Nat => if p ≤ min i.1 j.1 then (if p < i.1 then e i p * e p j else e p j) else 0) p := by
    intro p
    simp only [unitLower, upper, blk, Fin.lt_def, Fin.le_def, Fin.ext_iff]
    by_cases c1 : p.1 < i.1
    · by_cases c2 : p.1 ≤ j.1
      · rw [if_pos c1, if_pos c2, if_pos (by omega), if_pos c1]
      · rw [if_pos c1, if_neg c2, if_neg (by omega), mul_zero]
    · by_cases c2 : i.1 = p.1
      · rw [if_neg c1, if_pos c2, one_mul]
        by_cases c3 : p.1 ≤ j.1
        · rw [if_pos c3, if_pos (by omega), if_neg c1]
        · rw [if_neg c3, if_neg (by omega)]
      · rw [if_neg c1, if_neg c2, zero_mul, if_neg (by omega)]
  rw [sum_congr rfl (fun p _ => hf p)]
  rw [Fin.sum_univ_eq_sum_range (fun p : Nat =>
    if p ≤ min i.1 j.1 then (if p < i.1 then e i p * e p j else e p j) else 0) m]
  rw [← sum_range_add_sum_Ico _ (show min i.1 j.1 + 1 ≤ m by omega)]
  have hz : ∑ p ∈ Ico (min i.1 j.1 + 1) m,
      (if p ≤ min i.1 j.1 then (if p < i.1 then e i p * e p j else e p j) else 0) = 0 := by
    refine sum_eq_zero (fun p hp => ?_)
    rw [if_neg]
    have := mem_Ico.mp hp
    omega
  rw [hz, add_zero, sum_range_succ]
  congr 1
  · refine sum_congr rfl (fun p hp => ?_)
    have := mem_range.mp hp
    rw [if_pos (by omega), if_pos (by omega)]
  · rw [if_pos (le_refl _)]
    by_cases c : i.1 ≤ j.1
    · rw [show min i.1 j.1 = i.1 by omega, if_neg (lt_irrefl _), if_pos c]
    · rw [show min i.1 j.1 = j.1 by omega, if_pos (by omega), if_neg c]

theorem det_unitLower {n : Nat} (A : Matrix (Fin n) (Fin n) K) : (unitLower A).det = 1 := by
  rw [Matrix.det_of_isLowerTriangular]
  · simp [unitLower]
  · intro i j hij
    have hij : i < j := hij
    simp only [unitLower]
    rw [if_neg (by omega), if_neg (by omega)]

theorem det_upper {n : Nat} (A : Matrix (Fin n) (Fin n) K) : (upper A).det = ∏ i, A i i := by
  rw [Matrix.det_of_isUpperTriangular]
  · simp [upper]
  · intro i j hij
    have hij : j < i := hij
    simp only [upper]
    rw [if_neg (by omega)]

theorem Packed.det {m n : Nat} {a e : Nat → Nat → K} (h : Packed n a e) (hm : m ≤ n) :
    Matrix.det (blk m a) = ∏ i ∈ range m, e i i := by
  rw [← h.mul hm, Matrix.det_mul, det_unitLower, det_upper, one_mul,
    ← Fin.prod_univ_eq_prod_range (fun i => e i i)]
  rfl

/-- Two packed decompositions of the same matrix agree if the pivots of one are nonzero. -/
theorem Packed.unique {n : Nat} {a e f : Nat → Nat → K} (he : Packed n a e) (hf : Packed n a f)
    (hp : ∀ j, j + 1 < n → e j j ≠ 0) : ∀ i j, i < n → j < n → e i j = f i j := by
  have key : ∀ m, ∀ i j, i < n → j < n → min i j = m → e i j = f i j := by
    intro m
    induction m using Nat.strong_induction_on with
    | _ m ih =>
      intro i j hi hj hm
      have hs : ∑ p ∈ range (min i j), e i p * e p j = ∑ p ∈ range (min i j), f i p * f p j := by
        refine sum_congr rfl (fun p hp => ?_)
        have hp' := mem_range.mp hp
        rw [ih p (by omega) i p hi (by omega) (by omega), ih p (by omega) p j (by omega) hj (by omega)]
      have hdiag : ∀ d, d < n → d = m → e d d = f d d := by
        intro d hd hdm
        have hs : ∑ p ∈ range d, e d p * e p d = ∑ p ∈ range d, f d p * f p d := by
          refine sum_congr rfl (fun p hp => ?_)
          have hp' := mem_range.mp hp
          rw [ih p (by omega) d p hd (by omega) (by omega), ih p (by omega) p d (by omega) hd (by omega)]
        have h1 := he d d hd hd
        have h2 := hf d d hd hd
        simp only [Nat.min_self, le_refl, if_true] at h1 h2
        rw [h1, hs] at h2
        exact add_left_cancel h2
      have h1 := he i j hi hj
      have h2 := hf i j hi hj
      rw [h1, hs] at h2
      have h3 := add_left_cancel h2
      by_cases c : i ≤ j
      · rwa [if_pos c, if_pos c] at h3
      · rw [if_neg c, if_neg c, ← hdiag j hj (by omega)] at h3
        exact mul_right_cancel₀ (hp j (by omega)) h3
  exact fun i j hi hj => key _ i j hi hj rfl

/-- Triangular factors of a product give a packed decomposition. -/
theorem packed_of_mul {n : Nat} {a : Nat → Nat → K} (L U : Matrix (Fin n) (Fin n) K)
    (hL : ∀ i j, i < j → L i j = 0) (hL1 : ∀ i, L i i = 1) (hU : ∀ i j, j < i → U i j = 0)
    (h : L * U = blk n a) :
    Packed n a (fun i j => if hij : i < n ∧ j < n then
      (if j < i then L ⟨i, hij.1⟩ ⟨j, hij.2⟩ else U ⟨i, hij.1⟩ ⟨j, hij.2⟩) else 0) := by
  intro i j hi hj
  have h1 := congrFun (congrFun h ⟨i, hi⟩) ⟨j, hj⟩
  rw [Matrix.mul_apply, blk] at h1
  have hf : ∀ p : Fin n, L ⟨i, hi⟩ p * U p ⟨j, hj⟩ = (fun p : Nat => if hp : p < n then
      L ⟨i, hi⟩ ⟨p, hp⟩ * U ⟨p, hp⟩ ⟨j, hj⟩ else 0) p := by
    intro p; simp
  rw [sum_congr rfl (fun p _ => hf p), Fin.sum_univ_eq_sum_range (fun p : Nat => if hp : p < n then
      L ⟨i, hi⟩ ⟨p, hp⟩ * U ⟨p, hp⟩ ⟨j, hj⟩ else 0) n,
    ← sum_range_add_sum_Ico _ (show min i j + 1 ≤ n by omega), sum_range_succ] at h1
  have hz : ∑ p ∈ Ico (min i j + 1) n, (if hp : p < n then
      L ⟨i, hi⟩ ⟨p, hp⟩ * U ⟨p, hp⟩ ⟨j, hj⟩ else 0) = 0 := by
    refine sum_eq_zero (fun p hp => ?_)
    have hp' := mem_Ico.mp hp
    rw [dif_pos hp'.2]
    by_cases c : i < p
    · rw [hL ⟨i, hi⟩ ⟨p, hp'.2⟩ c, zero_mul]
    · rw [hU ⟨p, hp'.2⟩ ⟨j, hj⟩ (by rw [Fin.lt_def]; simp only; omega), mul_zero]
  rw [hz, add_zero] at h1
  simp only at h1
  rw [← h1]
  congr 1
  · refine sum_congr rfl (fun p hp => ?_)
    have hp' := mem_range.mp hp
    have hpn : p < n := by omega
    simp only [hi, hj, hpn, and_self, dite_true]
    rw [if_pos (by omega), if_neg (by omega)]
  · have hmn : min i j < n := by omega
    rw [dif_pos hmn]
    simp only [hi, hj, and_self, dite_true]
    by_cases c : i ≤ j
    · simp only [show min i j = i by omega]
      rw [hL1, one_mul, if_pos c, if_neg (by omega)]
    · simp only [show min i j = j by omega]
      rw [if_neg c, if_pos (by omega), if_neg (by omega)]

end
end CML
