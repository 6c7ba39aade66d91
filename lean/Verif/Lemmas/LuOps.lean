import Verif.Lemmas.Lu

/-!
The Doolittle decomposition and the substitutions for arbitrary element types: which operations are applied
to which elements.  Nothing is assumed about the operations.
-/

set_option linter.unusedSectionVars false

namespace CML

section
variable {K : Type} [Zero K] [Add K]

/-- `((0 + f lo) + f (lo+1)) + … + f (lo+m-1)`: what a loop `sum(0); for(…) sum += f(p)` computes. -/
def acc (f : Nat → K) (lo : Nat) : Nat → K
  | 0 => 0
  | m + 1 => acc f lo m + f (lo + m)

theorem acc_congr {f g : Nat → K} {lo : Nat} : ∀ {m : Nat}, (∀ p, lo ≤ p → p < lo + m → f p = g p) →
    acc f lo m = acc g lo m
  | 0, _ => rfl
  | m + 1, h => by
    rw [acc, acc, acc_congr (fun p h1 h2 => h p h1 (by omega)), h (lo + m) (by omega) (by omega)]

end

section
variable {K : Type} [Zero K] [Add K] [Sub K] [Mul K] [Div K] [DecidableEq K]

theorem luSum_acc (M : Mat K) (i j k : Nat) (hi : i < M.rows) (hj : j < M.cols) (hk : k ≤ M.rows)
    (hk' : k ≤ M.cols) : luSum M i j k = .ok (acc (fun p => M.el i p * M.el p j) 0 k) := by
  have := Res.loop_fun (lo := 0) (n := k) (body := fun p sum => do
      let a ← M.get i p
      let b ← M.get p j
      pure (sum + a * b)) (fun t => acc (fun p => M.el i p * M.el p j) 0 t)
    (by
      intro t _ ht
      have h1 : i < M.rows ∧ t < M.cols := ⟨hi, by omega⟩
      have h2 : t < M.rows ∧ j < M.cols := ⟨by omega, hj⟩
      simp only [Mat.get, h1, h2, and_self, if_true, Res.ok_bind, Res.pure_eq, acc, Nat.zero_add])
  simpa [luSum, acc] using this

/-- Elements after the upper loop of step `k`. -/
def luUpG (n k : Nat) (e : Nat → Nat → K) : Nat → Nat → K := fun a b =>
  if a = k ∧ k ≤ b ∧ b < n then e k b - acc (fun p => e k p * e p b) 0 k else e a b

/-- Elements after the lower loop of step `k`. -/
def luLowG (n k : Nat) (e : Nat → Nat → K) : Nat → Nat → K := fun a b =>
  if b = k ∧ k < a ∧ a < n then (e a k - acc (fun p => e a p * e p k) 0 k) / e k k else e a b

theorem luUpper_loopG (n k : Nat) (hk : k < n) (e : Nat → Nat → K) :
    Res.loop (luUpperStep k) k (n - k) (⟨n, n, e⟩ : Mat K) = .ok ⟨n, n, luUpG n k e⟩ := by
  have := Res.loop_fun (lo := k) (n := n - k) (body := luUpperStep k)
    (fun t => (⟨n, n, luUpG t k e⟩ : Mat K)) (by
      intro t h1 h2
      have ht : t < n := by omega
      unfold luUpperStep
      rw [luSum_acc _ _ _ _ hk ht (by simp; omega) (by simp; omega)]
      simp only [Mat.get, Mat.put, hk, ht, and_self, if_true, Res.ok_bind, Mat.set]
      congr 2
      funext a b
      have hs : acc (fun p => luUpG t k e k p * luUpG t k e p t) 0 k = acc (fun p => e k p * e p t) 0 k := by
        refine acc_congr (fun p _ hp => ?_)
        simp only [luUpG]
        rw [if_neg (by omega), if_neg (by omega)]
      rw [hs]
      simp only [luUpG]
      by_cases c : a = k ∧ b = t
      · obtain ⟨rfl, rfl⟩ := c
        rw [if_pos ⟨rfl, rfl⟩, if_neg (by omega), if_pos (by omega)]
      · rw [if_neg c]
        by_cases c2 : a = k ∧ k ≤ b ∧ b < t
        · rw [if_pos c2, if_pos (by omega)]
        · rw [if_neg c2, if_neg (by omega)])
  have h0 : (⟨n, n, luUpG k k e⟩ : Mat K) = ⟨n, n, e⟩ := by
    congr 1
    funext a b
    simp only [luUpG]
    rw [if_neg (by omega)]
  rw [h0] at this
  rwa [show k + (n - k) = n by omega] at this

theorem luLower_loopG (n k : Nat) (hk : k < n) (e : Nat → Nat → K) (h0 : e k k ≠ 0) :
    Res.loop (luLowerStep k) (k + 1) (n - (k + 1)) (⟨n, n, e⟩ : Mat K) = .ok ⟨n, n, luLowG n k e⟩ := by
  have := Res.loop_fun (lo := k + 1) (n := n - (k + 1)) (body := luLowerStep k)
    (fun t => (⟨n, n, luLowG t k e⟩ : Mat K)) (by
      intro t h1 h2
      have ht : t < n := by omega
      unfold luLowerStep
      rw [luSum_acc _ _ _ _ ht hk (by simp; omega) (by simp; omega)]
      have hkk : luLowG t k e k k = e k k := by simp [luLowG]
      simp only [Mat.get, Mat.put, hk, ht, and_self, if_true, Res.ok_bind, Mat.set, divR, hkk, h0,
        if_false]
      congr 2
      funext a b
      have hs : acc (fun p => luLowG t k e t p * luLowG t k e p k) 0 k
          = acc (fun p => e t p * e p k) 0 k := by
        refine acc_congr (fun p _ hp => ?_)
        simp only [luLowG]
        rw [if_neg (by omega), if_neg (by omega)]
      rw [hs]
      simp only [luLowG]
      by_cases c : a = t ∧ b = k
      · obtain ⟨rfl, rfl⟩ := c
        rw [if_pos ⟨rfl, rfl⟩, if_neg (by omega), if_pos (by omega)]
      · rw [if_neg c]
        by_cases c2 : b = k ∧ k < a ∧ a < t
        · rw [if_pos c2, if_pos (by omega)]
        · rw [if_neg c2, if_neg (by omega)])
  have h0 : (⟨n, n, luLowG (k + 1) k e⟩ : Mat K) = ⟨n, n, e⟩ := by
    congr 1
    funext a b
    simp only [luLowG]
    rw [if_neg (by omega)]
  rw [h0] at this
  rwa [show k + 1 + (n - (k + 1)) = n by omega] at this

theorem luLower_failG (n k : Nat) (hk : k + 1 < n) (e : Nat → Nat → K) (h0 : e k k = 0) :
    Res.loop (luLowerStep k) (k + 1) (n - (k + 1)) (⟨n, n, e⟩ : Mat K) = .ub .divZero := by
  obtain ⟨m, hm⟩ : ∃ m, n - (k + 1) = m + 1 := ⟨n - (k + 1) - 1, by omega⟩
  rw [hm, Res.loop]
  have h1 : k < n := by omega
  unfold luLowerStep
  rw [luSum_acc _ _ _ _ (by simpa using hk) (by simpa using h1) (by simp; omega) (by simp; omega)]
  simp [Mat.get, hk, h1, divR, h0, Res.bind]

/-- The equations between the elements `a` of the input and the packed elements `e` of the result. -/
structure LuEq (n : Nat) (a : Nat → Nat → K) (k : Nat) (e : Nat → Nat → K) : Prop where
  rest : ∀ i j, i < n → j < n → k ≤ i → k ≤ j → e i j = a i j
  up : ∀ i j, i < k → i ≤ j → j < n → e i j = a i j - acc (fun p => e i p * e p j) 0 i
  low : ∀ i j, j < k → j < i → i < n →
    e j j ≠ 0 ∧ e i j = (a i j - acc (fun p => e i p * e p j) 0 j) / e j j

theorem LuEq.next {n k : Nat} {a e : Nat → Nat → K} (h : LuEq n a k e) (hk : k < n)
    (h0 : luUpG n k e k k ≠ 0 ∨ k + 1 = n) : LuEq n a (k + 1) (luLowG n k (luUpG n k e)) := by
  have e1 : ∀ i j, (i < k ∨ j < k) → luLowG n k (luUpG n k e) i j = e i j := by
    intro i j hij
    simp only [luLowG, luUpG]
    rw [if_neg (by omega), if_neg (by omega)]
  have hs : ∀ i j m, m ≤ k →
      acc (fun p => luLowG n k (luUpG n k e) i p * luLowG n k (luUpG n k e) p j) 0 m
        = acc (fun p => e i p * e p j) 0 m := by
    intro i j m hm
    refine acc_congr (fun p _ hp => ?_)
    rw [e1 i p (by omega), e1 p j (by omega)]
  have hkk : luLowG n k (luUpG n k e) k k = luUpG n k e k k := by simp [luLowG]
  refine ⟨?_, ?_, ?_⟩
  · intro i j hi hj hi' hj'
    simp only [luLowG, luUpG]
    rw [if_neg (by omega), if_neg (by omega)]
    exact h.rest i j hi hj (by omega) (by omega)
  · intro i j hi hij hj
    rw [hs i j i (by omega)]
    by_cases c : i < k
    · rw [e1 i j (.inl c)]
      exact h.up i j c hij hj
    · have hi' : i = k := by omega
      subst hi'
      simp only [luLowG]
      rw [if_neg (by omega)]
      simp only [luUpG]
      rw [if_pos ⟨trivial, hij, hj⟩, h.rest i j hk hj (le_refl _) hij]
  · intro i j hj hji hi
    rw [hs i j j (by omega)]
    by_cases c : j < k
    · rw [e1 j j (.inl c), e1 i j (.inr c)]
      exact h.low i j c hji hi
    · have hj' : j = k := by omega
      subst hj'
      rw [hkk]
      have h0' : luUpG n j e j j ≠ 0 := h0.resolve_right (by omega)
      refine ⟨h0', ?_⟩
      have hl : luLowG n j (luUpG n j e) i j =
          (luUpG n j e i j - acc (fun p => luUpG n j e i p * luUpG n j e p j) 0 j) / luUpG n j e j j := by
        rw [luLowG, if_pos (by omega)]
      have hs2 : acc (fun p => luUpG n j e i p * luUpG n j e p j) 0 j = acc (fun p => e i p * e p j) 0 j := by
        refine acc_congr (fun p _ hp => ?_)
        simp only [luUpG]
        rw [if_neg (by omega), if_neg (by omega)]
      have hu : luUpG n j e i j = a i j := by
        rw [luUpG, if_neg (by omega)]
        exact h.rest i j hi hk (by omega) (le_refl _)
      rw [hl, hs2, hu]

/-- `lu` of a square matrix either returns elements that satisfy the equations of the decomposition, or
divides by a zero pivot. -/
theorem luInplace_eqs (n : Nat) (a : Nat → Nat → K) :
    (∃ e, luInplace (⟨n, n, a⟩ : Mat K) = .ok ⟨n, n, e⟩ ∧ LuEq n a n e) ∨
    luInplace (⟨n, n, a⟩ : Mat K) = .ub .divZero := by
  have key := Res.loop_cases (lo := 0) (n := n) (s := (⟨n, n, a⟩ : Mat K))
    (body := fun k M => do
      let M ← Res.loop (luUpperStep k) k (n - k) M
      Res.loop (luLowerStep k) (k + 1) (n - (k + 1)) M)
    (fun k M => ∃ e, M = ⟨n, n, e⟩ ∧ LuEq n a k e) (.ub .divZero) (fun _ => rfl) True
    ⟨a, rfl, ⟨fun _ _ _ _ _ _ => rfl, fun i j h => by omega, fun i j h => by omega⟩⟩
    (by
      rintro k _ _ hk ⟨e, rfl, he⟩
      have hk : k < n := by omega
      rw [luUpper_loopG n k hk]
      by_cases c : luUpG n k e k k = 0 ∧ k + 1 < n
      · right
        exact ⟨luLower_failG n k c.2 _ c.1, trivial⟩
      · left
        by_cases c2 : luUpG n k e k k = 0
        · have hn : k + 1 = n := by
            by_contra hne
            exact c ⟨c2, by omega⟩
          refine ⟨⟨n, n, luLowG n k (luUpG n k e)⟩, ?_, _, rfl, he.next hk (.inr hn)⟩
          rw [Res.ok_bind, show n - (k + 1) = 0 by omega, Res.loop]
          congr 2
          funext x y
          simp only [luLowG]
          rw [if_neg (by omega)]
        · exact ⟨_, luLower_loopG n k hk _ c2, _, rfl, he.next hk (.inl c2)⟩)
  rw [Nat.zero_add] at key
  rcases key with ⟨M, h1, e, rfl, h2⟩ | ⟨h1, h2⟩
  · exact .inl ⟨e, h1, h2⟩
  · exact .inr h1

/-- The sum loop of the substitutions. -/
theorem substSum_acc (n : Nat) (e : Nat → Nat → K) (i lo m : Nat) (hi : i < n) (hm : lo + m ≤ n)
    (y : Vec K) (yv : Nat → K) (hs : y.size = n) (hy : ∀ j, lo ≤ j → j < lo + m → y.el j = some (yv j)) :
    Res.loop (fun j sum => do
      let l ← (⟨n, n, e⟩ : Mat K).get i j
      let z ← Vec.get y j
      pure (sum + l * z)) lo m 0 = .ok (acc (fun j => e i j * yv j) lo m) := by
  have key := Res.loop_fun (lo := lo) (n := m) (body := fun j sum => do
      let l ← (⟨n, n, e⟩ : Mat K).get i j
      let z ← Vec.get y j
      pure (sum + l * z)) (fun t => acc (fun j => e i j * yv j) lo (t - lo)) (by
      intro t h1 h2
      have ht : t < n := by omega
      rw [show t + 1 - lo = (t - lo) + 1 by omega]
      simp only [Mat.get, hi, ht, and_self, if_true, Res.ok_bind, Vec.get, hs, hy t h1 h2,
        Res.pure_eq, acc]
      rw [show lo + (t - lo) = t by omega])
  simpa [acc] using key

theorem forward_acc (n : Nat) (e : Nat → Nat → K) (P : Nat → Nat) (hP : ∀ i, i < n → P i < n)
    (b : Vec K) (bv : Nat → K) (hb : b.size = n) (hbv : ∀ i, i < n → b.el i = some (bv i)) :
    ∃ (y : Vec K) (yv : Nat → K), forwardSubst (⟨n, n, e⟩ : Mat K) P b = .ok y ∧ y.size = n ∧
      ∀ i, i < n → y.el i = some (yv i) ∧ yv i = bv (P i) - acc (fun j => e i j * yv j) 0 i := by
  obtain ⟨y, h1, h2, yv, h3⟩ := Res.loop_inv (lo := 0) (n := n) (s := (Vec.fresh n : Vec K))
    (body := fun i y => do
      let sum ← Res.loop (fun j sum => do
        let l ← (⟨n, n, e⟩ : Mat K).get i j
        let z ← Vec.get y j
        pure (sum + l * z)) 0 i 0
      let v ← b.get (P i)
      Vec.put y i (v - sum))
    (fun t y => y.size = n ∧ ∃ yv : Nat → K, ∀ i, i < t → y.el i = some (yv i) ∧
      yv i = bv (P i) - acc (fun j => e i j * yv j) 0 i)
    ⟨rfl, fun _ => 0, fun i h => by omega⟩
    (by
      rintro t y _ ht ⟨hs, yv, hy⟩
      have ht : t < n := by omega
      rw [substSum_acc n e t 0 t ht (by omega) y yv hs (fun j _ hj => (hy j (by omega)).1)]
      have hg : b.get (P t) = .ok (bv (P t)) := by
        simp [Vec.get, hb, hP t ht, hbv _ (hP t ht)]
      rw [Res.ok_bind, hg, Res.ok_bind]
      simp only [Vec.put, hs, ht, if_true]
      refine ⟨_, rfl, rfl, fun i => if i = t then bv (P t) - acc (fun j => e t j * yv j) 0 t else yv i, ?_⟩
      intro i hi
      have hsum : ∀ m, m ≤ t → acc (fun j => e i j *
          (if j = t then bv (P t) - acc (fun j => e t j * yv j) 0 t else yv j)) 0 m =
          acc (fun j => e i j * yv j) 0 m := by
        intro m hm
        refine acc_congr (fun j _ hj => ?_)
        rw [if_neg (by omega)]
      rw [hsum i (by omega)]
      by_cases c : i = t
      · subst c; simp
      · have := hy i (by omega)
        simp only [c, if_false]
        exact this)
  refine ⟨y, yv, ?_, h2, fun i hi => h3 i (by omega)⟩
  unfold forwardSubst
  rw [hb]
  exact h1

theorem backward_acc (n : Nat) (e : Nat → Nat → K) (y x : Vec K) (yv : Nat → K)
    (hy : y.size = n) (hyv : ∀ i, i < n → y.el i = some (yv i)) (hx : x.size = n) :
    (∃ (x' : Vec K) (xv : Nat → K), backwardSubst (⟨n, n, e⟩ : Mat K) y x n = .ok x' ∧ x'.size = n ∧
      ∀ i, i < n → x'.el i = some (xv i) ∧ e i i ≠ 0 ∧
        xv i = (yv i - acc (fun j => e i j * xv j) (i + 1) (n - (i + 1))) / e i i) ∨
    (backwardSubst (⟨n, n, e⟩ : Mat K) y x n = .ub .divZero ∧ ∃ i, i < n ∧ e i i = 0) := by
  have key := Res.loop_cases (lo := 0) (n := n) (s := x)
    (body := fun t x => do
      let i := n - 1 - t
      let sum ← Res.loop (fun j sum => do
        let u ← (⟨n, n, e⟩ : Mat K).get i j
        let z ← Vec.get x j
        pure (sum + u * z)) (i + 1) (n - (i + 1)) 0
      let v ← y.get i
      let d ← (⟨n, n, e⟩ : Mat K).get i i
      let q ← divR (v - sum) d
      Vec.put x i q)
    (fun t x => x.size = n ∧ ∃ xv : Nat → K, ∀ i, n - t ≤ i → i < n → x.el i = some (xv i) ∧ e i i ≠ 0 ∧
        xv i = (yv i - acc (fun j => e i j * xv j) (i + 1) (n - (i + 1))) / e i i)
    (.ub .divZero) (fun _ => rfl)
    (∃ i, i < n ∧ e i i = 0)
    ⟨hx, fun _ => 0, fun i h1 h2 => by omega⟩
    (by
      rintro t x _ ht ⟨hs, xv, hxv⟩
      have hi : n - 1 - t < n := by omega
      obtain ⟨i, hidef⟩ : ∃ i, i = n - 1 - t := ⟨_, rfl⟩
      simp only [← hidef]
      rw [← hidef] at hi
      rw [substSum_acc n e i (i + 1) (n - (i + 1)) hi (by omega) x xv hs
        (fun j h1 h2 => (hxv j (by omega) (by omega)).1)]
      have hg : y.get i = .ok (yv i) := by simp [Vec.get, hy, hi, hyv i hi]
      have hg2 : (⟨n, n, e⟩ : Mat K).get i i = .ok (e i i) := by simp [Mat.get, hi]
      rw [Res.ok_bind, hg, Res.ok_bind, hg2, Res.ok_bind]
      by_cases c : e i i = 0
      · right
        exact ⟨by simp [divR, c], i, hi, c⟩
      · left
        simp only [divR, c, if_false, Res.ok_bind, Vec.put, hs, hi, if_true]
        refine ⟨_, rfl, rfl, fun a => if a = i then
          (yv i - acc (fun j => e i j * xv j) (i + 1) (n - (i + 1))) / e i i else xv a, ?_⟩
        intro a h1 h2
        have hsum : acc (fun j => e a j *
            (if j = i then (yv i - acc (fun j => e i j * xv j) (i + 1) (n - (i + 1))) / e i i else xv j))
              (a + 1) (n - (a + 1)) =
            acc (fun j => e a j * xv j) (a + 1) (n - (a + 1)) := by
          refine acc_congr (fun j hj hj' => ?_)
          rw [if_neg (by omega)]
        rw [hsum]
        by_cases c2 : a = i
        · subst c2
          simp only [if_true]
          exact ⟨trivial, c, trivial⟩
        · have := hxv a (by omega) h2
          simp only [c2, if_false]
          exact this)
  rcases key with ⟨x', h1, h2, xv, h3⟩ | ⟨h1, h2⟩
  · exact .inl ⟨x', xv, h1, h2, fun i hi => h3 i (by omega) hi⟩
  · exact .inr ⟨h1, h2⟩

end
end CML
