import Verif.Lemmas.LuPivot
import Mathlib.LinearAlgebra.Matrix.NonsingularInverse

/-! Lemmas about the pivoting inverse (in-place Gauss-Jordan elimination). -/

set_option linter.unusedSectionVars false

namespace CML

open Finset

section
variable {K : Type} [Field K] [LinearOrder K] [IsStrictOrderedRing K]

/-- Elements after the pivot row has been scaled. -/
def gjRow (n c : Nat) (e : Nat → Nat → K) : Nat → Nat → K := fun a b =>
  if a = c ∧ b < n then (if b = c then 1 else e c b) * (1 / e c c) else e a b

theorem invPivotRow_ok (n c : Nat) (hc : c < n) (e : Nat → Nat → K) (h0 : e c c ≠ 0) :
    invPivotRow (⟨n, n, e⟩ : Mat K) c = .ok ⟨n, n, gjRow n c e⟩ := by
  have key := Res.loop_fun (lo := 0) (n := n) (body := fun j (M : Mat K) => do
      let x ← M.get c j
      M.put c j (x * (1 / e c c)))
    (fun t => (⟨n, n, fun a b => if a = c then (if b < t then (if b = c then 1 else e c b) * (1 / e c c)
      else (if b = c then 1 else e c b)) else e a b⟩ : Mat K)) (by
      intro t _ ht
      have ht : t < n := by omega
      simp only [Mat.get, Mat.put, Mat.set, hc, ht, and_self, if_true, Res.ok_bind, lt_irrefl, if_false]
      congr 2
      funext a b
      by_cases c1 : a = c
      · subst c1
        by_cases c2 : b = t
        · subst c2; simp
        · by_cases c3 : b < t
          · rw [if_neg (by omega), if_pos rfl, if_pos rfl, if_pos c3, if_pos (show b < t + 1 by omega)]
          · rw [if_neg (by omega), if_pos rfl, if_pos rfl, if_neg c3, if_neg (show ¬ b < t + 1 by omega)]
      · simp [c1])
  have hg : (⟨n, n, e⟩ : Mat K).get c c = .ok (e c c) := by simp [Mat.get, hc]
  have hp : (⟨n, n, e⟩ : Mat K).put c c 1 =
      .ok ⟨n, n, fun a b => if a = c ∧ b = c then 1 else e a b⟩ := by simp [Mat.put, Mat.set, hc]
  have hd : divR 1 (e c c) = .ok (1 / e c c) := by simp [divR, h0]
  unfold invPivotRow
  rw [hg, Res.ok_bind, hp, Res.ok_bind, hd, Res.ok_bind]
  have hstart : (⟨n, n, fun a b => if a = c then (if b < 0 then (if b = c then 1 else e c b) * (1 / e c c)
      else (if b = c then 1 else e c b)) else e a b⟩ : Mat K) =
      ⟨n, n, fun a b => if a = c ∧ b = c then 1 else e a b⟩ := by
    congr 1
    funext a b
    by_cases c1 : a = c
    · subst c1; simp
    · simp [c1]
  rw [hstart] at key
  refine Eq.trans key ?_
  congr 2
  funext a b
  simp only [gjRow, Nat.zero_add]
  by_cases c1 : a = c
  · subst c1
    by_cases c2 : b < n
    · simp [c2]
    · simp [c2, show b ≠ a by omega]
  · simp [c1]

theorem invPivotRow_fail (n c : Nat) (hc : c < n) (e : Nat → Nat → K) (h0 : e c c = 0) :
    invPivotRow (⟨n, n, e⟩ : Mat K) c = .ub .divZero := by
  simp [invPivotRow, Mat.get, Mat.put, hc, divR, h0]

/-- Elements after the rows below `t` (other than the pivot row) have been eliminated. -/
def gjOthers (n c t : Nat) (e : Nat → Nat → K) : Nat → Nat → K := fun a b =>
  if a ≠ c ∧ a < t ∧ b < n then (if b = c then 0 else e a b) + -e a c * e c b else e a b

theorem invOtherRow_ok (n c t : Nat) (hc : c < n) (ht : t < n) (e : Nat → Nat → K) :
    invOtherRow c t (⟨n, n, gjOthers n c t e⟩ : Mat K) = .ok ⟨n, n, gjOthers n c (t + 1) e⟩ := by
  unfold invOtherRow
  by_cases c0 : t = c
  · subst c0
    rw [if_pos rfl, Res.pure_eq]
    congr 2
    funext a b
    simp only [gjOthers]
    by_cases c1 : a ≠ t ∧ a < t ∧ b < n
    · rw [if_pos c1, if_pos (show a ≠ t ∧ a < t + 1 ∧ b < n by omega)]
    · rw [if_neg c1, if_neg (show ¬ (a ≠ t ∧ a < t + 1 ∧ b < n) by omega)]
  · rw [if_neg c0]
    have e1 : ∀ b, gjOthers n c t e t b = e t b := fun b => by simp [gjOthers]
    have e2 : ∀ b, gjOthers n c t e c b = e c b := fun b => by simp [gjOthers]
    have key := Res.loop_fun (lo := 0) (n := n) (body := fun k (M : Mat K) => do
        let x ← M.get t k
        let y ← M.get c k
        M.put t k (x + -e t c * y))
      (fun s => (⟨n, n, fun a b => if a = t then
          (if b < s then (if b = c then 0 else e t b) + -e t c * e c b else (if b = c then 0 else e t b))
          else gjOthers n c t e a b⟩ : Mat K)) (by
        intro s _ hs
        have hs : s < n := by omega
        simp only [Mat.get, Mat.put, Mat.set, hc, ht, hs, and_self, if_true, Res.ok_bind, lt_irrefl,
          if_false, show c ≠ t from fun h => c0 h.symm, e2]
        congr 2
        funext a b
        by_cases c1 : a = t
        · subst c1
          by_cases c2 : b = s
          · subst c2; simp
          · by_cases c3 : b < s
            · rw [if_neg (by omega), if_pos rfl, if_pos rfl, if_pos c3, if_pos (show b < s + 1 by omega)]
            · rw [if_neg (by omega), if_pos rfl, if_pos rfl, if_neg c3, if_neg (show ¬ b < s + 1 by omega)]
        · simp [c1])
    have hg : (⟨n, n, gjOthers n c t e⟩ : Mat K).get t c = .ok (e t c) := by
      simp [Mat.get, hc, ht, e1]
    have hp : (⟨n, n, gjOthers n c t e⟩ : Mat K).put t c 0 =
        .ok ⟨n, n, fun a b => if a = t ∧ b = c then 0 else gjOthers n c t e a b⟩ := by
      simp [Mat.put, Mat.set, hc, ht]
    rw [hg, Res.ok_bind]
    simp only [hp, Res.ok_bind]
    have hstart : (⟨n, n, fun a b => if a = t then
          (if b < 0 then (if b = c then 0 else e t b) + -e t c * e c b else (if b = c then 0 else e t b))
          else gjOthers n c t e a b⟩ : Mat K) =
        ⟨n, n, fun a b => if a = t ∧ b = c then 0 else gjOthers n c t e a b⟩ := by
      congr 1
      funext a b
      by_cases c1 : a = t
      · subst c1; simp [e1]
      · simp [c1]
    rw [hstart] at key
    refine Eq.trans key ?_
    congr 2
    funext a b
    simp only [Nat.zero_add]
    by_cases c1 : a = t
    · subst c1
      by_cases c2 : b < n
      · simp only [gjOthers]
        rw [if_pos trivial, if_pos c2,
          if_pos (show a ≠ c ∧ a < a + 1 ∧ b < n from ⟨c0, by omega, c2⟩)]
      · simp only [gjOthers]
        rw [if_pos trivial, if_neg c2, if_neg (show ¬ b = c by omega),
          if_neg (show ¬ (a ≠ c ∧ a < a + 1 ∧ b < n) by omega)]
    · rw [if_neg c1]
      simp only [gjOthers]
      by_cases c2 : a ≠ c ∧ a < t ∧ b < n
      · rw [if_pos c2, if_pos (show a ≠ c ∧ a < t + 1 ∧ b < n by omega)]
      · rw [if_neg c2, if_neg (show ¬ (a ≠ c ∧ a < t + 1 ∧ b < n) by omega)]

theorem invOthers_loop (n c : Nat) (hc : c < n) (e : Nat → Nat → K) :
    Res.loop (invOtherRow c) 0 n (⟨n, n, e⟩ : Mat K) = .ok ⟨n, n, gjOthers n c n e⟩ := by
  have key := Res.loop_fun (lo := 0) (n := n) (body := invOtherRow c)
    (fun t => (⟨n, n, gjOthers n c t e⟩ : Mat K))
    (fun t _ ht => invOtherRow_ok n c t hc (by omega) e)
  have hstart : gjOthers n c 0 e = e := by
    funext a b; simp [gjOthers]
  rw [hstart, Nat.zero_add] at key
  exact key

/-- What the pivot search returns: the initial choice (0,0), or an unused row and column. -/
theorem invSearch_ok (n : Nat) (hn : 0 < n) (e : Nat → Nat → K) (piv : Nat → Bool) :
    ∃ r c x, invSearch (⟨n, n, e⟩ : Mat K) piv = .ok (r, c, x) ∧
      ((r = 0 ∧ c = 0) ∨ (r < n ∧ c < n ∧ piv r = false ∧ piv c = false)) := by
  have inner : ∀ j, j < n → piv j = false → ∀ s : Nat × Nat × K,
      ((s.1 = 0 ∧ s.2.1 = 0) ∨ (s.1 < n ∧ s.2.1 < n ∧ piv s.1 = false ∧ piv s.2.1 = false)) →
      ∃ s', Res.loop (fun k (r : Nat × Nat × K) =>
        if piv k then pure r
        else do
          let x ← (⟨n, n, e⟩ : Mat K).get j k
          pure (if |x| > r.2.2 then (j, k, |x|) else r)) 0 n s = .ok s' ∧
        ((s'.1 = 0 ∧ s'.2.1 = 0) ∨ (s'.1 < n ∧ s'.2.1 < n ∧ piv s'.1 = false ∧ piv s'.2.1 = false)) := by
    intro j hj hpj s hs
    refine Res.loop_inv (fun _ (s : Nat × Nat × K) => (s.1 = 0 ∧ s.2.1 = 0) ∨
      (s.1 < n ∧ s.2.1 < n ∧ piv s.1 = false ∧ piv s.2.1 = false)) hs ?_
    intro k s _ hk hs
    have hk : k < n := by omega
    by_cases c : piv k = true
    · exact ⟨s, by simp [c], hs⟩
    · have c' : piv k = false := by simpa using c
      simp only [c', Mat.get, hj, hk, and_self, if_true, Res.ok_bind, Res.pure_eq, if_false,
        Bool.false_eq_true]
      refine ⟨_, rfl, ?_⟩
      by_cases c2 : |e j k| > s.2.2
      · rw [if_pos c2]; exact .inr ⟨hj, hk, hpj, c'⟩
      · rw [if_neg c2]; exact hs
  have hg : (⟨n, n, e⟩ : Mat K).get 0 0 = .ok (e 0 0) := by simp [Mat.get, hn]
  obtain ⟨s, h1, h2⟩ := Res.loop_inv (lo := 0) (n := n) (s := ((0, 0, |e 0 0|) : Nat × Nat × K))
    (body := fun j r =>
      if piv j then pure r
      else Res.loop (fun k (r : Nat × Nat × K) =>
        if piv k then pure r
        else do
          let x ← (⟨n, n, e⟩ : Mat K).get j k
          pure (if |x| > r.2.2 then (j, k, |x|) else r)) 0 n r)
    (fun _ s => (s.1 = 0 ∧ s.2.1 = 0) ∨
      (s.1 < n ∧ s.2.1 < n ∧ piv s.1 = false ∧ piv s.2.1 = false)) (.inl ⟨rfl, rfl⟩)
    (by
      intro j s _ hj hs
      by_cases c : piv j = true
      · exact ⟨s, by simp [c], hs⟩
      · have c' : piv j = false := by simpa using c
        obtain ⟨s', g1, g2⟩ := inner j (by omega) c' s hs
        exact ⟨s', by simp only [c', Bool.false_eq_true, if_false]; exact g1, g2⟩)
  obtain ⟨r, c, x⟩ := s
  refine ⟨r, c, x, ?_, h2⟩
  unfold invSearch
  rw [hg, Res.ok_bind]
  exact h1

/-! Matrix form of the invariant: `gjY * B = gjX`. -/

/-- Columns already eliminated hold the row operations made so far. -/
def gjY {n : Nat} (S : Nat → Bool) (M : Matrix (Fin n) (Fin n) K) : Matrix (Fin n) (Fin n) K :=
  fun i k => if S k then M i k else if i = k then 1 else 0

/-- Columns not yet eliminated hold the reduced matrix. -/
def gjX {n : Nat} (S : Nat → Bool) (M : Matrix (Fin n) (Fin n) K) : Matrix (Fin n) (Fin n) K :=
  fun i k => if S k then if i = k then 1 else 0 else M i k

theorem gj_swap {n : Nat} {S : Nat → Bool} {M B : Matrix (Fin n) (Fin n) K}
    (h : gjY S M * B = gjX S M) (x y : Fin n) (hx : S x = false) (hy : S y = false) :
    gjY S (M.submatrix (Equiv.swap x y) id) * B.submatrix (Equiv.swap x y) id =
      gjX S (M.submatrix (Equiv.swap x y) id) := by
  have hfix : ∀ k : Fin n, S k = true → Equiv.swap x y k = k := by
    intro k hk
    refine Equiv.swap_apply_of_ne_of_ne ?_ ?_
    · rintro rfl; rw [hx] at hk; cases hk
    · rintro rfl; rw [hy] at hk; cases hk
  have hS : ∀ k : Fin n, S (Equiv.swap x y k : Fin n) = S k := by
    intro k
    rw [Equiv.swap_apply_def]
    split_ifs with h1 h2
    · rw [h1, hx, hy]
    · rw [h2, hx, hy]
    · rfl
  have e1 : gjY S (M.submatrix (Equiv.swap x y) id) =
      (gjY S M).submatrix (Equiv.swap x y) (Equiv.swap x y) := by
    funext i k
    simp only [gjY, Matrix.submatrix_apply, hS, id]
    by_cases c : S k = true
    · rw [if_pos c, if_pos c, hfix k c]
    · rw [if_neg c, if_neg c]
      simp
  have e2 : gjX S (M.submatrix (Equiv.swap x y) id) = (gjX S M).submatrix (Equiv.swap x y) id := by
    funext i k
    simp only [gjX, Matrix.submatrix_apply, id]
    by_cases c : S k = true
    · rw [if_pos c, if_pos c]
      have : (Equiv.swap x y i = k) ↔ (i = k) := by
        constructor
        · intro hh
          rw [← hfix k c] at hh
          exact (Equiv.apply_eq_iff_eq _).mp hh
        · rintro rfl; exact hfix i c
      simp only [this]
    · rw [if_neg c, if_neg c]
  rw [e1, e2, Matrix.submatrix_mul_equiv, h]

/-- The elimination step as a matrix. -/
def gjF {n : Nat} (c : Fin n) (M : Matrix (Fin n) (Fin n) K) : Matrix (Fin n) (Fin n) K :=
  fun i j => if j = c then (if i = c then 1 / M c c else -(M i c) / M c c)
    else if i = j then 1 else 0

theorem gjF_mul {n : Nat} (c : Fin n) (M Z : Matrix (Fin n) (Fin n) K) (i k : Fin n) :
    (gjF c M * Z) i k = if i = c then Z c k / M c c else Z i k - M i c / M c c * Z c k := by
  rw [Matrix.mul_apply]
  by_cases hc : i = c
  · subst hc
    rw [if_pos rfl, Finset.sum_eq_single i]
    · simp [gjF, div_eq_mul_inv, mul_comm]
    · intro j _ hj
      simp [gjF, hj, Ne.symm hj]
    · intro h; exact absurd (Finset.mem_univ i) h
  · rw [if_neg hc, ← Finset.add_sum_erase _ _ (Finset.mem_univ c),
      Finset.sum_eq_single (a := i)]
    · simp [gjF, hc]
      ring
    · intro j hj hji
      have hjc : j ≠ c := (Finset.mem_erase.mp hj).1
      simp [gjF, hjc, Ne.symm hji]
    · intro h
      exact absurd (Finset.mem_erase.mpr ⟨hc, Finset.mem_univ i⟩) h

/-- The matrix after one elimination step. -/
def gjStep {n : Nat} (c : Fin n) (M : Matrix (Fin n) (Fin n) K) : Matrix (Fin n) (Fin n) K :=
  fun i k => if i = c then (if k = c then 1 else M c k) * (1 / M c c)
    else (if k = c then 0 else M i k) + -M i c * ((if k = c then 1 else M c k) * (1 / M c c))

theorem gj_step {n : Nat} {S : Nat → Bool} {M B : Matrix (Fin n) (Fin n) K}
    (h : gjY S M * B = gjX S M) (c : Fin n) (hc : S c = false) (h0 : M c c ≠ 0) :
    gjY (fun i => if i = c.1 then true else S i) (gjStep c M) * B =
      gjX (fun i => if i = c.1 then true else S i) (gjStep c M) := by
  have e1 : gjF c M * gjY S M = gjY (fun i => if i = c.1 then true else S i) (gjStep c M) := by
    funext i k
    rw [gjF_mul]
    by_cases hk : k = c
    · subst hk
      by_cases hi : i = k
      · subst hi; simp [gjY, gjStep, hc]
      · simp [gjY, gjStep, hc, hi]; ring
    · have hk' : k.1 ≠ c.1 := fun h => hk (Fin.ext h)
      by_cases hS : S k = true
      · by_cases hi : i = c
        · subst hi; simp [gjY, gjStep, hk, hk', hS]; ring
        · simp [gjY, gjStep, hk, hk', hS, hi]; ring
      · have hS' : S k = false := by simpa using hS
        by_cases hi : i = c
        · subst hi; simp [gjY, hk', hS', Ne.symm hk]
        · by_cases hik : i = k
          · subst hik; simp [gjY, hk', hS', hi, Ne.symm hi]
          · simp [gjY, hk', hS', hi, hik, Ne.symm hk]
  have e2 : gjF c M * gjX S M = gjX (fun i => if i = c.1 then true else S i) (gjStep c M) := by
    funext i k
    rw [gjF_mul]
    by_cases hk : k = c
    · subst hk
      by_cases hi : i = k
      · subst hi; simp [gjX, hc, h0]
      · simp [gjX, hc, hi, h0]
    · have hk' : k.1 ≠ c.1 := fun h => hk (Fin.ext h)
      by_cases hS : S k = true
      · by_cases hi : i = c
        · subst hi; simp [gjX, hk', hS, Ne.symm hk]
        · by_cases hik : i = k
          · subst hik; simp [gjX, hk', hS, hi, Ne.symm hi]
          · simp [gjX, hk', hS, hi, hik, Ne.symm hk]
      · have hS' : S k = false := by simpa using hS
        by_cases hi : i = c
        · subst hi; simp [gjX, gjStep, hk, hk', hS']; ring
        · simp [gjX, gjStep, hk, hk', hS', hi]; ring
  rw [← e1, ← e2, Matrix.mul_assoc, h]

theorem gjStep_blk (n c : Nat) (hc : c < n) (e : Nat → Nat → K) :
    blk n (gjOthers n c n (gjRow n c e)) = gjStep ⟨c, hc⟩ (blk n e) := by
  funext i k
  simp only [blk, gjStep, gjOthers, gjRow, Fin.ext_iff]
  by_cases hi : i.1 = c
  · simp [hi]
  · by_cases hk : k.1 = c
    · simp [hi, hk, hc]
    · simp [hi, hk]

theorem swapRows_blk (n : Nat) (x y : Fin n) (e : Nat → Nat → K) :
    blk n (fun a b => if b < n then e (swp x y a) b else e a b) =
      (blk n e).submatrix (Equiv.swap x y) id := by
  funext i k
  simp only [blk, Matrix.submatrix_apply, id, k.2, if_true]
  congr 1
  rw [Equiv.swap_apply_def]
  simp only [swp, Fin.ext_iff]
  split_ifs <;> rfl

/-- The permutation made by a list of exchanges, in order. -/
def swapsPerm (n : Nat) : List (Nat × Nat) → Equiv.Perm (Fin n)
  | [] => 1
  | (r, c) :: l =>
    (if h : r < n ∧ c < n then Equiv.swap ⟨r, h.1⟩ ⟨c, h.2⟩
      else (1 : Equiv.Perm (Fin n))) * swapsPerm n l

theorem swapsPerm_append (n : Nat) (l : List (Nat × Nat)) (r c : Nat) (hr : r < n) (hc : c < n) :
    swapsPerm n (l ++ [(r, c)]) = swapsPerm n l * Equiv.swap ⟨r, hr⟩ ⟨c, hc⟩ := by
  induction l with
  | nil => simp [swapsPerm, hr, hc]
  | cons p l ih => simp only [List.cons_append, swapsPerm, ih, mul_assoc]

theorem swapCols_ok (n x y : Nat) (hx : x < n) (hy : y < n) (e : Nat → Nat → K) :
    swapCols (⟨n, n, e⟩ : Mat K) x y =
      .ok ⟨n, n, fun a b => if a < n then e a (swp x y b) else e a b⟩ := by
  have := Res.loop_fun (lo := 0) (n := n) (body := fun i (M : Mat K) => do
      let u ← M.get i x
      let v ← M.get i y
      let M ← M.put i x v
      M.put i y u)
    (fun t => (⟨n, n, fun a b => if a < t then e a (swp x y b) else e a b⟩ : Mat K)) (by
      intro t _ ht
      have ht : t < n := by omega
      simp only [Mat.get, Mat.put, Mat.set, hx, hy, ht, and_self, if_true, Res.ok_bind,
        lt_irrefl, if_false]
      congr 2
      funext a b
      simp only [swp]
      by_cases c1 : a = t
      · subst c1
        by_cases c2 : b = y
        · subst c2
          by_cases c3 : b = x
          · subst c3; simp
          · simp [c3]
        · by_cases c3 : b = x
          · subst c3; simp [c2]
          · simp [c2, c3]
      · by_cases c2 : a < t
        · simp [c1, c2, show a < t + 1 by omega]
        · simp [c1, c2, show ¬ a < t + 1 by omega])
  simpa [swapCols] using this

theorem swapCols_blk (n : Nat) (x y : Fin n) (e : Nat → Nat → K) :
    blk n (fun a b => if a < n then e a (swp x y b) else e a b) =
      (blk n e).submatrix id (Equiv.swap x y) := by
  funext i k
  simp only [blk, Matrix.submatrix_apply, id, i.2, if_true]
  congr 1
  rw [Equiv.swap_apply_def]
  simp only [swp, Fin.ext_iff]
  split_ifs <;> rfl

theorem undoSwaps_ok (n : Nat) (l : List (Nat × Nat)) (hl : ∀ p ∈ l, p.1 < n ∧ p.2 < n)
    (e : Nat → Nat → K) : ∃ e', undoSwaps (⟨n, n, e⟩ : Mat K) l = .ok ⟨n, n, e'⟩ ∧
      blk n e' = (blk n e).submatrix id (swapsPerm n l) := by
  induction l generalizing e with
  | nil => exact ⟨e, rfl, by simp [swapsPerm]⟩
  | cons p l ih =>
    obtain ⟨r, c⟩ := p
    obtain ⟨hr, hc⟩ := hl (r, c) (by simp)
    have hl' : ∀ p ∈ l, p.1 < n ∧ p.2 < n := fun p hp => hl p (by simp [hp])
    by_cases hrc : r = c
    · obtain ⟨e', h1, h2⟩ := ih hl' e
      refine ⟨e', by simpa [undoSwaps, hrc] using h1, ?_⟩
      rw [h2]
      simp [swapsPerm, hr, hc, hrc]
    · obtain ⟨e', h1, h2⟩ := ih hl' (fun a b => if a < n then e a (swp r c b) else e a b)
      refine ⟨e', ?_, ?_⟩
      · rw [undoSwaps, if_neg hrc, swapCols_ok n r c hr hc]
        exact h1
      · rw [h2, swapCols_blk n ⟨r, hr⟩ ⟨c, hc⟩, Matrix.submatrix_submatrix]
        simp [swapsPerm, hr, hc]

/-- State of the elimination loop. -/
structure GjInv (n : Nat) (a : Nat → Nat → K) (t : Nat) (s : InvState K) : Prop where
  shape : ∃ e, s.m = ⟨n, n, e⟩ ∧ ((s.idx.map Prod.snd).Nodup →
    gjY s.pivoted (blk n e) * (blk n a).submatrix (swapsPerm n s.idx) id = gjX s.pivoted (blk n e))
  len : s.idx.length = t
  rng : ∀ p ∈ s.idx, p.1 < n ∧ p.2 < n
  mark : ∀ i, s.pivoted i = true ↔ i ∈ s.idx.map Prod.snd

theorem invStep_cases (n : Nat) (a : Nat → Nat → K) (hn : 0 < n) (t : Nat) (s : InvState K)
    (h : GjInv n a t s) :
    (∃ s', invStep s = .ok s' ∧ GjInv n a (t + 1) s') ∨ (invStep s = .ub .divZero ∧ True) := by
  obtain ⟨⟨e, hm, hinv⟩, hlen, hrng, hmark⟩ := h
  obtain ⟨r, c, x, hs, hrc⟩ := invSearch_ok n hn e s.pivoted
  have hr : r < n := by rcases hrc with ⟨h1, h2⟩ | ⟨h1, _⟩ <;> omega
  have hc : c < n := by rcases hrc with ⟨h1, h2⟩ | ⟨_, h1, _⟩ <;> omega
  obtain ⟨e1, he1, he1b⟩ : ∃ e1, (if r ≠ c then swapRows (⟨n, n, e⟩ : Mat K) r c else pure ⟨n, n, e⟩) =
      .ok ⟨n, n, e1⟩ ∧ blk n e1 = (blk n e).submatrix (Equiv.swap ⟨r, hr⟩ ⟨c, hc⟩) id := by
    by_cases hne : r = c
    · refine ⟨e, by simp [hne], ?_⟩
      subst hne
      simp
    · refine ⟨_, by rw [if_pos hne, swapRows_ok n r c hr hc], ?_⟩
      exact swapRows_blk n ⟨r, hr⟩ ⟨c, hc⟩ e
  unfold invStep
  rw [hm, hs, Res.ok_bind]
  simp only [he1, Res.ok_bind]
  by_cases h0 : e1 c c = 0
  · right
    rw [invPivotRow_fail n c hc e1 h0]
    exact ⟨rfl, trivial⟩
  · left
    rw [invPivotRow_ok n c hc e1 h0, Res.ok_bind, invOthers_loop n c hc]
    refine ⟨_, rfl, ⟨_, rfl, ?_⟩, by simp [hlen], ?_, ?_⟩
    · intro hnd
      simp only [List.map_append, List.map_cons, List.map_nil] at hnd
      have hnd' := List.nodup_append.mp hnd
      have hnot : c ∉ s.idx.map Prod.snd := by
        intro hmem
        exact hnd'.2.2 c hmem c (by simp) rfl
      have hcS : s.pivoted c = false := by
        by_contra hcon
        exact hnot ((hmark c).mp (by simpa using hcon))
      have hrS : s.pivoted r = false := by
        rcases hrc with ⟨h1, h2⟩ | ⟨_, _, h1, _⟩
        · rw [h1]; rw [h2] at hcS; exact hcS
        · exact h1
      have k1 := gj_swap (hinv hnd'.1) ⟨r, hr⟩ ⟨c, hc⟩ hrS hcS
      rw [← he1b, Matrix.submatrix_submatrix] at k1
      have k2 := gj_step k1 ⟨c, hc⟩ hcS h0
      rw [← gjStep_blk] at k2
      rw [swapsPerm_append n s.idx r c hr hc]
      exact k2
    · intro p hp
      rcases List.mem_append.mp hp with h | h
      · exact hrng p h
      · rw [List.mem_singleton.mp h]; exact ⟨hr, hc⟩
    · intro i
      by_cases hi : i = c
      · simp [hi]
      · simp only [hi, if_false, hmark, List.map_append, List.mem_append]
        simp [hi]

/-- Outcome of the elimination loop. -/
theorem invLoop_cases (n : Nat) (a : Nat → Nat → K) :
    (∃ s, Res.loop (fun _ s => invStep s) 0 n (⟨⟨n, n, a⟩, [], fun _ => false⟩ : InvState K) = .ok s ∧
      GjInv n a n s) ∨
    (Res.loop (fun _ s => invStep s) 0 n (⟨⟨n, n, a⟩, [], fun _ => false⟩ : InvState K) =
      .ub .divZero ∧ True) := by
  have key := Res.loop_cases (lo := 0) (n := n)
    (s := (⟨⟨n, n, a⟩, [], fun _ => false⟩ : InvState K)) (body := fun _ s => invStep s)
    (fun t s => GjInv n a t s) (.ub .divZero) (fun _ => rfl) True
    ⟨⟨a, rfl, fun _ => by
      have h1 : gjY (fun _ => false) (blk n a) = 1 := by
        funext i k; simp [gjY, Matrix.one_apply]
      have h2 : gjX (fun _ => false) (blk n a) = blk n a := by
        funext i k; simp [gjX]
      rw [h1, h2]
      simp [swapsPerm]⟩, rfl, fun p hp => by simp at hp, fun i => by simp⟩
    (fun t s _ ht hs => invStep_cases n a (by omega) t s hs)
  rwa [Nat.zero_add] at key

/-- If every column is a pivot column, the loop leaves the inverse of the row-permuted matrix. -/
theorem GjInv.final {n : Nat} {a : Nat → Nat → K} {s : InvState K} (h : GjInv n a n s)
    (hnd : (s.idx.map Prod.snd).Nodup) : ∃ e, s.m = ⟨n, n, e⟩ ∧
      blk n e * (blk n a).submatrix (swapsPerm n s.idx) id = 1 := by
  obtain ⟨⟨e, h1, h2⟩, hlen, hrng, hmark⟩ := h
  refine ⟨e, h1, ?_⟩
  have hall : ∀ i : Fin n, s.pivoted i = true := by
    have hsub : (s.idx.map Prod.snd).toFinset ⊆ range n := by
      intro x hx
      obtain ⟨p, hp, rfl⟩ := List.mem_map.mp (List.mem_toFinset.mp hx)
      exact mem_range.mpr (hrng p hp).2
    have hcard : (s.idx.map Prod.snd).toFinset.card = n := by
      rw [List.toFinset_card_of_nodup hnd, List.length_map, hlen]
    have heq := Finset.eq_of_subset_of_card_le hsub (by rw [hcard, card_range])
    intro i
    rw [hmark]
    have : i.1 ∈ (s.idx.map Prod.snd).toFinset := by rw [heq]; exact mem_range.mpr i.2
    exact List.mem_toFinset.mp this
  have e1 : gjY s.pivoted (blk n e) = blk n e := by
    funext i k; simp [gjY, hall]
  have e2 : gjX s.pivoted (blk n e) = 1 := by
    funext i k; simp [gjX, hall, Matrix.one_apply]
  have := h2 hnd
  rwa [e1, e2] at this

end
end CML
