import Verif.Spec.Expr
import Verif.Tactics

/-! Lemmas about loops and products used by the expression theorems. -/

namespace CML

variable {E : Type}

@[simp] theorem BinOp.apply_eq [Add E] [Sub E] [Mul E] (o : BinOp) (a b : E) : o.apply a b = o.den a b := by
  cases o <;> rfl

@[simp] theorem ScalOp.apply_eq [Mul E] [Div E] (o : ScalOp) (a b : E) : o.apply a b = o.den a b := by
  cases o <;> rfl

/-- Collecting one value per iteration yields the list of the values. -/
theorem loop_collect {body : Nat → Res E} {r : Nat} (g : Fin r → E)
    (h : ∀ i : Fin r, body i = .ok (g i)) :
    Res.loop (fun i acc => do let m ← body i; pure (acc ++ [m])) 0 r ([] : List E)
      = .ok (List.ofFn g) := by
  obtain ⟨l, h1, h2⟩ := Res.loop_inv (lo := 0) (n := r) (s := ([] : List E))
    (body := fun i acc => do let m ← body i; pure (acc ++ [m]))
    (fun k acc => acc.length = k ∧ ∀ (j : Nat) (hj : j < r), j < k → acc[j]? = some (g ⟨j, hj⟩))
    ⟨rfl, by intro j _ h; omega⟩
    (by
      rintro k acc - hk ⟨hl, hv⟩
      have hk' : k < r := by omega
      refine ⟨acc ++ [g ⟨k, hk'⟩], ?_, by simp [hl], ?_⟩
      · have := h ⟨k, hk'⟩
        simp only at this
        simp [this]
      · intro j hj hjk
        by_cases hjk' : j < k
        · rw [List.getElem?_append_left (by omega)]; exact hv j hj hjk'
        · have : j = k := by omega
          subst this
          rw [List.getElem?_append_right (by omega)]; simp [hl])
  rw [h1]
  congr 1
  apply List.ext_getElem?
  intro i
  rw [Nat.zero_add] at h2
  by_cases hi : i < r
  · rw [h2.2 i hi hi]; simp [hi]
  · rw [List.getElem?_eq_none (by omega), List.getElem?_eq_none (by simpa using hi)]

/-- Value of the loop that collects a matrix row by row. -/
theorem loop_collect2 {body : Nat → Nat → Res E} {r c : Nat} (g : Fin r → Fin c → E)
    (h : ∀ (i : Fin r) (j : Fin c), body i j = .ok (g i j)) :
    ∃ l : List E, Res.loop (fun i acc => Res.loop (fun j acc => do
        let m ← body i j; pure (acc ++ [m])) 0 c acc) 0 r ([] : List E) = .ok l ∧
      l.length = r * c ∧ ∀ (i : Fin r) (j : Fin c), l[(i : Nat) * c + j]? = some (g i j) := by
  obtain ⟨l, h1, h2⟩ := Res.loop_inv (lo := 0) (n := r) (s := ([] : List E))
    (body := fun i acc => Res.loop (fun j acc => do
        let m ← body i j; pure (acc ++ [m])) 0 c acc)
    (fun k acc => acc.length = k * c ∧
      ∀ (i : Fin r) (j : Fin c), (i : Nat) < k → acc[(i : Nat) * c + j]? = some (g i j))
    ⟨by simp, by intro i j h; omega⟩
    (by
      rintro k acc - hk ⟨hl, hv⟩
      have hk' : k < r := by omega
      obtain ⟨l', h1', h2', h3'⟩ := Res.loop_inv (lo := 0) (n := c) (s := acc)
        (body := fun j acc => do let m ← body k j; pure (acc ++ [m]))
        (fun q acc' => acc'.length = k * c + q ∧
          ∀ (i : Fin r) (j : Fin c), ((i : Nat) < k ∨ ((i : Nat) = k ∧ (j : Nat) < q)) →
            acc'[(i : Nat) * c + j]? = some (g i j))
        ⟨by simp [hl], by
          rintro i j (h | h)
          · exact hv i j h
          · omega⟩
        (by
          rintro q acc' - hq ⟨hl', hv'⟩
          have hq' : q < c := by omega
          refine ⟨acc' ++ [g ⟨k, hk'⟩ ⟨q, hq'⟩], ?_, by simp [hl']; omega, ?_⟩
          · have := h ⟨k, hk'⟩ ⟨q, hq'⟩
            simp only at this
            simp [this]
          · rintro ⟨i, hi⟩ ⟨j, hj⟩ hij
            simp only at hij ⊢
            by_cases hc : i = k ∧ j = q
            · obtain ⟨rfl, rfl⟩ := hc
              rw [List.getElem?_append_right (by omega)]; simp [hl']
            · have hlt : i * c + j < k * c + q := by
                rcases hij with hij | ⟨rfl, hij⟩
                · have : (i + 1) * c ≤ k * c := Nat.mul_le_mul_right c hij
                  rw [Nat.add_mul] at this; omega
                · omega
              rw [List.getElem?_append_left (by omega)]
              apply hv' ⟨i, hi⟩ ⟨j, hj⟩
              simp only; omega)
      refine ⟨l', h1', ?_, ?_⟩
      · rw [h2', Nat.add_mul]; omega
      · intro i j hij
        apply h3'
        have := j.2
        omega)
  rw [Nat.zero_add] at h2
  exact ⟨l, h1, h2.1, fun i j => h2.2 i j i.2⟩

/-- The sum of the first `k+1` terms of a sequence, from the left. -/
def sumN [Add E] (g : Nat → E) : Nat → E
  | 0 => g 0
  | n + 1 => sumN g n + g (n + 1)

theorem sumLeft_eq_sumN [Add E] (g : Nat → E) (n : Nat) :
    sumLeft n (fun i => g i) = sumN g n := by
  induction n with
  | zero => rfl
  | succ n ih => simp only [sumLeft, sumN]; congr 1

/-- The accumulation loop of the products computes the left-to-right inner product. -/
theorem innerLoop_eq [Add E] [Mul E] {p q : Nat → Res E} {n : Nat} (hn : 0 < n)
    (P Q : Fin n → E) (hp : ∀ k : Fin n, p k = .ok (P k)) (hq : ∀ k : Fin n, q k = .ok (Q k)) :
    innerLoop p q n = .ok (dotLeft n hn P Q) := by
  obtain ⟨m, rfl⟩ : ∃ m, n = m + 1 := ⟨n - 1, by omega⟩
  let g : Nat → E := fun k => if h : k < m + 1 then P ⟨k, h⟩ * Q ⟨k, h⟩ else P 0 * Q 0
  have hg : dotLeft (m + 1) hn P Q = sumN g m := by
    rw [← sumLeft_eq_sumN]
    simp only [dotLeft]
    congr 1
    funext i
    simp only [g, i.2, dif_pos]
  have h0 := hp 0
  have h0' := hq 0
  simp only [Fin.val_zero] at h0 h0'
  obtain ⟨s, h1, h2⟩ := Res.loop_inv (lo := 1) (n := m) (s := P 0 * Q 0)
    (body := fun k m => do let x ← p k; let y ← q k; pure (m + x * y))
    (fun k acc => acc = sumN g (k - 1)) (by simp [sumN, g])
    (by
      rintro k acc hk hk' rfl
      have hkn : k < m + 1 := by omega
      have e1 := hp ⟨k, hkn⟩
      have e2 := hq ⟨k, hkn⟩
      simp only at e1 e2
      refine ⟨_, by simp [e1, e2]; rfl, ?_⟩
      obtain ⟨k', rfl⟩ : ∃ k', k = k' + 1 := ⟨k - 1, by omega⟩
      simp [sumN, g, hkn])
  unfold innerLoop
  simp only [h0, h0', Res.ok_bind, Nat.add_sub_cancel, h1, h2, hg]
  simp

end CML
