import Verif.Spec.Memory
import Verif.Tactics

/-! Lemmas about memory reads, writes and the element store loops. -/

namespace CML

variable {E : Type}

theorem Heap.read_eq_ok {h : Heap E} {b o : Nat} {v : E} :
    h.read b o = .ok v ↔ h.cell b o = some (some v) := by
  unfold Heap.read Heap.cell
  cases h.blk b with
  | none => simp
  | some l =>
    simp only [Option.bind_some]
    cases hl : l[o]? with
    | none => simp
    | some c => cases c <;> simp

theorem Heap.read_congr {h h' : Heap E} {b o : Nat} (hb : (h.blk b).isSome = (h'.blk b).isSome)
    (hc : h.cell b o = h'.cell b o) : h.read b o = h'.read b o := by
  unfold Heap.cell at hc
  unfold Heap.read
  cases h1 : h.blk b with
  | none => rw [h1] at hb; cases h2 : h'.blk b with
    | none => rfl
    | some l => rw [h2] at hb; simp at hb
  | some l => cases h2 : h'.blk b with
    | none => rw [h1, h2] at hb; simp at hb
    | some l' =>
      rw [h1, h2] at hc
      simp only [Option.bind_some] at hc
      simp only [hc]

/-- Effect of a write on existing, assignable storage. -/
theorem Heap.write_ok {triv : Bool} {h : Heap E} {b o : Nat} {v : E} (hw : h.Writable triv b o) :
    ∃ h', h.write triv b o v = .ok h' ∧ h'.cell b o = some (some v) ∧
      (∀ b' o', (b', o') ≠ (b, o) → h'.cell b' o' = h.cell b' o') ∧
      (∀ b', (h'.blk b').isSome = (h.blk b').isSome) ∧
      (∀ b', (h'.blk b').map List.length = (h.blk b').map List.length) ∧
      h'.next = h.next ∧ h'.tick = h.tick ∧ h'.fail = h.fail := by
  obtain ⟨c, hc, ht⟩ := hw
  unfold Heap.cell at hc
  cases hb : h.blk b with
  | none => simp [hb] at hc
  | some l =>
    simp only [hb, Option.bind_some] at hc
    have ho : o < l.length := by
      by_contra hcon
      rw [List.getElem?_eq_none (by omega)] at hc
      cases hc
    refine ⟨h.setBlk b (some (l.set o (some v))), ?_, ?_, ?_, ?_, ?_, rfl, rfl, rfl⟩
    · unfold Heap.write
      simp only [hb, hc]
      rw [if_pos]
      rcases ht with ht | ht <;> simp [ht]
    · simp [Heap.cell, Heap.setBlk, ho]
    · intro b' o' hne
      by_cases hbb : b' = b
      · subst hbb
        have : o ≠ o' := fun h => hne (by simp [h])
        simp [Heap.cell, Heap.setBlk, hb, List.getElem?_set_ne this]
      · simp [Heap.cell, Heap.setBlk, hbb]
    · intro b'
      by_cases hbb : b' = b
      · subst hbb; simp [Heap.setBlk, hb]
      · simp [Heap.setBlk, hbb]
    · intro b'
      by_cases hbb : b' = b
      · subst hbb; simp [Heap.setBlk, hb]
      · simp [Heap.setBlk, hbb]

theorem VObj.get_eq_ok {h : Heap E} {v : VObj} {b : Nat} (hb : v.data = some b) {i : Nat}
    (hi : i < v.size) {e : E} : v.get h i = .ok e ↔ h.cell b (v.off + i) = some (some e) := by
  unfold VObj.get
  simp only [hb, hi, if_true]
  exact Heap.read_eq_ok

/-- The memory effect of an element store loop on vector `v`: its elements become `g`, everything
else keeps its value. -/
structure Stored (h h' : Heap E) (b off n : Nat) (g : Nat → E) : Prop where
  val : ∀ i, i < n → h'.cell b (off + i) = some (some (g i))
  frame : ∀ b' o', (b' ≠ b ∨ o' < off ∨ off + n ≤ o') → h'.cell b' o' = h.cell b' o'
  live : ∀ b', (h'.blk b').isSome = (h.blk b').isSome
  len : ∀ b', (h'.blk b').map List.length = (h.blk b').map List.length
  next : h'.next = h.next
  tick : h'.tick = h.tick
  fail : h'.fail = h.fail

/-- The first `n` iterations of a loop that stores `f(i)` into element `i`, where in every intermediate
state the read of `f(i)` still yields `g i`. -/
theorem storeSteps_ok {triv : Bool} {s : State E} {x : Nat} {v : VObj} {b : Nat}
    (hx : s.vec x = some v) (hb : v.data = some b) (n : Nat) (hn : n ≤ v.size)
    (hw : ∀ i, i < v.size → s.heap.Writable triv b (v.off + i))
    {f : State E → Nat → Res E} (g : Nat → E)
    (hf : ∀ i s', i < n → s'.vec = s.vec → s'.mat = s.mat →
      Stored s.heap s'.heap b v.off i g → f s' i = .ok (g i)) :
    ∃ h', Out.loop (storeStep triv x f) 0 n s = .ok { s with heap := h' } ∧
      Stored s.heap h' b v.off n g := by
  obtain ⟨s', h1, h2, h3, h4⟩ := Out.loop_inv (lo := 0) (n := n) (s := s)
    (body := storeStep triv x f)
    (fun k s' => s'.vec = s.vec ∧ s'.mat = s.mat ∧ Stored s.heap s'.heap b v.off k g)
    ⟨rfl, rfl, ⟨by intro i hi; omega, fun _ _ _ => rfl, fun _ => rfl, fun _ => rfl, rfl, rfl, rfl⟩⟩
    (by
      rintro k s' - hk ⟨hv, hm, hst⟩
      have hk' : k < v.size := by omega
      have hr := hf k s' (by omega) hv hm hst
      have hwr : s'.heap.Writable triv b (v.off + k) := by
        obtain ⟨c, hc, ht⟩ := hw k hk'
        exact ⟨c, by rw [hst.frame b _ (Or.inr (Or.inr (le_refl _))), hc], ht⟩
      obtain ⟨h', w1, w2, w3, w4, w5, w6, w7, w8⟩ := Heap.write_ok (v := g k) hwr
      refine ⟨{ s' with heap := h' }, ?_, hv, hm, ⟨?_, ?_, ?_, ?_, ?_, ?_, ?_⟩⟩
      · simp [storeStep, hr, vPut, State.vobj, hv, hx, VObj.put, hb, hk', w1]
      · intro i hi
        by_cases hik : i = k
        · subst hik; exact w2
        · rw [w3 b (v.off + i) (by simp; omega)]
          exact hst.val i (by omega)
      · intro b' o' hbo
        rw [w3 b' o' (by simp only [ne_eq, Prod.mk.injEq, not_and]; omega)]
        exact hst.frame b' o' (by omega)
      · intro b'; rw [w4, hst.live]
      · intro b'; rw [w5, hst.len]
      · rw [w6, hst.next]
      · rw [w7, hst.tick]
      · rw [w8, hst.fail])
  rw [Nat.zero_add] at h4
  refine ⟨s'.heap, ?_, h4⟩
  rw [h1]
  congr 1
  cases s'
  simp only at h2 h3
  subst h2 h3
  rfl

/-- A loop that stores `f(i)` into element `i`, where in every intermediate state the read of `f(i)`
still yields `g i`, stores all of `g`. -/
theorem storeLoop_ok {triv : Bool} {s : State E} {x : Nat} {v : VObj} {b : Nat}
    (hx : s.vec x = some v) (hb : v.data = some b)
    (hw : ∀ i, i < v.size → s.heap.Writable triv b (v.off + i))
    {f : State E → Nat → Res E} (g : Nat → E)
    (hf : ∀ i s', i < v.size → s'.vec = s.vec → s'.mat = s.mat →
      Stored s.heap s'.heap b v.off i g → f s' i = .ok (g i)) :
    ∃ h', storeLoop triv s x f = .ok { s with heap := h' } ∧ Stored s.heap h' b v.off v.size g := by
  obtain ⟨h', e1, e2⟩ := storeSteps_ok hx hb v.size (le_refl _) hw g hf
  refine ⟨h', ?_, e2⟩
  unfold storeLoop
  simp only [State.vobj, hx, Out.withVal_ok, e1]

theorem Out.loop_add {σ : Type} (body : Nat → σ → Out σ) (lo n m : Nat) (s : σ) :
    Out.loop body lo (n + m) s = (Out.loop body lo n s).andThen fun s => Out.loop body (lo + n) m s := by
  induction n generalizing lo s with
  | zero => simp [Out.loop]
  | succ n ih =>
    rw [show n + 1 + m = (n + m) + 1 by omega]
    simp only [Out.loop]
    cases body lo s with
    | ok s' =>
      simp only [Out.ok_andThen]
      rw [ih, show lo + 1 + n = lo + (n + 1) by omega]
    | throw e s' => rfl
    | ub u => rfl

end CML
