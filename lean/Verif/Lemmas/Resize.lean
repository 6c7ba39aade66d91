import Verif.Lemmas.Heap

/-! Exact effect of `resize` and `resize_fast` when the allocation succeeds. -/

namespace CML

variable {E : Type}

theorem Heap.setBlk_self {h : Heap E} {b : Nat} {c : Option (List (Option E))} (hb : h.blk b = c) :
    h.setBlk b c = h := by
  cases h
  simp only [Heap.setBlk, Heap.mk.injEq, and_true]
  funext y
  by_cases hy : y = b
  · simp only at hb; simp [hy, hb]
  · simp [hy]

theorem copyOld_ok {triv : Bool} {h : Heap E} {src dst k : Nat} {ls ld : List (Option E)}
    (hs : h.blk src = some ls) (hd : h.blk dst = some ld) (hne : src ≠ dst)
    (hk : k ≤ ls.length) (hk' : k ≤ ld.length) (ht : triv = true ∨ ∀ i, i < k → ∃ e, ls[i]? = some (some e)) :
    ∃ l', copyOld triv h (some src) dst k = .ok (h.setBlk dst (some l')) ∧ l'.length = ld.length ∧
      ∀ i, l'[i]? = if i < k then ls[i]? else ld[i]? := by
  obtain ⟨h', e1, l', e2, e3, e4⟩ := Res.loop_inv (lo := 0) (n := k) (s := h)
    (body := fun o h => h.copyCell triv src dst o)
    (fun j h' => ∃ l', h' = h.setBlk dst (some l') ∧ l'.length = ld.length ∧
      ∀ i, l'[i]? = if i < j then ls[i]? else ld[i]?)
    ⟨ld, (Heap.setBlk_self hd).symm, rfl, by simp⟩
    (by
      rintro j h' - hj ⟨l', rfl, hl, hv⟩
      have hj' : j < k := by omega
      refine ⟨h.setBlk dst (some (l'.set j ls[j])), ?_, l'.set j ls[j], rfl, by simp [hl], ?_⟩
      · unfold Heap.copyCell
        have h1 : (h.setBlk dst (some l')).blk src = some ls := by simp [Heap.setBlk, hne, hs]
        have h2 : (h.setBlk dst (some l')).blk dst = some l' := by simp [Heap.setBlk]
        have h3 : ls[j]? = some ls[j] := List.getElem?_eq_getElem (by omega)
        have h4 : l'[j]? = some (l'[j]'(by omega)) := List.getElem?_eq_getElem (by omega)
        simp only [h1, h2, h3, h4]
        rw [if_pos]
        · congr 1
          unfold Heap.setBlk
          congr 1
          funext y
          by_cases hy : y = dst <;> simp [hy]
        · rcases ht with ht | ht
          · simp [ht]
          · obtain ⟨e, he⟩ := ht j hj'
            rw [h3] at he
            simp only [Option.some.injEq] at he
            simp [he]
      · intro i
        by_cases hij : i = j
        · subst hij
          rw [List.getElem?_set_self (by omega), if_pos (by omega), List.getElem?_eq_getElem]
        · rw [List.getElem?_set_ne (by omega), hv]
          by_cases h5 : i < j
          · rw [if_pos h5, if_pos (by omega)]
          · rw [if_neg h5, if_neg (by omega)])
  rw [Nat.zero_add] at e4
  exact ⟨l', by unfold copyOld; simp only [e1, e2], e3, e4⟩

/-- `resize`/`resize_fast` to a different size when the allocation succeeds. -/
theorem vResizeWith_ok {copy triv : Bool} {s : State E} {x : Nat} {d : VObj} {n : Int}
    (hx : s.vec x = some d) (hn : 0 ≤ n) (hne : n.toNat ≠ d.size)
    (hal : s.heap.fail s.heap.tick = false) (hfr : s.heap.blk s.heap.next = none)
    (ho : d.Owned s.heap)
    (ht : copy = true → triv = true ∨ d.data = none ∨ min d.size n.toNat = 0) :
    ∃ h' l', vResizeWith copy triv s x n
        = .ok ({ s with heap := h' }.setVec x
            (some { d with data := some s.heap.next, size := n.toNat })) ∧
      h'.blk s.heap.next = some l' ∧ l'.length = n.toNat ∧
      (∀ i, i < n.toNat → l'[i]? = some (if copy = true ∧ i < d.size then
          (d.data.bind fun b => s.heap.cell b i).getD none else none)) ∧
      (∀ b', b' ≠ s.heap.next → some b' ≠ d.data → h'.blk b' = s.heap.blk b') ∧
      (∀ b', some b' = d.data → h'.blk b' = none) ∧
      h'.next = s.heap.next + 1 ∧ h'.tick = s.heap.tick + 1 ∧ h'.fail = s.heap.fail := by
  set nx := s.heap.next with hnx
  rcases ho with ⟨hd, hz⟩ | ⟨b, l, hd, hl, hlen⟩
  · refine ⟨{ s.heap.setBlk nx (some (List.replicate n.toNat none)) with
        next := nx + 1, tick := s.heap.tick + 1 }, List.replicate n.toNat none, ?_, ?_, ?_, ?_, ?_, ?_,
        rfl, rfl, rfl⟩
    · unfold vResizeWith
      simp only [State.vobj, hx, Out.withVal_ok, if_neg (not_lt.mpr hn), if_neg hne, Heap.alloc, hal]
      have hdes : ∀ h : Heap E, h.destruct triv none = h := by
        intro h; unfold Heap.destruct; cases triv <;> simp
      simp [hd, hdes, copyOld, Heap.free, hnx]
    · simp [Heap.setBlk]
    · simp
    · intro i hi; simp [hi, hd]
    · intro b' hb' _; simp [Heap.setBlk, hb']
    · intro b' hb'; rw [hd] at hb'; cases hb'
  · have hbn : b ≠ nx := by rintro rfl; rw [hfr] at hl; cases hl
    -- heap after allocation and destruction
    let h0 : Heap E := { s.heap.setBlk nx (some (List.replicate n.toNat none)) with
        next := nx + 1, tick := s.heap.tick + 1 }
    let l0 : List (Option E) := if triv then l else l.map fun _ => none
    have hl0 : l0.length = d.size := by
      simp only [l0]; split <;> simp [hlen]
    let h1 : Heap E := h0.destruct triv (some b)
    have h1b : h1.blk b = some l0 := by
      simp only [h1, h0, l0, Heap.destruct]
      cases triv <;> simp [Heap.setBlk, hbn, hl]
    have h1n : h1.blk nx = some (List.replicate n.toNat none) := by
      simp only [h1, h0, Heap.destruct]
      cases triv <;> simp [Heap.setBlk, Ne.symm hbn]
    have h1o : ∀ b', b' ≠ b → b' ≠ nx → h1.blk b' = s.heap.blk b' := by
      intro b' e1 e2
      simp only [h1, h0, Heap.destruct]
      cases triv <;> simp [Heap.setBlk, e1, e2]
    have h1nx : h1.next = nx + 1 ∧ h1.tick = s.heap.tick + 1 ∧ h1.fail = s.heap.fail := by
      simp only [h1, h0, Heap.destruct]
      cases triv <;> simp [Heap.setBlk]
    -- heap after copying
    have hcopy : ∃ l', (if copy = true then copyOld triv h1 (some b) nx (min d.size n.toNat) else .ok h1)
          = .ok (h1.setBlk nx (some l')) ∧ l'.length = n.toNat ∧
        ∀ i, i < n.toNat → l'[i]? = some (if copy = true ∧ i < d.size then
          (s.heap.cell b i).getD none else none) := by
      by_cases hc : copy = true
      · have ht' : triv = true ∨ min d.size n.toNat = 0 := by
          rcases ht hc with h | h | h
          · exact Or.inl h
          · rw [hd] at h; cases h
          · exact Or.inr h
        obtain ⟨l', e1, e2, e3⟩ := copyOld_ok (triv := triv) (k := min d.size n.toNat) h1b h1n hbn
          (by rw [hl0]; exact min_le_left _ _) (by rw [List.length_replicate]; exact min_le_right _ _)
          (by
            rcases ht' with h | h
            · exact Or.inl h
            · right; intro i hi; omega)
        refine ⟨l', by simp [hc, e1], by simpa using e2, ?_⟩
        intro i hi
        rw [e3]
        by_cases hid : i < d.size
        · have hil : i < l.length := by omega
          rcases ht' with h | h
          · rw [if_pos (by omega), if_pos ⟨hc, hid⟩]
            simp [Heap.cell, hl, l0, h, hil]
          · omega
        · rw [if_neg (by omega), if_neg (by omega)]
          simp [hi]
      · refine ⟨List.replicate n.toNat none, ?_, by simp, ?_⟩
        · simp only [if_neg hc]
          rw [Heap.setBlk_self h1n]
        · intro i hi
          rw [if_neg (fun h => hc h.1)]
          simp [hi]
    obtain ⟨l', e1, e2, e3⟩ := hcopy
    refine ⟨(h1.setBlk nx (some l')).setBlk b none, l', ?_, ?_, e2, ?_, ?_, ?_, h1nx.1, h1nx.2.1,
      h1nx.2.2⟩
    · unfold vResizeWith
      simp only [State.vobj, hx, Out.withVal_ok, if_neg (not_lt.mpr hn), if_neg hne, Heap.alloc, hal]
      have e1' := e1
      simp only [h1, h0] at e1'
      have hfree : (h1.setBlk nx (some l')).free (some b) d.size
          = .ok ((h1.setBlk nx (some l')).setBlk b none) := by
        unfold Heap.free
        have : (h1.setBlk nx (some l')).blk b = some l0 := by simp [Heap.setBlk, hbn, h1b]
        simp only [this, hl0, if_true]
      simp only [h1, h0] at hfree
      simp only [hnx] at e1' hfree ⊢
      simp only [hd, e1', Out.withVal_ok, hfree, Bool.false_eq_true, if_false]
      rfl
    · simp [Heap.setBlk, Ne.symm hbn]
    · intro i hi; rw [e3 i hi, hd]; rfl
    · intro b' q1 q2
      have q3 : b' ≠ b := by rintro rfl; exact q2 (by rw [hd])
      simp only [Heap.setBlk, if_neg q3, if_neg q1]
      exact h1o b' q3 q1
    · intro b' q1
      rw [hd] at q1
      cases q1
      simp [Heap.setBlk]

end CML
