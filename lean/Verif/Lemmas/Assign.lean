import Verif.Lemmas.Alias

/-! Assignment of vector expressions: core lemmas. -/

set_option linter.unusedSectionVars false

namespace CML

variable {E : Type} [Add E] [Sub E] [Mul E] [Div E] [Neg E]

theorem checkOrResize_same {triv : Bool} {s : State E} {x : Nat} {d : VObj} {e : VNode E} {f : Bool}
    (hx : s.vec x = some d) (hs : e.size s = .ok (d.size : Int)) (hf : e.Typed s f d.size) :
    checkOrResize triv s x e = .ok s := by
  unfold checkOrResize
  simp only [State.vobj, hx, Out.withVal_ok]
  have h1 : (VNode.var x : VNode E).Typed s d.fixed d.size := typed_vec hx
  have h2 : (VNode.var x : VNode E).size s = .ok (d.size : Int) := by
    simp [VNode.size, State.vobj, hx]
  cases d.storage with
  | allocated =>
    simp [hs, vResize, vResizeWith, State.vobj, hx]
  | compiled => simp [checkSameSize_eq h1 hf h2 hs]
  | external => simp [checkSameSize_eq h1 hf h2 hs]

/-- Extend a finite sequence to all indices (the extension is never observed). -/
theorem exists_ext {n : Nat} (hn : 0 < n) (f : Fin n → E) : ∃ g : Nat → E, ∀ i : Fin n, g i = f i :=
  ⟨fun i => if h : i < n then f ⟨i, h⟩ else f ⟨0, hn⟩, fun i => by simp⟩

/-- An element store loop whose reads are not disturbed by the earlier stores. -/
theorem storeLoop_fin {triv : Bool} {s : State E} {x : Nat} {d : VObj} (hx : s.vec x = some d)
    (hw : d.Ready triv s.heap) {n : Nat} (hn : n = d.size) (p : Fin n → E)
    {f : State E → Nat → Res E}
    (hf : ∀ (b : Nat) (k : Fin n) (s' : State E) (g : Nat → E), d.data = some b → s'.vec = s.vec →
      s'.mat = s.mat → Stored s.heap s'.heap b d.off k g → f s' k = .ok (p k)) :
    ∃ h', storeLoop triv s x f = .ok { s with heap := h' } ∧
      (∀ i : Fin n, d.get h' i = .ok (p i)) ∧ SameOutside d s.heap h' ∧ h'.next = s.heap.next ∧
      h'.tick = s.heap.tick ∧ h'.fail = s.heap.fail ∧
      (∀ b, (h'.blk b).map List.length = (s.heap.blk b).map List.length) := by
  by_cases h0 : 0 < n
  · obtain ⟨g, hg⟩ := exists_ext h0 p
    obtain ⟨b, hb, -⟩ := hw 0 (by omega)
    obtain ⟨h', e1, e2⟩ := storeLoop_ok hx hb
      (fun i hi => by
        obtain ⟨b', hb', hw'⟩ := hw i hi
        rw [hb] at hb'; cases hb'; exact hw') (f := f) g
      (fun i s' hi hv hm hst => by
        have := hf b ⟨i, by omega⟩ s' g hb hv hm hst
        rw [← hg] at this; exact this)
    refine ⟨h', e1, ?_, ?_, e2.next, e2.tick, e2.fail, e2.len⟩
    · intro i
      have hi : (i : Nat) < d.size := by omega
      rw [VObj.get_eq_ok hb hi, e2.val i hi, hg]
    · intro b' o hbo
      apply e2.frame
      by_contra hcon
      apply hbo
      push Not at hcon
      obtain ⟨rfl, h1, h2⟩ := hcon
      exact ⟨hb, h1, h2⟩
  · have hz : d.size = 0 := by omega
    refine ⟨s.heap, ?_, fun i => by have := i.2; omega, fun _ _ _ => rfl, rfl, rfl, rfl, fun _ => rfl⟩
    simp [storeLoop, State.vobj, hx, hz, Out.loop]

/-- Assignment without a change of size. -/
theorem vAssign_ok {triv : Bool} {s : State E} {x : Nat} {d : VObj} {n : VNode E} {p : VVal E}
    {f : Bool} (hx : s.vec x = some d) (hr : VRep s n p) (hf : n.Typed s f p.n)
    (hsz : p.n = d.size) (hw : d.Ready triv s.heap)
    (hal : n.Ahead (VAhead s d) (VDisj s d) (MDisj s d)) :
    ∃ h', vAssign triv s x n = .ok { s with heap := h' } ∧
      (∀ i : Fin p.n, d.get h' i = .ok (p.f i)) ∧ SameOutside d s.heap h' := by
  obtain ⟨h', e1, e2, e3, -⟩ := storeLoop_fin hx hw hsz p.f (f := fun s i => n.get s i)
    (fun b k s' g hb hv hm hst =>
      VNode.get_ahead (s := s) (k := k)
        (fun y hy j v hj => var_get_ahead hv hb (by omega) hst hy hj)
        (fun y hy j v => var_get_disj hv hb (by omega) hst hy)
        (fun y hy i j v => mvar_get_disj hm hb (by omega) hst hy)
        n hal k _ (le_refl _) (hr.get k))
  refine ⟨h', ?_, e2, e3⟩
  unfold vAssign
  rw [checkOrResize_same hx (by rw [hr.size, hsz]) (hsz ▸ hf)]
  simpa using e1

/-- Compound assignment without a change of size. -/
theorem vOpAssign_ok {triv : Bool} {o : BinOp} {s : State E} {x : Nat} {d : VObj} {n : VNode E}
    {p q : VVal E} {f : Bool} (hx : s.vec x = some d) (hr : VRep s n p) (hq : VRep s (.var x) q)
    (hf : n.Typed s f p.n) (hqn : q.n = p.n) (hw : d.Ready triv s.heap)
    (hal : n.Ahead (VAhead s d) (VDisj s d) (MDisj s d)) :
    ∃ h', vOpAssign triv o s x n = .ok { s with heap := h' } ∧
      (∀ i : Fin p.n, d.get h' i = .ok (o.den (q.f (i.cast hqn.symm)) (p.f i))) ∧
      SameOutside d s.heap h' := by
  have hsz : p.n = d.size := by
    have := hq.size
    simp only [VNode.size, State.vobj, hx, Res.ok_bind, Res.pure_eq, Res.ok.injEq] at this
    omega
  obtain ⟨h', e1, e2, e3, -⟩ := storeLoop_fin hx hw hsz
    (fun i => o.den (q.f (i.cast hqn.symm)) (p.f i))
    (f := fun s i => do
      let a ← (VNode.var x : VNode E).get s i
      let b ← n.get s i
      pure (o.apply a b))
    (fun b k s' g hb hv hm hst => by
      have h1 := VNode.get_ahead (s := s) (s' := s') (k := k)
        (fun y hy j v hj => var_get_ahead hv hb (by omega) hst hy hj)
        (fun y hy j v => var_get_disj hv hb (by omega) hst hy)
        (fun y hy i j v => mvar_get_disj hm hb (by omega) hst hy)
        n hal k _ (le_refl _) (hr.get k)
      have h2 : (VNode.var x : VNode E).get s' k = .ok (q.f (k.cast hqn.symm)) :=
        var_get_ahead hv hb (by omega) hst (y := x)
          (by
            intro w hw'
            rw [hx] at hw'; cases hw'
            exact Or.inr ⟨rfl, le_refl _⟩) (le_refl _) (hq.get (k.cast hqn.symm))
      simp [h1, h2])
  refine ⟨h', ?_, e2, e3⟩
  unfold vOpAssign
  rw [checkOrResize_same hx (by rw [hr.size, hsz]) (hsz ▸ hf)]
  simpa using e1

theorem vExtremize_ok [LinearOrder E] {triv lower : Bool} {s : State E} {x : Nat} {d : VObj}
    {n : VNode E} {p q : VVal E} {f : Bool} (hx : s.vec x = some d) (hr : VRep s n p)
    (hq : VRep s (.var x) q) (hf : n.Typed s f p.n) (hqn : q.n = p.n) (hw : d.Ready triv s.heap)
    (hal : n.Ahead (VAhead s d) (VDisj s d) (MDisj s d)) :
    ∃ h', vExtremize triv lower s x n = .ok { s with heap := h' } ∧
      (∀ i : Fin p.n, d.get h' i = .ok (if lower then min (q.f (i.cast hqn.symm)) (p.f i)
        else max (q.f (i.cast hqn.symm)) (p.f i))) ∧
      SameOutside d s.heap h' := by
  have hxs : (VNode.var x : VNode E).size s = .ok (d.size : Int) := by
    simp [VNode.size, State.vobj, hx]
  have hsz : p.n = d.size := by
    have := hq.size
    rw [hxs] at this
    simp only [Res.ok.injEq] at this
    omega
  obtain ⟨h', e1, e2, e3, -⟩ := storeLoop_fin hx hw hsz
    (fun i => if lower then min (q.f (i.cast hqn.symm)) (p.f i)
        else max (q.f (i.cast hqn.symm)) (p.f i))
    (f := fun s i => do
      let a ← (VNode.var x : VNode E).get s i
      let b ← n.get s i
      pure (if lower then (if b < a then b else a) else (if a < b then b else a)))
    (fun b k s' g hb hv hm hst => by
      have h1 := VNode.get_ahead (s := s) (s' := s') (k := k)
        (fun y hy j v hj => var_get_ahead hv hb (by omega) hst hy hj)
        (fun y hy j v => var_get_disj hv hb (by omega) hst hy)
        (fun y hy i j v => mvar_get_disj hm hb (by omega) hst hy)
        n hal k _ (le_refl _) (hr.get k)
      have h2 : (VNode.var x : VNode E).get s' k = .ok (q.f (k.cast hqn.symm)) :=
        var_get_ahead hv hb (by omega) hst (y := x)
          (by
            intro w hw'
            rw [hx] at hw'; cases hw'
            exact Or.inr ⟨rfl, le_refl _⟩) (le_refl _) (hq.get (k.cast hqn.symm))
      simp only [h1, h2, Res.ok_bind, Res.pure_eq, Res.ok.injEq]
      cases lower
      · simp only [Bool.false_eq_true, if_false]
        split
        · next h => rw [max_eq_right h.le]
        · next h => rw [max_eq_left (not_lt.mp h)]
      · simp only [if_true]
        split
        · next h => rw [min_eq_right h.le]
        · next h => rw [min_eq_left (not_lt.mp h)])
  refine ⟨h', ?_, e2, e3⟩
  unfold vExtremize
  have h1 : (VNode.var x : VNode E).Typed s d.fixed d.size := typed_vec hx
  rw [checkSameSize_eq h1 hf hxs hr.size]
  simpa [hsz] using e1

/-- Assignment of an expression of a different size to a dynamic vector (trivial element type,
successful allocation). -/
theorem vAssign_resize_ok {s : State E} {x : Nat} {d : VObj} {n : VNode E} {p : VVal E}
    (hx : s.vec x = some d) (hst : d.storage = .allocated) (hoff : d.off = 0) (ho : d.Owned s.heap)
    (hal : s.heap.fail s.heap.tick = false) (hfr : s.heap.blk s.heap.next = none)
    (hr : VRep s n p) (hsz : p.n ≠ d.size)
    (hl : n.Leaves (VKept s x d) (MKept s d)) :
    ∃ h', vAssign true s x n = .ok ({ s with heap := h' }.setVec x
        (some { d with data := some s.heap.next, size := p.n })) ∧
      (∀ i : Fin p.n, ({ d with data := some s.heap.next, size := p.n } : VObj).get h' i = .ok (p.f i)) ∧
      (∀ b o, b ≠ s.heap.next → some b ≠ d.data → h'.cell b o = s.heap.cell b o) ∧
      (∀ b, some b = d.data → h'.blk b = none) ∧ h'.next = s.heap.next + 1 ∧
      h'.tick = s.heap.tick + 1 ∧ h'.fail = s.heap.fail := by
  obtain ⟨h1, l1, r1, r2, r3, r4, r5, r6, r7, r8, r9⟩ :=
    vResizeWith_ok (copy := true) (triv := true) (n := (p.n : Int)) hx (by omega) (by simpa using hsz)
      hal hfr ho (fun _ => Or.inl rfl)
  simp only [Int.toNat_natCast] at r1 r3 r4
  set d1 : VObj := { d with data := some s.heap.next, size := p.n } with hd1
  set s1 : State E := { s with heap := h1 }.setVec x (some d1) with hs1
  have hx1 : s1.vec x = some d1 := by simp [hs1, State.setVec]
  have hb1 : d1.data = some s.heap.next := rfl
  have hw1 : d1.Ready true s1.heap := by
    intro i hi
    refine ⟨s.heap.next, rfl, ?_⟩
    have hi' : i < p.n := hi
    have : (s1.heap).cell s.heap.next (d1.off + i) = some l1[i] := by
      have h0 : d1.off = 0 := hoff
      simp [hs1, State.setVec, Heap.cell, r2, h0]
    exact ⟨_, this, Or.inl rfl⟩
  obtain ⟨h', e1, e2, e3, e4, e5, e6, e7⟩ := storeLoop_fin hx1 hw1 (n := p.n) rfl p.f
    (f := fun s i => n.get s i)
    (fun b k s' g hb hv hm hstd => by
      have hbn : b = s.heap.next := by rw [hb1] at hb; cases hb; rfl
      subst hbn
      apply VNode.get_mono (s := s) (PV := VKept s x d) (PM := MKept s d) _ _ n hl k _ (hr.get k)
      · intro y hy j v h
        rw [VNode.var_get] at h ⊢
        obtain ⟨w, b', q1, q2, q3, q4⟩ := h
        have hbn : b' ≠ s.heap.next := by
          rintro rfl; simp [Heap.cell, hfr] at q4
        have hbd : some b' ≠ d.data := by
          rcases hy.2 w q1 with h | h
          · rw [q2] at h; cases h
          · rw [← q2]; exact h
        refine ⟨w, b', ?_, q2, q3, ?_⟩
        · rw [hv]; simp [hs1, State.setVec, hy.1, q1]
        · rw [hstd.frame _ _ (Or.inl hbn), ← q4]
          simp only [Heap.cell, hs1, State.setVec]
          rw [r5 b' hbn hbd]
      · intro y hy i j v h
        rw [MNode.var_get] at h ⊢
        obtain ⟨w, b', q1, q2, q3, q3', q4⟩ := h
        have hbn : b' ≠ s.heap.next := by
          rintro rfl; simp [Heap.cell, hfr] at q4
        have hbd : some b' ≠ d.data := by
          rcases hy w q1 with h | h
          · rw [q2] at h; cases h
          · rw [← q2]; exact h
        refine ⟨w, b', ?_, q2, q3, q3', ?_⟩
        · rw [hm]; simp [hs1, State.setVec, q1]
        · rw [hstd.frame _ _ (Or.inl hbn), ← q4]
          simp only [Heap.cell, hs1, State.setVec]
          rw [r5 b' hbn hbd])
  have hs1h : s1.heap = h1 := rfl
  refine ⟨h', ?_, e2, ?_, ?_, ?_, ?_, ?_⟩
  · unfold vAssign checkOrResize
    simp only [State.vobj, hx, Out.withVal_ok, hst, hr.size, vResize, r1, Out.ok_andThen]
    exact e1
  · intro b o hbn hbd
    rw [e3 b o (by rw [hb1]; rintro ⟨h, -⟩; cases h; exact hbn rfl)]
    simp only [Heap.cell, hs1h, r5 b hbn hbd]
  · intro b hb
    have := e7 b
    rw [hs1h, r6 b hb] at this
    simpa using this
  · rw [e4, hs1h, r7]
  · rw [e5, hs1h, r8]
  · rw [e6, hs1h, r9]

end CML
