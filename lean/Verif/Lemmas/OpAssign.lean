import Verif.Lemmas.Assign

/-! Compound assignment that changes the size of the destination. -/

set_option linter.unusedSectionVars false

namespace CML

variable {E : Type} [Add E] [Sub E] [Mul E] [Div E] [Neg E]

/-- State after `resize(p.n)` of the dynamic vector `x`, as seen by the following loop. -/
theorem resize_step {s : State E} {x : Nat} {d : VObj} {n : Nat} (hx : s.vec x = some d)
    (hoff : d.off = 0) (ho : d.Owned s.heap)
    (hal : s.heap.fail s.heap.tick = false) (hfr : s.heap.blk s.heap.next = none) (hsz : n ≠ d.size) :
    ∃ h1, vResize true s x n = .ok ({ s with heap := h1 }.setVec x
        (some { d with data := some s.heap.next, size := n })) ∧
      (∀ i, i < n → h1.cell s.heap.next i = some (if i < d.size then
          (d.data.bind fun b => s.heap.cell b i).getD none else none)) ∧
      (∀ b', b' ≠ s.heap.next → some b' ≠ d.data → h1.blk b' = s.heap.blk b') ∧
      (h1.blk s.heap.next).isSome ∧
      (∀ b, some b = d.data → h1.blk b = none) := by
  obtain ⟨h1, l1, r1, r2, r3, r4, r5, r6, -⟩ :=
    vResizeWith_ok (copy := true) (triv := true) (n := (n : Int)) hx (by omega) (by simpa using hsz)
      hal hfr ho (fun _ => Or.inl rfl)
  simp only [Int.toNat_natCast] at r1 r3 r4
  refine ⟨h1, r1, ?_, r5, by simp [r2], r6⟩
  intro i hi
  have := r4 i hi
  simpa [Heap.cell, r2] using this

/-- The value of an expression whose variables survive the reallocation, read after it. -/
theorem get_after_resize {s s' : State E} {x : Nat} {d d1 : VObj} {h1 : Heap E} {n : VNode E}
    {g : Nat → E} {k : Nat}
    (hfr : s.heap.blk s.heap.next = none)
    (hkeep : ∀ b', b' ≠ s.heap.next → some b' ≠ d.data → h1.blk b' = s.heap.blk b')
    (hl : n.Leaves (VKept s x d) (MKept s d))
    (hv : s'.vec = ({ s with heap := h1 }.setVec x (some d1)).vec)
    (hm : s'.mat = s.mat) (hst : Stored h1 s'.heap s.heap.next d1.off k g) {i : Nat} {v : E}
    (hg : n.get s i = .ok v) : n.get s' i = .ok v := by
  apply VNode.get_mono (s := s) (PV := VKept s x d) (PM := MKept s d) _ _ n hl i _ hg
  · intro y hy j v h
    rw [VNode.var_get] at h ⊢
    obtain ⟨w, b', q1, q2, q3, q4⟩ := h
    have hbn : b' ≠ s.heap.next := by
      rintro rfl; simp [Heap.cell, hfr] at q4
    have hbd : some b' ≠ d.data := by
      rcases hy.2 w q1 with h | h
      · rw [q2] at h; cases h
      · rw [← q2]; exact h
    refine ⟨w, b', ?_, q2, q3, ?_⟩
    · rw [hv]; simp [State.setVec, hy.1, q1]
    · rw [hst.frame _ _ (Or.inl hbn), ← q4]
      simp only [Heap.cell]
      rw [hkeep b' hbn hbd]
  · intro y hy i j v h
    rw [MNode.var_get] at h ⊢
    obtain ⟨w, b', q1, q2, q3, q3', q4⟩ := h
    have hbn : b' ≠ s.heap.next := by
      rintro rfl; simp [Heap.cell, hfr] at q4
    have hbd : some b' ≠ d.data := by
      rcases hy w q1 with h | h
      · rw [q2] at h; cases h
      · rw [← q2]; exact h
    refine ⟨w, b', by rw [hm, q1], q2, q3, q3', ?_⟩
    rw [hst.frame _ _ (Or.inl hbn), ← q4]
    simp only [Heap.cell]
    rw [hkeep b' hbn hbd]

/-- `x += e` / `x -= e` for a dynamic vector that is longer than `e`: the surplus is dropped. -/
theorem vOpAssign_shrink {o : BinOp} {s : State E} {x : Nat} {d : VObj} {n : VNode E} {p q : VVal E}
    (hx : s.vec x = some d) (hst : d.storage = .allocated) (hoff : d.off = 0) (ho : d.Owned s.heap)
    (hal : s.heap.fail s.heap.tick = false) (hfr : s.heap.blk s.heap.next = none)
    (hr : VRep s n p) (hq : VRep s (.var x) q) (hsz : p.n < q.n)
    (hl : n.Leaves (VKept s x d) (MKept s d)) :
    ∃ h', vOpAssign true o s x n = .ok ({ s with heap := h' }.setVec x
        (some { d with data := some s.heap.next, size := p.n })) ∧
      (∀ i : Fin p.n, ({ d with data := some s.heap.next, size := p.n } : VObj).get h' i
        = .ok (o.den (q.f ⟨i, by omega⟩) (p.f i))) := by
  have hqd : q.n = d.size := by
    have := hq.size
    simp only [VNode.size, State.vobj, hx, Res.ok_bind, Res.pure_eq, Res.ok.injEq] at this
    omega
  obtain ⟨h1, r1, r2, r3, r4, -⟩ := resize_step hx hoff ho hal hfr (n := p.n) (by omega)
  set d1 : VObj := { d with data := some s.heap.next, size := p.n } with hd1
  set s1 : State E := { s with heap := h1 }.setVec x (some d1) with hs1
  have hx1 : s1.vec x = some d1 := by simp [hs1, State.setVec]
  have ho1 : d1.off = 0 := hoff
  have hw1 : d1.Ready true s1.heap := fun i hi =>
    ⟨s.heap.next, rfl, _, by rw [ho1, Nat.zero_add]; exact r2 i hi, Or.inl rfl⟩
  obtain ⟨h', e1, e2, -⟩ := storeLoop_fin hx1 hw1 (n := p.n) rfl
    (fun i => o.den (q.f ⟨i, by omega⟩) (p.f i))
    (f := fun s i => do
      let a ← (VNode.var x : VNode E).get s i
      let b ← n.get s i
      pure (o.apply a b))
    (fun b k s' g hb hv hm hstd => by
      have hbn : b = s.heap.next := by
        have : d1.data = some s.heap.next := rfl
        rw [this] at hb; cases hb; rfl
      subst hbn
      have h2 := get_after_resize (n := n) hfr r3 hl hv hm hstd (hr.get k)
      have h3 : (VNode.var x : VNode E).get s' k = .ok (q.f ⟨k, by omega⟩) := by
        rw [VNode.var_get]
        refine ⟨d1, s.heap.next, by rw [hv]; exact hx1, rfl, k.2, ?_⟩
        rw [hstd.frame _ _ (Or.inr (Or.inr (le_refl _))), ho1, Nat.zero_add]
        have hk : (k : Nat) < d.size := by omega
        have := r2 k k.2
        rw [if_pos hk] at this
        have hold := hq.get ⟨k, by omega⟩
        rw [VNode.var_get] at hold
        obtain ⟨w, b, w1, w2, w3, w4⟩ := hold
        rw [hx] at w1; cases w1
        rw [hoff, Nat.zero_add] at w4
        rw [w2] at this
        simp only at w4
        simp only [Option.bind_some, w4, Option.getD_some] at this
        exact this
      simp [h2, h3])
  refine ⟨h', ?_, e2⟩
  unfold vOpAssign checkOrResize
  simp only [State.vobj, hx, Out.withVal_ok, hst, hr.size, r1, Out.ok_andThen]
  exact e1

/-- `x += e` / `x -= e` for a dynamic vector that is shorter than `e` reads an uninitialised
element. -/
theorem vOpAssign_grow {o : BinOp} {s : State E} {x : Nat} {d : VObj} {n : VNode E} {p q : VVal E}
    (hx : s.vec x = some d) (hst : d.storage = .allocated) (hoff : d.off = 0) (ho : d.Owned s.heap)
    (hal : s.heap.fail s.heap.tick = false) (hfr : s.heap.blk s.heap.next = none)
    (hr : VRep s n p) (hq : VRep s (.var x) q) (hsz : q.n < p.n)
    (hl : n.Leaves (VKept s x d) (MKept s d)) :
    vOpAssign true o s x n = .ub .uninit := by
  have hqd : q.n = d.size := by
    have := hq.size
    simp only [VNode.size, State.vobj, hx, Res.ok_bind, Res.pure_eq, Res.ok.injEq] at this
    omega
  obtain ⟨h1, r1, r2, r3, r4, -⟩ := resize_step hx hoff ho hal hfr (n := p.n) (by omega)
  set d1 : VObj := { d with data := some s.heap.next, size := p.n } with hd1
  set s1 : State E := { s with heap := h1 }.setVec x (some d1) with hs1
  have hx1 : s1.vec x = some d1 := by simp [hs1, State.setVec]
  have ho1 : d1.off = 0 := hoff
  obtain ⟨g, hg⟩ := exists_ext (n := p.n) (by omega)
    (fun i => if h : (i : Nat) < q.n then o.den (q.f ⟨i, h⟩) (p.f i) else p.f i)
  obtain ⟨h', e1, e2⟩ := storeSteps_ok (triv := true) hx1 (b := s.heap.next) rfl q.n
    (by show q.n ≤ p.n; omega)
    (fun i hi => ⟨_, by rw [ho1, Nat.zero_add]; exact r2 i hi, Or.inl rfl⟩)
    (f := fun s i => do
      let a ← (VNode.var x : VNode E).get s i
      let b ← n.get s i
      pure (o.apply a b)) g
    (fun k s' hk hv hm hstd => by
      have h2 := get_after_resize (n := n) hfr r3 hl hv hm hstd (hr.get ⟨k, by omega⟩)
      have h3 : (VNode.var x : VNode E).get s' k = .ok (q.f ⟨k, hk⟩) := by
        rw [VNode.var_get]
        refine ⟨d1, s.heap.next, by rw [hv]; exact hx1, rfl, (by show k < p.n; omega), ?_⟩
        rw [hstd.frame _ _ (Or.inr (Or.inr (le_refl _))), ho1, Nat.zero_add]
        have hk' : k < d.size := by omega
        have := r2 k (by omega)
        rw [if_pos hk'] at this
        have hold := hq.get ⟨k, hk⟩
        rw [VNode.var_get] at hold
        obtain ⟨w, b, w1, w2, w3, w4⟩ := hold
        rw [hx] at w1; cases w1
        rw [hoff, Nat.zero_add] at w4
        rw [w2] at this
        simp only at w4
        simp only [Option.bind_some, w4, Option.getD_some] at this
        exact this
      have h4 := hg ⟨k, by omega⟩
      simp only [hk, dif_pos] at h4
      simp [h2, h3, h4])
  have hread : (VNode.var x : VNode E).get { s1 with heap := h' } q.n = .ub .uninit := by
    have hc : h'.cell s.heap.next q.n = some none := by
      have := e2.frame s.heap.next q.n (Or.inr (Or.inr (by rw [ho1]; omega)))
      rw [this]
      have := r2 q.n hsz
      rw [if_neg (by omega)] at this
      exact this
    simp only [VNode.get, State.vobj, hx1, Res.ok_bind, VObj.get, hd1]
    rw [if_pos hsz]
    unfold Heap.read
    unfold Heap.cell at hc
    rw [hoff, Nat.zero_add]
    cases hb : h'.blk s.heap.next with
    | none => simp [hb] at hc
    | some l =>
      simp only [hb, Option.bind_some] at hc
      simp [hc]
  unfold vOpAssign checkOrResize
  simp only [State.vobj, hx, Out.withVal_ok, hst, hr.size, r1, Out.ok_andThen]
  unfold storeLoop
  simp only [State.vobj, hx1, Out.withVal_ok]
  obtain ⟨m, hm⟩ : ∃ m, d1.size = q.n + (m + 1) := ⟨p.n - q.n - 1, by show p.n = _; omega⟩
  rw [hm, Out.loop_add, e1]
  simp only [Out.ok_andThen, Nat.zero_add, Out.loop, storeStep, hread, Res.ub_bind, Out.withVal_ub,
    Out.ub_andThen]

/-- Reading variable `y`, whose memory is disjoint from `d`, is not affected by changes inside `d`. -/
theorem vrep_frame {s : State E} {d : VObj} {h' : Heap E} (hs : SameOutside d s.heap h') {y : Nat}
    (hy : VDisj s d y) {p : VVal E} (hr : VRep s (.var y) p) : VRep { s with heap := h' } (.var y) p := by
  refine ⟨hr.size, fun i => ?_⟩
  have := hr.get i
  rw [VNode.var_get] at this ⊢
  obtain ⟨w, b, h1, h2, h3, h4⟩ := this
  refine ⟨w, b, h1, h2, h3, ?_⟩
  rw [← h4]
  apply hs
  rintro ⟨q1, q2, q3⟩
  rcases hy w h1 with h | h | h
  · exact h (by rw [h2, q1])
  · omega
  · omega

/-- The destination stays assignable after an assignment to it. -/
theorem ready_after {triv : Bool} {s : State E} {x : Nat} {d : VObj} (hx : s.vec x = some d)
    {h' : Heap E} {p : VVal E} (hr : VRep { s with heap := h' } (.var x) p) :
    d.Ready triv h' := by
  have hsz : p.n = d.size := by
    have := hr.size
    simp only [VNode.size, State.vobj, hx, Res.ok_bind, Res.pure_eq, Res.ok.injEq] at this
    omega
  intro i hi
  have := hr.get ⟨i, by omega⟩
  rw [VNode.var_get] at this
  obtain ⟨w, b, h1, h2, h3, h4⟩ := this
  simp only [hx, Option.some.injEq] at h1
  subst h1
  exact ⟨b, h2, _, h4, Or.inr rfl⟩

end CML
