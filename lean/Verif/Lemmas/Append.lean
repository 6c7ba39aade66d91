import Verif.Lemmas.OpAssign

/-! `assign(other, eN...)`. -/

set_option linter.unusedSectionVars false

namespace CML

variable {E : Type}

theorem Out.loop_congr {σ : Type} {body body' : Nat → σ → Out σ} {lo n : Nat} {s : σ}
    (h : ∀ i s, lo ≤ i → i < lo + n → body i s = body' i s) :
    Out.loop body lo n s = Out.loop body' lo n s := by
  induction n generalizing lo s with
  | zero => rfl
  | succ n ih =>
    simp only [Out.loop]
    rw [h lo s (le_refl _) (by omega)]
    cases body' lo s with
    | ok s' => exact ih (fun i s hi hi' => h i s (by omega) (by omega))
    | throw e s' => rfl
    | ub u => rfl

theorem Out.loop_shift {σ : Type} (body : Nat → σ → Out σ) (k lo n : Nat) (s : σ) :
    Out.loop (fun i => body (k + i)) lo n s = Out.loop body (k + lo) n s := by
  induction n generalizing lo s with
  | zero => rfl
  | succ n ih =>
    simp only [Out.loop]
    cases body (k + lo) s with
    | ok s' => simp only [Out.ok_andThen]; rw [ih]; rfl
    | throw e s' => rfl
    | ub u => rfl

mutual
theorem VNode.size_congr {s s' : State E} {PV PM : Nat → Prop}
    (hV : ∀ y, PV y → s'.vobj y = s.vobj y) (hM : ∀ y, PM y → s'.mobj y = s.mobj y) :
    ∀ n : VNode E, n.Leaves PV PM → n.size s' = n.size s
  | .var y, hl => by simp [VNode.size, hV y hl]
  | .temp _ xs, _ => rfl
  | .bin o a b, hl => by simp only [VNode.size]; exact VNode.size_congr hV hM a hl.1
  | .scal o a c, hl => by simp only [VNode.size]; exact VNode.size_congr hV hM a hl
  | .neg a, hl => by simp only [VNode.size]; exact VNode.size_congr hV hM a hl
  | .cross a b, _ => rfl
  | .sub a k, hl => by simp only [VNode.size]; rw [VNode.size_congr hV hM a hl]
  | .row m i, hl => by simp only [VNode.size]; rw [MNode.dims_congr hV hM m hl]
  | .col m i, hl => by simp only [VNode.size]; rw [MNode.dims_congr hV hM m hl]
theorem MNode.dims_congr {s s' : State E} {PV PM : Nat → Prop}
    (hV : ∀ y, PV y → s'.vobj y = s.vobj y) (hM : ∀ y, PM y → s'.mobj y = s.mobj y) :
    ∀ n : MNode E, n.Leaves PV PM → n.dims s' = n.dims s
  | .var y, hl => by simp [MNode.dims, hM y hl]
  | .temp _, _ => rfl
  | .bin o a b, hl => by simp only [MNode.dims]; exact MNode.dims_congr hV hM a hl.1
  | .scal o a c, hl => by simp only [MNode.dims]; exact MNode.dims_congr hV hM a hl
  | .neg a, hl => by simp only [MNode.dims]; exact MNode.dims_congr hV hM a hl
  | .transpose a, hl => by simp only [MNode.dims]; rw [MNode.dims_congr hV hM a hl]
  | .outer a b, hl => by
    simp only [MNode.dims]; rw [VNode.size_congr hV hM a hl.1, VNode.size_congr hV hM b hl.2]
end

variable [Add E] [Sub E] [Mul E] [Div E] [Neg E]

/-- The value of the appended sequence. -/
def appendVal (p : VVal E) (xs : List E) : VVal E :=
  ⟨p.n + xs.length, Fin.append p.f (fun i => xs[i])⟩

/-- The two loops of `assign(other, eN...)` are one store loop. -/
theorem append_loops {triv : Bool} {s : State E} {x : Nat} {d : VObj} (hx : s.vec x = some d)
    {n : VNode E} {xs : List E} {k : Nat} (hsz : d.size = k + xs.length) :
    (Out.loop (fun i s => .withVal (n.get s i) s fun v => vPut triv s x i v) 0 k s).andThen
      (fun s => Out.loop (fun i s => .withVal ((VNode.temp true xs).get s i) s fun v =>
        vPut triv s x (k + i) v) 0 xs.length s)
    = storeLoop triv s x (fun s i => if i < k then n.get s i else (VNode.temp true xs).get s (i - k)) := by
  unfold storeLoop
  simp only [State.vobj, hx, Out.withVal_ok]
  rw [hsz, Out.loop_add]
  rw [Out.loop_congr (body' := storeStep triv x
    (fun s i => if i < k then n.get s i else (VNode.temp true xs).get s (i - k)))
    (fun i s _ hi => by
      have h : i < k := by omega
      simp only [storeStep, h, if_true])]
  congr 1
  funext s1
  rw [Out.loop_congr (body' := fun i => storeStep triv x
    (fun s i => if i < k then n.get s i else (VNode.temp true xs).get s (i - k)) (k + i))
    (fun i s _ hi => by
      simp only [storeStep]
      rw [if_neg (by omega), Nat.add_sub_cancel_left])]
  rw [Out.loop_shift]
  simp

/-- `assign(other, eN...)` to a destination that already has the right size. -/
theorem vAssignAppend_ok {triv : Bool} {s : State E} {x : Nat} {d : VObj} {n : VNode E} {p : VVal E}
    {xs : List E} (hx : s.vec x = some d) (hr : VRep s n p)
    (hsz : d.size = p.n + xs.length) (hw : d.Ready triv s.heap)
    (hal : n.Ahead (VAhead s d) (VDisj s d) (MDisj s d)) :
    ∃ h', vAssignAppend triv s x n xs = .ok { s with heap := h' } ∧
      (∀ i : Fin (appendVal p xs).n, d.get h' i = .ok ((appendVal p xs).f i)) ∧
      SameOutside d s.heap h' := by
  obtain ⟨h', e1, e2, e3, -⟩ := storeLoop_fin hx hw (n := (appendVal p xs).n) (by simp [appendVal, hsz])
    (appendVal p xs).f
    (f := fun s i => if i < p.n then n.get s i else (VNode.temp true xs).get s (i - p.n))
    (fun b k s' g hb hv hm hst => by
      obtain ⟨k, hk⟩ := k
      simp only [appendVal] at hk
      by_cases hkp : k < p.n
      · simp only [hkp, if_true]
        have := VNode.get_ahead (s := s) (s' := s') (k := k)
          (fun y hy j v hj => var_get_ahead hv hb (by simp only [appendVal]; omega) hst hy hj)
          (fun y hy j v => var_get_disj hv hb (by simp only [appendVal]; omega) hst hy)
          (fun y hy i j v => mvar_get_disj hm hb (by simp only [appendVal]; omega) hst hy)
          n hal k _ (le_refl _) (hr.get ⟨k, hkp⟩)
        rw [this]
        have h2 : (⟨k, hk⟩ : Fin (p.n + xs.length)) = Fin.castAdd xs.length ⟨k, hkp⟩ := rfl
        simp only [appendVal, h2, Fin.append_left]
      · simp only [hkp, if_false]
        have h2 : (⟨k, hk⟩ : Fin (p.n + xs.length)) = Fin.natAdd p.n ⟨k - p.n, by omega⟩ := by
          ext; simp; omega
        simp only [appendVal, h2, Fin.append_right]
        have h3 : k - p.n < xs.length := by omega
        simp [VNode.get, h3])
  refine ⟨h', ?_, e2, e3⟩
  unfold vAssignAppend
  simp only [hr.size, Out.withVal_ok, Int.toNat_natCast]
  have hch : checkOrResizeN triv false s x (p.n + xs.length) = .ok s := by
    unfold checkOrResizeN
    simp only [State.vobj, hx, Out.withVal_ok]
    cases hd : d.storage with
    | allocated =>
      have h0 : ¬ ((p.n : Int) + xs.length < 0) := by omega
      have h1 : ((p.n : Int) + xs.length).toNat = p.n + xs.length := by omega
      simp [vResize, vResizeWith, State.vobj, hx, hsz, h0, h1]
    | compiled => simp [checkSizeC, Res.require, hsz]
    | external => simp [checkSizeC, Res.require, hsz]
  rw [hch]
  simp only [Out.ok_andThen, hr.size, Out.withVal_ok, Int.toNat_natCast]
  rw [append_loops hx hsz]
  exact e1

/-- Construction of a dynamic vector from a vector expression and further elements. -/
theorem vAssignAppend_new {s : State E} {x : Nat} {n : VNode E} {p : VVal E} {xs : List E}
    (hx : s.vec x = none) (hr : VRep s n p) (hl : n.Leaves (fun y => y ≠ x) (fun _ => True))
    (hpos : 0 < p.n + xs.length) (hal : s.heap.fail s.heap.tick = false)
    (hfr : s.heap.blk s.heap.next = none) :
    ∃ s', ctor x (vAssignAppend true (vDefault s x) x n xs) = .ok s' ∧
      VRep s' (.var x) (appendVal p xs) ∧
      (∀ b, b ≠ s.heap.next → ∀ o, s'.heap.cell b o = s.heap.cell b o) := by
  set s0 := vDefault s x with hs0
  have hx0 : s0.vec x = some ⟨.allocated, false, none, 0, 0⟩ := by simp [hs0, vDefault, State.setVec]
  have hr0 : VRep s0 n p := by
    refine ⟨?_, fun i => ?_⟩
    · rw [VNode.size_congr (s := s) (s' := s0) (PV := fun y => y ≠ x) (PM := fun _ => True) _ _ n hl]
      · exact hr.size
      · intro y hy; simp [State.vobj, hs0, vDefault, State.setVec, hy]
      · intro y _; rfl
    · apply VNode.get_mono (s := s) (PV := fun y => y ≠ x) (PM := fun _ => True) _ _ n hl i _ (hr.get i)
      · intro y hy j v h
        rw [VNode.var_get] at h ⊢
        simpa [hs0, vDefault, State.setVec, hy] using h
      · intro y _ i j v h; exact h
  obtain ⟨h1, r1, r2, r3, r4, -⟩ := resize_step (s := s0) hx0 rfl (Or.inl ⟨rfl, rfl⟩) hal hfr
    (n := p.n + xs.length) (by simp only; omega)
  set d1 : VObj := ⟨.allocated, false, some s0.heap.next, 0, p.n + xs.length⟩ with hd1
  set s1 : State E := { s0 with heap := h1 }.setVec x (some d1) with hs1
  have hx1 : s1.vec x = some d1 := by simp [hs1, State.setVec]
  have hlk : n.Leaves (VKept s0 x ⟨.allocated, false, none, 0, 0⟩) (MKept s0 ⟨.allocated, false, none, 0, 0⟩) := by
    have hmono : ∀ (PV PV' PM PM' : Nat → Prop) (n : VNode E), (∀ y, PV y → PV' y) → (∀ y, PM y → PM' y) →
        n.Leaves PV PM → n.Leaves PV' PM' := by
      intro PV PV' PM PM' n h1 h2
      exact VNode.rec (motive_1 := fun n => n.Leaves PV PM → n.Leaves PV' PM')
        (motive_2 := fun n => n.Leaves PV PM → n.Leaves PV' PM')
        (fun y h => h1 y h) (fun _ _ h => h) (fun _ _ _ ha hb h => ⟨ha h.1, hb h.2⟩)
        (fun _ _ _ ha h => ha h) (fun _ ha h => ha h) (fun _ _ ha hb h => ⟨ha h.1, hb h.2⟩)
        (fun _ _ ha h => ha h) (fun _ _ ha h => ha h) (fun _ _ ha h => ha h)
        (fun y h => h2 y h) (fun _ h => h) (fun _ _ _ ha hb h => ⟨ha h.1, hb h.2⟩)
        (fun _ _ _ ha h => ha h) (fun _ ha h => ha h) (fun _ ha h => ha h)
        (fun _ _ ha hb h => ⟨ha h.1, hb h.2⟩) n
    refine hmono _ _ _ _ n ?_ ?_ hl
    · intro y hy
      refine ⟨hy, fun w hw => ?_⟩
      cases hwd : w.data with
      | none => exact Or.inl rfl
      | some b => right; simp
    · intro y _ w hw
      cases hwd : w.data with
      | none => exact Or.inl rfl
      | some b => right; simp
  have hw1 : d1.Ready true s1.heap := fun i hi =>
    ⟨s0.heap.next, rfl, _, by show h1.cell _ (0 + i) = _; rw [Nat.zero_add]; exact r2 i hi, Or.inl rfl⟩
  obtain ⟨h', e1, e2, e3, -⟩ := storeLoop_fin hx1 hw1 (n := (appendVal p xs).n) rfl
    (appendVal p xs).f
    (f := fun s i => if i < p.n then n.get s i else (VNode.temp true xs).get s (i - p.n))
    (fun b k s' g hb hv hm hst => by
      obtain ⟨k, hk⟩ := k
      simp only [appendVal] at hk
      have hbn : b = s0.heap.next := by
        have : d1.data = some s0.heap.next := rfl
        rw [this] at hb; cases hb; rfl
      subst hbn
      by_cases hkp : k < p.n
      · simp only [hkp, if_true]
        have := get_after_resize (s := s0) (n := n) hfr r3 hlk hv hm hst (hr0.get ⟨k, hkp⟩)
        simp only at this
        rw [this]
        have h2 : (⟨k, hk⟩ : Fin (p.n + xs.length)) = Fin.castAdd xs.length ⟨k, hkp⟩ := rfl
        simp only [appendVal, h2, Fin.append_left]
      · simp only [hkp, if_false]
        have h2 : (⟨k, hk⟩ : Fin (p.n + xs.length)) = Fin.natAdd p.n ⟨k - p.n, by omega⟩ := by
          ext; simp; omega
        simp only [appendVal, h2, Fin.append_right]
        have h3 : k - p.n < xs.length := by omega
        simp [VNode.get, h3])
  refine ⟨{ s1 with heap := h' }, ?_, ⟨?_, ?_⟩, ?_⟩
  · have hsz1 : n.size s1 = .ok (p.n : Int) := by
      rw [VNode.size_congr (s := s0) (s' := s1) (PV := fun y => y ≠ x) (PM := fun _ => True) _ _ n hl]
      · exact hr0.size
      · intro y hy; simp [State.vobj, hs1, State.setVec, hy]
      · intro y _; rfl
    unfold vAssignAppend
    simp only [hr0.size, Out.withVal_ok, Int.toNat_natCast]
    have hch : checkOrResizeN true false s0 x (p.n + xs.length) = .ok s1 := by
      unfold checkOrResizeN
      simp only [State.vobj, hx0, Out.withVal_ok]
      exact r1
    rw [hch]
    simp only [Out.ok_andThen, hsz1, Out.withVal_ok, Int.toNat_natCast]
    rw [append_loops hx1 (by rfl), e1]
    rfl
  · simp [VNode.size, State.vobj, hx1, hd1, appendVal]
  · intro i
    have := e2 i
    simpa [VNode.get, State.vobj, hx1] using this
  · intro b hb o
    have h2 := e3 b o (by rintro ⟨h, -⟩; have : d1.data = some s0.heap.next := rfl; rw [this] at h; cases h; exact hb rfl)
    rw [h2]
    show h1.cell b o = _
    simp only [Heap.cell]
    rw [r3 b hb (by simp)]
    rfl

end CML
