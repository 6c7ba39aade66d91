import Verif.Lemmas.MatStore

/-! Assignment of matrix expressions: core lemmas. -/

set_option linter.unusedSectionVars false

namespace CML

section Resize
variable {E : Type}

/-- `resize`/`resize_fast` to a different number of elements when the allocation succeeds. -/
theorem mResizeWith_ok {copy triv : Bool} {s : State E} {x : Nat} {d : MObj} {r c : Nat}
    (hx : s.mat x = some d) (hne : r * c ≠ d.rows * d.cols)
    (hal : s.heap.fail s.heap.tick = false) (hfr : s.heap.blk s.heap.next = none)
    (ho : d.Owned s.heap)
    (ht : copy = true → triv = true ∨ d.data = none ∨ min (d.rows * d.cols) (r * c) = 0) :
    ∃ h' l', mResizeWith copy triv s x r c
        = .ok ({ s with heap := h' }.setMat x
            (some { d with data := some s.heap.next, rows := r, cols := c })) ∧
      h'.blk s.heap.next = some l' ∧ l'.length = r * c ∧
      (∀ i, i < r * c → l'[i]? = some (if copy = true ∧ i < d.rows * d.cols then
          (d.data.bind fun b => s.heap.cell b i).getD none else none)) ∧
      (∀ b', b' ≠ s.heap.next → some b' ≠ d.data → h'.blk b' = s.heap.blk b') ∧
      (∀ b', some b' = d.data → h'.blk b' = none) ∧
      h'.next = s.heap.next + 1 ∧ h'.tick = s.heap.tick + 1 ∧ h'.fail = s.heap.fail := by
  obtain ⟨h', l', e, e1, e2, e3, e4, e5, e6, e7, e8⟩ :=
    vResizeWith_ok (copy := copy) (triv := triv) (s := s.setVec 0 (some d.flat)) (x := 0) (d := d.flat)
      (n := ((r * c : Nat) : Int)) (by simp [State.setVec]) (by omega)
      (by rw [Int.toNat_natCast]; exact hne) hal hfr ho
      (by rw [Int.toNat_natCast]; exact ht)
  rw [Int.toNat_natCast] at e e2 e3
  refine ⟨h', l', ?_, e1, e2, e3, e4, e5, e6, e7, e8⟩
  have hh : (s.setVec 0 (some d.flat)).heap = s.heap := rfl
  have h1 : ¬ ((r * c : Nat) : Int) < 0 := by omega
  have h2 : ¬ (r : Int) < 0 := by omega
  have h3 : ¬ (c : Int) < 0 := by omega
  have h4 : ¬ (r * c = d.flat.size) := hne
  have hv : (s.setVec 0 (some d.flat)).vobj 0 = .ok d.flat := by simp [State.vobj, State.setVec]
  unfold vResizeWith at e
  rw [hv, Out.withVal_ok, if_neg h1] at e
  unfold mResizeWith
  simp only [State.mobj, hx, Out.withVal_ok, if_neg h2, if_neg h3, if_neg hne, Int.toNat_natCast]
  rw [Int.toNat_natCast, if_neg h4, hh] at e
  cases hA : s.heap.alloc (r * c) with
  | mk h0 o =>
    rw [hA] at e
    cases o with
    | none => cases e
    | some b =>
      simp only at e ⊢
      have hb : b = s.heap.next := by
        simp only [Heap.alloc, hal] at hA
        cases hA; rfl
      have e' : ∀ A : Res (Heap E), A = (if copy = true then copyOld triv (h0.destruct triv d.data) d.data b
          (min (d.rows * d.cols) (r * c)) else .ok (h0.destruct triv d.data)) →
          (Out.withVal A (s.setVec 0 (some d.flat)) fun h =>
            Out.withVal (h.free d.data (d.rows * d.cols)) (s.setVec 0 (some d.flat)) fun h =>
              Out.ok (({ s.setVec 0 (some d.flat) with heap := h } : State E).setVec 0
                (some { d.flat with data := some b, size := r * c })))
            = .ok (({ s.setVec 0 (some d.flat) with heap := h' } : State E).setVec 0
                (some { d.flat with data := some s.heap.next, size := r * c })) := by
        rintro A rfl
        exact e
      revert e'
      generalize (if copy = true then copyOld triv (h0.destruct triv d.data) d.data b
          (min (d.rows * d.cols) (r * c)) else .ok (h0.destruct triv d.data)) = A
      intro e'
      have e'' := e' A rfl
      cases A with
      | throw _ => cases e''
      | ub _ => cases e''
      | ok h1 =>
        simp only [Out.withVal_ok] at e'' ⊢
        cases hF : h1.free d.data (d.rows * d.cols) with
        | throw _ => rw [hF] at e''; cases e''
        | ub _ => rw [hF] at e''; cases e''
        | ok h2 =>
          rw [hF] at e''
          simp only [Out.withVal_ok, Out.ok.injEq, State.setVec, State.mk.injEq] at e'' ⊢
          rw [e''.1, hb]

/-- `resize` to the same number of elements only changes the dimensions. -/
theorem mResizeWith_relabel {copy triv : Bool} {s : State E} {x : Nat} {d : MObj} {r c : Nat}
    (hx : s.mat x = some d) (he : r * c = d.rows * d.cols) :
    mResizeWith copy triv s x r c = .ok (s.setMat x (some { d with rows := r, cols := c })) := by
  have h2 : ¬ (r : Int) < 0 := by omega
  have h3 : ¬ (c : Int) < 0 := by omega
  simp [mResizeWith, State.mobj, hx, h2, h3, he]

end Resize

variable {E : Type} [Add E] [Sub E] [Mul E] [Div E] [Neg E]

theorem MNode.var_dims {s : State E} {x : Nat} {d : MObj} (hx : s.mat x = some d) :
    (MNode.var x : MNode E).dims s = .ok ((d.rows : Int), (d.cols : Int)) := by
  simp [MNode.dims, State.mobj, hx]

theorem MNode.var_get_eq {s : State E} {x : Nat} {d : MObj} (hx : s.mat x = some d) (i j : Nat) :
    (MNode.var x : MNode E).get s i j = d.get s.heap i j := by
  simp [MNode.get, State.mobj, hx]

theorem mrep_dims {s : State E} {x : Nat} {d : MObj} (hx : s.mat x = some d) {q : MVal E}
    (hq : MRep s (.var x) q) : q.r = d.rows ∧ q.c = d.cols := by
  have := hq.dims
  rw [MNode.var_dims hx] at this
  simp only [Res.ok.injEq, Prod.mk.injEq] at this
  omega

/-- A matrix variable with the object `d` represents `q` iff its elements are right. -/
theorem mrep_var {s : State E} {x : Nat} {d : MObj} (hx : s.mat x = some d)
    {p : Fin d.rows → Fin d.cols → E} :
    MRep s (.var x) ⟨d.rows, d.cols, p⟩ ↔
      ∀ (i : Fin d.rows) (j : Fin d.cols), d.get s.heap i j = .ok (p i j) := by
  constructor
  · intro h i j
    have := h.get i j
    rwa [MNode.var_get_eq hx] at this
  · intro h
    exact ⟨MNode.var_dims hx, fun i j => by rw [MNode.var_get_eq hx]; exact h i j⟩

theorem self_ahead {s : State E} {x : Nat} {d : MObj} (hx : s.mat x = some d) : MAhead s d x := by
  intro w hw
  rw [hx] at hw; cases hw
  exact Or.inr ⟨rfl, le_refl _, rfl, rfl, rfl⟩

/-- Reads of an expression during the store loop. -/
theorem node_get_ahead {s s' : State E} {d : MObj} {b : Nat} {g : Nat → E} {n : MNode E}
    (hb : d.data = some b) {i j : Nat} (hi : i < d.rows) (hj : j < d.cols) (hv : s'.vec = s.vec)
    (hm : s'.mat = s.mat) (hst : Stored s.heap s'.heap b d.off (d.index i j) g)
    (hal : n.Ahead (MAhead s d) (VDisj s d.flat) (MDisj s d.flat)) {v : E} (h : n.get s i j = .ok v) :
    n.get s' i j = .ok v := by
  have hlt : d.index i j ≤ d.flat.size := (MObj.index_lt hi hj).le
  exact MNode.get_ahead (s := s) (s' := s')
    (fun y hy v h => mvar_get_ahead hm hb hst hi hj hy h)
    (fun y hy j v => var_get_disj (d := d.flat) hv hb hlt hst hy)
    (fun y hy i j v => mvar_get_disj (d := d.flat) hm hb hlt hst hy)
    n hal v h

/-- Assignment without a change of dimensions. -/
theorem mAssign_ok {triv : Bool} {s : State E} {x : Nat} {d : MObj} {n : MNode E}
    {p : Fin d.rows → Fin d.cols → E} {f : Bool} (hx : s.mat x = some d)
    (hr : MRep s n ⟨d.rows, d.cols, p⟩) (hf : n.Typed s f ((d.rows : Int), (d.cols : Int))) (hw : d.flat.Ready triv s.heap)
    (hal : n.Ahead (MAhead s d) (VDisj s d.flat) (MDisj s d.flat)) :
    ∃ h', mAssign triv s x n = .ok { s with heap := h' } ∧
      MRep { s with heap := h' } (.var x) ⟨d.rows, d.cols, p⟩ ∧ SameOutside d.flat s.heap h' ∧
      h'.next = s.heap.next ∧ h'.tick = s.heap.tick ∧ h'.fail = s.heap.fail ∧
      (∀ b, (h'.blk b).map List.length = (s.heap.blk b).map List.length) := by
  obtain ⟨h', e1, e2, e3, e4⟩ := mStore_fin hx hw p (f := fun s i j => n.get s i j)
    (fun b i j s' g hb hv hm hst _ => node_get_ahead hb i.2 j.2 hv hm hst hal (hr.get i j))
  refine ⟨h', ?_, ?_, e3, e4⟩
  · unfold mAssign
    rw [mCheckOrResize_same hx hr.dims hf, Out.ok_andThen]
    exact e1
  · rw [mrep_var (s := { s with heap := h' }) hx]; exact e2

/-- Compound assignment without a change of dimensions. -/
theorem mOpAssign_ok {triv : Bool} {o : BinOp} {s : State E} {x : Nat} {d : MObj} {n : MNode E}
    {p q : Fin d.rows → Fin d.cols → E} {f : Bool} (hx : s.mat x = some d)
    (hr : MRep s n ⟨d.rows, d.cols, p⟩) (hq : MRep s (.var x) ⟨d.rows, d.cols, q⟩)
    (hf : n.Typed s f ((d.rows : Int), (d.cols : Int)))
    (hal : n.Ahead (MAhead s d) (VDisj s d.flat) (MDisj s d.flat)) :
    ∃ h', mOpAssign triv o s x n = .ok { s with heap := h' } ∧
      MRep { s with heap := h' } (.var x) ⟨d.rows, d.cols, fun i j => o.den (q i j) (p i j)⟩ ∧
      SameOutside d.flat s.heap h' := by
  obtain ⟨h', e1, e2, e3, -⟩ := mStore_fin (triv := triv) hx (mready_after (h' := s.heap) hx hq)
    (fun i j => o.den (q i j) (p i j))
    (f := fun s i j => do
      let a ← (MNode.var x : MNode E).get s i j
      let b ← n.get s i j
      pure (o.apply a b))
    (fun b i j s' g hb hv hm hst _ => by
      have h1 := node_get_ahead hb i.2 j.2 hv hm hst hal (hr.get i j)
      have h2 := node_get_ahead (n := .var x) hb i.2 j.2 hv hm hst (self_ahead hx) (hq.get i j)
      simp [h1, h2])
  refine ⟨h', ?_, ?_, e3⟩
  · unfold mOpAssign
    rw [mCheckOrResize_same hx hr.dims hf, Out.ok_andThen]
    exact e1
  · rw [mrep_var (s := { s with heap := h' }) hx]; exact e2

/-- Assignment of an expression of different dimensions to a dynamic matrix (trivial element type). -/
theorem mAssign_resize_ok {s : State E} {x : Nat} {d : MObj} {n : MNode E} {p : MVal E}
    (hx : s.mat x = some d) (hst : d.storage = .allocated) (hoff : d.off = 0) (ho : d.Owned s.heap)
    (hal : p.r * p.c ≠ d.rows * d.cols → s.heap.fail s.heap.tick = false)
    (hfr : s.heap.blk s.heap.next = none)
    (hr : MRep s n p)
    (hl : n.Leaves (fun y => ∀ w, s.vec y = some w → w.data = none ∨ w.data ≠ d.data)
      (fun y => y ≠ x ∧ ∀ w, s.mat y = some w → w.data = none ∨ w.data ≠ d.data)) :
    ∃ h' d', mAssign true s x n = .ok ({ s with heap := h' }.setMat x (some d')) ∧
      (d'.storage = .allocated ∧ d'.off = 0 ∧ d'.fixed = d.fixed ∧ d'.colMajor = d.colMajor ∧
        d'.colBasis = d.colBasis ∧ d'.Owned h') ∧
      (d'.data = if p.r * p.c = d.rows * d.cols then d.data else some s.heap.next) ∧
      MRep ({ s with heap := h' }.setMat x (some d')) (.var x) p ∧
      (∀ b o, b ≠ s.heap.next → some b ≠ d.data → h'.cell b o = s.heap.cell b o) ∧
      (p.r * p.c ≠ d.rows * d.cols → ∀ b, some b = d.data → h'.blk b = none) ∧
      (p.r * p.c = d.rows * d.cols → h'.blk s.heap.next = none) ∧
      (∀ b, b ≠ s.heap.next → some b ≠ d.data →
        (h'.blk b).map List.length = (s.heap.blk b).map List.length) ∧
      h'.next = s.heap.next + (if p.r * p.c = d.rows * d.cols then 0 else 1) ∧
      h'.tick = s.heap.tick + (if p.r * p.c = d.rows * d.cols then 0 else 1) ∧
      h'.fail = s.heap.fail := by
  -- the state after the resize
  obtain ⟨h1, d1, r0, r1, r2, r3, r4, r5, r6, r7, r8⟩ : ∃ h1 d1,
      mResize true s x p.r p.c = .ok ({ s with heap := h1 }.setMat x (some d1)) ∧
      (d1 = { d with data := d1.data, rows := p.r, cols := p.c }) ∧
      (d1.data = if p.r * p.c = d.rows * d.cols then d.data else some s.heap.next) ∧
      d1.flat.Ready true h1 ∧ d1.Owned h1 ∧
      (∀ b, b ≠ s.heap.next → some b ≠ d.data → h1.blk b = s.heap.blk b) ∧
      (p.r * p.c ≠ d.rows * d.cols → ∀ b, some b = d.data → h1.blk b = none) ∧
      (p.r * p.c = d.rows * d.cols → h1 = s.heap) ∧
      (h1.next = s.heap.next + (if p.r * p.c = d.rows * d.cols then 0 else 1) ∧
        h1.tick = s.heap.tick + (if p.r * p.c = d.rows * d.cols then 0 else 1) ∧
        h1.fail = s.heap.fail) := by
    by_cases he : p.r * p.c = d.rows * d.cols
    · have hflat : ({ d with rows := p.r, cols := p.c } : MObj).flat = d.flat := by
        simp [MObj.flat, he]
      refine ⟨s.heap, { d with rows := p.r, cols := p.c }, mResizeWith_relabel hx he, rfl,
        by simp [he], ?_, ?_, fun _ _ _ => rfl, fun h => absurd he h, fun _ => rfl, by simp [he]⟩
      · rw [hflat]
        intro k hk
        rcases ho with ⟨hd, hz⟩ | ⟨b, l, hd, hb, hlen⟩
        · omega
        · refine ⟨b, hd, ?_⟩
          have h0 : d.flat.off = 0 := hoff
          refine ⟨l[k], ?_, Or.inl rfl⟩
          simp [Heap.cell, hb, h0]
      · show ({ d with rows := p.r, cols := p.c } : MObj).flat.Owned _
        rw [hflat]; exact ho
    · obtain ⟨h1, l1, q1, q2, q3, q4, q5, q6, q7, q8, q9⟩ :=
        mResizeWith_ok (copy := true) (triv := true) hx he (hal he) hfr ho (fun _ => Or.inl rfl)
      refine ⟨h1, _, q1, rfl, by simp [he], ?_, ?_, q5, fun _ => q6, fun h => absurd h he,
        by simp [he, q7, q8, q9]⟩
      · intro k hk
        have hk' : k < l1.length := by rw [q3]; exact hk
        refine ⟨_, rfl, l1[k], ?_, Or.inl rfl⟩
        simp [Heap.cell, MObj.flat, hoff, q2, hk']
      · exact Or.inr ⟨_, _, rfl, q2, q3⟩
  set s1 : State E := { s with heap := h1 }.setMat x (some d1) with hs1
  have hx1 : s1.mat x = some d1 := by simp [hs1, State.setMat]
  have hrows : d1.rows = p.r := by rw [r1]
  have hcols : d1.cols = p.c := by rw [r1]
  have hoff1 : d1.off = 0 := by rw [r1]; exact hoff
  -- reads are not affected by the resize and the stores
  have hread : ∀ (s' : State E), s'.vec = s1.vec → s'.mat = s1.mat →
      (∀ b' o, b' ≠ s.heap.next → some b' ≠ d.data → s'.heap.cell b' o = s.heap.cell b' o) →
      ∀ (i : Fin p.r) (j : Fin p.c), n.get s' i j = .ok (p.f i j) := by
    intro s' hv hm hfrm i j
    refine MNode.get_mono (s := s) ?_ ?_ n hl i j _ (hr.get i j)
    · intro y hy j v h
      rw [VNode.var_get] at h ⊢
      obtain ⟨w, b', q1, q2, q3, q4⟩ := h
      have hbn : b' ≠ s.heap.next := by
        rintro rfl; simp [Heap.cell, hfr] at q4
      have hbd : some b' ≠ d.data := by
        rcases hy w q1 with h | h
        · rw [q2] at h; cases h
        · rw [← q2]; exact h
      exact ⟨w, b', by rw [hv]; simp [hs1, State.setMat, q1], q2, q3, by rw [hfrm _ _ hbn hbd]; exact q4⟩
    · intro y hy i j v h
      rw [MNode.var_get] at h ⊢
      obtain ⟨w, b', q1, q2, q3, q3', q4⟩ := h
      have hbn : b' ≠ s.heap.next := by
        rintro rfl; simp [Heap.cell, hfr] at q4
      have hbd : some b' ≠ d.data := by
        rcases hy.2 w q1 with h | h
        · rw [q2] at h; cases h
        · rw [← q2]; exact h
      exact ⟨w, b', by rw [hm]; simp [hs1, State.setMat, q1, hy.1], q2, q3, q3',
        by rw [hfrm _ _ hbn hbd]; exact q4⟩
  have hs1h : s1.heap = h1 := rfl
  obtain ⟨h', e1, e2, e3, e4, e5, e6, e7⟩ := mStore_fin (triv := true) hx1 (by rw [hs1h]; exact r3)
    (fun i j => p.f (i.cast hrows) (j.cast hcols)) (f := fun s i j => n.get s i j)
    (fun b i j s' g hb hv hm hstd _ => by
      refine hread s' hv hm ?_ (i.cast hrows) (j.cast hcols)
      intro b' o hbn hbd
      rw [hstd.frame b' o (Or.inl (by
        rintro rfl
        rw [r2] at hb
        split at hb
        · exact hbd hb.symm
        · exact hbn (by cases hb; rfl)))]
      rw [hs1h]
      simp only [Heap.cell, r5 b' hbn hbd])
  refine ⟨h', d1, ?_, ⟨?_, hoff1, ?_, ?_, ?_, ?_⟩, r2, ?_, ?_, ?_, ?_, ?_, ?_, ?_, ?_⟩
  · unfold mAssign mCheckOrResize
    simp only [State.mobj, hx, Out.withVal_ok, hst, hr.dims]
    rw [r0, Out.ok_andThen]
    exact e1
  · rw [r1]; exact hst
  · rw [r1]
  · rw [r1]
  · rw [r1]
  · rcases r4 with h | ⟨b, l, q1, q2, q3⟩
    · exact Or.inl h
    · have := e7 b
      rw [hs1h, q2] at this
      simp only [Option.map_some, Option.map_eq_some_iff] at this
      obtain ⟨l', a1, a2⟩ := this
      exact Or.inr ⟨b, l', q1, a1, by rw [a2]; exact q3⟩
  · refine ⟨?_, ?_⟩
    · rw [MNode.var_dims (d := d1) (by simp [State.setMat]), hrows, hcols]
    · intro i j
      rw [MNode.var_get_eq (d := d1) (by simp [State.setMat])]
      exact e2 (i.cast hrows.symm) (j.cast hcols.symm)
  · intro b o hbn hbd
    rw [e3 b o (by
      rintro ⟨h, -⟩
      have h : d1.data = some b := h
      rw [r2] at h
      split at h
      · exact hbd h.symm
      · exact hbn (by cases h; rfl))]
    rw [hs1h]
    simp only [Heap.cell, r5 b hbn hbd]
  · intro he b hb
    have := e7 b
    rw [hs1h, r6 he b hb] at this
    simpa using this
  · intro he
    have := e7 s.heap.next
    rw [hs1h, r7 he, hfr] at this
    simpa using this
  · intro b hbn hbd
    rw [e7 b, hs1h, r5 b hbn hbd]
  · rw [e4, hs1h, r8.1]
  · rw [e5, hs1h, r8.2.1]
  · rw [e6, hs1h, r8.2.2]

/-- A loop of `put`s at pairwise different positions. -/
theorem mPutLoop_ok {triv : Bool} {s : State E} {x : Nat} {d : MObj} {b N : Nat}
    (hx : s.mat x = some d) (hb : d.data = some b) (pos : Nat → Nat × Nat)
    (hin : ∀ k, k < N → (pos k).1 < d.rows ∧ (pos k).2 < d.cols)
    (hinj : ∀ k l, k < N → l < N → pos k = pos l → k = l)
    (hw : ∀ k, k < N → s.heap.Writable triv b (d.off + d.index (pos k).1 (pos k).2))
    {f : Nat → State E → Res E} (g : Nat → E)
    (hf : ∀ k s', k < N → s'.vec = s.vec → s'.mat = s.mat →
      (∀ b' o', (b' = b → ∀ l, l < k → o' ≠ d.off + d.index (pos l).1 (pos l).2) →
        s'.heap.cell b' o' = s.heap.cell b' o') → f k s' = .ok (g k)) :
    ∃ h', Out.loop (fun k s => .withVal (f k s) s fun e => mPut triv s x (pos k).1 (pos k).2 e) 0 N s
        = .ok { s with heap := h' } ∧
      (∀ k, k < N → h'.cell b (d.off + d.index (pos k).1 (pos k).2) = some (some (g k))) ∧
      (∀ b' o', (b' = b → ∀ l, l < N → o' ≠ d.off + d.index (pos l).1 (pos l).2) →
        h'.cell b' o' = s.heap.cell b' o') ∧
      (∀ b', (h'.blk b').map List.length = (s.heap.blk b').map List.length) ∧
      h'.next = s.heap.next ∧ h'.tick = s.heap.tick ∧ h'.fail = s.heap.fail := by
  have hidx : ∀ k l, k < N → l < N → k ≠ l →
      d.off + d.index (pos k).1 (pos k).2 ≠ d.off + d.index (pos l).1 (pos l).2 := by
    intro k l hk hl hkl h
    have h' : d.index (pos k).1 (pos k).2 = d.index (pos l).1 (pos l).2 := by omega
    have e1 := MObj.unindex_index (hin k hk).1 (hin k hk).2
    have e2 := MObj.unindex_index (hin l hl).1 (hin l hl).2
    rw [h', e2] at e1
    exact hkl (hinj k l hk hl (by ext <;> simp_all))
  obtain ⟨s', e1, hv, hm, e2, e3, e4, e5⟩ := Out.loop_inv (lo := 0) (n := N) (s := s)
    (body := fun k s => .withVal (f k s) s fun e => mPut triv s x (pos k).1 (pos k).2 e)
    (fun n s' => s'.vec = s.vec ∧ s'.mat = s.mat ∧
      (∀ k, k < n → s'.heap.cell b (d.off + d.index (pos k).1 (pos k).2) = some (some (g k))) ∧
      (∀ b' o', (b' = b → ∀ l, l < n → o' ≠ d.off + d.index (pos l).1 (pos l).2) →
        s'.heap.cell b' o' = s.heap.cell b' o') ∧
      (∀ b', (s'.heap.blk b').map List.length = (s.heap.blk b').map List.length) ∧
      s'.heap.next = s.heap.next ∧ s'.heap.tick = s.heap.tick ∧ s'.heap.fail = s.heap.fail)
    ⟨rfl, rfl, by intro k hk; omega, fun _ _ _ => rfl, fun _ => rfl, rfl, rfl, rfl⟩
    (by
      rintro n s' - hn ⟨hv, hm, q1, q2, q3, q4, q5, q6⟩
      have hn' : n < N := by omega
      have hr := hf n s' hn' hv hm q2
      have hwr : s'.heap.Writable triv b (d.off + d.index (pos n).1 (pos n).2) := by
        obtain ⟨c, hc, ht⟩ := hw n hn'
        refine ⟨c, ?_, ht⟩
        rw [q2 _ _ (fun _ l hl => hidx n l hn' (by omega) (by omega)), hc]
      obtain ⟨h', w1, w2, w3, w4, w5, w6, w7, w8⟩ :=
        mPut_ok (e := g n) (show s'.mat x = some d by rw [hm, hx]) hb (hin n hn').1 (hin n hn').2 hwr
      refine ⟨{ s' with heap := h' }, ?_, hv, hm, ?_, ?_, ?_, ?_, ?_, ?_⟩
      · simp only [hr, Out.withVal_ok, w1]
      · intro k hk
        by_cases hkn : k = n
        · subst hkn; exact w2
        · rw [w3 _ _ (by
            simp only [ne_eq, Prod.mk.injEq, true_and]
            exact hidx k n (by omega) hn' hkn)]
          exact q1 k (by omega)
      · intro b' o' hbo
        rw [w3 b' o' (by
          simp only [ne_eq, Prod.mk.injEq, not_and]
          intro hbb
          exact hbo hbb n (by omega))]
        exact q2 b' o' (fun hbb l hl => hbo hbb l (by omega))
      · intro b'; rw [w5, q3]
      · rw [w6, q4]
      · rw [w7, q5]
      · rw [w8, q6])
  rw [Nat.zero_add] at e2 e3
  refine ⟨s'.heap, ?_, e2, e3, e4, e5⟩
  rw [e1]
  congr 1
  cases s'
  simp only at hv hm
  subst hv hm
  rfl

end CML
