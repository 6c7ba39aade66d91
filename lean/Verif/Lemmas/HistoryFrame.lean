import Verif.Lemmas.HistoryStep

/-! A statement changes only the variables it names as targets. -/

namespace CML

set_option linter.unusedSectionVars false

section
variable {E : Type} [Add E] [Sub E] [Mul E] [Div E] [Neg E]

/-- Variable `k` is the same object with the same memory contents in both states. -/
structure Keeps (k : Nat ⊕ Nat) (s s' : State E) : Prop where
  vec : ∀ y, k = .inl y → s'.vec y = s.vec y
  mat : ∀ y, k = .inr y → s'.mat y = s.mat y
  blk : ∀ v b, s.owner k = some v → v.data = some b → s'.heap.blk b = s.heap.blk b

theorem Keeps.refl (k : Nat ⊕ Nat) (s : State E) : Keeps k s s := ⟨fun _ _ => rfl, fun _ _ => rfl, fun _ _ _ _ => rfl⟩

theorem Keeps.owner {k : Nat ⊕ Nat} {s s' : State E} (h : Keeps k s s') : s'.owner k = s.owner k := by
  cases k with
  | inl y => simp [State.owner, h.vec y rfl]
  | inr y => simp [State.owner, h.mat y rfl]

theorem Keeps.trans {k : Nat ⊕ Nat} {s s' s'' : State E} (h : Keeps k s s') (h' : Keeps k s' s'') : Keeps k s s'' :=
  ⟨fun y e => (h'.vec y e).trans (h.vec y e), fun y e => (h'.mat y e).trans (h.mat y e),
    fun v b hv hb => (h'.blk v b (h.owner.trans hv) hb).trans (h.blk v b hv hb)⟩

theorem Untouched.keeps {s s' : State E} (h : Untouched s s') (k : Nat ⊕ Nat) : Keeps k s s' :=
  ⟨fun _ _ => by rw [h.vec], fun _ _ => by rw [h.mat], fun _ _ _ _ => by rw [h.blk]⟩

theorem Inv.ne_next {s : State E} (I : Inv s) {k : Nat ⊕ Nat} {v : VObj} {b : Nat} (hv : s.owner k = some v)
    (hb : v.data = some b) : b ≠ s.heap.next := by
  rintro rfl
  rcases (I.own k v hv).2.2.2 with ⟨e, -⟩ | ⟨b', l, e1, e2, -⟩
  · rw [hb] at e; cases e
  · rw [hb] at e1; cases e1
    rw [I.fresh _ (le_refl _)] at e2; cases e2

theorem Inv.ne_data {s : State E} (I : Inv s) {k k' : Nat ⊕ Nat} (hk : k ≠ k') {v w : VObj} {b : Nat}
    (hv : s.owner k = some v) (hw : s.owner k' = some w) (hb : v.data = some b) : some b ≠ w.data :=
  fun h => hk (I.excl k k' v w b hv hw hb h.symm)

/-- Postcondition: the ownership condition, and variable `k` is kept. -/
abbrev Out.KeepsPost (k : Nat ⊕ Nat) (s0 : State E) (o : Out (State E)) : Prop :=
  o.Post (fun s' => Inv s' ∧ Keeps k s0 s') (fun _ => True)

theorem Out.KeepsPost.of {k : Nat ⊕ Nat} {s0 : State E} {o : Out (State E)} {Q : State E → Prop}
    (h : o.Post (fun s' => Inv s') Q) (h' : o.Post (Keeps k s0) fun _ => True) : o.KeepsPost k s0 := by
  cases o with
  | ok s => exact ⟨h, h'⟩
  | throw e s => trivial
  | ub u => trivial

theorem vResizeWith_keeps {copy triv : Bool} {k : Nat ⊕ Nat} {s0 s : State E} (I : Inv s) (K : Keeps k s0 s)
    {x : Nat} (hk : k ≠ .inl x) (n : Int) : (vResizeWith copy triv s x n).KeepsPost k s0 := by
  refine .of (vResizeWith_post I x n) ?_
  cases hx : s.vec x with
  | none => simp [vResizeWith, State.vobj, hx, Out.Post]
  | some d =>
    obtain ⟨a1, a2, a3, a4⟩ := I.vec_alloc hx
    by_cases hn : n < 0
    · simp only [vResizeWith, State.vobj, hx, Out.withVal_ok, if_pos hn]; trivial
    by_cases hne : n.toNat = d.size
    · simp only [vResizeWith, State.vobj, hx, Out.withVal_ok, if_neg hn, if_pos hne]; exact K
    cases hal : s.heap.fail s.heap.tick with
    | true =>
      simp only [vResizeWith, State.vobj, hx, Out.withVal_ok, if_neg hn, if_neg hne, Heap.alloc, hal]
      trivial
    | false =>
      have hfr := I.fresh _ (le_refl s.heap.next)
      by_cases ht : copy = true → triv = true ∨ d.data = none ∨ min d.size n.toNat = 0
      · obtain ⟨h', l', e, e1, e2, -, e4, e5, e6, -⟩ := vResizeWith_ok hx (by omega) hne hal hfr a4 ht
        rw [e]
        refine K.trans ⟨fun y hy => ?_, fun _ _ => rfl, fun v b hv hb => ?_⟩
        · subst hy
          have : y ≠ x := fun h => hk (by rw [h])
          simp [State.setVec, this]
        · exact e4 b (I.ne_next hv hb) (I.ne_data hk hv (show s.owner (.inl x) = some d from hx) hb)
      · push Not at ht
        obtain ⟨rfl, ht, hd, hm⟩ := ht
        simp only [Bool.not_eq_true] at ht
        subst ht
        rcases a4 with ⟨h1, -⟩ | ⟨b, l, h1, h2, h3⟩
        · exact absurd h1 hd
        · rw [vResizeWith_raw hx h1 h2 h3 (by omega) hne hal hfr (by omega)]
          trivial

theorem mResizeWith_keeps {copy triv : Bool} {k : Nat ⊕ Nat} {s0 s : State E} (I : Inv s) (K : Keeps k s0 s)
    {x : Nat} (hk : k ≠ .inr x) (r c : Int) : (mResizeWith copy triv s x r c).KeepsPost k s0 := by
  refine .of (mResizeWith_post I x r c) ?_
  cases hx : s.mat x with
  | none => simp [mResizeWith, State.mobj, hx, Out.Post]
  | some d =>
    obtain ⟨a1, a2, a3, a4⟩ := I.mat_alloc hx
    have hown : s.owner (.inr x) = some d.flat := by simp [State.owner, hx]
    by_cases hr : r < 0
    · simp only [mResizeWith, State.mobj, hx, Out.withVal_ok, if_pos hr]; trivial
    by_cases hc : c < 0
    · simp only [mResizeWith, State.mobj, hx, Out.withVal_ok, if_neg hr, if_pos hc]; trivial
    obtain ⟨r, rfl⟩ := Int.eq_ofNat_of_zero_le (not_lt.mp hr)
    obtain ⟨c, rfl⟩ := Int.eq_ofNat_of_zero_le (not_lt.mp hc)
    by_cases hne : r * c = d.rows * d.cols
    · have := mResizeWith_relabel (copy := copy) (triv := triv) hx hne
      rw [this]
      refine K.trans ⟨fun _ _ => rfl, fun y hy => ?_, fun _ _ _ _ => rfl⟩
      subst hy
      have : y ≠ x := fun h => hk (by rw [h])
      simp [State.setMat, this]
    cases hal : s.heap.fail s.heap.tick with
    | true =>
      simp only [mResizeWith, State.mobj, hx, Out.withVal_ok, if_neg hr, if_neg hc, Int.toNat_natCast,
        if_neg hne, Heap.alloc, hal]
      trivial
    | false =>
      have hfr := I.fresh _ (le_refl s.heap.next)
      by_cases ht : copy = true → triv = true ∨ d.data = none ∨ min (d.rows * d.cols) (r * c) = 0
      · obtain ⟨h', l', e, e1, e2, -, e4, e5, e6, -⟩ := mResizeWith_ok hx hne hal hfr a4 ht
        rw [e]
        refine K.trans ⟨fun _ _ => rfl, fun y hy => ?_, fun v b hv hb => ?_⟩
        · subst hy
          have : y ≠ x := fun h => hk (by rw [h])
          simp [State.setMat, this]
        · exact e4 b (I.ne_next hv hb) (I.ne_data hk hv hown hb)
      · push Not at ht
        obtain ⟨rfl, ht, hd, hm⟩ := ht
        simp only [Bool.not_eq_true] at ht
        subst ht
        rcases a4 with ⟨h1, -⟩ | ⟨b, l, h1, h2, h3⟩
        · exact absurd h1 hd
        · rw [mResizeWith_raw hx h1 h2 h3 hne hal hfr (by omega)]
          trivial

theorem Heap.write_other {triv : Bool} {h h' : Heap E} {b o : Nat} {e : E}
    (hw : h.write triv b o e = .ok h') {b' : Nat} (hb : b' ≠ b) : h'.blk b' = h.blk b' := by
  unfold Heap.write at hw
  cases hl : h.blk b with
  | none => simp [hl] at hw
  | some l =>
    simp only [hl] at hw
    cases hc : l[o]? with
    | none => simp [hc] at hw
    | some c =>
      simp only [hc] at hw
      split at hw
      · simp only [Res.ok.injEq] at hw
        subst hw
        simp [Heap.setBlk, hb]
      · cases hw

theorem vPut_keeps (triv : Bool) {k : Nat ⊕ Nat} {s0 s : State E} (I : Inv s) (K : Keeps k s0 s)
    {x : Nat} (hk : k ≠ .inl x) (i : Nat) (e : E) : (vPut triv s x i e).KeepsPost k s0 := by
  refine .of (Out.Quiet.inv I (vPut_quiet triv s s (.refl s) x i e) (Q := fun _ => True)) ?_
  unfold vPut
  refine .withVal (fun v hv => .withVal (fun h' hh => ?_) fun _ _ => trivial) fun _ _ => trivial
  refine K.trans ⟨fun _ _ => rfl, fun _ _ => rfl, fun w b hw hb => ?_⟩
  have hx := vobj_ok hv
  unfold VObj.put at hh
  split at hh
  · cases hh
  · rename_i b' hb'
    split at hh
    · refine Heap.write_other hh ?_
      rintro rfl
      exact I.ne_data hk hw (show s.owner (.inl x) = some v from hx) hb hb'.symm
    · cases hh

theorem mPut_keeps (triv : Bool) {k : Nat ⊕ Nat} {s0 s : State E} (I : Inv s) (K : Keeps k s0 s)
    {x : Nat} (hk : k ≠ .inr x) (i j : Nat) (e : E) : (mPut triv s x i j e).KeepsPost k s0 := by
  refine .of (Out.Quiet.inv I (mPut_quiet triv s s (.refl s) x i j e) (Q := fun _ => True)) ?_
  unfold mPut
  refine .withVal (fun v hv => .withVal (fun h' hh => ?_) fun _ _ => trivial) fun _ _ => trivial
  refine K.trans ⟨fun _ _ => rfl, fun _ _ => rfl, fun w b hw hb => ?_⟩
  have hx := mobj_ok hv
  have hown : s.owner (.inr x) = some v.flat := by simp [State.owner, hx]
  unfold MObj.put at hh
  split at hh
  · cases hh
  · rename_i b' hb'
    split at hh
    · refine Heap.write_other hh ?_
      rintro rfl
      exact I.ne_data hk hw hown hb (show some b = v.data from hb'.symm)
    · cases hh

theorem storeLoop_keeps (triv : Bool) {k : Nat ⊕ Nat} {s0 s : State E} (I : Inv s) (K : Keeps k s0 s)
    {x : Nat} (hk : k ≠ .inl x) (f : State E → Nat → Res E) : (storeLoop triv s x f).KeepsPost k s0 := by
  unfold storeLoop
  refine .withVal (fun v _ => .loop (fun i s' h' => ?_) ⟨I, K⟩) fun _ _ => trivial
  exact .withVal (fun a _ => vPut_keeps triv h'.1 h'.2 hk i a) fun _ _ => trivial

theorem mStore_keeps (triv : Bool) {k : Nat ⊕ Nat} {s0 s : State E} (I : Inv s) (K : Keeps k s0 s)
    {x : Nat} (hk : k ≠ .inr x) (f : State E → Nat → Nat → Res E) : (mStore triv s x f).KeepsPost k s0 := by
  unfold mStore
  refine .withVal (fun v _ => ?_) fun _ _ => trivial
  have hst : ∀ i j s', (Inv s' ∧ Keeps k s0 s') → (mStep triv x f i j s').KeepsPost k s0 := fun i j s' h' =>
    .withVal (fun a _ => mPut_keeps triv h'.1 h'.2 hk i j a) fun _ _ => trivial
  split
  · exact .loop (fun j s' h' => .loop (fun i s'' h'' => hst i j s'' h'') h') ⟨I, K⟩
  · exact .loop (fun i s' h' => .loop (fun j s'' h'' => hst i j s'' h'') h') ⟨I, K⟩

theorem checkOrResize_keeps (triv : Bool) {k : Nat ⊕ Nat} {s0 s : State E} (I : Inv s) (K : Keeps k s0 s)
    {x : Nat} (hk : k ≠ .inl x) (e : VNode E) : (checkOrResize triv s x e).KeepsPost k s0 := by
  unfold checkOrResize
  refine .withVal (fun v hv => ?_) fun _ _ => trivial
  rw [(I.vec_alloc (vobj_ok hv)).1]
  exact .withVal (fun n _ => vResizeWith_keeps I K hk n) fun _ _ => trivial

theorem mCheckOrResize_keeps (triv : Bool) {k : Nat ⊕ Nat} {s0 s : State E} (I : Inv s) (K : Keeps k s0 s)
    {x : Nat} (hk : k ≠ .inr x) (e : MNode E) : (mCheckOrResize triv s x e).KeepsPost k s0 := by
  unfold mCheckOrResize
  refine .withVal (fun v hv => ?_) fun _ _ => trivial
  rw [(I.mat_alloc (mobj_ok hv)).1]
  exact .withVal (fun n _ => mResizeWith_keeps I K hk n.1 n.2) fun _ _ => trivial

theorem vAssign_keeps (triv : Bool) {k : Nat ⊕ Nat} {s0 s : State E} (I : Inv s) (K : Keeps k s0 s)
    {x : Nat} (hk : k ≠ .inl x) (e : VNode E) : (vAssign triv s x e).KeepsPost k s0 :=
  (checkOrResize_keeps triv I K hk e).andThen fun _ h => storeLoop_keeps triv h.1 h.2 hk _

theorem mAssign_keeps (triv : Bool) {k : Nat ⊕ Nat} {s0 s : State E} (I : Inv s) (K : Keeps k s0 s)
    {x : Nat} (hk : k ≠ .inr x) (e : MNode E) : (mAssign triv s x e).KeepsPost k s0 :=
  (mCheckOrResize_keeps triv I K hk e).andThen fun _ h => mStore_keeps triv h.1 h.2 hk _

theorem vDefault_keeps {k : Nat ⊕ Nat} {s : State E} {x : Nat} (hk : k ≠ .inl x) : Keeps k s (vDefault s x) := by
  refine ⟨fun y hy => ?_, fun _ _ => rfl, fun _ _ _ _ => rfl⟩
  subst hy
  have : y ≠ x := fun h => hk (by rw [h])
  simp [vDefault, State.setVec, this]

theorem mDefault_keeps {cm cb : Bool} {k : Nat ⊕ Nat} {s : State E} {x : Nat} (hk : k ≠ .inr x) :
    Keeps k s (mDefault cm cb s x) := by
  refine ⟨fun _ _ => rfl, fun y hy => ?_, fun _ _ _ _ => rfl⟩
  subst hy
  have : y ≠ x := fun h => hk (by rw [h])
  simp [mDefault, State.setMat, this]

theorem ctor_keeps {k : Nat ⊕ Nat} {s0 : State E} {x : Nat} {o : Out (State E)} (h : o.KeepsPost k s0) :
    (ctor x o).KeepsPost k s0 := by
  cases o with
  | ok s => exact h
  | throw e s => trivial
  | ub u => trivial

theorem mctor_keeps {k : Nat ⊕ Nat} {s0 : State E} {x : Nat} {o : Out (State E)} (h : o.KeepsPost k s0) :
    (mctor x o).KeepsPost k s0 := by
  cases o with
  | ok s => exact h
  | throw e s => trivial
  | ub u => trivial

theorem vMoveAssign_keeps {k : Nat ⊕ Nat} {s0 s : State E} (I : Inv s) (K : Keeps k s0 s)
    {x y : Nat} (hk : ¬ (k = .inl x ∨ k = .inl y)) : (vMoveAssign s x y).KeepsPost k s0 := by
  refine .of (vMoveAssign_post I x y) ?_
  unfold vMoveAssign
  refine .withVal (fun v hv => .withVal (fun w hw => ?_) fun _ _ => trivial) fun _ _ => trivial
  refine K.trans ⟨fun z hz => ?_, fun _ _ => rfl, fun _ _ _ _ => rfl⟩
  subst hz
  have h1 : z ≠ x := fun h => hk (Or.inl (by rw [h]))
  have h2 : z ≠ y := fun h => hk (Or.inr (by rw [h]))
  simp [State.setVec, h1, h2]

theorem mMoveAssign_keeps {k : Nat ⊕ Nat} {s0 s : State E} (I : Inv s) (K : Keeps k s0 s)
    {x y : Nat} (hk : ¬ (k = .inr x ∨ k = .inr y)) : (mMoveAssign s x y).KeepsPost k s0 := by
  refine .of (mMoveAssign_post I x y) ?_
  unfold mMoveAssign
  refine .withVal (fun v hv => .withVal (fun w hw => ?_) fun _ _ => trivial) fun _ _ => trivial
  refine K.trans ⟨fun _ _ => rfl, fun z hz => ?_, fun _ _ _ _ => rfl⟩
  subst hz
  have h1 : z ≠ x := fun h => hk (Or.inl (by rw [h]))
  have h2 : z ≠ y := fun h => hk (Or.inr (by rw [h]))
  simp [State.setMat, h1, h2]

theorem vDestroy_keeps {triv : Bool} {k : Nat ⊕ Nat} {s : State E} (I : Inv s)
    {x : Nat} (hk : k ≠ .inl x) : (vDestroy triv s x).KeepsPost k s := by
  refine .of (vDestroy_post I x) ?_
  unfold vDestroy
  refine .withVal (fun v hv => .withVal (fun h' hh => ?_) fun _ _ => trivial) fun _ _ => trivial
  obtain ⟨e1, e2, e3⟩ := destroy_heap (I.vec_alloc (vobj_ok hv)).2.2.2 I.fresh hh
  refine ⟨fun y hy => ?_, fun _ _ => rfl, fun w b hw hb => ?_⟩
  · subst hy
    have : y ≠ x := fun h => hk (by rw [h])
    simp [State.setVec, this]
  · exact e1 b (I.ne_data hk hw (show s.owner (.inl x) = some v from vobj_ok hv) hb)

theorem mDestroy_keeps {triv : Bool} {k : Nat ⊕ Nat} {s : State E} (I : Inv s)
    {x : Nat} (hk : k ≠ .inr x) : (mDestroy triv s x).KeepsPost k s := by
  refine .of (mDestroy_post I x) ?_
  unfold mDestroy
  refine .withVal (fun v hv => .withVal (fun h' hh => ?_) fun _ _ => trivial) fun _ _ => trivial
  obtain ⟨e1, e2, e3⟩ := destroy_heap (v := v.flat) (I.mat_alloc (mobj_ok hv)).2.2.2 I.fresh hh
  refine ⟨fun _ _ => rfl, fun y hy => ?_, fun w b hw hb => ?_⟩
  · subst hy
    have : y ≠ x := fun h => hk (by rw [h])
    simp [State.setMat, this]
  · have hown : s.owner (.inr x) = some v.flat := by simp [State.owner, mobj_ok hv]
    exact e1 b (I.ne_data hk hw hown hb)

/-- A statement keeps every variable it does not name as target. -/
theorem Op.run_keeps {triv : Bool} {s : State E} (I : Inv s) (o : Op E) (hf : o.NameFree s) {k : Nat ⊕ Nat}
    (hk : ¬ o.Targets k) : (o.run triv s).KeepsPost k s := by
  have K := Keeps.refl k s
  cases o with
  | vDefault x => exact ⟨vDefault_inv I hf, vDefault_keeps hk⟩
  | vNew x n => exact ctor_keeps (vResizeWith_keeps (vDefault_inv I hf) (vDefault_keeps hk) hk n)
  | vCopyNew x e =>
    exact .withVal (fun n _ => ctor_keeps (vAssign_keeps triv (vDefault_inv I hf) (vDefault_keeps hk) hk n))
      fun _ _ => trivial
  | vMoveNew x y =>
    exact ctor_keeps (vMoveAssign_keeps (vDefault_inv I hf) (vDefault_keeps fun h => hk (Or.inl h)) hk)
  | vResize fast x n =>
    show (if fast then CML.vResizeFast triv s x n else CML.vResize triv s x n).KeepsPost k s
    split
    · exact vResizeWith_keeps I K hk n
    · exact vResizeWith_keeps I K hk n
  | vPut x i e => exact vPut_keeps triv I K hk i e
  | vAssign x e => exact .withVal (fun n _ => vAssign_keeps triv I K hk n) fun _ _ => trivial
  | vOp o x e =>
    exact .withVal (fun n _ => (checkOrResize_keeps triv I K hk n).andThen fun _ h =>
      storeLoop_keeps triv h.1 h.2 hk _) fun _ _ => trivial
  | vScal o x c => exact storeLoop_keeps triv I K hk _
  | vFill x c => exact storeLoop_keeps triv I K hk _
  | vList cst x xs =>
    have hk : k ≠ .inl x := hk
    refine Out.Post.andThen (P' := fun s' => Inv s' ∧ Keeps k s s') ?_ fun s' h' => ?_
    · unfold checkOrResizeN
      refine .withVal (fun v hv => ?_) fun _ _ => trivial
      rw [(I.vec_alloc (vobj_ok hv)).1]
      exact vResizeWith_keeps I K hk _
    · exact .loop (fun i s'' h'' => .withVal (fun a _ => vPut_keeps triv h''.1 h''.2 hk i a) fun _ _ => trivial) h'
  | vMove x y => exact vMoveAssign_keeps I K hk
  | vDestroy x => exact vDestroy_keeps I hk
  | mDefault cm cb x => exact ⟨mDefault_inv I hf, mDefault_keeps hk⟩
  | mNew cm cb x r c => exact mctor_keeps (mResizeWith_keeps (mDefault_inv I hf) (mDefault_keeps hk) hk r c)
  | mCopyNew cm cb x e =>
    exact .withVal (fun n _ => mctor_keeps (mAssign_keeps triv (mDefault_inv I hf) (mDefault_keeps hk) hk n))
      fun _ _ => trivial
  | mMoveNew x y =>
    exact .withVal (fun w _ => mctor_keeps (mMoveAssign_keeps (mDefault_inv I hf)
      (mDefault_keeps fun h => hk (Or.inl h)) hk)) fun _ _ => trivial
  | mResize fast x r c =>
    show (if fast then CML.mResizeFast triv s x r c else CML.mResize triv s x r c).KeepsPost k s
    split
    · exact mResizeWith_keeps I K hk r c
    · exact mResizeWith_keeps I K hk r c
  | mPut x i j e => exact mPut_keeps triv I K hk i j e
  | mAssign x e => exact .withVal (fun n _ => mAssign_keeps triv I K hk n) fun _ _ => trivial
  | mOp o x e =>
    exact .withVal (fun n _ => (mCheckOrResize_keeps triv I K hk n).andThen fun _ h =>
      mStore_keeps triv h.1 h.2 hk _) fun _ _ => trivial
  | mScal o x c => exact mStore_keeps triv I K hk _
  | mFill x c => exact mStore_keeps triv I K hk _
  | mList kind x xs =>
    refine .withVal (fun m _ => .withVal (fun _ _ => ?_) fun _ _ => trivial) fun _ _ => trivial
    exact .loop (fun i s'' h'' => .withVal (fun a _ => mPut_keeps triv h''.1 h''.2 hk _ _ a) fun _ _ => trivial)
      ⟨I, K⟩
  | mMove x y => exact mMoveAssign_keeps I K hk
  | mDestroy x => exact mDestroy_keeps I hk

end

end CML
