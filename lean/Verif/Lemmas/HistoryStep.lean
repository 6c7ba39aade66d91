import Verif.Lemmas.History

/-! Every statement of a history keeps the ownership condition. -/

namespace CML

set_option linter.unusedSectionVars false

section Resize
variable {E : Type}

/-- For element types with destructors, `resize` copies elements that have just been destroyed. -/
theorem vResizeWith_raw {s : State E} {x : Nat} {d : VObj} {n : Int} {b : Nat} {l : List (Option E)}
    (hx : s.vec x = some d) (hd : d.data = some b) (hl : s.heap.blk b = some l) (hlen : l.length = d.size)
    (hn : 0 ≤ n) (hne : n.toNat ≠ d.size) (hal : s.heap.fail s.heap.tick = false)
    (hfr : s.heap.blk s.heap.next = none) (hmin : 0 < min d.size n.toNat) :
    vResizeWith true false s x n = .ub .raw := by
  have hbn : b ≠ s.heap.next := by rintro rfl; rw [hfr] at hl; cases hl
  obtain ⟨k, hk⟩ : ∃ k, min d.size n.toNat = k + 1 := ⟨_, (Nat.succ_pred_eq_of_pos hmin).symm⟩
  have h1 : (l.map fun _ => (none : Option E))[0]? = some none := by
    cases l with
    | nil => simp at hlen; omega
    | cons a l => rfl
  have h2 : (List.replicate n.toNat (none : Option E))[0]? = some none := by
    rw [List.getElem?_replicate, if_pos (by omega)]
  unfold vResizeWith
  simp only [State.vobj, hx, Out.withVal_ok, if_neg (not_lt.mpr hn), if_neg hne, Heap.alloc, hal, hd, hk,
    Bool.false_eq_true, if_false, if_true, copyOld, Res.loop]
  have : Heap.copyCell false
      (Heap.destruct false { s.heap.setBlk s.heap.next (some (List.replicate n.toNat none)) with
        next := s.heap.next + 1, tick := s.heap.tick + 1 } (some b)) b s.heap.next 0 = .ub .raw := by
    unfold Heap.copyCell
    have e1 : (Heap.destruct false { s.heap.setBlk s.heap.next (some (List.replicate n.toNat none)) with
        next := s.heap.next + 1, tick := s.heap.tick + 1 } (some b)).blk b = some (l.map fun _ => none) := by
      simp [Heap.destruct, Heap.setBlk, hbn, hl]
    have e2 : (Heap.destruct false { s.heap.setBlk s.heap.next (some (List.replicate n.toNat none)) with
        next := s.heap.next + 1, tick := s.heap.tick + 1 } (some b)).blk s.heap.next
          = some (List.replicate n.toNat none) := by
      simp [Heap.destruct, Heap.setBlk, Ne.symm hbn]
    simp only [e1, e2, h1, h2]
    rfl
  rw [this]
  rfl

/-- The outcome of a failed allocation differs from the state before only in the request counter. -/
def State.tickd (s : State E) : State E := { s with heap := { s.heap with tick := s.heap.tick + 1 } }

theorem Inv.tickd {s : State E} (I : Inv s) : Inv s.tickd :=
  InvH.content (h' := { s.heap with tick := s.heap.tick + 1 }) I (fun _ => rfl) (le_refl _)

/-- What is left of a statement that threw: variables and memory are as before. -/
structure Untouched (s s' : State E) : Prop where
  vec : s'.vec = s.vec
  mat : s'.mat = s.mat
  blk : s'.heap.blk = s.heap.blk
  next : s'.heap.next = s.heap.next

theorem Untouched.refl (s : State E) : Untouched s s := ⟨rfl, rfl, rfl, rfl⟩
theorem Untouched.tickd (s : State E) : Untouched s s.tickd := ⟨rfl, rfl, rfl, rfl⟩

theorem Untouched.inv {s s' : State E} (h : Untouched s s') (I : Inv s) : Inv s' := by
  have ho : s'.owner = s.owner := by
    funext k; cases k with
    | inl x => simp [State.owner, h.vec]
    | inr x => simp [State.owner, h.mat]
  unfold Inv
  rw [ho]
  exact InvH.content I (fun b => by rw [h.blk]) (le_of_eq h.next.symm)

theorem vResizeWith_post {copy triv : Bool} {s : State E} (I : Inv s) (x : Nat) (n : Int) :
    (vResizeWith copy triv s x n).Post (fun s' => Inv s') (Untouched s) := by
  cases hx : s.vec x with
  | none => simp [vResizeWith, State.vobj, hx, Out.Post]
  | some d =>
    obtain ⟨a1, a2, a3, a4⟩ := I.own (.inl x) d hx
    by_cases hn : n < 0
    · simp only [vResizeWith, State.vobj, hx, Out.withVal_ok, if_pos hn]; exact .refl s
    by_cases hne : n.toNat = d.size
    · simp only [vResizeWith, State.vobj, hx, Out.withVal_ok, if_neg hn, if_pos hne]; exact I
    cases hal : s.heap.fail s.heap.tick with
    | true =>
      simp only [vResizeWith, State.vobj, hx, Out.withVal_ok, if_neg hn, if_neg hne, Heap.alloc, hal]
      exact .tickd s
    | false =>
      have hfr := I.fresh _ (le_refl s.heap.next)
      by_cases ht : copy = true → triv = true ∨ d.data = none ∨ min d.size n.toNat = 0
      · obtain ⟨h', l', e, e1, e2, -, e4, e5, e6, -⟩ :=
          vResizeWith_ok hx (by omega) hne hal hfr a4 ht
        rw [e]
        show Inv _
        unfold Inv
        rw [State.owner_setVec, State.setVec_heap, State.owner_heap]
        exact InvH.replace I (v := d) hx rfl e1 e2 e4 e5 e6
      · push Not at ht
        obtain ⟨rfl, ht, hd, hm⟩ := ht
        simp only [Bool.not_eq_true] at ht
        subst ht
        rcases a4 with ⟨h1, -⟩ | ⟨b, l, h1, h2, h3⟩
        · exact absurd h1 hd
        · rw [vResizeWith_raw hx h1 h2 h3 (by omega) hne hal hfr (by omega)]
          trivial

theorem mResizeWith_raw {s : State E} {x : Nat} {d : MObj} {r c : Nat} {b : Nat} {l : List (Option E)}
    (hx : s.mat x = some d) (hd : d.data = some b) (hl : s.heap.blk b = some l)
    (hlen : l.length = d.rows * d.cols) (hne : r * c ≠ d.rows * d.cols)
    (hal : s.heap.fail s.heap.tick = false)
    (hfr : s.heap.blk s.heap.next = none) (hmin : 0 < min (d.rows * d.cols) (r * c)) :
    mResizeWith true false s x r c = .ub .raw := by
  have e := vResizeWith_raw (s := s.setVec 0 (some d.flat)) (x := 0) (d := d.flat)
    (n := ((r * c : Nat) : Int)) (b := b) (l := l) (by simp [State.setVec]) hd hl hlen (by omega)
    (by rw [Int.toNat_natCast]; exact hne) hal hfr (by rw [Int.toNat_natCast]; exact hmin)
  have hh : (s.setVec 0 (some d.flat)).heap = s.heap := rfl
  have h1 : ¬ ((r * c : Nat) : Int) < 0 := by omega
  have h2 : ¬ (r : Int) < 0 := by omega
  have h3 : ¬ (c : Int) < 0 := by omega
  have h4 : ¬ (r * c = d.flat.size) := hne
  have hv : (s.setVec 0 (some d.flat)).vobj 0 = .ok d.flat := by simp [State.vobj, State.setVec]
  unfold vResizeWith at e
  rw [hv, Out.withVal_ok, if_neg h1, Int.toNat_natCast, if_neg h4, hh] at e
  unfold mResizeWith
  simp only [State.mobj, hx, Out.withVal_ok, if_neg h2, if_neg h3, Int.toNat_natCast, if_neg hne]
  cases hA : s.heap.alloc (r * c) with
  | mk h o =>
    rw [hA] at e
    cases o with
    | none => simp at e
    | some b' =>
      simp only [if_true] at e ⊢
      have hf : d.flat.data = d.data := rfl
      have hf2 : d.flat.size = d.rows * d.cols := rfl
      rw [hf, hf2] at e
      cases hc : copyOld false (h.destruct false d.data) d.data b' (min (d.rows * d.cols) (r * c)) with
      | ok h'' =>
        rw [hc] at e
        simp only [Out.withVal_ok] at e ⊢
        cases hfree : h''.free d.data (d.rows * d.cols) with
        | ok h3 => rw [hfree] at e; simp at e
        | throw er => rw [hfree] at e; simp at e
        | ub u => rw [hfree] at e; simpa using e
      | throw er => rw [hc] at e; simp at e
      | ub u => rw [hc] at e; simpa using e

theorem mResizeWith_post {copy triv : Bool} {s : State E} (I : Inv s) (x : Nat) (r c : Int) :
    (mResizeWith copy triv s x r c).Post (fun s' => Inv s') (Untouched s) := by
  cases hx : s.mat x with
  | none => simp [mResizeWith, State.mobj, hx, Out.Post]
  | some d =>
    have hown : s.owner (.inr x) = some d.flat := by simp [State.owner, hx]
    obtain ⟨a1, a2, a3, a4⟩ := I.own (.inr x) d.flat hown
    by_cases hr : r < 0
    · simp only [mResizeWith, State.mobj, hx, Out.withVal_ok, if_pos hr]; exact .refl s
    by_cases hc : c < 0
    · simp only [mResizeWith, State.mobj, hx, Out.withVal_ok, if_neg hr, if_pos hc]; exact .refl s
    obtain ⟨r, rfl⟩ := Int.eq_ofNat_of_zero_le (not_lt.mp hr)
    obtain ⟨c, rfl⟩ := Int.eq_ofNat_of_zero_le (not_lt.mp hc)
    by_cases hne : r * c = d.rows * d.cols
    · have := mResizeWith_relabel (copy := copy) (triv := triv) hx hne
      rw [this]
      show Inv _
      unfold Inv
      rw [State.owner_setMat, State.setMat_heap]
      have : (some ({ d with rows := r, cols := c } : MObj)).map MObj.flat = s.owner (.inr x) := by
        rw [hown]; simp [MObj.flat, hne]
      rw [this, Function.update_eq_self]
      exact I
    cases hal : s.heap.fail s.heap.tick with
    | true =>
      simp only [mResizeWith, State.mobj, hx, Out.withVal_ok, if_neg hr, if_neg hc, Int.toNat_natCast,
        if_neg hne, Heap.alloc, hal]
      exact .tickd s
    | false =>
      have hfr := I.fresh _ (le_refl s.heap.next)
      by_cases ht : copy = true → triv = true ∨ d.data = none ∨ min (d.rows * d.cols) (r * c) = 0
      · obtain ⟨h', l', e, e1, e2, -, e4, e5, e6, -⟩ := mResizeWith_ok hx hne hal hfr a4 ht
        rw [e]
        show Inv _
        unfold Inv
        rw [State.owner_setMat, State.setMat_heap, State.owner_heap]
        exact InvH.replace I (v := d.flat) hown rfl e1 e2 e4 e5 e6
      · push Not at ht
        obtain ⟨rfl, ht, hd, hm⟩ := ht
        simp only [Bool.not_eq_true] at ht
        subst ht
        rcases a4 with ⟨h1, -⟩ | ⟨b, l, h1, h2, h3⟩
        · exact absurd h1 hd
        · rw [mResizeWith_raw hx h1 h2 h3 hne hal hfr (by omega)]
          trivial

end Resize

section Steps
variable {E : Type} [Add E] [Sub E] [Mul E] [Div E] [Neg E]

/-- A dynamic vector is `allocated`. -/
theorem Inv.vec_alloc {s : State E} (I : Inv s) {x : Nat} {d : VObj} (hx : s.vec x = some d) :
    d.storage = .allocated ∧ d.fixed = false ∧ d.off = 0 ∧ d.Owned s.heap := I.own (.inl x) d hx

theorem Inv.mat_alloc {s : State E} (I : Inv s) {x : Nat} {d : MObj} (hx : s.mat x = some d) :
    d.storage = .allocated ∧ d.fixed = false ∧ d.off = 0 ∧ d.Owned s.heap :=
  I.own (.inr x) d.flat (by simp [State.owner, hx])

theorem checkOrResize_post {triv : Bool} {s : State E} (I : Inv s) (x : Nat) (e : VNode E) :
    (checkOrResize triv s x e).Post (fun s' => Inv s') (Untouched s) := by
  unfold checkOrResize
  refine .withVal (fun v hv => ?_) fun e he => absurd he (s.vobj_noThrow x e)
  have hv' : s.vec x = some v := by
    unfold State.vobj at hv; split at hv
    · simp only [Res.ok.injEq] at hv; subst hv; assumption
    · cases hv
  rw [(I.vec_alloc hv').1]
  exact .withVal (fun n _ => vResizeWith_post I x n) fun e he => .refl s

theorem checkOrResizeN_post {triv cst : Bool} {s : State E} (I : Inv s) (x n : Nat) :
    (checkOrResizeN triv cst s x n).Post (fun s' => Inv s') (Untouched s) := by
  unfold checkOrResizeN
  refine .withVal (fun v hv => ?_) fun e he => absurd he (s.vobj_noThrow x e)
  have hv' : s.vec x = some v := by
    unfold State.vobj at hv; split at hv
    · simp only [Res.ok.injEq] at hv; subst hv; assumption
    · cases hv
  rw [(I.vec_alloc hv').1]
  exact vResizeWith_post I x n

theorem mCheckOrResize_post {triv : Bool} {s : State E} (I : Inv s) (x : Nat) (e : MNode E) :
    (mCheckOrResize triv s x e).Post (fun s' => Inv s') (Untouched s) := by
  unfold mCheckOrResize
  refine .withVal (fun v hv => ?_) fun e he => absurd he (s.mobj_noThrow x e)
  have hv' : s.mat x = some v := by
    unfold State.mobj at hv; split at hv
    · simp only [Res.ok.injEq] at hv; subst hv; assumption
    · cases hv
  rw [(I.mat_alloc hv').1]
  exact .withVal (fun n _ => mResizeWith_post I x n.1 n.2) fun e he => .refl s

theorem Out.Quiet.inv {s : State E} (I : Inv s) {o : Out (State E)} (h : o.Quiet s) {Q : State E → Prop} :
    o.Post (fun s' => Inv s') Q :=
  Out.Post.mono h (fun _ hc => hc.inv I) (fun _ hf => hf.elim)

theorem vAssign_post {triv : Bool} {s : State E} (I : Inv s) (x : Nat) (e : VNode E) :
    (vAssign triv s x e).Post (fun s' => Inv s') (Untouched s) :=
  (checkOrResize_post I x e).andThen fun s' I' =>
    Out.Quiet.inv I' (storeLoop_quiet (.refl s') fun s i => e.get_noThrow s i)

theorem vOpAssign_post {triv : Bool} {o : BinOp} {s : State E} (I : Inv s) (x : Nat) (e : VNode E) :
    (vOpAssign triv o s x e).Post (fun s' => Inv s') (Untouched s) :=
  (checkOrResize_post I x e).andThen fun s' I' =>
    Out.Quiet.inv I' (storeLoop_quiet (.refl s') fun s i =>
      (VNode.get_noThrow s (.var x) i).bind fun _ => (e.get_noThrow s i).bind fun _ => .ok _)

theorem mAssign_post {triv : Bool} {s : State E} (I : Inv s) (x : Nat) (e : MNode E) :
    (mAssign triv s x e).Post (fun s' => Inv s') (Untouched s) :=
  (mCheckOrResize_post I x e).andThen fun s' I' =>
    Out.Quiet.inv I' (mStore_quiet (.refl s') fun s i j => e.get_noThrow s i j)

theorem mOpAssign_post {triv : Bool} {o : BinOp} {s : State E} (I : Inv s) (x : Nat) (e : MNode E) :
    (mOpAssign triv o s x e).Post (fun s' => Inv s') (Untouched s) :=
  (mCheckOrResize_post I x e).andThen fun s' I' =>
    Out.Quiet.inv I' (mStore_quiet (.refl s') fun s i j =>
      (MNode.get_noThrow s (.var x) i j).bind fun _ => (e.get_noThrow s i j).bind fun _ => .ok _)

theorem vDefault_inv {s : State E} (I : Inv s) {x : Nat} (hx : s.vec x = none) : Inv (vDefault s x) := by
  unfold Inv vDefault
  rw [State.owner_setVec, State.setVec_heap]
  exact InvH.create I hx

theorem mDefault_inv {cm cb : Bool} {s : State E} (I : Inv s) {x : Nat} (hx : s.mat x = none) :
    Inv (mDefault cm cb s x) := by
  unfold Inv mDefault
  rw [State.owner_setMat, State.setMat_heap]
  exact InvH.create I (by simp [State.owner, hx])

/-- A constructor whose body throws without having touched anything: as if nothing had happened. -/
theorem ctor_post {s : State E} {x : Nat} (hx : s.vec x = none) {o : Out (State E)}
    (h : o.Post (fun s' => Inv s') (Untouched (vDefault s x))) :
    (ctor x o).Post (fun s' => Inv s') (Untouched s) := by
  cases o with
  | ok s' => exact h
  | ub u => trivial
  | throw e s' =>
    have h : Untouched (vDefault s x) s' := h
    refine ⟨?_, h.mat, h.blk, h.next⟩
    funext y
    by_cases hy : y = x
    · subst hy; simp [State.setVec, hx]
    · simp [State.setVec, hy, h.vec, vDefault]

theorem mctor_post {cm cb : Bool} {s : State E} {x : Nat} (hx : s.mat x = none) {o : Out (State E)}
    (h : o.Post (fun s' => Inv s') (Untouched (mDefault cm cb s x))) :
    (mctor x o).Post (fun s' => Inv s') (Untouched s) := by
  cases o with
  | ok s' => exact h
  | ub u => trivial
  | throw e s' =>
    have h : Untouched (mDefault cm cb s x) s' := h
    refine ⟨h.vec, ?_, h.blk, h.next⟩
    funext y
    by_cases hy : y = x
    · subst hy; simp [State.setMat, hx]
    · simp [State.setMat, hy, h.mat, mDefault]

theorem vobj_ok {s : State E} {x : Nat} {v : VObj} (h : s.vobj x = .ok v) : s.vec x = some v := by
  unfold State.vobj at h; split at h
  · simp only [Res.ok.injEq] at h; subst h; assumption
  · cases h

theorem mobj_ok {s : State E} {x : Nat} {v : MObj} (h : s.mobj x = .ok v) : s.mat x = some v := by
  unfold State.mobj at h; split at h
  · simp only [Res.ok.injEq] at h; subst h; assumption
  · cases h

theorem vMoveAssign_post {s : State E} (I : Inv s) (x y : Nat) :
    (vMoveAssign s x y).Post (fun s' => Inv s') (Untouched s) := by
  unfold vMoveAssign
  refine .withVal (fun v hv => .withVal (fun w hw => ?_) fun e he => absurd he (s.vobj_noThrow y e))
    fun e he => absurd he (s.vobj_noThrow x e)
  show Inv _
  unfold Inv
  rw [State.owner_setVec, State.owner_setVec]
  exact InvH.swap I (vobj_ok hv) (vobj_ok hw)

theorem mMoveAssign_post {s : State E} (I : Inv s) (x y : Nat) :
    (mMoveAssign s x y).Post (fun s' => Inv s') (Untouched s) := by
  unfold mMoveAssign
  refine .withVal (fun v hv => .withVal (fun w hw => ?_) fun e he => absurd he (s.mobj_noThrow y e))
    fun e he => absurd he (s.mobj_noThrow x e)
  show Inv _
  unfold Inv
  rw [State.owner_setMat, State.owner_setMat]
  have h1 : s.owner (.inr x) = some v.flat := by simp [State.owner, mobj_ok hv]
  have h2 : s.owner (.inr y) = some w.flat := by simp [State.owner, mobj_ok hw]
  exact InvH.swap I h1 h2

theorem destroy_heap {triv : Bool} {h h' : Heap E} {v : VObj} (ho : v.Owned h) (hn : ∀ b, h.next ≤ b → h.blk b = none)
    (hf : (h.destruct triv v.data).free v.data v.size = .ok h') :
    (∀ b, some b ≠ v.data → h'.blk b = h.blk b) ∧ (∀ b, some b = v.data → h'.blk b = none) ∧
      h'.next = h.next := by
  rcases ho with ⟨hd, -⟩ | ⟨b, l, hd, hl, hlen⟩
  · rw [hd] at hf
    have hdes : h.destruct triv none = h := by unfold Heap.destruct; cases triv <;> simp
    rw [hdes] at hf
    simp only [Heap.free, Res.ok.injEq] at hf
    subst hf
    refine ⟨fun _ _ => rfl, fun b hb => ?_, rfl⟩
    rw [hd] at hb; cases hb
  · rw [hd] at hf ⊢
    have hb : (h.destruct triv (some b)).blk b = some (if triv then l else l.map fun _ => none) := by
      unfold Heap.destruct
      cases triv <;> simp [Heap.setBlk, hl]
    have hlen' : (if triv then l else l.map fun _ => (none : Option E)).length = v.size := by
      cases triv <;> simp [hlen]
    simp only [Heap.free, hb, hlen', if_true, Res.ok.injEq] at hf
    subst hf
    refine ⟨fun b' hb' => ?_, fun b' hb' => ?_, ?_⟩
    · have : b' ≠ b := by rintro rfl; exact hb' rfl
      unfold Heap.destruct
      cases triv <;> simp [Heap.setBlk, this]
    · cases hb'; simp [Heap.setBlk]
    · unfold Heap.destruct
      cases triv <;> simp [Heap.setBlk]

theorem destroy_ok {triv : Bool} {h : Heap E} {v : VObj} (ho : v.Owned h) :
    ∃ h', (h.destruct triv v.data).free v.data v.size = .ok h' := by
  rcases ho with ⟨hd, -⟩ | ⟨b, l, hd, hl, hlen⟩
  · rw [hd]; exact ⟨_, rfl⟩
  · rw [hd]
    have hb : (h.destruct triv (some b)).blk b = some (if triv then l else l.map fun _ => none) := by
      unfold Heap.destruct
      cases triv <;> simp [Heap.setBlk, hl]
    have hlen' : (if triv then l else l.map fun _ => (none : Option E)).length = v.size := by
      cases triv <;> simp [hlen]
    simp only [Heap.free, hb, hlen', if_true]
    exact ⟨_, rfl⟩

theorem vDestroy_post {triv : Bool} {s : State E} (I : Inv s) (x : Nat) :
    (vDestroy triv s x).Post (fun s' => Inv s') (Untouched s) := by
  unfold vDestroy
  refine .withVal (fun v hv => .withVal (fun h' hh => ?_) fun e he => .refl s)
    fun e he => absurd he (s.vobj_noThrow x e)
  obtain ⟨e1, e2, e3⟩ := destroy_heap (I.vec_alloc (vobj_ok hv)).2.2.2 I.fresh hh
  show Inv _
  unfold Inv
  rw [State.owner_setVec, State.setVec_heap, State.owner_heap]
  exact InvH.drop I (vobj_ok hv) e1 e2 (le_of_eq e3.symm)

theorem mDestroy_post {triv : Bool} {s : State E} (I : Inv s) (x : Nat) :
    (mDestroy triv s x).Post (fun s' => Inv s') (Untouched s) := by
  unfold mDestroy
  refine .withVal (fun v hv => .withVal (fun h' hh => ?_) fun e he => .refl s)
    fun e he => absurd he (s.mobj_noThrow x e)
  obtain ⟨e1, e2, e3⟩ := destroy_heap (v := v.flat) (I.mat_alloc (mobj_ok hv)).2.2.2 I.fresh hh
  show Inv _
  unfold Inv
  rw [State.owner_setMat, State.setMat_heap, State.owner_heap]
  exact InvH.drop I (v := v.flat) (by simp [State.owner, mobj_ok hv]) e1 e2 (le_of_eq e3.symm)

theorem State.vec_vDefault (s : State E) (x : Nat) : (vDefault s x).heap = s.heap := rfl

/-- Every statement keeps the ownership condition; a statement that throws leaves variables and memory
as they were. -/
theorem Op.run_post {triv : Bool} {s : State E} (I : Inv s) (o : Op E) (hf : o.NameFree s) :
    (o.run triv s).Post (fun s' => Inv s') (Untouched s) := by
  cases o with
  | vDefault x => exact vDefault_inv I hf
  | vNew x n => exact ctor_post hf (vResizeWith_post (vDefault_inv I hf) x n)
  | vCopyNew x e =>
    exact .withVal (fun n _ => ctor_post hf (vAssign_post (vDefault_inv I hf) x n)) fun _ _ => .refl s
  | vMoveNew x y => exact ctor_post hf (vMoveAssign_post (vDefault_inv I hf) x y)
  | vResize fast x n =>
    show (if fast then CML.vResizeFast triv s x n else CML.vResize triv s x n).Post _ _
    split
    · exact vResizeWith_post I x n
    · exact vResizeWith_post I x n
  | vPut x i e => exact Out.Quiet.inv I (vPut_quiet triv s s (.refl s) x i e)
  | vAssign x e => exact .withVal (fun n _ => vAssign_post I x n) fun _ _ => .refl s
  | vOp o x e => exact .withVal (fun n _ => vOpAssign_post I x n) fun _ _ => .refl s
  | vScal o x c =>
    exact Out.Quiet.inv I (storeLoop_quiet (.refl s) fun s i =>
      (VNode.get_noThrow s (.var x) i).bind fun _ => (c.read_noThrow s).bind fun _ => .ok _)
  | vFill x c => exact Out.Quiet.inv I (storeLoop_quiet (.refl s) fun s i => c.read_noThrow s)
  | vList cst x xs =>
    refine (checkOrResizeN_post I x xs.length).andThen fun s' I' => Out.Quiet.inv I' ?_
    exact .loop (fun k s'' h'' => .withVal (fun a _ => vPut_quiet triv s' s'' h'' x k a) fun e he =>
      VNode.get_noThrow s'' (.temp true xs) k e he) (.refl s')
  | vMove x y => exact vMoveAssign_post I x y
  | vDestroy x => exact vDestroy_post I x
  | mDefault cm cb x => exact mDefault_inv I hf
  | mNew cm cb x r c => exact mctor_post hf (mResizeWith_post (mDefault_inv I hf) x r c)
  | mCopyNew cm cb x e =>
    exact .withVal (fun n _ => mctor_post hf (mAssign_post (mDefault_inv I hf) x n)) fun _ _ => .refl s
  | mMoveNew x y =>
    exact .withVal (fun w _ => mctor_post hf (mMoveAssign_post (mDefault_inv I hf) x y)) fun _ _ => .refl s
  | mResize fast x r c =>
    show (if fast then CML.mResizeFast triv s x r c else CML.mResize triv s x r c).Post _ _
    split
    · exact mResizeWith_post I x r c
    · exact mResizeWith_post I x r c
  | mPut x i j e => exact Out.Quiet.inv I (mPut_quiet triv s s (.refl s) x i j e)
  | mAssign x e => exact .withVal (fun n _ => mAssign_post I x n) fun _ _ => .refl s
  | mOp o x e => exact .withVal (fun n _ => mOpAssign_post I x n) fun _ _ => .refl s
  | mScal o x c =>
    exact Out.Quiet.inv I (mStore_quiet (.refl s) fun s i j =>
      (MNode.get_noThrow s (.var x) i j).bind fun _ => (c.read_noThrow s).bind fun _ => .ok _)
  | mFill x c => exact Out.Quiet.inv I (mStore_quiet (.refl s) fun s i j => c.read_noThrow s)
  | mList kind x xs =>
    refine .withVal (fun m _ => .withVal (fun _ _ => Out.Quiet.inv I ?_) fun _ _ => .refl s)
      fun e he => absurd he (s.mobj_noThrow x e)
    exact .loop (fun k s'' h'' => .withVal (fun a _ => mPut_quiet triv s s'' h'' x _ _ a) fun e he =>
      VNode.get_noThrow s'' (.temp true xs) k e he) (.refl s)
  | mMove x y => exact mMoveAssign_post I x y
  | mDestroy x => exact mDestroy_post I x

theorem start_inv (fail : Nat → Bool) : Inv (State.start fail : State E) :=
  ⟨fun _ _ => rfl, fun k v h => by cases k <;> simp [State.owner, State.start] at h,
    fun k _ _ _ _ h => by cases k <;> simp [State.owner, State.start] at h,
    fun _ _ h => by simp [State.start] at h⟩

theorem Reach.inv {triv : Bool} {fail : Nat → Bool} {s : State E} (h : Reach triv fail s) : Inv s := by
  induction h with
  | start => exact start_inv fail
  | ok o _ hf hr ih =>
    have := Op.run_post (triv := triv) ih o hf
    rw [hr] at this
    exact this
  | thrown o e _ hf hr ih =>
    have := Op.run_post (triv := triv) ih o hf
    rw [hr] at this
    exact Untouched.inv this ih

end Steps

end CML
