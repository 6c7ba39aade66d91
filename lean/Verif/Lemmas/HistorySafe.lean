import Verif.Lemmas.HistoryFrame
import Verif.Lemmas.OpAssign

/-! Storage statements used as documented have no undefined behaviour (trivial element types). -/

namespace CML

set_option linter.unusedSectionVars false

/-- Normal termination, or one of the two documented exceptions of the storage functions. -/
def Out.Fine {σ : Type u} : Out σ → Prop
  | .ok _ => True
  | .throw e _ => e = .invalidArgument ∨ e = .badAlloc
  | .ub _ => False

section
variable {E : Type} [Add E] [Sub E] [Mul E] [Div E] [Neg E]

theorem Out.Fine.ctor {x : Nat} {o : Out (State E)} (h : o.Fine) : (ctor x o).Fine := by
  cases o with
  | ok s => trivial
  | throw e s => exact h
  | ub u => exact h.elim

theorem Out.Fine.mctor {x : Nat} {o : Out (State E)} (h : o.Fine) : (mctor x o).Fine := by
  cases o with
  | ok s => trivial
  | throw e s => exact h
  | ub u => exact h.elim

theorem vResizeWith_fine {copy : Bool} {s : State E} (I : Inv s) {x : Nat} {d : VObj} (hx : s.vec x = some d)
    (n : Int) : (vResizeWith copy true s x n).Fine := by
  obtain ⟨a1, a2, a3, a4⟩ := I.vec_alloc hx
  by_cases hn : n < 0
  · simp [vResizeWith, State.vobj, hx, hn, Out.Fine]
  by_cases hne : n.toNat = d.size
  · simp only [vResizeWith, State.vobj, hx, Out.withVal_ok, if_neg hn, if_pos hne]; trivial
  cases hal : s.heap.fail s.heap.tick with
  | true =>
    simp only [vResizeWith, State.vobj, hx, Out.withVal_ok, if_neg hn, if_neg hne, Heap.alloc, hal]
    exact Or.inr rfl
  | false =>
    obtain ⟨h', l', e, -⟩ := vResizeWith_ok (copy := copy) (triv := true) hx (by omega) hne hal
      (I.fresh _ (le_refl _)) a4 (fun _ => Or.inl rfl)
    rw [e]; trivial

theorem mResizeWith_fine {copy : Bool} {s : State E} (I : Inv s) {x : Nat} {d : MObj} (hx : s.mat x = some d)
    (r c : Int) : (mResizeWith copy true s x r c).Fine := by
  obtain ⟨a1, a2, a3, a4⟩ := I.mat_alloc hx
  by_cases hr : r < 0
  · simp [mResizeWith, State.mobj, hx, hr, Out.Fine]
  by_cases hc : c < 0
  · simp [mResizeWith, State.mobj, hx, hr, hc, Out.Fine]
  obtain ⟨r, rfl⟩ := Int.eq_ofNat_of_zero_le (not_lt.mp hr)
  obtain ⟨c, rfl⟩ := Int.eq_ofNat_of_zero_le (not_lt.mp hc)
  by_cases hne : r * c = d.rows * d.cols
  · have := mResizeWith_relabel (copy := copy) (triv := true) hx hne
    rw [this]; trivial
  cases hal : s.heap.fail s.heap.tick with
  | true =>
    simp only [mResizeWith, State.mobj, hx, Out.withVal_ok, if_neg hr, if_neg hc, Int.toNat_natCast,
      if_neg hne, Heap.alloc, hal]
    exact Or.inr rfl
  | false =>
    obtain ⟨h', l', e, -⟩ := mResizeWith_ok (copy := copy) (triv := true) hx hne hal
      (I.fresh _ (le_refl _)) a4 (fun _ => Or.inl rfl)
    rw [e]; trivial

/-- The elements of an owned array are assignable cells (trivial element type). -/
theorem Owned.ready {h : Heap E} {d : VObj} (ho : d.Owned h) (hoff : d.off = 0) : d.Ready true h := by
  intro i hi
  rcases ho with ⟨-, hz⟩ | ⟨b, l, h1, h2, h3⟩
  · omega
  · refine ⟨b, h1, l[i]'(by omega), ?_, Or.inl rfl⟩
    simp [Heap.cell, h2, hoff, h3, hi]

theorem VInit.rep {s : State E} {y : Nat} (h : s.VInit y) : ∃ w p, s.vec y = some w ∧ p.n = w.size ∧
    VRep s (.var y) p := by
  obtain ⟨w, hw, hg⟩ := h
  choose f hf using hg
  refine ⟨w, ⟨w.size, fun i => f i i.2⟩, hw, rfl, ⟨?_, fun i => ?_⟩⟩
  · simp [VNode.size, State.vobj, hw]
  · simpa [VNode.get, State.vobj, hw] using hf i i.2

theorem MInit.rep {s : State E} {y : Nat} (h : s.MInit y) : ∃ w, s.mat y = some w ∧
    ∃ f : Fin w.rows → Fin w.cols → E, MRep s (.var y) ⟨w.rows, w.cols, f⟩ := by
  obtain ⟨w, hw, hg⟩ := h
  choose f hf using hg
  refine ⟨w, hw, fun i j => f i j i.2 j.2, ⟨?_, fun i j => ?_⟩⟩
  · simp [MNode.dims, State.mobj, hw]
  · simpa [MNode.get, State.mobj, hw] using hf i j i.2 j.2

/-- Exclusive ownership, for vectors. -/
theorem Inv.vdisj {s : State E} (I : Inv s) {x y : Nat} (hxy : y ≠ x) {d w : VObj} (hx : s.vec x = some d)
    (hy : s.vec y = some w) : w.data = none ∨ w.data ≠ d.data := by
  cases hd : w.data with
  | none => exact Or.inl rfl
  | some b =>
    right
    intro h
    have := I.excl (.inl y) (.inl x) w d b hy hx hd h.symm
    simp only [Sum.inl.injEq] at this
    exact hxy this

theorem Inv.mdisj {s : State E} (I : Inv s) {x y : Nat} (hxy : y ≠ x) {d w : MObj} (hx : s.mat x = some d)
    (hy : s.mat y = some w) : w.data = none ∨ w.data ≠ d.data := by
  cases hd : w.data with
  | none => exact Or.inl rfl
  | some b =>
    right
    intro h
    have := I.excl (.inr y) (.inr x) w.flat d.flat b (by simp [State.owner, hy]) (by simp [State.owner, hx])
      hd h.symm
    simp only [Sum.inr.injEq] at this
    exact hxy this

theorem vAssign_fail {triv : Bool} {s : State E} {x : Nat} {d : VObj} {n : VNode E} {k : Nat}
    (hx : s.vec x = some d) (hst : d.storage = .allocated) (hs : n.size s = .ok (k : Int))
    (hal : s.heap.fail s.heap.tick = true) (hne : k ≠ d.size) :
    vAssign triv s x n = .throw .badAlloc s.tickd := by
  have h0 : ¬ ((k : Int) < 0) := by omega
  simp [vAssign, checkOrResize, State.vobj, hx, hst, hs, vResize, vResizeWith, Heap.alloc, hal, hne, h0,
    State.tickd]

theorem mAssign_fail {triv : Bool} {s : State E} {x : Nat} {d : MObj} {n : MNode E} {r c : Nat}
    (hx : s.mat x = some d) (hst : d.storage = .allocated) (hs : n.dims s = .ok ((r : Int), (c : Int)))
    (hal : s.heap.fail s.heap.tick = true) (hne : r * c ≠ d.rows * d.cols) :
    mAssign triv s x n = .throw .badAlloc s.tickd := by
  have h0 : ¬ ((r : Int) < 0) := by omega
  have h1 : ¬ ((c : Int) < 0) := by omega
  simp [mAssign, mCheckOrResize, State.mobj, hx, hst, hs, mResize, mResizeWith, Heap.alloc, hal, hne, h0, h1,
    State.tickd]

/-- Copying vector `y` (all elements initialised) into vector `x`: either the allocation fails, or `x` gets
the elements of `y`. -/
theorem vAssign_var {s : State E} (I : Inv s) {x y : Nat} {d : VObj} (hx : s.vec x = some d) {p : VVal E}
    (hy : VRep s (.var y) p) :
    (∃ s', vAssign true s x (.var y) = .ok s' ∧ VRep s' (.var x) p ∧ VRep s' (.var y) p) ∨
      (s.heap.fail s.heap.tick = true ∧ p.n ≠ d.size ∧ vAssign true s x (.var y) = .throw .badAlloc s.tickd) := by
  obtain ⟨a1, a2, a3, a4⟩ := I.vec_alloc hx
  obtain ⟨w, hw, hwn⟩ : ∃ w, s.vec y = some w ∧ p.n = w.size := by
    have := hy.size
    unfold VNode.size at this
    cases hw : s.vec y with
    | none => simp [State.vobj, hw] at this
    | some w =>
      simp only [State.vobj, hw, Res.ok_bind, Res.pure_eq, Res.ok.injEq] at this
      exact ⟨w, rfl, by omega⟩
  have K : ∀ s', (vAssign true s x (.var y)) = .ok s' → y ≠ x → VRep s' (.var y) p := by
    intro s' e hne
    have := vAssign_keeps true I (.refl (.inl y) s) (x := x) (by simpa using hne) (.var y)
    rw [e] at this
    obtain ⟨-, this⟩ : Inv s' ∧ Keeps (.inl y) s s' := this
    have hv := this.vec y rfl
    refine ⟨?_, fun i => ?_⟩
    · have := hy.size
      simpa [VNode.size, State.vobj, hv] using this
    · have hg := hy.get i
      rw [VNode.var_get] at hg ⊢
      obtain ⟨w', b, h1, h2, h3, h4⟩ := hg
      refine ⟨w', b, by rw [hv, h1], h2, h3, ?_⟩
      rw [← h4]
      unfold Heap.cell
      rw [this.blk w' b h1 h2]
  by_cases hsz : p.n = d.size
  · left
    have hal : (VNode.var y : VNode E).Ahead (VAhead s d) (VDisj s d) (MDisj s d) := by
      intro w' hw'
      rw [hw] at hw'; cases hw'
      by_cases hxy : y = x
      · subst hxy
        rw [hx] at hw; cases hw
        exact Or.inr ⟨rfl, le_refl _⟩
      · left
        rcases I.vdisj hxy hx hw with h | h
        · obtain ⟨-, -, b3, b4⟩ := I.vec_alloc hw
          rcases b4 with ⟨-, hz⟩ | ⟨b, l, h1, -⟩
          · right; left; rw [hz, b3, a3]
          · rw [h] at h1; cases h1
        · exact Or.inl h
    obtain ⟨h', e1, e2, e3⟩ := vAssign_ok (triv := true) hx hy (f := w.fixed) (by rw [hwn]; exact typed_vec hw)
      hsz (Owned.ready a4 a3) hal
    have hrx : VRep { s with heap := h' } (.var x) p := by
      refine ⟨?_, fun i => ?_⟩
      · simp [VNode.size, State.vobj, hx, hsz]
      · simpa [VNode.get, State.vobj, hx] using e2 i
    refine ⟨_, e1, hrx, ?_⟩
    by_cases hxy : y = x
    · subst hxy; exact hrx
    · exact K _ e1 hxy
  · cases hal : s.heap.fail s.heap.tick with
    | true => exact Or.inr ⟨rfl, hsz, vAssign_fail hx a1 hy.size hal hsz⟩
    | false =>
      left
      have hxy : y ≠ x := by
        rintro rfl
        rw [hx] at hw; cases hw
        exact hsz hwn
      obtain ⟨h', e1, e2, -⟩ := vAssign_resize_ok hx a1 a3 a4 hal (I.fresh _ (le_refl _)) hy hsz
        (show VKept s x d y from ⟨hxy, fun w' hw' => I.vdisj hxy hx hw'⟩)
      refine ⟨_, e1, ⟨?_, fun i => ?_⟩, K _ e1 hxy⟩
      · simp [VNode.size, State.vobj, State.setVec]
      · have := e2 i
        simpa [VNode.get, State.vobj, State.setVec] using this

/-- Copying matrix `y` into matrix `x`. -/
theorem mAssign_var {s : State E} (I : Inv s) {x y : Nat} {d w : MObj} (hx : s.mat x = some d)
    (hw : s.mat y = some w) {f : Fin w.rows → Fin w.cols → E}
    (hy : MRep s (.var y) ⟨w.rows, w.cols, f⟩) :
    (∃ s', mAssign true s x (.var y) = .ok s' ∧ MRep s' (.var x) ⟨w.rows, w.cols, f⟩ ∧
        MRep s' (.var y) ⟨w.rows, w.cols, f⟩) ∨
      (s.heap.fail s.heap.tick = true ∧ w.rows * w.cols ≠ d.rows * d.cols ∧
        mAssign true s x (.var y) = .throw .badAlloc s.tickd) := by
  obtain ⟨a1, a2, a3, a4⟩ := I.mat_alloc hx
  by_cases hxy : y = x
  · subst hxy
    rw [hx] at hw; cases hw
    obtain ⟨h', e1, e2, -⟩ := mAssign_ok (triv := true) hx hy (f := d.fixed) (typed_mat hx)
      (Owned.ready (d := d.flat) a4 a3) (show MAhead s d y from fun w' hw' => by
        rw [hx] at hw'; cases hw'
        exact Or.inr ⟨rfl, le_refl _, rfl, rfl, rfl⟩)
    exact Or.inl ⟨_, e1, e2, e2⟩
  · by_cases hc : w.rows * w.cols ≠ d.rows * d.cols ∧ s.heap.fail s.heap.tick = true
    · exact Or.inr ⟨hc.2, hc.1, mAssign_fail hx a1 hy.dims hc.2 hc.1⟩
    · left
      have hal : w.rows * w.cols ≠ d.rows * d.cols → s.heap.fail s.heap.tick = false := by
        intro h
        cases h2 : s.heap.fail s.heap.tick with
        | false => rfl
        | true => exact absurd ⟨h, h2⟩ hc
      obtain ⟨h', d', e1, -, -, e2, -⟩ := mAssign_resize_ok hx a1 a3 a4 hal (I.fresh _ (le_refl _)) hy
        (show y ≠ x ∧ _ from ⟨hxy, fun w' hw' => I.mdisj hxy hx hw'⟩)
      refine ⟨_, e1, e2, ?_⟩
      have := mAssign_keeps true I (.refl (.inr y) s) (x := x) (by simpa using hxy) (.var y)
      rw [e1] at this
      obtain ⟨-, this⟩ : Inv _ ∧ Keeps (.inr y) s _ := this
      have hv := this.mat y rfl
      refine ⟨?_, fun i j => ?_⟩
      · have := hy.dims
        simpa [MNode.dims, State.mobj, hv] using this
      · have hg := hy.get i j
        rw [MNode.var_get] at hg ⊢
        obtain ⟨w', b, h1, h2, h3, h3', h4⟩ := hg
        refine ⟨w', b, by rw [hv, h1], h2, h3, h3', ?_⟩
        rw [← h4]
        unfold Heap.cell
        rw [this.blk w'.flat b (by simp [State.owner, h1]) h2]

theorem vPut_fine {s : State E} (I : Inv s) {x i : Nat} {d : VObj} (hx : s.vec x = some d) (hi : i < d.size) (e : E) :
    ∃ h', vPut true s x i e = .ok { s with heap := h' } := by
  obtain ⟨a1, a2, a3, a4⟩ := I.vec_alloc hx
  rcases a4 with ⟨-, hz⟩ | ⟨b, l, h1, h2, h3⟩
  · omega
  · have : i < l.length := by omega
    simp [vPut, State.vobj, hx, VObj.put, h1, hi, Heap.write, h2, a3, h3]

theorem mPut_fine {s : State E} (I : Inv s) {x i j : Nat} {d : MObj} (hx : s.mat x = some d) (hi : i < d.rows)
    (hj : j < d.cols) (e : E) : ∃ h', mPut true s x i j e = .ok { s with heap := h' } := by
  obtain ⟨a1, a2, a3, a4⟩ := I.mat_alloc hx
  have hlt := MObj.index_lt hi hj
  rcases a4 with ⟨-, hz⟩ | ⟨b, l, h1, h2, h3⟩
  · have hz : d.rows * d.cols = 0 := hz
    omega
  · have h1 : d.data = some b := h1
    have h3 : l.length = d.rows * d.cols := h3
    have : d.index i j < l.length := by omega
    simp [mPut, State.mobj, hx, MObj.put, h1, hi, hj, Heap.write, h2, a3, this]

theorem storeLoop_fine {s : State E} (I : Inv s) {x : Nat} {d : VObj} (hx : s.vec x = some d) (c : E) :
    (storeLoop true s x fun _ _ => .ok c).Fine := by
  obtain ⟨a1, a2, a3, a4⟩ := I.vec_alloc hx
  obtain ⟨h', e, -⟩ := storeLoop_fin (triv := true) hx (Owned.ready a4 a3) (n := d.size) rfl (fun _ => c)
    (f := fun _ _ => .ok c) (fun _ _ _ _ _ _ _ _ => rfl)
  rw [e]; trivial

theorem mStore_fine {s : State E} (I : Inv s) {x : Nat} {d : MObj} (hx : s.mat x = some d) (c : E) :
    (mStore true s x fun _ _ _ => .ok c).Fine := by
  obtain ⟨a1, a2, a3, a4⟩ := I.mat_alloc hx
  obtain ⟨h', e, -⟩ := mStore_fin (triv := true) hx (Owned.ready (d := d.flat) a4 a3) (fun _ _ => c)
    (f := fun _ _ _ => .ok c) (fun _ _ _ _ _ _ _ _ _ _ => rfl)
  rw [e]; trivial

theorem vDefault_vec (s : State E) (x : Nat) :
    (vDefault s x).vec x = some ⟨.allocated, false, none, 0, 0⟩ := by simp [vDefault, State.setVec]

theorem mDefault_mat (cm cb : Bool) (s : State E) (x : Nat) :
    (mDefault cm cb s x).mat x = some ⟨.allocated, false, none, 0, 0, 0, cm, cb⟩ := by
  simp [mDefault, State.setMat]

theorem VInit.default {s : State E} {x y : Nat} (hx : s.vec x = none) (h : s.VInit y) : (vDefault s x).VInit y := by
  obtain ⟨w, hw, hg⟩ := h
  have : y ≠ x := by rintro rfl; rw [hx] at hw; cases hw
  exact ⟨w, by simp [vDefault, State.setVec, this, hw], hg⟩

theorem MInit.default {cm cb : Bool} {s : State E} {x y : Nat} (hx : s.mat x = none) (h : s.MInit y) :
    (mDefault cm cb s x).MInit y := by
  obtain ⟨w, hw, hg⟩ := h
  have : y ≠ x := by rintro rfl; rw [hx] at hw; cases hw
  exact ⟨w, by simp [mDefault, State.setMat, this, hw], hg⟩

theorem vAssign_fine {s : State E} (I : Inv s) {x y : Nat} {d : VObj} (hx : s.vec x = some d) (hy : s.VInit y) :
    (vAssign true s x (.var y)).Fine := by
  obtain ⟨w, p, -, -, hr⟩ := VInit.rep hy
  rcases vAssign_var I hx hr with ⟨s', e, -⟩ | ⟨-, -, e⟩
  · rw [e]; trivial
  · rw [e]; exact Or.inr rfl

theorem mAssign_fine {s : State E} (I : Inv s) {x y : Nat} {d : MObj} (hx : s.mat x = some d) (hy : s.MInit y) :
    (mAssign true s x (.var y)).Fine := by
  obtain ⟨w, hw, p, hr⟩ := MInit.rep hy
  rcases mAssign_var I hx hw hr with ⟨s', e, -⟩ | ⟨-, -, e⟩
  · rw [e]; trivial
  · rw [e]; exact Or.inr rfl

/-- Storage statements used as documented have no undefined behaviour. -/
theorem Op.run_fine {s : State E} (I : Inv s) (o : Op E) (h : o.Proper s) : (o.run true s).Fine := by
  cases o with
  | vDefault x => trivial
  | vNew x n => exact (vResizeWith_fine (vDefault_inv I h) (vDefault_vec s x) n).ctor
  | vCopyNew x e =>
    obtain ⟨hx, y, rfl, hy⟩ := h
    exact (vAssign_fine (vDefault_inv I hx) (vDefault_vec s x) (VInit.default hx hy)).ctor
  | vMoveNew x y =>
    obtain ⟨hx, hy⟩ := h
    obtain ⟨w, hw⟩ := Option.isSome_iff_exists.mp hy
    have hyx : y ≠ x := by rintro rfl; rw [hx] at hw; cases hw
    simp [Op.run, CML.vMoveNew, vMoveAssign, State.vobj, CML.vDefault, State.setVec, hyx, hw, ctor, Out.Fine]
  | vResize fast x n =>
    obtain ⟨d, hx⟩ := Option.isSome_iff_exists.mp h
    show (if fast then CML.vResizeFast true s x n else CML.vResize true s x n).Fine
    split
    · exact vResizeWith_fine I hx n
    · exact vResizeWith_fine I hx n
  | vPut x i e =>
    obtain ⟨d, hx, hi⟩ := h
    obtain ⟨h', e⟩ := vPut_fine I hx hi e
    show (CML.vPut true s x i _).Fine
    rw [e]; trivial
  | vAssign x e =>
    obtain ⟨hx, y, rfl, hy⟩ := h
    obtain ⟨d, hx⟩ := Option.isSome_iff_exists.mp hx
    exact vAssign_fine I hx hy
  | vOp o x e => exact h.elim
  | vScal o x c => exact h.elim
  | vFill x c =>
    obtain ⟨hx, e, rfl⟩ := h
    obtain ⟨d, hx⟩ := Option.isSome_iff_exists.mp hx
    exact storeLoop_fine I hx e
  | vList cst x xs =>
    obtain ⟨d, hx⟩ := Option.isSome_iff_exists.mp h
    show (CML.vAssignList true cst s x xs).Fine
    unfold CML.vAssignList checkOrResizeN
    simp only [State.vobj, hx, Out.withVal_ok, (I.vec_alloc hx).1]
    have hpost := vResizeWith_post (copy := true) (triv := true) I x (xs.length : Int)
    have hfine := vResizeWith_fine (copy := true) I hx (xs.length : Int)
    have h0 : ¬ ((xs.length : Int) < 0) := by omega
    have hsz : ∀ s', vResizeWith true true s x (xs.length : Int) = .ok s' →
        ∃ d', s'.vec x = some d' ∧ d'.size = xs.length := by
      intro s' he
      by_cases hne : xs.length = d.size
      · simp only [vResizeWith, State.vobj, hx, Out.withVal_ok, if_neg h0, Int.toNat_natCast, if_pos hne,
          Out.ok.injEq] at he
        subst he
        exact ⟨d, hx, hne.symm⟩
      · cases hal : s.heap.fail s.heap.tick with
        | true => simp [vResizeWith, State.vobj, hx, hne, h0, Heap.alloc, hal] at he
        | false =>
          obtain ⟨h', l', e, -⟩ := vResizeWith_ok (copy := true) (triv := true) (n := (xs.length : Int)) hx
            (by omega) (by simpa using hne) hal (I.fresh _ (le_refl _)) (I.vec_alloc hx).2.2.2
            (fun _ => Or.inl rfl)
          rw [e] at he
          simp only [Out.ok.injEq] at he
          subst he
          exact ⟨{ d with data := some s.heap.next, size := xs.length }, by simp [State.setVec], rfl⟩
    unfold CML.vResize
    cases hr : vResizeWith true true s x (xs.length : Int) with
    | ok s' =>
      rw [hr] at hpost
      obtain ⟨d', hd', hd's⟩ := hsz s' hr
      rw [Out.ok_andThen]
      obtain ⟨s'', e, -⟩ := Out.loop_inv (lo := 0) (n := xs.length) (s := s')
        (body := fun i s => .withVal ((VNode.temp true xs).get s i) s fun v => CML.vPut true s x i v)
        (fun _ s'' => Inv s'' ∧ s''.vec x = some d') ⟨hpost, hd'⟩
        (fun k s'' _ hk hs => by
          obtain ⟨h', e⟩ := vPut_fine hs.1 (i := k) hs.2 (by omega) (xs[k]'(by omega))
          have hg : (VNode.temp true xs).get s'' k = .ok (xs[k]'(by omega)) := by
            have hk' : k < xs.length := by omega
            simp [VNode.get, hk']
          refine ⟨{ s'' with heap := h' }, by rw [hg, Out.withVal_ok, e], ?_, hs.2⟩
          have := vPut_quiet true s'' s'' (.refl s'') x k (xs[k]'(by omega))
          rw [e] at this
          exact Content.inv this hs.1)
      rw [e]; trivial
    | throw e s' => rw [hr] at hfine; exact hfine
    | ub u => rw [hr] at hfine; exact hfine.elim
  | vMove x y =>
    obtain ⟨hx, hy⟩ := h
    obtain ⟨v, hv⟩ := Option.isSome_iff_exists.mp hx
    obtain ⟨w, hw⟩ := Option.isSome_iff_exists.mp hy
    simp [Op.run, vMoveAssign, State.vobj, hv, hw, Out.Fine]
  | vDestroy x =>
    obtain ⟨d, hx⟩ := Option.isSome_iff_exists.mp h
    obtain ⟨h', e⟩ := destroy_ok (triv := true) (I.vec_alloc hx).2.2.2
    simp [Op.run, CML.vDestroy, State.vobj, hx, e, Out.Fine]
  | mDefault cm cb x => trivial
  | mNew cm cb x r c => exact (mResizeWith_fine (mDefault_inv I h) (mDefault_mat cm cb s x) r c).mctor
  | mCopyNew cm cb x e =>
    obtain ⟨hx, y, rfl, hy⟩ := h
    exact (mAssign_fine (mDefault_inv I hx) (mDefault_mat cm cb s x) (MInit.default hx hy)).mctor
  | mMoveNew x y =>
    obtain ⟨hx, hy⟩ := h
    obtain ⟨w, hw⟩ := Option.isSome_iff_exists.mp hy
    have hyx : y ≠ x := by rintro rfl; rw [hx] at hw; cases hw
    simp [Op.run, CML.mMoveNew, mMoveAssign, State.mobj, CML.mDefault, State.setMat, hyx, hw, mctor, Out.Fine]
  | mResize fast x r c =>
    obtain ⟨d, hx⟩ := Option.isSome_iff_exists.mp h
    show (if fast then CML.mResizeFast true s x r c else CML.mResize true s x r c).Fine
    split
    · exact mResizeWith_fine I hx r c
    · exact mResizeWith_fine I hx r c
  | mPut x i j e =>
    obtain ⟨d, hx, hi, hj⟩ := h
    obtain ⟨h', e⟩ := mPut_fine I hx hi hj e
    show (CML.mPut true s x i j _).Fine
    rw [e]; trivial
  | mAssign x e =>
    obtain ⟨hx, y, rfl, hy⟩ := h
    obtain ⟨d, hx⟩ := Option.isSome_iff_exists.mp hx
    exact mAssign_fine I hx hy
  | mOp o x e => exact h.elim
  | mScal o x c => exact h.elim
  | mFill x c =>
    obtain ⟨hx, e, rfl⟩ := h
    obtain ⟨d, hx⟩ := Option.isSome_iff_exists.mp hx
    exact mStore_fine I hx e
  | mList kind x xs => exact h.elim
  | mMove x y =>
    obtain ⟨hx, hy⟩ := h
    obtain ⟨v, hv⟩ := Option.isSome_iff_exists.mp hx
    obtain ⟨w, hw⟩ := Option.isSome_iff_exists.mp hy
    simp [Op.run, mMoveAssign, State.mobj, hv, hw, Out.Fine]
  | mDestroy x =>
    obtain ⟨d, hx⟩ := Option.isSome_iff_exists.mp h
    obtain ⟨h', e⟩ := destroy_ok (triv := true) (v := d.flat) (I.mat_alloc hx).2.2.2
    have e' : ((s.heap.destruct true d.data).free d.data (d.rows * d.cols)) = .ok h' := e
    simp [Op.run, CML.mDestroy, State.mobj, hx, e', Out.Fine]

end

end CML
