import Verif.Lemmas.MatAssign
import Verif.Lemmas.Append

/-! Assignments that give a matrix other dimensions: views and dynamic matrices. -/

set_option linter.unusedSectionVars false

namespace CML

variable {E : Type} [Add E] [Sub E] [Mul E] [Div E] [Neg E]

/-- The same object with other dimensions. -/
def MObj.withDims (d : MObj) (r c : Nat) : MObj := { d with rows := r, cols := c }

theorem MObj.flat_withDims {d : MObj} {r c : Nat} (he : r * c = d.rows * d.cols) :
    (d.withDims r c).flat = d.flat := by
  simp [MObj.withDims, MObj.flat, he]

theorem sameSequence_iff {d : MObj} {r c : Nat} {q : Fin d.rows → Fin d.cols → E} {q' : Fin r → Fin c → E} :
    SameSequence d.colMajor q q' ↔
      ∀ (i : Fin d.rows) (j : Fin d.cols) (i' : Fin r) (j' : Fin c),
        d.index i j = (d.withDims r c).index i' j' → q' i' j' = q i j := by
  unfold SameSequence MObj.index MObj.withDims
  cases d.colMajor <;> simp

/-- The elements of `d` in other dimensions. -/
theorem exists_sameSequence {d : MObj} {r c : Nat} (he : r * c ≤ d.rows * d.cols)
    (q : Fin d.rows → Fin d.cols → E) :
    ∃ q' : Fin r → Fin c → E, SameSequence d.colMajor q q' ∧
      ∀ (i' : Fin r) (j' : Fin c), ∃ i j, d.index i j = (d.withDims r c).index i' j' ∧
        i < d.rows ∧ j < d.cols := by
  have hlt : ∀ (i' : Fin r) (j' : Fin c), (d.withDims r c).index i' j' < d.rows * d.cols := by
    intro i' j'
    have := MObj.index_lt (m := d.withDims r c) (i := i') (j := j') i'.2 j'.2
    have e : (d.withDims r c).rows * (d.withDims r c).cols = r * c := rfl
    omega
  refine ⟨fun i' j' => q ⟨_, (MObj.unindex_lt (hlt i' j')).1⟩ ⟨_, (MObj.unindex_lt (hlt i' j')).2⟩, ?_, ?_⟩
  · rw [sameSequence_iff]
    intro i j i' j' h
    have h2 := MObj.unindex_index i.2 j.2
    congr 1 <;> apply Fin.ext <;> simp [← h, h2]
  · intro i' j'
    exact ⟨_, _, d.index_unindex _, (MObj.unindex_lt (hlt i' j')).1, (MObj.unindex_lt (hlt i' j')).2⟩

/-- Relabelling keeps the sequence of elements. -/
theorem mrep_withDims {s : State E} {x : Nat} {d : MObj} {r c : Nat} (hx : s.mat x = some d)
    (he : r * c = d.rows * d.cols) {q : Fin d.rows → Fin d.cols → E} (hq : MRep s (.var x) ⟨d.rows, d.cols, q⟩) :
    ∃ q' : Fin r → Fin c → E, SameSequence d.colMajor q q' ∧
      MRep (s.setMat x (some (d.withDims r c))) (.var x) ⟨r, c, q'⟩ := by
  obtain ⟨q', h1, h2⟩ := exists_sameSequence (r := r) (c := c) he.le q
  refine ⟨q', h1, ?_⟩
  have hx1 : (s.setMat x (some (d.withDims r c))).mat x = some (d.withDims r c) := by simp [State.setMat]
  refine ⟨MNode.var_dims hx1, fun i' j' => ?_⟩
  obtain ⟨i, j, e, hi, hj⟩ := h2 i' j'
  have hg := hq.get ⟨i, hi⟩ ⟨j, hj⟩
  rw [MNode.var_get] at hg ⊢
  obtain ⟨d', b, g1, g2, g3, g4, g5⟩ := hg
  rw [hx] at g1; cases g1
  refine ⟨d.withDims r c, b, hx1, g2, i'.2, j'.2, ?_⟩
  show s.heap.cell b (d.off + (d.withDims r c).index i' j') = _
  show _ = some (some (q' i' j'))
  rw [← e, sameSequence_iff.1 h1 ⟨i, hi⟩ ⟨j, hj⟩ i' j' e]
  exact g5

/-- `mReshape` on a view. -/
theorem mReshape_eq {s : State E} {x : Nat} {d : MObj} (hx : s.mat x = some d) (r c : Int) :
    mReshape s x r c =
      if r < 0 ∨ c < 0 then .throw .invalidArgument s
      else if r.toNat * c.toNat = d.rows * d.cols then .ok (s.setMat x (some (d.withDims r.toNat c.toNat)))
      else .throw .matSize s := by
  simp only [mReshape, State.mobj, hx, Out.withVal_ok, MObj.withDims]
  by_cases h1 : r < 0
  · simp [h1]
  · by_cases h2 : c < 0
    · simp [h1, h2]
    · simp only [h1, h2, if_false, or_self, eq_comm (a := d.rows * d.cols)]

/-- What `check_or_resize` does with a view without compile-time dimensions. -/
theorem mCheckOrResize_view {triv : Bool} {s : State E} {x : Nat} {d : MObj} {n : MNode E} {r c : Nat}
    (hx : s.mat x = some d) (hst : d.storage = .external) (hf : d.fixed = false)
    (hd : n.dims s = .ok ((r : Int), (c : Int))) :
    mCheckOrResize triv s x n =
      if r * c = d.rows * d.cols then .ok (s.setMat x (some (d.withDims r c))) else .throw .matSize s := by
  have h1 : ¬ ((r : Int) < 0 ∨ (c : Int) < 0) := by omega
  simp only [mCheckOrResize, State.mobj, hx, Out.withVal_ok, hst, hf, hd, Bool.false_eq_true, if_false,
    mReshape_eq hx, if_neg h1, Int.toNat_natCast]

/-- What `check_or_resize` does with a dynamic matrix if the number of elements does not change. -/
theorem mCheckOrResize_relabel {triv : Bool} {s : State E} {x : Nat} {d : MObj} {n : MNode E} {r c : Nat}
    (hx : s.mat x = some d) (hst : d.storage = .allocated) (hd : n.dims s = .ok ((r : Int), (c : Int)))
    (he : r * c = d.rows * d.cols) :
    mCheckOrResize triv s x n = .ok (s.setMat x (some (d.withDims r c))) := by
  simp only [mCheckOrResize, State.mobj, hx, Out.withVal_ok, hst, hd, mResize, mResizeWith_relabel hx he,
    MObj.withDims]

/-- Reads of an expression that does not use `x` or its memory, after `x` was relabelled and partly
overwritten. -/
theorem get_after_relabel {s s' : State E} {x : Nat} {d : MObj} {b k r c : Nat} {g : Nat → E} {n : MNode E}
    (hb : d.data = some b) (hk : k ≤ d.rows * d.cols)
    (hv : s'.vec = s.vec) (hm : s'.mat = (s.setMat x (some (d.withDims r c))).mat)
    (hst : Stored s.heap s'.heap b d.off k g)
    (hl : n.Leaves (VDisj s d.flat) (fun y => y ≠ x ∧ MDisj s d.flat y)) {i j : Nat} {v : E}
    (h : n.get s i j = .ok v) : n.get s' i j = .ok v := by
  refine MNode.get_mono (s := s) ?_ ?_ n hl i j v h
  · intro y hy j v h
    exact var_get_disj (d := d.flat) hv hb hk hst hy h
  · intro y hy i j v h
    have h1 : (MNode.var y : MNode E).get (s.setMat x (some (d.withDims r c))) i j = .ok v := by
      simpa [MNode.get, State.mobj, State.setMat, hy.1] using h
    refine mvar_get_disj (d := d.flat) (s := s.setMat x (some (d.withDims r c))) hm hb hk hst ?_ h1
    intro w hw
    exact hy.2 w (by simpa [State.setMat, hy.1] using hw)

/-- Assignment that relabels the destination. -/
theorem mAssign_relabel_ok {triv : Bool} {s : State E} {x : Nat} {d : MObj} {n : MNode E} {p : MVal E}
    (hx : s.mat x = some d) (hc : mCheckOrResize triv s x n = .ok (s.setMat x (some (d.withDims p.r p.c))))
    (he : p.r * p.c = d.rows * d.cols) (hr : MRep s n p) (hw : d.flat.Ready triv s.heap)
    (hl : n.Leaves (VDisj s d.flat) (fun y => y ≠ x ∧ MDisj s d.flat y)) :
    ∃ h', mAssign triv s x n = .ok ({ s with heap := h' }.setMat x (some (d.withDims p.r p.c))) ∧
      MRep ({ s with heap := h' }.setMat x (some (d.withDims p.r p.c))) (.var x) p ∧
      SameOutside d.flat s.heap h' := by
  set s1 := s.setMat x (some (d.withDims p.r p.c)) with hs1
  have hx1 : s1.mat x = some (d.withDims p.r p.c) := by simp [hs1, State.setMat]
  have hfl := MObj.flat_withDims he
  obtain ⟨h', e1, e2, e3, -⟩ := mStore_fin (triv := triv) hx1
    (by rw [hfl]; exact hw) p.f (f := fun s i j => n.get s i j)
    (fun b i j s' g hb hv hm hst _ => by
      refine get_after_relabel (s := s) (x := x) (r := p.r) (c := p.c) (d := d) (k := (d.withDims p.r p.c).index i j) hb ?_ hv hm hst hl (hr.get i j)
      have := MObj.index_lt (m := d.withDims p.r p.c) i.2 j.2
      have e : (d.withDims p.r p.c).rows * (d.withDims p.r p.c).cols = p.r * p.c := rfl
      omega)
  refine ⟨h', ?_, ?_, by rw [← hfl]; exact e3⟩
  · unfold mAssign
    rw [hc, Out.ok_andThen]
    exact e1
  · exact (mrep_var (s := { s1 with heap := h' }) hx1).2 e2

/-- Compound assignment that relabels the destination. -/
theorem mOpAssign_relabel_ok {triv : Bool} {o : BinOp} {s : State E} {x : Nat} {d : MObj} {n : MNode E}
    {p : MVal E} {q : Fin d.rows → Fin d.cols → E} (hx : s.mat x = some d)
    (hc : mCheckOrResize triv s x n = .ok (s.setMat x (some (d.withDims p.r p.c))))
    (he : p.r * p.c = d.rows * d.cols) (hr : MRep s n p) (hq : MRep s (.var x) ⟨d.rows, d.cols, q⟩)
    (hl : n.Leaves (VDisj s d.flat) (fun y => y ≠ x ∧ MDisj s d.flat y)) :
    ∃ (h' : Heap E) (q' : Fin p.r → Fin p.c → E), SameSequence d.colMajor q q' ∧
      mOpAssign triv o s x n = .ok ({ s with heap := h' }.setMat x (some (d.withDims p.r p.c))) ∧
      MRep ({ s with heap := h' }.setMat x (some (d.withDims p.r p.c))) (.var x)
        ⟨p.r, p.c, fun i j => o.den (q' i j) (p.f i j)⟩ ∧
      SameOutside d.flat s.heap h' := by
  obtain ⟨q', hq1, hq2⟩ := mrep_withDims hx he hq
  set s1 := s.setMat x (some (d.withDims p.r p.c)) with hs1
  have hx1 : s1.mat x = some (d.withDims p.r p.c) := by simp [hs1, State.setMat]
  have hfl := MObj.flat_withDims he
  obtain ⟨h', e1, e2, e3, -⟩ := mStore_fin (triv := triv) hx1 (mready_after (h' := s1.heap) hx1 hq2)
    (fun i j => o.den (q' i j) (p.f i j))
    (f := fun s i j => do
      let a ← (MNode.var x : MNode E).get s i j
      let b ← n.get s i j
      pure (o.apply a b))
    (fun b i j s' g hb hv hm hst _ => by
      have h1 : n.get s' i j = .ok (p.f i j) := by
        refine get_after_relabel (s := s) (x := x) (r := p.r) (c := p.c) (d := d) (k := (d.withDims p.r p.c).index i j) hb ?_ hv hm hst hl (hr.get i j)
        have := MObj.index_lt (m := d.withDims p.r p.c) i.2 j.2
        have e : (d.withDims p.r p.c).rows * (d.withDims p.r p.c).cols = p.r * p.c := rfl
        omega
      have h2 := node_get_ahead (n := .var x) hb i.2 j.2 hv hm hst (self_ahead hx1) (hq2.get i j)
      simp [h1, h2])
  refine ⟨h', q', hq1, ?_, ?_, by rw [← hfl]; exact e3⟩
  · unfold mOpAssign
    rw [hc, Out.ok_andThen]
    exact e1
  · exact (mrep_var (s := { s1 with heap := h' }) hx1).2 e2

/-- State after `resize(r, c)` of the dynamic matrix `x` to another number of elements. -/
theorem mresize_step {s : State E} {x : Nat} {d : MObj} {n : MNode E} {r c : Nat} (hx : s.mat x = some d)
    (hst : d.storage = .allocated) (hoff : d.off = 0) (ho : d.Owned s.heap)
    (hal : s.heap.fail s.heap.tick = false) (hfr : s.heap.blk s.heap.next = none)
    (hd : n.dims s = .ok ((r : Int), (c : Int))) (hne : r * c ≠ d.rows * d.cols) :
    ∃ h1, mCheckOrResize true s x n = .ok ({ s with heap := h1 }.setMat x
        (some { d.withDims r c with data := some s.heap.next })) ∧
      (∀ k, k < r * c → h1.cell s.heap.next k = some (if k < d.rows * d.cols then
          (d.data.bind fun b => s.heap.cell b k).getD none else none)) ∧
      (∀ b', b' ≠ s.heap.next → some b' ≠ d.data → h1.blk b' = s.heap.blk b') := by
  obtain ⟨h1, l1, r1, r2, r3, r4, r5, -⟩ := mResizeWith_ok (copy := true) (triv := true) hx hne hal hfr ho
    (fun _ => Or.inl rfl)
  refine ⟨h1, ?_, ?_, r5⟩
  · simp only [mCheckOrResize, State.mobj, hx, Out.withVal_ok, hst, hd, mResize, r1, MObj.withDims]
  · intro k hk
    have := r4 k hk
    simpa [Heap.cell, r2] using this

/-- Reads of an expression that does not use `x` or its array, after the reallocation of `x`. -/
theorem get_after_mresize {s s' : State E} {x : Nat} {d d1 : MObj} {h1 : Heap E} {n : MNode E} {g : Nat → E}
    {k : Nat} (hfr : s.heap.blk s.heap.next = none)
    (hkeep : ∀ b', b' ≠ s.heap.next → some b' ≠ d.data → h1.blk b' = s.heap.blk b')
    (hl : n.Leaves (fun y => ∀ w, s.vec y = some w → w.data = none ∨ w.data ≠ d.data)
      (fun y => y ≠ x ∧ ∀ w, s.mat y = some w → w.data = none ∨ w.data ≠ d.data))
    (hv : s'.vec = s.vec) (hm : s'.mat = ({ s with heap := h1 }.setMat x (some d1)).mat)
    (hst : Stored h1 s'.heap s.heap.next d1.off k g) {i j : Nat} {v : E}
    (hg : n.get s i j = .ok v) : n.get s' i j = .ok v := by
  refine MNode.get_mono (s := s) ?_ ?_ n hl i j v hg
  · intro y hy j v h
    rw [VNode.var_get] at h ⊢
    obtain ⟨w, b', q1, q2, q3, q4⟩ := h
    have hbn : b' ≠ s.heap.next := by
      rintro rfl; simp [Heap.cell, hfr] at q4
    have hbd : some b' ≠ d.data := by
      rcases hy w q1 with h | h
      · rw [q2] at h; cases h
      · rw [← q2]; exact h
    refine ⟨w, b', by rw [hv, q1], q2, q3, ?_⟩
    rw [hst.frame _ _ (Or.inl hbn), ← q4]
    simp only [Heap.cell]
    rw [hkeep b' hbn hbd]
  · intro y hy i j v h
    rw [MNode.var_get] at h ⊢
    obtain ⟨w, b', q1, q2, q3, q3', q4⟩ := h
    have hbn : b' ≠ s.heap.next := by
      rintro rfl; simp [Heap.cell, hfr] at q4
    have hbd : some b' ≠ d.data := by
      rcases hy.2 w q1 with h | h
      · rw [q2] at h; cases h
      · rw [← q2]; exact h
    refine ⟨w, b', by rw [hm]; simp [State.setMat, hy.1, q1], q2, q3, q3', ?_⟩
    rw [hst.frame _ _ (Or.inl hbn), ← q4]
    simp only [Heap.cell]
    rw [hkeep b' hbn hbd]

/-- `x += e` / `x -= e` for a dynamic matrix with more elements than `e`: it gets the dimensions of `e` and
the surplus is dropped. -/
theorem mOpAssign_shrink {o : BinOp} {s : State E} {x : Nat} {d : MObj} {n : MNode E} {p : MVal E}
    {q : Fin d.rows → Fin d.cols → E}
    (hx : s.mat x = some d) (hst : d.storage = .allocated) (hoff : d.off = 0) (ho : d.Owned s.heap)
    (hal : s.heap.fail s.heap.tick = false) (hfr : s.heap.blk s.heap.next = none)
    (hr : MRep s n p) (hq : MRep s (.var x) ⟨d.rows, d.cols, q⟩) (hsz : p.r * p.c < d.rows * d.cols)
    (hl : n.Leaves (fun y => ∀ w, s.vec y = some w → w.data = none ∨ w.data ≠ d.data)
      (fun y => y ≠ x ∧ ∀ w, s.mat y = some w → w.data = none ∨ w.data ≠ d.data)) :
    ∃ (s' : State E) (q' : Fin p.r → Fin p.c → E), SameSequence d.colMajor q q' ∧
      mOpAssign true o s x n = .ok s' ∧
      MRep s' (.var x) ⟨p.r, p.c, fun i j => o.den (q' i j) (p.f i j)⟩ := by
  obtain ⟨h1, r1, r2, r3⟩ := mresize_step (n := n) hx hst hoff ho hal hfr hr.dims hsz.ne
  obtain ⟨q', hq1, hq2⟩ := exists_sameSequence (r := p.r) (c := p.c) hsz.le q
  set d1 : MObj := { d.withDims p.r p.c with data := some s.heap.next } with hd1
  set s1 : State E := { s with heap := h1 }.setMat x (some d1) with hs1
  have hx1 : s1.mat x = some d1 := by simp [hs1, State.setMat]
  have ho1 : d1.off = 0 := hoff
  have hw1 : d1.flat.Ready true s1.heap := fun k hk =>
    ⟨s.heap.next, rfl, _, by
      rw [show d1.flat.off = 0 from hoff, Nat.zero_add]; exact r2 k hk, Or.inl rfl⟩
  obtain ⟨h', e1, e2, -⟩ := mStore_fin (triv := true) hx1 hw1
    (fun i j => o.den (q' i j) (p.f i j))
    (f := fun s i j => do
      let a ← (MNode.var x : MNode E).get s i j
      let b ← n.get s i j
      pure (o.apply a b))
    (fun b i j s' g hb hv hm hstd _ => by
      have hbn : b = s.heap.next := by
        have : d1.data = some s.heap.next := rfl
        rw [this] at hb; cases hb; rfl
      subst hbn
      have h2 := get_after_mresize (n := n) (d1 := d1) hfr r3 hl hv hm hstd (hr.get i j)
      have h3 : (MNode.var x : MNode E).get s' i j = .ok (q' i j) := by
        rw [MNode.var_get]
        refine ⟨d1, s.heap.next, by rw [hm]; exact hx1, rfl, i.2, j.2, ?_⟩
        rw [hstd.frame _ _ (Or.inr (Or.inr (le_refl _))), ho1, Nat.zero_add]
        have hlt : d1.index i j < p.r * p.c := MObj.index_lt (m := d1) i.2 j.2
        obtain ⟨i0, j0, e0, hi0, hj0⟩ := hq2 i j
        have hold := hq.get ⟨i0, hi0⟩ ⟨j0, hj0⟩
        rw [MNode.var_get] at hold
        obtain ⟨w, b, w1, w2, w3, w3', w4⟩ := hold
        rw [hx] at w1; cases w1
        rw [hoff, Nat.zero_add] at w4
        have hidx : d1.index i j = d.index i0 j0 := e0.symm
        have := r2 (d1.index i j) hlt
        rw [if_pos (by omega), w2, hidx] at this
        simp only [Option.bind_some] at this
        rw [show s1.heap = h1 from rfl, hidx, this, w4,
          sameSequence_iff.1 hq1 ⟨i0, hi0⟩ ⟨j0, hj0⟩ i j e0]
        rfl
      simp [h2, h3])
  refine ⟨{ s1 with heap := h' }, q', hq1, ?_, (mrep_var (s := { s1 with heap := h' }) hx1).2 e2⟩
  unfold mOpAssign
  rw [r1, Out.ok_andThen]
  exact e1

/-- `x += e` / `x -= e` for a dynamic matrix with fewer elements than `e` reads an uninitialised element. -/
theorem mOpAssign_grow {o : BinOp} {s : State E} {x : Nat} {d : MObj} {n : MNode E} {p : MVal E}
    {q : Fin d.rows → Fin d.cols → E}
    (hx : s.mat x = some d) (hst : d.storage = .allocated) (hoff : d.off = 0) (ho : d.Owned s.heap)
    (hal : s.heap.fail s.heap.tick = false) (hfr : s.heap.blk s.heap.next = none)
    (hr : MRep s n p) (hq : MRep s (.var x) ⟨d.rows, d.cols, q⟩) (hsz : d.rows * d.cols < p.r * p.c)
    (hl : n.Leaves (fun y => ∀ w, s.vec y = some w → w.data = none ∨ w.data ≠ d.data)
      (fun y => y ≠ x ∧ ∀ w, s.mat y = some w → w.data = none ∨ w.data ≠ d.data)) :
    mOpAssign true o s x n = .ub .uninit := by
  obtain ⟨h1, r1, r2, r3⟩ := mresize_step (n := n) hx hst hoff ho hal hfr hr.dims hsz.ne'
  set d1 : MObj := { d.withDims p.r p.c with data := some s.heap.next } with hd1
  set s1 : State E := { s with heap := h1 }.setMat x (some d1) with hs1
  have hx1 : s1.mat x = some d1 := by simp [hs1, State.setMat]
  have ho1 : d1.off = 0 := hoff
  have hsz1 : d1.rows * d1.cols = p.r * p.c := rfl
  obtain ⟨hu1, hu2⟩ := MObj.unindex_lt (m := d1) (k := d.rows * d.cols) hsz
  -- the values of the first elements
  let g : Nat → E := fun k =>
    if hk : k < d.rows * d.cols then
      o.den (q ⟨_, (MObj.unindex_lt hk).1⟩ ⟨_, (MObj.unindex_lt hk).2⟩)
        (p.f ⟨_, (MObj.unindex_lt (m := d1) (k := k) (by omega)).1⟩
          ⟨_, (MObj.unindex_lt (m := d1) (k := k) (by omega)).2⟩)
    else p.f ⟨_, hu1⟩ ⟨_, hu2⟩
  set f : State E → Nat → Nat → Res E := fun s i j => do
    let a ← (MNode.var x : MNode E).get s i j
    let b ← n.get s i j
    pure (o.apply a b) with hf
  obtain ⟨h', e1, e2⟩ := mStoreSteps_ok (triv := true) (d := d1) (b := s.heap.next) hx1 rfl (d.rows * d.cols)
    (by omega) (fun k hk => ⟨_, by rw [ho1, Nat.zero_add]; exact r2 k hk, Or.inl rfl⟩) (f := f) g
    (fun i j s' hi hj hlt hv hm hstd => by
      have h2 := get_after_mresize (n := n) (d1 := d1) hfr r3 hl hv hm hstd (hr.get ⟨i, hi⟩ ⟨j, hj⟩)
      have hk := MObj.unindex_lt hlt
      have h3 : (MNode.var x : MNode E).get s' i j = .ok (q ⟨_, hk.1⟩ ⟨_, hk.2⟩) := by
        rw [MNode.var_get]
        refine ⟨d1, s.heap.next, by rw [hm]; exact hx1, rfl, hi, hj, ?_⟩
        rw [hstd.frame _ _ (Or.inr (Or.inr (le_refl _))), ho1, Nat.zero_add]
        have hold := hq.get ⟨_, hk.1⟩ ⟨_, hk.2⟩
        rw [MNode.var_get] at hold
        obtain ⟨w, b, w1, w2, w3, w3', w4⟩ := hold
        rw [hx] at w1; cases w1
        rw [hoff, Nat.zero_add] at w4
        simp only [MObj.index_unindex] at w4
        have := r2 (d1.index i j) (by omega)
        rw [if_pos hlt, w2] at this
        simp only [Option.bind_some] at this
        rw [show s1.heap = h1 from rfl, this, w4]
        rfl
      have h4 : g (d1.index i j) = o.den (q ⟨_, hk.1⟩ ⟨_, hk.2⟩) (p.f ⟨i, hi⟩ ⟨j, hj⟩) := by
        simp only [g, dif_pos hlt]
        have h5 := MObj.unindex_index (m := d1) hi hj
        congr 2 <;> apply Fin.ext <;> simp [h5]
      simp only at h2
      simp [hf, h2, h3, h4])
  have hread : (MNode.var x : MNode E).get { s1 with heap := h' } (d1.unindex (d.rows * d.cols)).1
      (d1.unindex (d.rows * d.cols)).2 = .ub .uninit := by
    have hc : h'.cell s.heap.next (d.rows * d.cols) = some none := by
      have := e2.frame s.heap.next (d.rows * d.cols) (Or.inr (Or.inr (by rw [ho1]; omega)))
      rw [this]
      have := r2 _ hsz
      rw [if_neg (by omega)] at this
      exact this
    rw [MNode.var_get_eq (s := { s1 with heap := h' }) hx1]
    unfold MObj.get
    rw [show d1.data = some s.heap.next from rfl]
    simp only [hu1, hu2, and_self, if_true, MObj.index_unindex, ho1, Nat.zero_add]
    unfold Heap.read
    unfold Heap.cell at hc
    cases hb : h'.blk s.heap.next with
    | none => simp [hb] at hc
    | some l =>
      simp only [hb, Option.bind_some] at hc
      simp [hc]
  unfold mOpAssign
  rw [r1, Out.ok_andThen, mStore_linear true s1 hx1]
  obtain ⟨m, hm⟩ : ∃ m, d1.rows * d1.cols = d.rows * d.cols + (m + 1) :=
    ⟨p.r * p.c - d.rows * d.cols - 1, by omega⟩
  rw [hm, Out.loop_add, e1]
  simp only [Out.ok_andThen, Nat.zero_add, Out.loop, mStep, hread, Res.ub_bind, Out.withVal_ub,
    Out.ub_andThen]

end CML
