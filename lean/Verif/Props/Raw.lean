import Verif.Lemmas.Raw
import Verif.Lemmas.Stable
import Verif.Lemmas.Demo

/-!
C117: raw access to the elements.  `data()` and `begin()`/`end()` show the elements in the order of the layout;
assignment and construction from a pointer copy them in row-major reading order.  Going through `data()` therefore
reproduces a vector or a row-major matrix, and yields the transpose of a column-major one.
-/

namespace CML

section Range
variable {E : Type} [Add E] [Sub E] [Mul E] [Div E] [Neg E]

/-- C117, vectors.  A `for` loop over a vector of any storage visits exactly its elements, in order; no bound on
the number of steps is needed beyond the size. -/
theorem vrange {s : State E} {x : Nat} {p : VVal E} (hp : VRep s (.var x) p) {fuel : Nat} (hf : p.n ≤ fuel) :
    vIterate fuel s x = .ok (List.ofFn p.f) := by
  cases hx : s.vec x with
  | none =>
    have := hp.size
    simp [VNode.size, State.vobj, hx] at this
  | some d =>
    obtain ⟨h1, h2⟩ := vrep_points hx hp
    simp only [vIterate, State.vobj, hx, Res.ok_bind, VObj.end, ← h1]
    exact Ptr.iterate_ok h2 hf

/-- C117, matrices.  A `for` loop over a matrix visits exactly its elements: row by row if it is row-major, column
by column if it is column-major. -/
theorem mrange {s : State E} {x : Nat} {d : MObj} (hx : s.mat x = some d) {p : Fin d.rows → Fin d.cols → E}
    (hp : MRep s (.var x) ⟨d.rows, d.cols, p⟩) {fuel : Nat} (hf : d.rows * d.cols ≤ fuel) :
    mIterate fuel s x = .ok (if d.colMajor
      then (List.ofFn fun j => List.ofFn fun i => p i j).flatten
      else (List.ofFn fun i => List.ofFn fun j => p i j).flatten) := by
  have h := Ptr.iterate_ok (mrep_points hx hp) hf
  simp only [mIterate, State.mobj, hx, Res.ok_bind, MObj.end]
  rw [h]
  congr 1
  by_cases hc : d.colMajor = true
  · rw [if_pos hc, List.ofFn_mul']
    congr 2
    funext j
    congr 1
    funext i
    have e : d.unindex (d.rows * (j : Nat) + i) = ((i : Nat), (j : Nat)) := by
      have := divMod_mk (i := (j : Nat)) i.2
      rw [Nat.mul_comm] at this
      simp [MObj.unindex, hc, this.1, this.2]
    congr 1 <;> apply Fin.ext <;> simp [e]
  · rw [if_neg hc, List.ofFn_mul]
    congr 2
    funext i
    congr 1
    funext j
    have e : d.unindex ((i : Nat) * d.cols + j) = ((i : Nat), (j : Nat)) := by
      have := divMod_mk (i := (i : Nat)) j.2
      simp [MObj.unindex, hc, this.1, this.2]
    congr 1 <;> apply Fin.ext <;> simp [e]

end Range

section Assign
variable {E : Type} [Add E] [Sub E] [Mul E] [Div E] [Neg E]

/-- C117.  `v.assign(ptr)`: the vector gets the values behind the pointer, provided that they do not overlap the
vector or start at or behind its first element.  Nothing else changes. -/
theorem vassign_ptr {triv : Bool} {s : State E} {x : Nat} {d : VObj} (hx : s.vec x = some d)
    (hw : d.Ready triv s.heap) {p : Ptr} {f : Fin d.size → E} (hp : p.Points s.heap d.size f)
    (hal : p.Apart d.size d ∨ d.off ≤ p.off) :
    ∃ h', vAssignPtr triv s x p = .ok { s with heap := h' } ∧
      VRep { s with heap := h' } (.var x) ⟨d.size, f⟩ ∧ SameOutside d s.heap h' := by
  obtain ⟨h', e1, e2, e3, -⟩ := storeLoop_fin (triv := triv) hx hw rfl f (f := fun s i => p.read s.heap i)
    (fun b k s' g hb hv hm hst => by
      obtain ⟨b', hb', hc⟩ := hp k
      refine Ptr.read_ok.2 ⟨b', hb', ?_⟩
      rw [← hc]
      apply hst.frame
      rcases hal with (h | h | h) | h
      · left
        rintro rfl
        exact h (hb'.trans hb.symm)
      all_goals omega)
  refine ⟨h', e1, ?_, e3⟩
  refine ⟨by simp [VNode.size, State.vobj, hx], fun i => ?_⟩
  simp only [VNode.get, State.vobj, hx, Res.ok_bind]
  exact e2 i

/-- C117.  `vector(ptr, n)` and `vector(n, ptr)`: a new vector with the values behind the pointer in new memory; all
existing memory is unchanged. -/
theorem vnew_ptr {s : State E} {x n : Nat} (hal : s.heap.fail s.heap.tick = false)
    (hfr : s.heap.blk s.heap.next = none) {p : Ptr} {f : Fin n → E} (hp : p.Points s.heap n f) :
    ∃ s', vNewPtr true s x p n = .ok s' ∧ VRep s' (.var x) ⟨n, f⟩ ∧
      (∀ b o, b ≠ s.heap.next → s'.heap.cell b o = s.heap.cell b o) ∧
      (∀ y, y ≠ x → s'.vec y = s.vec y) ∧ s'.mat = s.mat := by
  have hx0 : (vDefault s x).vec x = some ⟨.allocated, false, none, 0, 0⟩ := by simp [vDefault, State.setVec]
  rcases Nat.eq_zero_or_pos n with rfl | h0
  · refine ⟨vDefault s x, ?_, ?_, fun _ _ _ => rfl, fun y hy => by simp [vDefault, State.setVec, hy], rfl⟩
    · simp [vNewPtr, vResizeFast, vResizeWith, State.vobj, hx0, vAssignPtr, storeLoop, Out.loop, ctor]
    · exact ⟨by simp [VNode.size, State.vobj, hx0], fun i => i.elim0⟩
  · obtain ⟨h1, l1, q1, q2, q3, q4, q5, -⟩ :=
      vResizeWith_ok (copy := false) (triv := true) (n := (n : Int)) hx0 (by omega) (by simpa using h0.ne') hal hfr
        (Or.inl ⟨rfl, rfl⟩) (fun h => by cases h)
    set s1 := ({ (vDefault s x) with heap := h1 }.setVec x
      (some ⟨.allocated, false, some s.heap.next, 0, n⟩) : State E) with hs1
    have q1' : vResizeWith false true (vDefault s x) x n = .ok s1 := q1
    have hx1 : s1.vec x = some ⟨.allocated, false, some s.heap.next, 0, n⟩ := by simp [hs1, State.setVec]
    have q2' : h1.blk s.heap.next = some l1 := q2
    have hcell : ∀ b o, b ≠ s.heap.next → h1.cell b o = s.heap.cell b o := by
      intro b o hb
      have := q5 b hb (by simp)
      simp only [Heap.cell, this]
      rfl
    have hw : VObj.Ready true s1.heap ⟨.allocated, false, some s.heap.next, 0, n⟩ := by
      intro k hk
      have hk' : k < l1.length := by rw [q3]; exact hk
      refine ⟨_, rfl, l1[k], ?_, Or.inl rfl⟩
      simp only [hs1, Heap.cell, State.setVec, q2', Nat.zero_add, Option.bind_some]
      exact List.getElem?_eq_getElem hk'
    have hp1 : p.Points s1.heap n f := by
      intro k
      obtain ⟨b, hb, hc⟩ := hp k
      refine ⟨b, hb, ?_⟩
      rw [← hc]
      apply hcell
      rintro rfl
      simp [Heap.cell, hfr] at hc
    obtain ⟨h', e1, e2, e3⟩ := vassign_ptr (triv := true) hx1 hw hp1 (Or.inr (Nat.zero_le _))
    refine ⟨{ s1 with heap := h' }, ?_, e2, ?_, ?_, rfl⟩
    · unfold vNewPtr vResizeFast
      rw [q1', Out.ok_andThen, e1]
      rfl
    · intro b o hb
      rw [show ({ s1 with heap := h' } : State E).heap.cell b o = h'.cell b o from rfl,
        e3 b o (by rintro ⟨h, -⟩; exact hb (by simpa using h.symm))]
      exact hcell b o hb
    · intro y hy
      simp [hs1, State.setVec, vDefault, hy]

/-- C117.  A negative size is rejected and the variable does not come into existence. -/
theorem vnew_ptr_negative (triv : Bool) (s : State E) (x : Nat) (p : Ptr) (n : Int) (hn : n < 0) :
    ∃ s', vNewPtr triv s x p n = .throw .invalidArgument s' ∧ s'.vec x = none ∧ s'.heap = s.heap := by
  refine ⟨(vDefault s x).setVec x none, ?_, by simp [State.setVec], rfl⟩
  have : ¬ 0 ≤ n := by omega
  simp [vNewPtr, vResizeFast, vResizeWith, this, hn, Res.require, ctor, State.vobj, vDefault, State.setVec,
    Out.withVal, Out.andThen]

/-- C117.  `vector(v.data(), v.size())` is a copy of `v` in its own memory, and `v` itself is unchanged. -/
theorem vcopy_via_data {s : State E} {x y : Nat} (hxy : y ≠ x) (hal : s.heap.fail s.heap.tick = false)
    (hfr : s.heap.blk s.heap.next = none) {w : VObj} (hy : s.vec y = some w) {p : VVal E}
    (hp : VRep s (.var y) p) :
    ∃ s', vNewPtr true s x w.begin w.size = .ok s' ∧ VRep s' (.var x) p ∧ VRep s' (.var y) p := by
  obtain ⟨h1, h2⟩ := vrep_points hy hp
  obtain ⟨s', e1, e2, e3, e4, -⟩ := vnew_ptr (x := x) hal hfr h2
  rw [h1] at e1
  refine ⟨s', e1, e2, ⟨?_, fun i => ?_⟩⟩
  · rw [← hp.size]
    simp [VNode.size, State.vobj, e4 y hxy]
  · obtain ⟨w', b, a1, a2, a3, a4⟩ := VNode.var_get.1 (hp.get i)
    refine VNode.var_get.2 ⟨w', b, by rw [e4 y hxy]; exact a1, a2, a3, ?_⟩
    rw [e3 b _ (by rintro rfl; simp [Heap.cell, hfr] at a4), a4]

/-- C117.  `M.assign(ptr)`: element `(i, j)` becomes the value at position `i * cols + j` behind the pointer,
whatever the layout of the matrix, provided that the values do not overlap the matrix, or that the matrix is
row-major and they start at or behind its first element.  Nothing else changes. -/
theorem massign_raw {triv : Bool} {s : State E} {x : Nat} {d : MObj} (hx : s.mat x = some d)
    (hw : d.flat.Ready triv s.heap) {p : Ptr} {f : Fin (d.rows * d.cols) → E}
    (hp : p.Points s.heap (d.rows * d.cols) f)
    (hal : p.Apart (d.rows * d.cols) d.flat ∨ (d.colMajor = false ∧ d.off ≤ p.off)) :
    ∃ h', mAssignRaw triv s x p = .ok { s with heap := h' } ∧
      MRep { s with heap := h' } (.var x)
        ⟨d.rows, d.cols, fun i j => f ⟨(i : Nat) * d.cols + j, rowMajor_lt i.2 j.2⟩⟩ ∧
      SameOutside d.flat s.heap h' := by
  obtain ⟨h', e1, e2, -, e4, -⟩ := mPutLoop_get (triv := triv) (N := d.rows * d.cols) hx
    (fun k => (k / d.cols, k % d.cols)) (fun k hk => divMod_lt hk)
    (fun k l _ _ h => by
      simp only [Prod.mk.injEq] at h
      rw [← Nat.div_add_mod k d.cols, ← Nat.div_add_mod l d.cols, h.1, h.2])
    hw (f := fun k s => p.read s.heap k) f
    (fun k s' _ _ hso hget => by
      obtain ⟨b', hb', hc⟩ := hp k
      refine Ptr.read_ok.2 ⟨b', hb', ?_⟩
      by_cases hin : d.flat.data = some b' ∧ d.flat.off ≤ p.off + k ∧ p.off + k < d.flat.off + d.flat.size
      · obtain ⟨i1, i2, i3⟩ := hin
        have i1' : d.data = some b' := i1
        have i2' : d.off ≤ p.off + k := i2
        have i3' : p.off + k < d.off + d.rows * d.cols := i3
        rcases hal with (h | h | h) | ⟨hrow, h⟩
        · exact absurd (hb'.trans i1.symm) h
        · have h' : p.off + d.rows * d.cols ≤ d.off := h
          omega
        · have h' : d.off + d.rows * d.cols ≤ p.off := h
          omega
        · -- the value is in the matrix, at a place that has not been written yet
          obtain ⟨q, hq⟩ : ∃ q, p.off + k = d.off + q := ⟨p.off + k - d.off, by omega⟩
          have hqk : (k : Nat) ≤ q := by omega
          have hqn : q < d.rows * d.cols := by omega
          have hlt := divMod_lt hqn
          have hidx : d.index (q / d.cols) (q % d.cols) = q := by
            have := MObj.index_unindex d q
            simpa [MObj.unindex, hrow] using this
          have hg := hget (q / d.cols) (q % d.cols) hlt.1 hlt.2 (fun l hl he => by
            simp only [Prod.mk.injEq] at he
            have e := Nat.div_add_mod l d.cols
            rw [he.1, he.2, Nat.div_add_mod] at e
            omega)
          have e0 : d.get s.heap (q / d.cols) (q % d.cols) = .ok (f k) := by
            rw [MObj.get_eq_ok i1' hlt.1 hlt.2, hidx, ← hq, hc]
          rw [e0, MObj.get_eq_ok i1' hlt.1 hlt.2, hidx, ← hq] at hg
          exact hg
      · rw [hso b' _ hin, hc])
  refine ⟨h', ?_, ?_, e4⟩
  · unfold mAssignRaw
    simp only [State.mobj, hx, Out.withVal_ok]
    exact e1
  · refine (mrep_var (s := { s with heap := h' }) (x := x) hx).2 fun i j => ?_
    have h := e2 ⟨(i : Nat) * d.cols + j, rowMajor_lt i.2 j.2⟩
    simp only [(divMod_mk (i := (i : Nat)) j.2).1, (divMod_mk (i := (i : Nat)) j.2).2] at h
    exact h

/-- C117.  `matrix(rows, cols, ptr)` and `matrix(ptr, rows, cols)`: a new matrix of these dimensions and of the
layout of its type in new memory, filled in row-major reading order; all existing memory is unchanged. -/
theorem mnew_ptr {colMajor colBasis : Bool} {s : State E} {x r c : Nat} (hal : s.heap.fail s.heap.tick = false)
    (hfr : s.heap.blk s.heap.next = none) {p : Ptr} {f : Fin (r * c) → E} (hp : p.Points s.heap (r * c) f) :
    ∃ s' d', mNewPtr true colMajor colBasis s x p r c = .ok s' ∧
      MRep s' (.var x) ⟨r, c, fun i j => f ⟨(i : Nat) * c + j, rowMajor_lt i.2 j.2⟩⟩ ∧
      s'.mat x = some d' ∧ d'.colMajor = colMajor ∧ d'.colBasis = colBasis ∧
      (∀ b o, b ≠ s.heap.next → s'.heap.cell b o = s.heap.cell b o) ∧
      (∀ y, y ≠ x → s'.mat y = s.mat y) ∧ s'.vec = s.vec := by
  have hx0 : (mDefault colMajor colBasis s x).mat x
      = some ⟨.allocated, false, none, 0, 0, 0, colMajor, colBasis⟩ := by
    simp [mDefault, State.setMat]
  -- the state after allocating
  obtain ⟨s1, d1, r1, r2, ⟨rfl, rfl, r3, r3'⟩, r4, r5, r6, r7, r8⟩ : ∃ s1 d1,
      mResizeFast true (mDefault colMajor colBasis s x) x r c = .ok s1 ∧ s1.mat x = some d1 ∧
      (d1.rows = r ∧ d1.cols = c ∧ d1.colMajor = colMajor ∧ d1.colBasis = colBasis) ∧
      d1.flat.Ready true s1.heap ∧ (∀ b o, b ≠ s.heap.next → s1.heap.cell b o = s.heap.cell b o) ∧
      (∀ y, y ≠ x → s1.mat y = s.mat y) ∧ s1.vec = s.vec ∧
      (d1.data = none ∨ d1.data = some s.heap.next) := by
    by_cases he : r * c = 0
    · refine ⟨_, _, mResizeWith_relabel hx0 (by simpa using he), by simp [State.setMat]; rfl,
        ⟨rfl, rfl, rfl, rfl⟩, ?_, fun _ _ _ => rfl, fun y hy => by simp [State.setMat, mDefault, hy], rfl, Or.inl rfl⟩
      intro k hk
      simp only [MObj.flat] at hk
      omega
    · obtain ⟨h1, l1, q1, q2, q3, q4, q5, -⟩ :=
        mResizeWith_ok (copy := false) (triv := true) hx0 (by simpa using he) hal hfr
          (Or.inl ⟨rfl, by simp [MObj.flat]⟩) (fun h => by cases h)
      refine ⟨_, _, q1, by simp [State.setMat]; rfl, ⟨rfl, rfl, rfl, rfl⟩, ?_, ?_,
        fun y hy => by simp [State.setMat, mDefault, hy], rfl, Or.inr rfl⟩
      · intro k hk
        have hk' : k < l1.length := by rw [q3]; exact hk
        refine ⟨_, rfl, l1[k], ?_, Or.inl rfl⟩
        have q2' : h1.blk s.heap.next = some l1 := q2
        simp only [Heap.cell, MObj.flat, State.setMat, mDefault, q2', Nat.zero_add, Option.bind_some]
        exact List.getElem?_eq_getElem hk'
      · intro b o hb
        have := q5 b hb (by simp)
        simp only [Heap.cell, State.setMat, this]
        rfl
  have hne : ∀ k : Fin (d1.rows * d1.cols), p.blk ≠ some s.heap.next := by
    intro k h
    obtain ⟨b, hb, hc⟩ := hp k
    rw [h] at hb; cases hb
    simp [Heap.cell, hfr] at hc
  have hp1 : p.Points s1.heap (d1.rows * d1.cols) f := by
    intro k
    obtain ⟨b, hb, hc⟩ := hp k
    exact ⟨b, hb, by rw [← hc]; exact r5 b _ fun h => hne k (hb.trans (by rw [h]))⟩
  have hap : p.Apart (d1.rows * d1.cols) d1.flat := by
    rcases Nat.eq_zero_or_pos (d1.rows * d1.cols) with h0 | h0
    · have h1 : d1.flat.size = 0 := h0
      simp only [Ptr.Apart, h0, h1]
      omega
    · left
      intro h
      have h' : p.blk = d1.data := h
      rcases r8 with h8 | h8
      · obtain ⟨b, hb, -⟩ := hp ⟨0, h0⟩
        rw [hb, h8] at h'; cases h'
      · exact hne ⟨0, h0⟩ (h'.trans h8)
  obtain ⟨h', e1, e2, e3⟩ := massign_raw (triv := true) r2 r4 hp1 (Or.inl hap)
  refine ⟨{ s1 with heap := h' }, d1, ?_, e2, r2, r3, r3', ?_, r6, r7⟩
  · unfold mNewPtr
    rw [r1, Out.ok_andThen, e1]
    rfl
  · intro b o hb
    rw [show ({ s1 with heap := h' } : State E).heap.cell b o = h'.cell b o from rfl, e3 b o ?_, r5 b o hb]
    rintro ⟨h, -⟩
    have h'' : d1.data = some b := h
    rcases r8 with h8 | h8 <;> rw [h8] at h'' <;> cases h''
    exact hb rfl

/-- C117.  `x.assign(y.data())` for matrices of the same dimensions reproduces the matrix `y`, if `y` is row-major;
`x` may have either layout.  Missing: column-major `y`, where it is false (`massign_data_false`) and the transpose
arrives instead (`massign_data_transpose`). -/
theorem massign_data_partial {triv : Bool} {s : State E} {x y : Nat} {d w : MObj} (hx : s.mat x = some d)
    (hy : s.mat y = some w) (hw : d.flat.Ready triv s.heap) {p : Fin d.rows → Fin d.cols → E}
    (hp : MRep s (.var y) ⟨d.rows, d.cols, p⟩) (hrow : w.colMajor = false) (hal : MDisj s d.flat y) :
    ∃ h', mAssignRaw triv s x w.begin = .ok { s with heap := h' } ∧
      MRep { s with heap := h' } (.var x) ⟨d.rows, d.cols, p⟩ ∧ SameOutside d.flat s.heap h' := by
  obtain ⟨hr, hc⟩ := mrep_dims hy hp
  simp only at hr hc
  obtain ⟨wst, wf, wd, wo, wr, wc, wm, wb⟩ := w
  simp only at hr hc hrow
  subst hr hc hrow
  obtain ⟨h', e1, e2, e3⟩ := massign_raw (triv := triv) hx hw (mrep_points hy hp) (Or.inl (by
    rcases hal _ hy with h | h | h
    · exact Or.inl h
    · exact Or.inr (Or.inl h)
    · exact Or.inr (Or.inr h)))
  refine ⟨h', e1, ⟨e2.dims, fun i j => ?_⟩, e3⟩
  have h := e2.get i j
  rw [h]
  have hm := divMod_mk (i := (i : Nat)) j.2
  simp only [MObj.unindex, Bool.false_eq_true, if_false, hm.1, hm.2]

/-- C117.  `x.assign(y.data())` for an `r × c` column-major matrix `y` and a `c × r` matrix `x` of either layout:
`x` becomes the transpose of `y`.  In particular that happens to square column-major matrices. -/
theorem massign_data_transpose {triv : Bool} {s : State E} {x y : Nat} {d w : MObj} (hx : s.mat x = some d)
    (hy : s.mat y = some w) (hw : d.flat.Ready triv s.heap) {p : Fin d.cols → Fin d.rows → E}
    (hp : MRep s (.var y) ⟨d.cols, d.rows, p⟩) (hcol : w.colMajor = true) (hal : MDisj s d.flat y) :
    ∃ h', mAssignRaw triv s x w.begin = .ok { s with heap := h' } ∧
      MRep { s with heap := h' } (.var x) ⟨d.rows, d.cols, fun i j => p j i⟩ ∧ SameOutside d.flat s.heap h' := by
  obtain ⟨hr, hc⟩ := mrep_dims hy hp
  simp only at hr hc
  obtain ⟨wst, wf, wd, wo, wr, wc, wm, wb⟩ := w
  simp only at hr hc hcol
  subst hr hc hcol
  have hpt := mrep_points hy hp
  have hcomm : d.cols * d.rows = d.rows * d.cols := Nat.mul_comm _ _
  have hpt' : MObj.begin ⟨wst, wf, wd, wo, d.cols, d.rows, true, wb⟩ |>.Points s.heap (d.rows * d.cols) fun k =>
      p ⟨(k : Nat) % d.cols, (divMod_lt k.2).2⟩ ⟨(k : Nat) / d.cols, (divMod_lt k.2).1⟩ := by
    intro k
    obtain ⟨b, h1, h2⟩ := hpt ⟨k, by simp only [hcomm]; exact k.2⟩
    refine ⟨b, h1, h2.trans ?_⟩
    simp only [MObj.unindex, if_true]
  obtain ⟨h', e1, e2, e3⟩ := massign_raw (triv := triv) hx hw hpt' (Or.inl (by
    rcases hal _ hy with h | h | h
    · exact Or.inl h
    · simp only [hcomm] at h
      exact Or.inr (Or.inl h)
    · exact Or.inr (Or.inr h)))
  refine ⟨h', e1, ⟨e2.dims, fun i j => ?_⟩, e3⟩
  have h := e2.get i j
  rw [h]
  have hm := divMod_mk (i := (i : Nat)) j.2
  simp only [hm.1, hm.2]

end Assign

section Views
variable {E : Type} [Add E] [Sub E] [Mul E] [Div E] [Neg E]

/-- C117.  A view `matrix<E, external<>>(M.data(), rows, cols)` of the same layout shows the same matrix, now and
after every later change of the memory. -/
theorem mview_data {s : State E} {x y b : Nat} (hxy : y ≠ x) {w : MObj} (hy : s.mat y = some w)
    (hb : w.data = some b) (colBasis : Bool) :
    ∃ s', mView w.colMajor colBasis s x b w.off w.rows w.cols = .ok s' ∧ s'.heap = s.heap ∧
      ∀ (h : Heap E) (p : MVal E),
        MRep { s' with heap := h } (.var x) p ↔ MRep { s' with heap := h } (.var y) p := by
  refine ⟨s.setMat x (some ⟨.external, false, some b, w.off, w.rows, w.cols, w.colMajor, colBasis⟩), ?_, rfl, ?_⟩
  · have h1 : ¬ (w.rows : Int) < 0 := by omega
    have h2 : ¬ (w.cols : Int) < 0 := by omega
    simp [mView, h1, h2]
  · intro h p
    have ex : (MNode.var x : MNode E).dims { s.setMat x (some
        ⟨.external, false, some b, w.off, w.rows, w.cols, w.colMajor, colBasis⟩) with heap := h }
        = .ok ((w.rows : Int), (w.cols : Int)) := by simp [MNode.dims, State.mobj, State.setMat]
    have ey : (MNode.var y : MNode E).dims { s.setMat x (some
        ⟨.external, false, some b, w.off, w.rows, w.cols, w.colMajor, colBasis⟩) with heap := h }
        = .ok ((w.rows : Int), (w.cols : Int)) := by simp [MNode.dims, State.mobj, State.setMat, hxy, hy]
    have eg : ∀ i j, (MNode.var x : MNode E).get { s.setMat x (some
        ⟨.external, false, some b, w.off, w.rows, w.cols, w.colMajor, colBasis⟩) with heap := h } i j
        = (MNode.var y : MNode E).get { s.setMat x (some
        ⟨.external, false, some b, w.off, w.rows, w.cols, w.colMajor, colBasis⟩) with heap := h } i j := by
      intro i j
      simp [MNode.get, State.mobj, State.setMat, hxy, hy, MObj.get, hb, MObj.index]
    constructor
    · intro hp
      exact ⟨by rw [ey, ← hp.dims, ex], fun i j => by rw [← eg]; exact hp.get i j⟩
    · intro hp
      exact ⟨by rw [ex, ← hp.dims, ey], fun i j => by rw [eg]; exact hp.get i j⟩

/-- C117.  A view of the opposite layout with exchanged dimensions shows the transpose, now and after every later
change of the memory. -/
theorem mview_data_transpose {s : State E} {x y b : Nat} (hxy : y ≠ x) {w : MObj} (hy : s.mat y = some w)
    (hb : w.data = some b) (colBasis : Bool) :
    ∃ s', mView (!w.colMajor) colBasis s x b w.off w.cols w.rows = .ok s' ∧ s'.heap = s.heap ∧
      ∀ (h : Heap E) (r c : Nat) (p : Fin r → Fin c → E),
        MRep { s' with heap := h } (.var x) ⟨c, r, fun j i => p i j⟩ ↔ MRep { s' with heap := h } (.var y) ⟨r, c, p⟩ := by
  refine ⟨s.setMat x (some ⟨.external, false, some b, w.off, w.cols, w.rows, !w.colMajor, colBasis⟩), ?_, rfl, ?_⟩
  · have h1 : ¬ (w.rows : Int) < 0 := by omega
    have h2 : ¬ (w.cols : Int) < 0 := by omega
    simp [mView, h1, h2]
  · intro h r c p
    have ex : (MNode.var x : MNode E).dims { s.setMat x (some
        ⟨.external, false, some b, w.off, w.cols, w.rows, !w.colMajor, colBasis⟩) with heap := h }
        = .ok ((w.cols : Int), (w.rows : Int)) := by simp [MNode.dims, State.mobj, State.setMat]
    have ey : (MNode.var y : MNode E).dims { s.setMat x (some
        ⟨.external, false, some b, w.off, w.cols, w.rows, !w.colMajor, colBasis⟩) with heap := h }
        = .ok ((w.rows : Int), (w.cols : Int)) := by simp [MNode.dims, State.mobj, State.setMat, hxy, hy]
    have eg : ∀ i j, (MNode.var x : MNode E).get { s.setMat x (some
        ⟨.external, false, some b, w.off, w.cols, w.rows, !w.colMajor, colBasis⟩) with heap := h } j i
        = (MNode.var y : MNode E).get { s.setMat x (some
        ⟨.external, false, some b, w.off, w.cols, w.rows, !w.colMajor, colBasis⟩) with heap := h } i j := by
      intro i j
      cases hcm : w.colMajor <;>
        simp [MNode.get, State.mobj, State.setMat, hxy, hy, MObj.get, hb, MObj.index, hcm, and_comm]
    constructor
    · intro hp
      have hd := hp.dims
      rw [ex] at hd
      simp only [Res.ok.injEq, Prod.mk.injEq] at hd
      refine ⟨by rw [ey]; simp [hd.1, hd.2], fun i j => ?_⟩
      rw [← eg]
      exact hp.get j i
    · intro hp
      have hd := hp.dims
      rw [ey] at hd
      simp only [Res.ok.injEq, Prod.mk.injEq] at hd
      refine ⟨by rw [ex]; simp [hd.1, hd.2], fun i j => ?_⟩
      rw [eg]
      exact hp.get j i

/-- C117.  Move construction of a view: the new view shows what the old one showed, no memory is touched, and the
old view is null: it has no element. -/
theorem vview_move_new {s : State E} {x y : Nat} (hxy : y ≠ x) {w : VObj} (hy : s.vec y = some w) {p : VVal E}
    (hp : VRep s (.var y) p) :
    ∃ s', vViewMoveNew s x y = .ok s' ∧ s'.heap = s.heap ∧ VRep s' (.var x) p ∧
      (∀ i v, (VNode.var y : VNode E).get s' i ≠ .ok v) ∧
      (w.fixed = false → (VNode.var y : VNode E).size s' = .ok 0) := by
  refine ⟨(s.setVec x (some w)).setVec y
      (some { w with data := none, off := 0, size := if w.fixed then w.size else 0 }),
    by simp only [vViewMoveNew, State.vobj, hy, Out.withVal_ok], rfl, ⟨?_, fun i => ?_⟩, ?_, ?_⟩
  · rw [← hp.size]
    simp [VNode.size, State.vobj, State.setVec, hy, hxy.symm]
  · rw [← hp.get i]
    simp [VNode.get, State.vobj, State.setVec, hy, hxy.symm]
  · intro i v h
    obtain ⟨w', b, h1, h2, -⟩ := VNode.var_get.1 h
    simp [State.setVec] at h1
    rw [← h1] at h2
    cases h2
  · intro hf
    simp [VNode.size, State.vobj, State.setVec, hf]

/-- C117.  `reset()` of a view: the view becomes empty, the memory and all other variables stay. -/
theorem vview_reset {s : State E} {x : Nat} {d : VObj} (hx : s.vec x = some d) :
    ∃ s', vViewReset s x = .ok s' ∧ s'.heap = s.heap ∧ s'.mat = s.mat ∧ (∀ y, y ≠ x → s'.vec y = s.vec y) ∧
      (VNode.var x : VNode E).size s' = .ok 0 ∧ ∀ i v, (VNode.var x : VNode E).get s' i ≠ .ok v := by
  refine ⟨s.setVec x (some { d with data := none, off := 0, size := 0 }),
    by simp only [vViewReset, State.vobj, hx, Out.withVal_ok], rfl, rfl,
    fun y hy => by simp [State.setVec, hy], by simp [VNode.size, State.vobj, State.setVec], ?_⟩
  intro i v h
  obtain ⟨w', b, h1, h2, -⟩ := VNode.var_get.1 h
  simp [State.setVec] at h1
  rw [← h1] at h2
  cases h2

end Views

section Random
variable {E : Type} [Add E] [Sub E] [Mul E] [Div E] [Neg E]

/-- C117.  `random(low, high)` of a vector sets every element to the draw of its own, in order; nothing else
changes.  (So all elements are in the range in which the draws are.) -/
theorem vrandom {triv : Bool} {s : State E} {x : Nat} {d : VObj} (hx : s.vec x = some d)
    (hw : d.Ready triv s.heap) (draw : Nat → E) :
    ∃ h', vRandom triv s x draw = .ok { s with heap := h' } ∧
      VRep { s with heap := h' } (.var x) ⟨d.size, fun i => draw i⟩ ∧ SameOutside d s.heap h' := by
  obtain ⟨h', e1, e2, e3, -⟩ := storeLoop_fin (triv := triv) hx hw rfl (fun i : Fin d.size => draw i)
    (f := fun _ i => .ok (draw i)) (fun _ _ _ _ _ _ _ _ => rfl)
  refine ⟨h', e1, ⟨by simp [VNode.size, State.vobj, hx], fun i => ?_⟩, e3⟩
  simp only [VNode.get, State.vobj, hx, Res.ok_bind]
  exact e2 i

/-- C117.  `random(low, high)` of a matrix sets every element to a draw of its own, in the order of the layout;
nothing else changes. -/
theorem mrandom {triv : Bool} {s : State E} {x : Nat} {d : MObj} (hx : s.mat x = some d)
    (hw : d.flat.Ready triv s.heap) (draw : Nat → E) :
    ∃ h', mRandom triv s x draw = .ok { s with heap := h' } ∧
      MRep { s with heap := h' } (.var x) ⟨d.rows, d.cols, fun i j =>
        draw (if d.colMajor then (j : Nat) * d.rows + i else (i : Nat) * d.cols + j)⟩ ∧
      SameOutside d.flat s.heap h' := by
  by_cases hc : d.colMajor = true
  · obtain ⟨h', e1, e2, -, e4, -⟩ := mPutLoop_get (triv := triv) (N := d.cols * d.rows) hx
      (fun k => (k % d.rows, k / d.rows)) (fun k hk => (divMod_lt hk).symm)
      (fun k l _ _ h => by
        simp only [Prod.mk.injEq] at h
        rw [← Nat.div_add_mod k d.rows, ← Nat.div_add_mod l d.rows, h.1, h.2])
      hw (f := fun k _ => .ok (draw k)) (fun k => draw k) (fun _ _ _ _ _ _ => rfl)
    refine ⟨h', ?_, ?_, e4⟩
    · simp only [mRandom, State.mobj, hx, Out.withVal_ok, if_pos hc]
      rw [Out.loop_nest (fun j i c => Out.counted (fun n s => mPut triv s x i j (draw n)) c), Nat.zero_mul,
        Out.uncounted_loop (fun k n s => mPut triv s x (k % d.rows) (k / d.rows) (draw n))]
      simp only [Nat.zero_add, Nat.sub_zero]
      exact e1
    · refine (mrep_var (s := { s with heap := h' }) (x := x) hx).2 fun i j => ?_
      have h := e2 ⟨(j : Nat) * d.rows + i, rowMajor_lt j.2 i.2⟩
      simp only [(divMod_mk (i := (j : Nat)) i.2).1, (divMod_mk (i := (j : Nat)) i.2).2] at h
      simp only [if_pos hc]
      exact h
  · obtain ⟨h', e1, e2, -, e4, -⟩ := mPutLoop_get (triv := triv) (N := d.rows * d.cols) hx
      (fun k => (k / d.cols, k % d.cols)) (fun k hk => divMod_lt hk)
      (fun k l _ _ h => by
        simp only [Prod.mk.injEq] at h
        rw [← Nat.div_add_mod k d.cols, ← Nat.div_add_mod l d.cols, h.1, h.2])
      hw (f := fun k _ => .ok (draw k)) (fun k => draw k) (fun _ _ _ _ _ _ => rfl)
    refine ⟨h', ?_, ?_, e4⟩
    · simp only [mRandom, State.mobj, hx, Out.withVal_ok, if_neg hc]
      rw [Out.loop_nest (fun i j c => Out.counted (fun n s => mPut triv s x i j (draw n)) c), Nat.zero_mul,
        Out.uncounted_loop (fun k n s => mPut triv s x (k / d.cols) (k % d.cols) (draw n))]
      simp only [Nat.zero_add, Nat.sub_zero]
      exact e1
    · refine (mrep_var (s := { s with heap := h' }) (x := x) hx).2 fun i j => ?_
      have h := e2 ⟨(i : Nat) * d.cols + j, rowMajor_lt i.2 j.2⟩
      simp only [(divMod_mk (i := (i : Nat)) j.2).1, (divMod_mk (i := (i : Nat)) j.2).2] at h
      simp only [if_neg hc]
      exact h

end Random

section Examples

/-- Block 0: a vector `[1, 2, 3]`; block 1: a column-major 2×3 matrix; block 2: another 6 cells; block 3: a 2×2
matrix. -/
private def exRaw : State ℤ :=
  demo [[some 1, some 2, some 3], [some 1, some 2, some 3, some 4, some 5, some 6],
      [some 0, some 0, some 0, some 0, some 0, some 0], [some 1, some 2, some 3, some 4]]
    [⟨.allocated, false, some 0, 0, 3⟩, ⟨.external, false, some 0, 1, 2⟩, ⟨.compiled, true, some 2, 0, 3⟩]
    [⟨.allocated, false, some 1, 0, 2, 3, true, true⟩, ⟨.allocated, false, some 2, 0, 2, 3, false, true⟩,
      ⟨.allocated, false, some 3, 0, 2, 2, true, true⟩, ⟨.allocated, false, some 2, 0, 3, 2, true, true⟩,
      ⟨.external, false, some 1, 0, 3, 2, false, true⟩]

private theorem exRaw_v : VRep exRaw (.var 0) ⟨3, ![1, 2, 3]⟩ := ⟨rfl, fun i => by fin_cases i <;> rfl⟩
private theorem exRaw_m : MRep exRaw (.var 0) ⟨2, 3, ![![1, 3, 5], ![2, 4, 6]]⟩ :=
  ⟨rfl, fun i j => by fin_cases i <;> fin_cases j <;> rfl⟩
private theorem exRaw_m4 : MRep exRaw (.var 4) ⟨3, 2, ![![1, 2], ![3, 4], ![5, 6]]⟩ :=
  ⟨rfl, fun i j => by fin_cases i <;> fin_cases j <;> rfl⟩
private theorem exRaw_ready : VObj.Ready true exRaw.heap ⟨.compiled, true, some 2, 0, 3⟩ := by
  intro i hi
  exact ⟨2, rfl, some 0, by
    have : i = 0 ∨ i = 1 ∨ i = 2 := by simp only at hi; omega
    rcases this with rfl | rfl | rfl <;> rfl, Or.inl rfl⟩
private theorem exRaw_mready {m : MObj} (h : m = ⟨.allocated, false, some 2, 0, 2, 3, false, true⟩ ∨
    m = ⟨.allocated, false, some 2, 0, 3, 2, true, true⟩) : m.flat.Ready true exRaw.heap := by
  have h6 : m.flat = ⟨.allocated, false, some 2, 0, 6⟩ := by rcases h with rfl | rfl <;> rfl
  rw [h6]
  intro i hi
  exact ⟨2, rfl, some 0, by
    have : i = 0 ∨ i = 1 ∨ i = 2 ∨ i = 3 ∨ i = 4 ∨ i = 5 := by simp only at hi; omega
    rcases this with rfl | rfl | rfl | rfl | rfl | rfl <;> rfl, Or.inl rfl⟩

-- iteration
example : vIterate 10 exRaw 0 = .ok [1, 2, 3] := vrange exRaw_v (by decide)
example : mIterate 10 exRaw 0 = .ok [1, 2, 3, 4, 5, 6] :=
  mrange (x := 0) (d := ⟨.allocated, false, some 1, 0, 2, 3, true, true⟩) (fuel := 10) rfl exRaw_m (by decide)
example : mIterate 10 exRaw 4 = .ok [1, 2, 3, 4, 5, 6] :=
  mrange (x := 4) (d := ⟨.external, false, some 1, 0, 3, 2, false, true⟩) (fuel := 10) rfl exRaw_m4 (by decide)

-- a vector from a pointer, a new one, and a round trip
example : ∃ h', vAssignPtr true exRaw 2 ⟨some 1, 2⟩ = .ok { exRaw with heap := h' } ∧
    VRep { exRaw with heap := h' } (.var 2) ⟨3, ![3, 4, 5]⟩ ∧
    SameOutside ⟨.compiled, true, some 2, 0, 3⟩ exRaw.heap h' :=
  vassign_ptr (x := 2) rfl exRaw_ready (fun k => ⟨1, rfl, by fin_cases k <;> rfl⟩) (Or.inl (Or.inl (by decide)))
example : ∃ s', vNewPtr true exRaw 7 ⟨some 1, 2⟩ 3 = .ok s' ∧ VRep s' (.var 7) ⟨3, ![3, 4, 5]⟩ := by
  obtain ⟨s', h1, h2, -⟩ := vnew_ptr (s := exRaw) (x := 7) (n := 3) (p := ⟨some 1, 2⟩) (f := ![3, 4, 5]) rfl rfl
    (fun k => ⟨1, rfl, by fin_cases k <;> rfl⟩)
  exact ⟨s', h1, h2⟩
example : ∃ s', vNewPtr true exRaw 7 ⟨some 0, 0⟩ 3 = .ok s' ∧ VRep s' (.var 7) ⟨3, ![1, 2, 3]⟩ ∧
    VRep s' (.var 0) ⟨3, ![1, 2, 3]⟩ :=
  vcopy_via_data (y := 0) (w := ⟨.allocated, false, some 0, 0, 3⟩) (by decide) rfl rfl rfl exRaw_v
example : ∃ s', vNewPtr true exRaw 7 ⟨some 0, 0⟩ (-1) = .throw .invalidArgument s' ∧ s'.vec 7 = none ∧
    s'.heap = exRaw.heap := vnew_ptr_negative true exRaw 7 ⟨some 0, 0⟩ (-1) (by decide)

-- a matrix from a pointer
example : ∃ h', mAssignRaw true exRaw 1 ⟨some 1, 0⟩ = .ok { exRaw with heap := h' } ∧
    MRep { exRaw with heap := h' } (.var 1) ⟨2, 3, fun i j => ![1, 2, 3, 4, 5, 6] ⟨(i : Nat) * 3 + j, by omega⟩⟩ ∧
    SameOutside ⟨.allocated, false, some 2, 0, 6⟩ exRaw.heap h' :=
  massign_raw (x := 1) (f := ![1, 2, 3, 4, 5, 6]) rfl (exRaw_mready (Or.inl rfl))
    (fun k => ⟨1, rfl, by fin_cases k <;> rfl⟩) (Or.inl (Or.inl (by decide)))
example : ∃ s', mNewPtr true true true exRaw 7 ⟨some 1, 0⟩ 2 3 = .ok s' ∧
    (MNode.var 7 : MNode ℤ).get s' 0 1 = .ok 2 ∧ (MNode.var 7 : MNode ℤ).get s' 1 0 = .ok 4 := by
  obtain ⟨s', d', h1, h2, -⟩ := mnew_ptr (colMajor := true) (colBasis := true) (s := exRaw) (x := 7) (r := 2) (c := 3)
    (p := ⟨some 1, 0⟩) (f := ![1, 2, 3, 4, 5, 6]) rfl rfl (fun k => ⟨1, rfl, by fin_cases k <;> rfl⟩)
  exact ⟨s', h1, h2.get (0 : Fin 2) (1 : Fin 3), h2.get (1 : Fin 2) (0 : Fin 3)⟩
-- the row-major view of block 1 arrives unchanged in a column-major matrix …
example : ∃ h', mAssignRaw true exRaw 3 ⟨some 1, 0⟩ = .ok { exRaw with heap := h' } ∧
    MRep { exRaw with heap := h' } (.var 3) ⟨3, 2, ![![1, 2], ![3, 4], ![5, 6]]⟩ ∧
    SameOutside ⟨.allocated, false, some 2, 0, 6⟩ exRaw.heap h' :=
  massign_data_partial (x := 3) (y := 4) (d := ⟨.allocated, false, some 2, 0, 3, 2, true, true⟩)
    (w := ⟨.external, false, some 1, 0, 3, 2, false, true⟩) rfl rfl (exRaw_mready (Or.inr rfl)) exRaw_m4 rfl
    (by intro w hw; cases hw; exact Or.inl (by decide))
-- … and the column-major matrix in the same block transposed
example : ∃ h', mAssignRaw true exRaw 3 ⟨some 1, 0⟩ = .ok { exRaw with heap := h' } ∧
    MRep { exRaw with heap := h' } (.var 3) ⟨3, 2, fun i j => ![![1, 3, 5], ![2, 4, 6]] j i⟩ ∧
    SameOutside ⟨.allocated, false, some 2, 0, 6⟩ exRaw.heap h' :=
  massign_data_transpose (x := 3) (y := 0) (d := ⟨.allocated, false, some 2, 0, 3, 2, true, true⟩)
    (w := ⟨.allocated, false, some 1, 0, 2, 3, true, true⟩) rfl rfl (exRaw_mready (Or.inr rfl)) exRaw_m rfl
    (by intro w hw; cases hw; exact Or.inl (by decide))

-- views of the memory of a matrix
example : ∃ s', mView true true exRaw 7 1 0 2 3 = .ok s' ∧ MRep s' (.var 7) ⟨2, 3, ![![1, 3, 5], ![2, 4, 6]]⟩ := by
  obtain ⟨s', h1, h2, h3⟩ := mview_data (s := exRaw) (x := 7) (y := 0) (b := 1)
    (w := ⟨.allocated, false, some 1, 0, 2, 3, true, true⟩) (by decide) rfl rfl true
  refine ⟨s', h1, (h3 s'.heap ⟨2, 3, ![![1, 3, 5], ![2, 4, 6]]⟩).2 ?_⟩
  cases h1
  exact ⟨rfl, fun i j => by fin_cases i <;> fin_cases j <;> rfl⟩
example : ∃ s', mView false true exRaw 7 1 0 3 2 = .ok s' ∧
    MRep s' (.var 7) ⟨3, 2, fun j i => ![![1, 3, 5], ![2, 4, 6]] i j⟩ := by
  obtain ⟨s', h1, h2, h3⟩ := mview_data_transpose (s := exRaw) (x := 7) (y := 0) (b := 1)
    (w := ⟨.allocated, false, some 1, 0, 2, 3, true, true⟩) (by decide) rfl rfl true
  refine ⟨s', h1, (h3 s'.heap 2 3 ![![1, 3, 5], ![2, 4, 6]]).2 ?_⟩
  cases h1
  exact ⟨rfl, fun i j => by fin_cases i <;> fin_cases j <;> rfl⟩
example : ∃ s', vViewMoveNew exRaw 7 1 = .ok s' ∧ s'.heap = exRaw.heap ∧ VRep s' (.var 7) ⟨2, ![2, 3]⟩ ∧
    (∀ i v, (VNode.var 1 : VNode ℤ).get s' i ≠ .ok v) ∧
    (false = false → (VNode.var 1 : VNode ℤ).size s' = .ok 0) :=
  vview_move_new (y := 1) (w := ⟨.external, false, some 0, 1, 2⟩) (by decide) rfl
    ⟨rfl, fun i => by fin_cases i <;> rfl⟩
example : exRaw.vec 1 = some ⟨.external, false, some 0, 1, 2⟩ := rfl

-- random numbers: the hypotheses are those of `vassign_ptr` and `massign_raw`
example : ∃ s', mRandom true exRaw 3 (fun k => 10 + k) = .ok s' ∧ (MNode.var 3 : MNode ℤ).get s' 1 0 = .ok 11 ∧
    (MNode.var 3 : MNode ℤ).get s' 0 1 = .ok 13 := by
  obtain ⟨h', h1, h2, -⟩ := mrandom (x := 3) (d := ⟨.allocated, false, some 2, 0, 3, 2, true, true⟩) rfl
    (exRaw_mready (Or.inr rfl)) (fun k => 10 + (k : ℤ))
  exact ⟨_, h1, h2.get (1 : Fin 3) (0 : Fin 2), h2.get (0 : Fin 3) (1 : Fin 2)⟩
example : ∃ s', vRandom true exRaw 2 (fun k => 10 + k) = .ok s' ∧ VRep s' (.var 2) ⟨3, fun i => 10 + (i : Nat)⟩ := by
  obtain ⟨h', h1, h2, -⟩ := vrandom (x := 2) rfl exRaw_ready (fun k => 10 + (k : ℤ))
  exact ⟨_, h1, h2⟩

/-- `vassign_ptr` needs its hypothesis: values that begin before the vector and overlap it are overwritten before
they are read. -/
theorem vassign_ptr_overlap_false :
    ∃ (s : State ℤ) (d : VObj) (p : Ptr) (f : Fin d.size → ℤ), s.vec 1 = some d ∧ d.Ready true s.heap ∧
      p.Points s.heap d.size f ∧ ∃ s', vAssignPtr true s 1 p = .ok s' ∧ ¬ VRep s' (.var 1) ⟨d.size, f⟩ := by
  refine ⟨exRaw, ⟨.external, false, some 0, 1, 2⟩, ⟨some 0, 0⟩, ![1, 2], rfl, ?_,
    fun k => ⟨0, rfl, by fin_cases k <;> rfl⟩, _, rfl, ?_⟩
  · intro i hi
    have : i = 0 ∨ i = 1 := by simp only at hi; omega
    rcases this with rfl | rfl
    · exact ⟨0, rfl, some 2, rfl, Or.inl rfl⟩
    · exact ⟨0, rfl, some 3, rfl, Or.inl rfl⟩
  · intro h
    have h1 := h.get (1 : Fin 2)
    have h2 : (Res.ok (1 : ℤ)) = .ok 2 := h1
    cases h2

/-- C117 fails for column-major matrices: `x.assign(y.data())` with equal dimensions does not reproduce `y`, and
`M.assign(M.data())` changes `M`, not even into its transpose. -/
theorem massign_data_false :
    (∃ (s : State ℤ) (d w : MObj) (p : Fin d.rows → Fin d.cols → ℤ), s.mat 1 = some d ∧ s.mat 0 = some w ∧
      d.flat.Ready true s.heap ∧ MRep s (.var 0) ⟨d.rows, d.cols, p⟩ ∧ MDisj s d.flat 0 ∧
      ∃ s', mAssignRaw true s 1 w.begin = .ok s' ∧ ¬ MRep s' (.var 1) ⟨d.rows, d.cols, p⟩) ∧
    (∃ (s : State ℤ) (d : MObj) (p : Fin 2 → Fin 2 → ℤ), s.mat 2 = some d ∧ MRep s (.var 2) ⟨2, 2, p⟩ ∧
      ∃ s', mAssignRaw true s 2 d.begin = .ok s' ∧ ¬ MRep s' (.var 2) ⟨2, 2, p⟩ ∧
        ¬ MRep s' (.var 2) ⟨2, 2, fun i j => p j i⟩) := by
  refine ⟨⟨exRaw, ⟨.allocated, false, some 2, 0, 2, 3, false, true⟩, ⟨.allocated, false, some 1, 0, 2, 3, true, true⟩,
    ![![1, 3, 5], ![2, 4, 6]], rfl, rfl, exRaw_mready (Or.inl rfl), exRaw_m,
    by intro w hw; cases hw; exact Or.inl (by decide), _, rfl, ?_⟩,
    exRaw, ⟨.allocated, false, some 3, 0, 2, 2, true, true⟩, ![![1, 3], ![2, 4]], rfl,
    ⟨rfl, fun i j => by fin_cases i <;> fin_cases j <;> rfl⟩, _, rfl, ?_, ?_⟩
  · intro h
    have h1 := h.get (0 : Fin 2) (1 : Fin 3)
    have h2 : (Res.ok (2 : ℤ)) = .ok 3 := h1
    cases h2
  · intro h
    have h1 := h.get (0 : Fin 2) (1 : Fin 2)
    have h2 : (Res.ok (2 : ℤ)) = .ok 3 := h1
    cases h2
  · intro h
    have h1 := h.get (1 : Fin 2) (0 : Fin 2)
    have h2 : (Res.ok (2 : ℤ)) = .ok 3 := h1
    cases h2

end Examples

#print axioms vrange
#print axioms mrange
#print axioms vassign_ptr
#print axioms vassign_ptr_overlap_false
#print axioms vnew_ptr
#print axioms vnew_ptr_negative
#print axioms vcopy_via_data
#print axioms massign_raw
#print axioms mnew_ptr
#print axioms massign_data_partial
#print axioms massign_data_transpose
#print axioms massign_data_false
#print axioms mview_data
#print axioms mview_data_transpose
#print axioms vview_move_new
#print axioms vview_reset
#print axioms vrandom
#print axioms mrandom

end CML
