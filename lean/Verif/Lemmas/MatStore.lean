import Verif.Spec.MatMem
import Verif.Lemmas.OpAssign

/-! The matrix store loops as linear loops over the storage, and reads that are not disturbed by earlier
writes. -/

set_option linter.unusedSectionVars false

namespace CML

variable {E : Type} [Add E] [Sub E] [Mul E] [Div E] [Neg E]

theorem Out.loop_congr2 {σ : Type} {f g : Nat → σ → Out σ} (a b n : Nat)
    (h : ∀ k s, k < n → f (a + k) s = g (b + k) s) (s : σ) :
    Out.loop f a n s = Out.loop g b n s := by
  induction n generalizing a b s with
  | zero => rfl
  | succ n ih =>
    simp only [Out.loop]
    have h0 := h 0 s (by omega)
    rw [Nat.add_zero, Nat.add_zero] at h0
    rw [h0]
    congr 1
    funext s'
    refine ih (a + 1) (b + 1) (fun k s hk => ?_) s'
    have := h (k + 1) s (by omega)
    rw [show a + 1 + k = a + (k + 1) by omega, show b + 1 + k = b + (k + 1) by omega]
    exact this

/-- A loop nest is one loop over the pairs in lexicographic order. -/
theorem Out.loop_nest {σ : Type} (body : Nat → Nat → σ → Out σ) (lo r c : Nat) (s : σ) :
    Out.loop (fun i s => Out.loop (fun j s => body i j s) 0 c s) lo r s
      = Out.loop (fun k s => body (k / c) (k % c) s) (lo * c) (r * c) s := by
  induction r generalizing lo s with
  | zero => simp [Out.loop]
  | succ r ih =>
    rw [show (r + 1) * c = c + r * c by ring, Out.loop_add _ (lo * c) c]
    rw [Out.loop]
    have h1 : Out.loop (fun j s => body lo j s) 0 c s
        = Out.loop (fun k s => body (k / c) (k % c) s) (lo * c) c s := by
      apply Out.loop_congr2
      intro k s hk
      have e1 : (lo * c + k) / c = lo := by
        rw [Nat.mul_comm, Nat.mul_add_div (by omega), Nat.div_eq_of_lt hk, Nat.add_zero]
      have e2 : (lo * c + k) % c = k := by
        rw [Nat.mul_comm, Nat.mul_add_mod, Nat.mod_eq_of_lt hk]
      rw [e1, e2, Nat.zero_add]
    rw [h1]
    congr 1
    funext s'
    rw [ih (lo + 1) s', show (lo + 1) * c = lo * c + c by ring]

/-- Element stored at linear index `k`. -/
def MObj.unindex (m : MObj) (k : Nat) : Nat × Nat :=
  if m.colMajor then (k % m.rows, k / m.rows) else (k / m.cols, k % m.cols)

theorem MObj.unindex_lt {m : MObj} {k : Nat} (hk : k < m.rows * m.cols) :
    (m.unindex k).1 < m.rows ∧ (m.unindex k).2 < m.cols := by
  have hr : 0 < m.rows := by
    rcases Nat.eq_zero_or_pos m.rows with h | h
    · rw [h, Nat.zero_mul] at hk; omega
    · exact h
  have hc : 0 < m.cols := by
    rcases Nat.eq_zero_or_pos m.cols with h | h
    · rw [h, Nat.mul_zero] at hk; omega
    · exact h
  unfold MObj.unindex
  split
  · exact ⟨Nat.mod_lt _ hr, by rw [Nat.div_lt_iff_lt_mul hr, Nat.mul_comm]; exact hk⟩
  · exact ⟨by rw [Nat.div_lt_iff_lt_mul hc]; exact hk, Nat.mod_lt _ hc⟩

theorem MObj.index_unindex (m : MObj) (k : Nat) : m.index (m.unindex k).1 (m.unindex k).2 = k := by
  unfold MObj.index MObj.unindex
  by_cases h : m.colMajor = true
  · simp only [h, if_true]; rw [Nat.mul_comm]; exact Nat.div_add_mod k m.rows
  · simp only [h, Bool.false_eq_true, if_false]; rw [Nat.mul_comm]; exact Nat.div_add_mod k m.cols

theorem MObj.unindex_index {m : MObj} {i j : Nat} (hi : i < m.rows) (hj : j < m.cols) :
    m.unindex (m.index i j) = (i, j) := by
  unfold MObj.index MObj.unindex
  split
  · rw [Nat.mul_comm, Nat.mul_add_mod, Nat.mod_eq_of_lt hi, Nat.mul_add_div (by omega),
      Nat.div_eq_of_lt hi, Nat.add_zero]
  · rw [Nat.mul_comm, Nat.mul_add_mod, Nat.mod_eq_of_lt hj, Nat.mul_add_div (by omega),
      Nat.div_eq_of_lt hj, Nat.add_zero]

theorem mStore_linear (triv : Bool) (s : State E) {x : Nat} {d : MObj} (hx : s.mat x = some d)
    (f : State E → Nat → Nat → Res E) :
    mStore triv s x f = Out.loop (fun k s => mStep triv x f (d.unindex k).1 (d.unindex k).2 s) 0
      (d.rows * d.cols) s := by
  unfold mStore
  simp only [State.mobj, hx, Out.withVal_ok]
  by_cases h : d.colMajor = true
  · simp only [h, if_true]
    rw [Out.loop_nest (fun j i s => mStep triv x f i j s), Nat.zero_mul, Nat.mul_comm]
    apply Out.loop_congr2
    intro k s _
    simp [MObj.unindex, h]
  · simp only [h]
    rw [if_neg (by simp), Out.loop_nest (fun i j s => mStep triv x f i j s), Nat.zero_mul]
    apply Out.loop_congr2
    intro k s _
    simp [MObj.unindex, h]

omit [Add E] [Sub E] [Mul E] [Div E] [Neg E] in
theorem MObj.get_eq_ok {h : Heap E} {m : MObj} {b : Nat} (hb : m.data = some b) {i j : Nat}
    (hi : i < m.rows) (hj : j < m.cols) {e : E} :
    m.get h i j = .ok e ↔ h.cell b (m.off + m.index i j) = some (some e) := by
  unfold MObj.get
  simp only [hb, hi, hj, and_self, if_true]
  exact Heap.read_eq_ok

/-- Effect of `put(i,j,e)` on assignable storage. -/
theorem mPut_ok {triv : Bool} {s : State E} {x : Nat} {d : MObj} {b i j : Nat} {e : E}
    (hx : s.mat x = some d) (hb : d.data = some b) (hi : i < d.rows) (hj : j < d.cols)
    (hw : s.heap.Writable triv b (d.off + d.index i j)) :
    ∃ h', mPut triv s x i j e = .ok { s with heap := h' } ∧
      h'.cell b (d.off + d.index i j) = some (some e) ∧
      (∀ b' o', (b', o') ≠ (b, d.off + d.index i j) → h'.cell b' o' = s.heap.cell b' o') ∧
      (∀ b', (h'.blk b').isSome = (s.heap.blk b').isSome) ∧
      (∀ b', (h'.blk b').map List.length = (s.heap.blk b').map List.length) ∧
      h'.next = s.heap.next ∧ h'.tick = s.heap.tick ∧ h'.fail = s.heap.fail := by
  obtain ⟨h', w1, w2, w3, w4, w5, w6, w7, w8⟩ := Heap.write_ok (v := e) hw
  refine ⟨h', ?_, w2, w3, w4, w5, w6, w7, w8⟩
  simp [mPut, State.mobj, hx, MObj.put, hb, hi, hj, w1]

/-- The first `m` iterations of a loop that stores `f(i,j)` into element `(i,j)` in storage order, where in
every intermediate state the read of `f(i,j)` still yields `g` of the linear index. -/
theorem mStoreSteps_ok {triv : Bool} {s : State E} {x : Nat} {d : MObj} {b : Nat}
    (hx : s.mat x = some d) (hb : d.data = some b) (m : Nat) (hmle : m ≤ d.rows * d.cols)
    (hw : ∀ k, k < d.rows * d.cols → s.heap.Writable triv b (d.off + k))
    {f : State E → Nat → Nat → Res E} (g : Nat → E)
    (hf : ∀ i j s', i < d.rows → j < d.cols → d.index i j < m → s'.vec = s.vec → s'.mat = s.mat →
      Stored s.heap s'.heap b d.off (d.index i j) g → f s' i j = .ok (g (d.index i j))) :
    ∃ h', Out.loop (fun k s => mStep triv x f (d.unindex k).1 (d.unindex k).2 s) 0 m s
        = .ok { s with heap := h' } ∧
      Stored s.heap h' b d.off m g := by
  obtain ⟨s', h1, h2, h3, h4⟩ := Out.loop_inv (lo := 0) (n := m) (s := s)
    (body := fun k s => mStep triv x f (d.unindex k).1 (d.unindex k).2 s)
    (fun k s' => s'.vec = s.vec ∧ s'.mat = s.mat ∧ Stored s.heap s'.heap b d.off k g)
    ⟨rfl, rfl, ⟨by intro i hi; omega, fun _ _ _ => rfl, fun _ => rfl, fun _ => rfl, rfl, rfl, rfl⟩⟩
    (by
      rintro k s' - hk ⟨hv, hm, hst⟩
      have hk' : k < d.rows * d.cols := by omega
      obtain ⟨hi, hj⟩ := MObj.unindex_lt hk'
      have hidx := d.index_unindex k
      have hr := hf _ _ s' hi hj (by rw [hidx]; omega) hv hm (by rw [hidx]; exact hst)
      rw [hidx] at hr
      have hwr : s'.heap.Writable triv b (d.off + d.index (d.unindex k).1 (d.unindex k).2) := by
        rw [hidx]
        obtain ⟨c, hc, ht⟩ := hw k hk'
        exact ⟨c, by rw [hst.frame b _ (Or.inr (Or.inr (le_refl _))), hc], ht⟩
      obtain ⟨h', w1, w2, w3, w4, w5, w6, w7, w8⟩ :=
        mPut_ok (e := g k) (show s'.mat x = some d by rw [hm, hx]) hb hi hj hwr
      rw [hidx] at w2 w3
      refine ⟨{ s' with heap := h' }, ?_, hv, hm, ⟨?_, ?_, ?_, ?_, ?_, ?_, ?_⟩⟩
      · simp only [mStep, hr, Out.withVal_ok, w1]
      · intro i hi
        by_cases hik : i = k
        · subst hik; exact w2
        · rw [w3 b (d.off + i) (by simp; omega)]
          exact hst.val i (by omega)
      · intro b' o' hbo
        rw [w3 b' o' (by simp only [ne_eq, Prod.mk.injEq, not_and]; omega)]
        exact hst.frame b' o' (by omega)
      · intro b'; rw [w4, hst.live]
      · intro b'; rw [w5, hst.len]
      · rw [w6, hst.next]
      · rw [w7, hst.tick]
      · rw [w8, hst.fail])
  rw [Nat.zero_add] at h4
  refine ⟨s'.heap, ?_, h4⟩
  rw [h1]
  congr 1
  cases s'
  simp only at h2 h3
  subst h2 h3
  rfl

/-- A loop that stores `f(i,j)` into element `(i,j)`, where in every intermediate state the read of
`f(i,j)` still yields `g` of the linear index, stores all of `g`. -/
theorem mStore_ok {triv : Bool} {s : State E} {x : Nat} {d : MObj} {b : Nat}
    (hx : s.mat x = some d) (hb : d.data = some b)
    (hw : ∀ k, k < d.rows * d.cols → s.heap.Writable triv b (d.off + k))
    {f : State E → Nat → Nat → Res E} (g : Nat → E)
    (hf : ∀ i j s', i < d.rows → j < d.cols → s'.vec = s.vec → s'.mat = s.mat →
      Stored s.heap s'.heap b d.off (d.index i j) g → f s' i j = .ok (g (d.index i j))) :
    ∃ h', mStore triv s x f = .ok { s with heap := h' } ∧
      Stored s.heap h' b d.off (d.rows * d.cols) g := by
  rw [mStore_linear triv s hx]
  exact mStoreSteps_ok hx hb _ le_rfl hw g fun i j s' hi hj _ => hf i j s' hi hj

/-- The same for a finite family of values. -/
theorem mStore_fin {triv : Bool} {s : State E} {x : Nat} {d : MObj} (hx : s.mat x = some d)
    (hw : d.flat.Ready triv s.heap) (p : Fin d.rows → Fin d.cols → E)
    {f : State E → Nat → Nat → Res E}
    (hf : ∀ (b : Nat) (i : Fin d.rows) (j : Fin d.cols) (s' : State E) (g : Nat → E),
      d.data = some b → s'.vec = s.vec → s'.mat = s.mat →
      Stored s.heap s'.heap b d.off (d.index i j) g →
      (∀ (i' : Fin d.rows) (j' : Fin d.cols), g (d.index i' j') = p i' j') → f s' i j = .ok (p i j)) :
    ∃ h', mStore triv s x f = .ok { s with heap := h' } ∧
      (∀ (i : Fin d.rows) (j : Fin d.cols), d.get h' i j = .ok (p i j)) ∧ SameOutside d.flat s.heap h' ∧
      h'.next = s.heap.next ∧ h'.tick = s.heap.tick ∧ h'.fail = s.heap.fail ∧
      (∀ b, (h'.blk b).map List.length = (s.heap.blk b).map List.length) := by
  by_cases h0 : 0 < d.rows * d.cols
  · obtain ⟨hr0, hc0⟩ := MObj.unindex_lt h0
    have hr : 0 < d.rows := by omega
    have hc : 0 < d.cols := by omega
    let g : Nat → E := fun k => if h : k < d.rows * d.cols then
      p ⟨(d.unindex k).1, (MObj.unindex_lt h).1⟩ ⟨(d.unindex k).2, (MObj.unindex_lt h).2⟩
      else p ⟨0, hr⟩ ⟨0, hc⟩
    have hg : ∀ (i : Fin d.rows) (j : Fin d.cols), g (d.index i j) = p i j := by
      intro i j
      have h := MObj.index_lt i.2 j.2
      have h2 := MObj.unindex_index i.2 j.2
      simp only [g, dif_pos h]
      congr 1 <;> (apply Fin.ext; simp [h2])
    obtain ⟨b, hb, -⟩ := hw 0 h0
    obtain ⟨h', e1, e2⟩ := mStore_ok hx hb
      (fun k hk => by
        obtain ⟨b', hb', hw'⟩ := hw k hk
        have hb'' : d.data = some b' := hb'
        rw [show d.flat.off = d.off from rfl] at hw'
        rw [show d.data = some b from hb] at hb''; cases hb''; exact hw') (f := f) g
      (fun i j s' hi hj hv hm hst => by
        have := hf b ⟨i, hi⟩ ⟨j, hj⟩ s' g hb hv hm hst hg
        rw [← hg] at this; exact this)
    refine ⟨h', e1, ?_, ?_, e2.next, e2.tick, e2.fail, e2.len⟩
    · intro i j
      rw [MObj.get_eq_ok hb i.2 j.2, e2.val _ (MObj.index_lt i.2 j.2), hg]
    · intro b' o hbo
      apply e2.frame
      by_contra hcon
      apply hbo
      push Not at hcon
      obtain ⟨rfl, h1, h2⟩ := hcon
      exact ⟨hb, h1, h2⟩
  · have hz : d.rows * d.cols = 0 := by omega
    refine ⟨s.heap, ?_, ?_, fun _ _ _ => rfl, rfl, rfl, rfl, fun _ => rfl⟩
    · rw [mStore_linear triv s hx, hz]; rfl
    · intro i j
      have := MObj.index_lt i.2 j.2
      omega

theorem MNode.get_ahead {s s' : State E} {PA PV PM : Nat → Prop} {i j : Nat}
    (hA : ∀ y, PA y → ∀ v, (MNode.var y : MNode E).get s i j = .ok v → (MNode.var y : MNode E).get s' i j = .ok v)
    (hV : ∀ y, PV y → ∀ j v, (VNode.var y : VNode E).get s j = .ok v → (VNode.var y : VNode E).get s' j = .ok v)
    (hM : ∀ y, PM y → ∀ i j v, (MNode.var y : MNode E).get s i j = .ok v → (MNode.var y : MNode E).get s' i j = .ok v) :
    ∀ n : MNode E, n.Ahead PA PV PM → ∀ v, n.get s i j = .ok v → n.get s' i j = .ok v
  | .var y, hl, v, h => hA y hl v h
  | .temp t, _, v, h => by simpa [MNode.get] using h
  | .bin o a b, hl, v, h => by
    simp only [MNode.Ahead] at hl
    simp only [MNode.get] at h ⊢
    obtain ⟨p, hp, h⟩ := Res.bind_ok h
    obtain ⟨q, hq, h⟩ := Res.bind_ok h
    simp [MNode.get_ahead hA hV hM a hl.1 p hp, MNode.get_ahead hA hV hM b hl.2 q hq] at h ⊢
    exact h
  | .scal o a c, hl, v, h => by
    simp only [MNode.Ahead] at hl
    simp only [MNode.get] at h ⊢
    obtain ⟨p, hp, h⟩ := Res.bind_ok h
    simp [MNode.get_ahead hA hV hM a hl p hp] at h ⊢
    exact h
  | .neg a, hl, v, h => by
    simp only [MNode.Ahead] at hl
    simp only [MNode.get] at h ⊢
    obtain ⟨p, hp, h⟩ := Res.bind_ok h
    simp [MNode.get_ahead hA hV hM a hl p hp] at h ⊢
    exact h
  | .transpose a, hl, v, h => by
    simp only [MNode.Ahead] at hl
    exact MNode.get_mono hV hM (.transpose a) (by simpa [MNode.Leaves] using hl) i j v h
  | .outer a b, hl, v, h => by
    simp only [MNode.Ahead] at hl
    exact MNode.get_mono hV hM (.outer a b) (by simpa [MNode.Leaves] using hl) i j v h

theorem MExpr.build_ahead {s : State E} {PA PV PM : Nat → Prop} : ∀ (e : MExpr E) (n : MNode E),
    e.build s = .ok n → e.Ahead PA PV PM → n.Ahead PA PV PM
  | .var y, n, h, hl => by
    simp only [MExpr.build, Res.pure_eq, Res.ok.injEq] at h; subst h; exact hl
  | .temp t, n, h, hl => by
    simp only [MExpr.build, Res.pure_eq, Res.ok.injEq] at h; subst h; simp [MNode.Ahead]
  | .bin o a b, n, h, hl => by
    simp only [MExpr.build] at h
    obtain ⟨x, hx, h⟩ := Res.bind_ok h
    obtain ⟨y, hy, h⟩ := Res.bind_ok h
    obtain ⟨_, _, h⟩ := Res.bind_ok h
    simp only [Res.pure_eq, Res.ok.injEq] at h; subst h
    exact ⟨MExpr.build_ahead a x hx hl.1, MExpr.build_ahead b y hy hl.2⟩
  | .scal o a c, n, h, hl => by
    simp only [MExpr.build] at h
    obtain ⟨x, hx, h⟩ := Res.bind_ok h
    simp only [Res.pure_eq, Res.ok.injEq] at h; subst h
    exact MExpr.build_ahead a x hx hl
  | .neg a, n, h, hl => by
    simp only [MExpr.build] at h
    obtain ⟨x, hx, h⟩ := Res.bind_ok h
    simp only [Res.pure_eq, Res.ok.injEq] at h; subst h
    exact MExpr.build_ahead a x hx hl
  | .transpose a, n, h, hl => by
    simp only [MExpr.build] at h
    obtain ⟨x, hx, h⟩ := Res.bind_ok h
    simp only [Res.pure_eq, Res.ok.injEq] at h; subst h
    exact MExpr.build_leaves a x hx hl
  | .outer a b, n, h, hl => by
    simp only [MExpr.build] at h
    obtain ⟨x, hx, h⟩ := Res.bind_ok h
    obtain ⟨y, hy, h⟩ := Res.bind_ok h
    simp only [Res.pure_eq, Res.ok.injEq] at h; subst h
    exact ⟨VExpr.build_leaves a x hx hl.1, VExpr.build_leaves b y hy hl.2⟩
  | .mul a b, n, h, _ => by
    simp only [MExpr.build] at h
    obtain ⟨x, hx, h⟩ := Res.bind_ok h
    obtain ⟨y, hy, h⟩ := Res.bind_ok h
    obtain ⟨t, _, h⟩ := Res.bind_ok h
    simp only [Res.pure_eq, Res.ok.injEq] at h; subst h; simp [MNode.Ahead]

section Stored
variable {s s' : State E} {d : MObj} {b : Nat} {g : Nat → E}

theorem MObj.index_congr {w d : MObj} (h1 : w.colMajor = d.colMajor) (h2 : w.rows = d.rows)
    (h3 : w.cols = d.cols) (i j : Nat) : w.index i j = d.index i j := by
  simp [MObj.index, h1, h2, h3]

theorem mvar_get_ahead (hm : s'.mat = s.mat) (hb : d.data = some b) {i j : Nat}
    (hst : Stored s.heap s'.heap b d.off (d.index i j) g) (hi : i < d.rows) (hj : j < d.cols) {y : Nat}
    (hy : MAhead s d y) {v : E}
    (h : (MNode.var y : MNode E).get s i j = .ok v) : (MNode.var y : MNode E).get s' i j = .ok v := by
  rw [MNode.var_get] at h ⊢
  obtain ⟨w, b', h1, h2, h3, h3', h4⟩ := h
  refine ⟨w, b', by rw [hm, h1], h2, h3, h3', ?_⟩
  rw [hst.frame, h4]
  have hlt := MObj.index_lt hi hj
  have hlt' := MObj.index_lt h3 h3'
  rcases hy w h1 with (h | h | h) | ⟨h5, h6, h7, h8, h9⟩
  · left; rintro rfl; exact h (by rw [h2]; exact hb.symm)
  · have h' : w.off + w.rows * w.cols ≤ d.off := h
    omega
  · have h' : d.off + d.rows * d.cols ≤ w.off := h
    omega
  · rw [MObj.index_congr h7 h8 h9]
    omega

end Stored

theorem mCheckOrResize_same {triv : Bool} {s : State E} {x : Nat} {d : MObj} {e : MNode E} {f : Bool}
    (hx : s.mat x = some d) (hs : e.dims s = .ok ((d.rows : Int), (d.cols : Int)))
    (hf : e.Typed s f ((d.rows : Int), (d.cols : Int))) : mCheckOrResize triv s x e = .ok s := by
  unfold mCheckOrResize
  simp only [State.mobj, hx, Out.withVal_ok]
  have h1 : (MNode.var x : MNode E).Typed s d.fixed ((d.rows : Int), (d.cols : Int)) := typed_mat hx
  have h2 : (MNode.var x : MNode E).dims s = .ok ((d.rows : Int), (d.cols : Int)) := by
    simp [MNode.dims, State.mobj, hx]
  have h0 : s.setMat x (some d) = s := by
    cases s
    simp only [State.setMat, State.mk.injEq, true_and]
    funext y
    by_cases hy : y = x
    · simp only at hx; simp [hy, hx]
    · simp [hy]
  have hr : ¬ ((d.rows : Int) < 0) := by omega
  have hc : ¬ ((d.cols : Int) < 0) := by omega
  cases d.storage with
  | allocated =>
    simp only [hs, Out.withVal_ok, mResize, mResizeWith, State.mobj, hx, if_neg hr, if_neg hc,
      Int.toNat_natCast, if_true, h0]
  | compiled => simp [checkSameDims_eq h1 hf h2 hs]
  | external =>
    dsimp only
    split
    · simp [checkSameDims_eq h1 hf h2 hs]
    · simp only [hs, Out.withVal_ok, mReshape, State.mobj, hx, if_neg hr, if_neg hc,
        Int.toNat_natCast, if_true, h0]

/-- A stored matrix is ready for element assignment. -/
theorem mready_after {triv : Bool} {s : State E} {h' : Heap E} {x : Nat} {d : MObj}
    (hx : s.mat x = some d) {p : Fin d.rows → Fin d.cols → E}
    (hp : MRep { s with heap := h' } (.var x) ⟨d.rows, d.cols, p⟩) : d.flat.Ready triv h' := by
  intro k hk
  have hk' : k < d.rows * d.cols := hk
  obtain ⟨hi, hj⟩ := MObj.unindex_lt hk'
  have := hp.get ⟨_, hi⟩ ⟨_, hj⟩
  rw [MNode.var_get] at this
  obtain ⟨w, b, h1, h2, h3, h3', h4⟩ := this
  have h1' : s.mat x = some w := h1
  rw [hx] at h1'; cases h1'
  rw [MObj.index_unindex] at h4
  exact ⟨b, h2, _, h4, Or.inr rfl⟩

end CML
