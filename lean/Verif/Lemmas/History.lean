import Verif.Spec.History
import Verif.Lemmas.Resize
import Verif.Lemmas.MatAccess

/-! Preservation of the ownership condition by every statement. -/

namespace CML

set_option linter.unusedSectionVars false

/-- Postcondition of a statement: `P` for normal termination, `Q` for an exception. -/
def Out.Post {σ : Type u} (P Q : σ → Prop) : Out σ → Prop
  | .ok s => P s
  | .throw _ s => Q s
  | .ub _ => True

section Post
variable {σ : Type u} {P P' Q Q' : σ → Prop}

theorem Out.Post.andThen {o : Out σ} {f : σ → Out σ} (h : o.Post P' Q) (hf : ∀ s, P' s → (f s).Post P Q) :
    (o.andThen f).Post P Q := by
  cases o with
  | ok s => exact hf s h
  | throw e s => exact h
  | ub u => trivial

theorem Out.Post.withVal {α : Type v} {r : Res α} {s : σ} {f : α → Out σ}
    (hf : ∀ a, r = .ok a → (f a).Post P Q) (ht : ∀ e, r = .throw e → Q s) :
    (Out.withVal r s f).Post P Q := by
  cases r with
  | ok a => exact hf a rfl
  | throw e => exact ht e rfl
  | ub u => trivial

theorem Out.Post.mono {o : Out σ} (h : o.Post P Q) (hp : ∀ s, P s → P' s) (hq : ∀ s, Q s → Q' s) :
    o.Post P' Q' := by
  cases o with
  | ok s => exact hp s h
  | throw e s => exact hq s h
  | ub u => trivial

theorem Out.Post.loop {body : Nat → σ → Out σ} (hb : ∀ k s, P s → (body k s).Post P Q) {lo n : Nat} {s : σ}
    (h : P s) : (Out.loop body lo n s).Post P Q := by
  induction n generalizing lo s with
  | zero => exact h
  | succ n ih => exact (hb lo s h).andThen fun s' h' => ih h'

end Post

section Owner
variable {E : Type}

theorem State.owner_setVec (s : State E) (x : Nat) (v : Option VObj) :
    (s.setVec x v).owner = Function.update s.owner (.inl x) v := by
  funext k
  cases k with
  | inl y =>
    by_cases h : y = x
    · subst h; simp [State.owner, State.setVec]
    · simp [State.owner, State.setVec, h]
  | inr y => simp [State.owner, State.setVec]

theorem State.owner_setMat (s : State E) (x : Nat) (m : Option MObj) :
    (s.setMat x m).owner = Function.update s.owner (.inr x) (m.map MObj.flat) := by
  funext k
  cases k with
  | inl y => simp [State.owner, State.setMat]
  | inr y =>
    by_cases h : y = x
    · subst h; simp [State.owner, State.setMat]
    · simp [State.owner, State.setMat, h]

@[simp] theorem State.setVec_heap (s : State E) (x : Nat) (v : Option VObj) : (s.setVec x v).heap = s.heap :=
  rfl
@[simp] theorem State.setMat_heap (s : State E) (x : Nat) (v : Option MObj) : (s.setMat x v).heap = s.heap :=
  rfl
@[simp] theorem State.owner_heap (s : State E) (h : Heap E) : ({ s with heap := h } : State E).owner = s.owner := by
  funext k; cases k <;> rfl

theorem VObj.Owned.congr {h h' : Heap E} {v : VObj} (ho : v.Owned h)
    (hl : ∀ b, v.data = some b → (h'.blk b).map List.length = (h.blk b).map List.length) : v.Owned h' := by
  rcases ho with ho | ⟨b, l, e1, e2, e3⟩
  · exact Or.inl ho
  · have := hl b e1
    rw [e2] at this
    cases h3 : h'.blk b with
    | none => rw [h3] at this; cases this
    | some l' =>
      rw [h3] at this
      exact Or.inr ⟨b, l', e1, h3, by simpa [e3] using this⟩

/-- A change of the contents of blocks keeps the ownership condition. -/
theorem InvH.content {h h' : Heap E} {ow : Nat ⊕ Nat → Option VObj} (I : InvH h ow)
    (hl : ∀ b, (h'.blk b).map List.length = (h.blk b).map List.length) (hn : h.next ≤ h'.next) :
    InvH h' ow := by
  have hnone : ∀ b, h.blk b = none → h'.blk b = none := by
    intro b hb
    have := hl b
    rw [hb] at this
    simpa using this
  refine ⟨fun b hb => hnone b (I.fresh b (by omega)), fun k v hv => ?_, I.excl, fun b l hb => ?_⟩
  · obtain ⟨a1, a2, a3, a4⟩ := I.own k v hv
    exact ⟨a1, a2, a3, a4.congr fun b _ => hl b⟩
  · cases h0 : h.blk b with
    | none => rw [hnone b h0] at hb; cases hb
    | some l0 => exact I.noLeak b l0 h0

/-- The array of variable `k` is replaced by a new block; the old one is released. -/
theorem InvH.replace {h h' : Heap E} {ow : Nat ⊕ Nat → Option VObj} (I : InvH h ow) {k : Nat ⊕ Nat}
    {v v' : VObj} (hv : ow k = some v) (hv' : v' = { v with data := some h.next, size := v'.size })
    {l' : List (Option E)} (hb : h'.blk h.next = some l') (hlen : l'.length = v'.size)
    (ho : ∀ b, b ≠ h.next → some b ≠ v.data → h'.blk b = h.blk b)
    (hd : ∀ b, some b = v.data → h'.blk b = none) (hn : h'.next = h.next + 1) :
    InvH h' (Function.update ow k (some v')) := by
  have hdata : ∀ k' w b, ow k' = some w → w.data = some b → b ≠ h.next := by
    rintro k' w b hw hwb rfl
    obtain ⟨-, -, -, a4⟩ := I.own k' w hw
    rcases a4 with ⟨e, -⟩ | ⟨b', l, e1, e2, -⟩
    · rw [hwb] at e; cases e
    · rw [hwb] at e1; cases e1
      rw [I.fresh _ (le_refl _)] at e2; cases e2
  refine ⟨?_, ?_, ?_, ?_⟩
  · intro b hb'
    by_cases hbv : some b = v.data
    · exact hd b hbv
    · rw [ho b (by omega) hbv]; exact I.fresh b (by omega)
  · intro k' w hw
    by_cases hk : k' = k
    · subst hk
      simp only [Function.update_self, Option.some.injEq] at hw
      subst hw
      obtain ⟨a1, a2, a3, -⟩ := I.own k' v hv
      rw [hv']
      exact ⟨a1, a2, a3, Or.inr ⟨h.next, l', rfl, hb, hlen⟩⟩
    · rw [Function.update_of_ne hk] at hw
      obtain ⟨a1, a2, a3, a4⟩ := I.own k' w hw
      refine ⟨a1, a2, a3, a4.congr fun b hwb => ?_⟩
      rw [ho b (hdata k' w b hw hwb)]
      intro hbv
      exact hk (I.excl k' k w v b hw hv hwb hbv.symm)
  · intro k1 k2 v1 v2 b h1 h2 d1 d2
    by_cases e1 : k1 = k <;> by_cases e2 : k2 = k
    · rw [e1, e2]
    · subst e1
      simp only [Function.update_self, Option.some.injEq] at h1
      subst h1
      rw [Function.update_of_ne e2] at h2
      rw [hv'] at d1
      simp only [Option.some.injEq] at d1
      exact absurd d1.symm (hdata k2 v2 b h2 d2)
    · subst e2
      simp only [Function.update_self, Option.some.injEq] at h2
      subst h2
      rw [Function.update_of_ne e1] at h1
      rw [hv'] at d2
      simp only [Option.some.injEq] at d2
      exact absurd d2.symm (hdata k1 v1 b h1 d1)
    · rw [Function.update_of_ne e1] at h1
      rw [Function.update_of_ne e2] at h2
      exact I.excl k1 k2 v1 v2 b h1 h2 d1 d2
  · intro b l hbl
    by_cases hbn : b = h.next
    · subst hbn
      exact ⟨k, v', by simp, by rw [hv']⟩
    · by_cases hbv : some b = v.data
      · rw [hd b hbv] at hbl; cases hbl
      · rw [ho b hbn hbv] at hbl
        obtain ⟨k', w, hw, hwb⟩ := I.noLeak b l hbl
        have hk : k' ≠ k := by
          rintro rfl
          rw [hv] at hw; cases hw
          exact hbv hwb.symm
        exact ⟨k', w, by rw [Function.update_of_ne hk]; exact hw, hwb⟩

/-- A variable comes into existence without an array. -/
theorem InvH.create {h : Heap E} {ow : Nat ⊕ Nat → Option VObj} (I : InvH h ow) {k : Nat ⊕ Nat}
    (hk : ow k = none) : InvH h (Function.update ow k (some ⟨.allocated, false, none, 0, 0⟩)) := by
  refine ⟨I.fresh, ?_, ?_, ?_⟩
  · intro k' w hw
    by_cases e : k' = k
    · subst e
      simp only [Function.update_self, Option.some.injEq] at hw
      subst hw
      exact ⟨rfl, rfl, rfl, Or.inl ⟨rfl, rfl⟩⟩
    · rw [Function.update_of_ne e] at hw
      exact I.own k' w hw
  · intro k1 k2 v1 v2 b h1 h2 d1 d2
    by_cases e1 : k1 = k
    · subst e1
      simp only [Function.update_self, Option.some.injEq] at h1
      subst h1
      cases d1
    · by_cases e2 : k2 = k
      · subst e2
        simp only [Function.update_self, Option.some.injEq] at h2
        subst h2
        cases d2
      · rw [Function.update_of_ne e1] at h1
        rw [Function.update_of_ne e2] at h2
        exact I.excl k1 k2 v1 v2 b h1 h2 d1 d2
  · intro b l hb
    obtain ⟨k', w, hw, hwb⟩ := I.noLeak b l hb
    have : k' ≠ k := by rintro rfl; rw [hk] at hw; cases hw
    exact ⟨k', w, by rw [Function.update_of_ne this]; exact hw, hwb⟩

/-- A variable disappears; its array, if any, is released. -/
theorem InvH.drop {h h' : Heap E} {ow : Nat ⊕ Nat → Option VObj} (I : InvH h ow) {k : Nat ⊕ Nat}
    {v : VObj} (hv : ow k = some v) (ho : ∀ b, some b ≠ v.data → h'.blk b = h.blk b)
    (hd : ∀ b, some b = v.data → h'.blk b = none) (hn : h.next ≤ h'.next) :
    InvH h' (Function.update ow k none) := by
  refine ⟨?_, ?_, ?_, ?_⟩
  · intro b hb
    by_cases hbv : some b = v.data
    · exact hd b hbv
    · rw [ho b hbv]; exact I.fresh b (by omega)
  · intro k' w hw
    by_cases hk : k' = k
    · subst hk; simp at hw
    · rw [Function.update_of_ne hk] at hw
      obtain ⟨a1, a2, a3, a4⟩ := I.own k' w hw
      refine ⟨a1, a2, a3, a4.congr fun b hwb => ?_⟩
      rw [ho b]
      intro hbv
      exact hk (I.excl k' k w v b hw hv hwb hbv.symm)
  · intro k1 k2 v1 v2 b h1 h2 d1 d2
    have e1 : k1 ≠ k := by rintro rfl; simp at h1
    have e2 : k2 ≠ k := by rintro rfl; simp at h2
    rw [Function.update_of_ne e1] at h1
    rw [Function.update_of_ne e2] at h2
    exact I.excl k1 k2 v1 v2 b h1 h2 d1 d2
  · intro b l hbl
    by_cases hbv : some b = v.data
    · rw [hd b hbv] at hbl; cases hbl
    · rw [ho b hbv] at hbl
      obtain ⟨k', w, hw, hwb⟩ := I.noLeak b l hbl
      have hk : k' ≠ k := by
        rintro rfl
        rw [hv] at hw; cases hw
        exact hbv hwb.symm
      exact ⟨k', w, by rw [Function.update_of_ne hk]; exact hw, hwb⟩

/-- Two variables exchange their arrays. -/
theorem InvH.swap {h : Heap E} {ow : Nat ⊕ Nat → Option VObj} (I : InvH h ow) {k k' : Nat ⊕ Nat}
    {v w : VObj} (hv : ow k = some v) (hw : ow k' = some w) :
    InvH h (Function.update (Function.update ow k (some { v with data := w.data, size := w.size })) k'
      (some { w with data := v.data, size := v.size })) := by
  -- the new owner function is the old one with the names exchanged
  obtain ⟨a1, a2, a3, a4⟩ := I.own k v hv
  obtain ⟨b1, b2, b3, b4⟩ := I.own k' w hw
  have e1 : ({ v with data := w.data, size := w.size } : VObj) = w := by
    cases v; cases w; simp_all
  have e2 : ({ w with data := v.data, size := v.size } : VObj) = v := by
    cases v; cases w; simp_all
  rw [e1, e2]
  have hsw : Function.update (Function.update ow k (some w)) k' (some v) = fun i => ow (Equiv.swap k k' i) := by
    funext i
    by_cases h1 : i = k'
    · subst h1; simp [Equiv.swap_apply_right, hv]
    · by_cases h2 : i = k
      · subst h2; simp [Function.update_of_ne h1, Equiv.swap_apply_left, hw]
      · simp [Function.update_of_ne h1, Function.update_of_ne h2, Equiv.swap_apply_of_ne_of_ne h2 h1]
  rw [hsw]
  refine ⟨I.fresh, fun i u hu => I.own _ u hu, ?_, ?_⟩
  · intro i j u u' b hu hu' d d'
    exact (Equiv.swap k k').injective (I.excl _ _ u u' b hu hu' d d')
  · intro b l hb
    obtain ⟨i, u, hu, hub⟩ := I.noLeak b l hb
    exact ⟨Equiv.swap k k' i, u, by simpa using hu, hub⟩

end Owner

section Reads
variable {E : Type} [Add E] [Sub E] [Mul E] [Div E] [Neg E]

/-- The outcome is not an exception. -/
def Res.NoThrow {α : Type u} (r : Res α) : Prop := ∀ e, r ≠ .throw e

theorem Res.NoThrow.ok {α : Type u} (a : α) : (Res.ok a).NoThrow := fun _ h => by cases h
theorem Res.NoThrow.ub {α : Type u} (u : UB) : (Res.ub u : Res α).NoThrow := fun _ h => by cases h
theorem Res.NoThrow.bind {α β : Type u} {r : Res α} {f : α → Res β} (h : r.NoThrow)
    (hf : ∀ a, (f a).NoThrow) : (r >>= f).NoThrow := by
  cases r with
  | ok a => exact hf a
  | throw e => exact absurd rfl (h e)
  | ub u => exact .ub u

theorem State.vobj_noThrow (s : State E) (x : Nat) : (s.vobj x).NoThrow := by
  unfold State.vobj; split
  · exact .ok _
  · exact .ub _

theorem State.mobj_noThrow (s : State E) (x : Nat) : (s.mobj x).NoThrow := by
  unfold State.mobj; split
  · exact .ok _
  · exact .ub _

theorem Heap.read_noThrow (h : Heap E) (b o : Nat) : (h.read b o).NoThrow := by
  unfold Heap.read; split
  · exact .ub _
  · split
    · exact .ub _
    · exact .ub _
    · exact .ok _

theorem VObj.get_noThrow (h : Heap E) (v : VObj) (i : Nat) : (v.get h i).NoThrow := by
  unfold VObj.get; split
  · exact .ub _
  · split
    · exact Heap.read_noThrow _ _ _
    · exact .ub _

theorem MObj.get_noThrow (h : Heap E) (m : MObj) (i j : Nat) : (m.get h i j).NoThrow := by
  unfold MObj.get; split
  · exact .ub _
  · split
    · exact Heap.read_noThrow _ _ _
    · exact .ub _

mutual
theorem VNode.size_noThrow (s : State E) : ∀ n : VNode E, (n.size s).NoThrow
  | .var x => by unfold VNode.size; exact (s.vobj_noThrow x).bind fun _ => .ok _
  | .temp _ _ => by unfold VNode.size; exact .ok _
  | .bin _ a _ => by unfold VNode.size; exact a.size_noThrow s
  | .scal _ a _ => by unfold VNode.size; exact a.size_noThrow s
  | .neg a => by unfold VNode.size; exact a.size_noThrow s
  | .cross _ _ => by unfold VNode.size; exact .ok _
  | .sub a _ => by unfold VNode.size; exact (a.size_noThrow s).bind fun _ => .ok _
  | .row m _ => by unfold VNode.size; exact (m.dims_noThrow s).bind fun _ => .ok _
  | .col m _ => by unfold VNode.size; exact (m.dims_noThrow s).bind fun _ => .ok _
theorem MNode.dims_noThrow (s : State E) : ∀ n : MNode E, (n.dims s).NoThrow
  | .var x => by unfold MNode.dims; exact (s.mobj_noThrow x).bind fun _ => .ok _
  | .temp _ => by unfold MNode.dims; exact .ok _
  | .bin _ a _ => by unfold MNode.dims; exact a.dims_noThrow s
  | .scal _ a _ => by unfold MNode.dims; exact a.dims_noThrow s
  | .neg a => by unfold MNode.dims; exact a.dims_noThrow s
  | .transpose a => by unfold MNode.dims; exact (a.dims_noThrow s).bind fun _ => .ok _
  | .outer a b => by
    unfold MNode.dims
    exact (a.size_noThrow s).bind fun _ => (b.size_noThrow s).bind fun _ => .ok _
end

mutual
theorem VNode.get_noThrow (s : State E) : ∀ (n : VNode E) (i : Nat), (n.get s i).NoThrow
  | .var x, i => by unfold VNode.get; exact (s.vobj_noThrow x).bind fun v => v.get_noThrow _ i
  | .temp _ xs, i => by
    unfold VNode.get
    split
    · exact .ok _
    · exact .ub _
  | .bin _ a b, i => by
    unfold VNode.get
    exact (a.get_noThrow s i).bind fun _ => (b.get_noThrow s i).bind fun _ => .ok _
  | .scal _ a _, i => by unfold VNode.get; exact (a.get_noThrow s i).bind fun _ => .ok _
  | .neg a, i => by unfold VNode.get; exact (a.get_noThrow s i).bind fun _ => .ok _
  | .cross a b, i => by
    unfold VNode.get
    exact (a.get_noThrow s _).bind fun _ => (b.get_noThrow s _).bind fun _ =>
      (a.get_noThrow s _).bind fun _ => (b.get_noThrow s _).bind fun _ => .ok _
  | .sub a _, i => by unfold VNode.get; exact a.get_noThrow s _
  | .row m _, i => by unfold VNode.get; exact m.get_noThrow s _ _
  | .col m _, i => by unfold VNode.get; exact m.get_noThrow s _ _
theorem MNode.get_noThrow (s : State E) : ∀ (n : MNode E) (i j : Nat), (n.get s i j).NoThrow
  | .var x, i, j => by unfold MNode.get; exact (s.mobj_noThrow x).bind fun v => v.get_noThrow _ i j
  | .temp t, i, j => by
    unfold MNode.get MTemp.get
    split
    · split
      · exact .ok _
      · exact .ub _
    · exact .ub _
  | .bin _ a b, i, j => by
    unfold MNode.get
    exact (a.get_noThrow s i j).bind fun _ => (b.get_noThrow s i j).bind fun _ => .ok _
  | .scal _ a _, i, j => by unfold MNode.get; exact (a.get_noThrow s i j).bind fun _ => .ok _
  | .neg a, i, j => by unfold MNode.get; exact (a.get_noThrow s i j).bind fun _ => .ok _
  | .transpose a, i, j => by unfold MNode.get; exact a.get_noThrow s j i
  | .outer a b, i, j => by
    unfold MNode.get
    exact (a.get_noThrow s _).bind fun _ => (b.get_noThrow s _).bind fun _ => .ok _
end

theorem Heap.write_noThrow (triv : Bool) (h : Heap E) (b o : Nat) (e : E) : (h.write triv b o e).NoThrow := by
  unfold Heap.write; split
  · exact .ub _
  · split
    · exact .ub _
    · split
      · exact .ok _
      · exact .ub _

theorem VObj.put_noThrow (triv : Bool) (h : Heap E) (v : VObj) (i : Nat) (e : E) :
    (v.put triv h i e).NoThrow := by
  unfold VObj.put; split
  · exact .ub _
  · split
    · exact Heap.write_noThrow _ _ _ _ _
    · exact .ub _

theorem MObj.put_noThrow (triv : Bool) (h : Heap E) (m : MObj) (i j : Nat) (e : E) :
    (m.put triv h i j e).NoThrow := by
  unfold MObj.put; split
  · exact .ub _
  · split
    · exact Heap.write_noThrow _ _ _ _ _
    · exact .ub _

end Reads

section Content
variable {E : Type} [Add E] [Sub E] [Mul E] [Div E] [Neg E]

/-- Only the contents of memory blocks differ. -/
structure Content (s s' : State E) : Prop where
  vec : s'.vec = s.vec
  mat : s'.mat = s.mat
  len : ∀ b, (s'.heap.blk b).map List.length = (s.heap.blk b).map List.length
  next : s'.heap.next = s.heap.next
  tick : s'.heap.tick = s.heap.tick
  fail : s'.heap.fail = s.heap.fail

theorem Content.refl (s : State E) : Content s s := ⟨rfl, rfl, fun _ => rfl, rfl, rfl, rfl⟩

theorem Content.trans {s s' s'' : State E} (h : Content s s') (h' : Content s' s'') : Content s s'' :=
  ⟨h'.vec.trans h.vec, h'.mat.trans h.mat, fun b => (h'.len b).trans (h.len b), h'.next.trans h.next,
    h'.tick.trans h.tick, h'.fail.trans h.fail⟩

theorem Content.inv {s s' : State E} (h : Content s s') (I : Inv s) : Inv s' := by
  have ho : s'.owner = s.owner := by
    funext k; cases k with
    | inl x => simp [State.owner, h.vec]
    | inr x => simp [State.owner, h.mat]
  unfold Inv
  rw [ho]
  exact InvH.content I h.len (le_of_eq h.next.symm)

theorem Heap.write_content {triv : Bool} {h h' : Heap E} {b o : Nat} {e : E}
    (hw : h.write triv b o e = .ok h') : (∀ b, (h'.blk b).map List.length = (h.blk b).map List.length) ∧
      h'.next = h.next ∧ h'.tick = h.tick ∧ h'.fail = h.fail := by
  unfold Heap.write at hw
  cases hb : h.blk b with
  | none => simp [hb] at hw
  | some l =>
    simp only [hb] at hw
    cases hc : l[o]? with
    | none => simp [hc] at hw
    | some c =>
      simp only [hc] at hw
      split at hw
      · simp only [Res.ok.injEq] at hw
        subst hw
        refine ⟨fun b' => ?_, rfl, rfl, rfl⟩
        by_cases e : b' = b
        · subst e; simp [Heap.setBlk, hb]
        · simp [Heap.setBlk, e]
      · cases hw

/-- A statement that only writes elements, and never throws. -/
abbrev Out.Quiet (s : State E) (o : Out (State E)) : Prop := o.Post (Content s) (fun _ => False)

theorem vPut_quiet (triv : Bool) (s0 s : State E) (hs : Content s0 s) (x i : Nat) (e : E) :
    (vPut triv s x i e).Quiet s0 := by
  unfold vPut
  refine .withVal (fun v _ => .withVal (fun h' hh => ?_) fun e he => VObj.put_noThrow _ _ _ _ _ e he)
    fun e he => s.vobj_noThrow x e he
  refine hs.trans ?_
  unfold VObj.put at hh
  split at hh
  · cases hh
  · split at hh
    · obtain ⟨a, b, c, d⟩ := Heap.write_content hh
      exact ⟨rfl, rfl, a, b, c, d⟩
    · cases hh

theorem mPut_quiet (triv : Bool) (s0 s : State E) (hs : Content s0 s) (x i j : Nat) (e : E) :
    (mPut triv s x i j e).Quiet s0 := by
  unfold mPut
  refine .withVal (fun v _ => .withVal (fun h' hh => ?_) fun e he => MObj.put_noThrow _ _ _ _ _ _ e he)
    fun e he => s.mobj_noThrow x e he
  refine hs.trans ?_
  unfold MObj.put at hh
  split at hh
  · cases hh
  · split at hh
    · obtain ⟨a, b, c, d⟩ := Heap.write_content hh
      exact ⟨rfl, rfl, a, b, c, d⟩
    · cases hh

theorem storeLoop_quiet {triv : Bool} {s0 s : State E} (hs : Content s0 s) {x : Nat}
    {f : State E → Nat → Res E} (hf : ∀ s i, (f s i).NoThrow) : (storeLoop triv s x f).Quiet s0 := by
  unfold storeLoop
  refine .withVal (fun v _ => .loop (fun k s' h' => ?_) hs) fun e he => s.vobj_noThrow x e he
  exact .withVal (fun a _ => vPut_quiet triv s0 s' h' x k a) fun e he => hf s' k e he

theorem mStore_quiet {triv : Bool} {s0 s : State E} (hs : Content s0 s) {x : Nat}
    {f : State E → Nat → Nat → Res E} (hf : ∀ s i j, (f s i j).NoThrow) : (mStore triv s x f).Quiet s0 := by
  unfold mStore
  refine .withVal (fun v _ => ?_) fun e he => s.mobj_noThrow x e he
  have hst : ∀ i j s', Content s0 s' → (mStep triv x f i j s').Quiet s0 := fun i j s' h' =>
    .withVal (fun a _ => mPut_quiet triv s0 s' h' x i j a) fun e he => hf s' i j e he
  split
  · exact .loop (fun j s' h' => .loop (fun i s'' h'' => hst i j s'' h'') h') hs
  · exact .loop (fun i s' h' => .loop (fun j s'' h'' => hst i j s'' h'') h') hs

theorem ScalarRef.read_noThrow (s : State E) (c : ScalarRef E) : (c.read s).NoThrow := by
  cases c with
  | val c => exact .ok _
  | elem y i => exact VNode.get_noThrow s _ i

theorem MScalarRef.read_noThrow (s : State E) (c : MScalarRef E) : (c.read s).NoThrow := by
  cases c with
  | val c => exact .ok _
  | elem y i j => exact MNode.get_noThrow s _ i j

end Content

end CML
