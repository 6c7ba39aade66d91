import Verif.Lemmas.SelfArg
import Verif.Lemmas.Demo
import Mathlib.Tactic.FinCases
import Mathlib.Logic.Nontrivial.Basic

/-!
C123: arguments that refer to the object being written, part 1: `set(e0, e1, ...)` of vectors and matrices.
-/

set_option linter.unusedSectionVars false

namespace CML

section
variable {E : Type}

/-- C123.  Storing in turn has one result, and it is what the caller means for all contents of the target exactly if
every argument that refers to an element in front of its own position refers to one that keeps its value. -/
theorem in_turn_meant_iff [Nontrivial E] {n : Nat} (src : Fin n → Src E n) :
    (∀ q, ∃! r, InTurn q src r) ∧
    ((∀ q r, InTurn q src r → ∀ i, r i = (src i).meant q) ↔
      ∀ i j, src i = .own j → j < i → src j = .own j) := by
  refine ⟨fun q => ⟨inTurn q src, inTurn_iff.2 rfl, fun r hr => inTurn_iff.1 hr⟩, ?_, ?_⟩
  · intro h i j hi hj
    by_contra hne
    have key : ∀ q : Fin n → E, (src j).meant q = q j := by
      intro q
      have hr : InTurn q src (inTurn q src) := inTurn_iff.2 rfl
      have h1 := h q _ hr i
      have h2 := h q _ hr j
      have h3 := hr i
      rw [hi] at h1 h3
      simp only [hj, if_true] at h3
      rw [← h2, ← h3, h1]
      rfl
    obtain ⟨a, b, hab⟩ := exists_pair_ne E
    cases hs : src j with
    | val e =>
      simp only [hs, Src.meant] at key
      exact hab ((key fun _ => a).symm.trans (key fun _ => b))
    | own k =>
      have hkj : k ≠ j := by rintro rfl; exact hne hs
      have := key (Function.update (fun _ => a) j b)
      simp [hs, Src.meant, Function.update_of_ne hkj] at this
      exact hab this
  · intro h q r hr i
    rw [hr i]
    cases hs : src i with
    | val e => rfl
    | own j =>
      simp only [Src.meant]
      split
      · rename_i hj
        have h1 := hr j
        rw [h i j hs hj] at h1
        simpa using h1
      · rfl

end

section
variable {E : Type} [Add E] [Sub E] [Mul E] [Div E] [Neg E]

/-- C123.  `v.set(e0, e1, ...)` with as many arguments as elements, each of them a value, an element of `v` itself or
an element of something else: the elements are stored in turn, so that a reference to an element of `v` in front of
the one being stored has the new value of that element.  Nothing else changes. -/
theorem vset_in_turn {triv : Bool} {s : State E} {x : Nat} {d : VObj} (hx : s.vec x = some d)
    {q : Fin d.size → E} (hq : VRep s (.var x) ⟨d.size, q⟩) {es : List (ERef E)} (hl : es.length = d.size)
    {src : Fin d.size → Src E d.size}
    (hs : ∀ i : Fin d.size, (es[(i : Nat)]'(by omega)).Is s.heap d (fun j => (j : Nat)) (src i)) :
    ∃ h' r, InTurn q src r ∧ vSetRefs triv s x es = .ok { s with heap := h' } ∧
      VRep { s with heap := h' } (.var x) ⟨d.size, r⟩ ∧ SameOutside d s.heap h' := by
  have hc : checkOrResizeN triv true s x es.length = .ok s := by
    unfold checkOrResizeN
    simp only [State.vobj, hx, Out.withVal_ok]
    cases d.storage <;>
      simp [vResize, vResizeWith, State.vobj, hx, hl, checkSizeC, Res.require]
  by_cases h0 : 0 < d.size
  · have hp := (vrep_points hx hq).2
    have hw : d.Ready triv s.heap := ready_after (triv := triv) (s := s) (h' := s.heap) hx hq
    obtain ⟨b, hb, -⟩ := hw 0 h0
    obtain ⟨g, hg⟩ := exists_ext h0 (inTurn q src)
    have hr : InTurn q src (inTurn q src) := inTurn_iff.2 rfl
    obtain ⟨h', e1, e2⟩ := storeLoop_ok (triv := triv) hx hb
      (fun i hi => by
        obtain ⟨b', hb', hw'⟩ := hw i hi
        rw [hb] at hb'; cases hb'; exact hw')
      (f := fun s i => ERef.nth s.heap es i) g
      (fun i s' hi hv hm hst => by
        show ERef.nth s'.heap es i = _
        rw [ERef.nth_eq (by omega)]
        have h1 := (hs ⟨i, hi⟩).read_step (h' := s'.heap) hb hr
          (fun j hj => by rw [← hg]; exact hst.val j hj)
          (fun j hj => by
            rw [hst.frame _ _ (Or.inr (Or.inr (by have : i ≤ j := hj; omega)))]
            obtain ⟨b', k1, k2⟩ := hp j
            have k1 : d.data = some b' := k1
            rw [hb] at k1; cases k1
            exact k2)
          (fun b' o' ho => hst.frame b' o' (by omega))
        rw [h1, ← hg])
    refine ⟨h', _, hr, ?_, ⟨by simp [VNode.size, State.vobj, hx], fun i => ?_⟩, ?_⟩
    · unfold storeLoop at e1
      simp only [State.vobj, hx, Out.withVal_ok, ← hl] at e1
      simp only [vSetRefs, hc, Out.ok_andThen]
      exact e1
    · rw [VNode.var_get]
      refine ⟨d, b, hx, hb, i.2, ?_⟩
      rw [e2.val i i.2, hg]
    · intro b' o' hbo
      apply e2.frame
      by_contra hcon
      apply hbo
      push Not at hcon
      obtain ⟨rfl, h1, h2⟩ := hcon
      exact ⟨hb, h1, h2⟩
  · have hz : d.size = 0 := by omega
    refine ⟨s.heap, inTurn q src, inTurn_iff.2 rfl, ?_,
      ⟨by simp [VNode.size, State.vobj, hx], fun i => by have := i.2; simp only at this; omega⟩, fun _ _ _ => rfl⟩
    unfold vSetRefs
    rw [hc, hl, hz]
    rfl

/-- C123, proved part for `v.set(e0, e1, ...)`: every element becomes what the caller means, the value of its argument
before the call.  Missing: an argument that refers to an element of `v` in front of its own position that is changed
(false, see `vset_own_false`), and a dynamic vector that changes its size (`vset_resize_dangling`). -/
theorem vset_partial [Nontrivial E] {triv : Bool} {s : State E} {x : Nat} {d : VObj} (hx : s.vec x = some d)
    {q : Fin d.size → E} (hq : VRep s (.var x) ⟨d.size, q⟩) {es : List (ERef E)} (hl : es.length = d.size)
    {src : Fin d.size → Src E d.size}
    (hs : ∀ i : Fin d.size, (es[(i : Nat)]'(by omega)).Is s.heap d (fun j => (j : Nat)) (src i))
    (hok : ∀ i j, src i = .own j → j < i → src j = .own j) :
    ∃ h', vSetRefs triv s x es = .ok { s with heap := h' } ∧
      VRep { s with heap := h' } (.var x) ⟨d.size, fun i => (src i).meant q⟩ ∧ SameOutside d s.heap h' := by
  obtain ⟨h', r, h1, h2, h3, h4⟩ := vset_in_turn (triv := triv) hx hq hl hs
  refine ⟨h', h2, ?_, h4⟩
  have : r = fun i => (src i).meant q := funext (((in_turn_meant_iff src).2.2 hok) q r h1)
  rw [← this]
  exact h3

/-- The arguments in front of number `k` are values, or elements of blocks other than that of `d`. -/
private theorem vset_steps {s : State E} {x : Nat} {d : VObj} (hx : s.vec x = some d)
    (hst : d.storage = .allocated) (hoff : d.off = 0) (ho : d.Owned s.heap)
    (hal : s.heap.fail s.heap.tick = false) (hfr : s.heap.blk s.heap.next = none) {es : List (ERef E)}
    (hl : es.length ≠ d.size) (k : Nat) (hk : k ≤ es.length) (f : Nat → E)
    (hb : ∀ i (hi : i < k), es[i] = .val (f i) ∨ ∃ p, es[i] = .ref p ∧ p.blk ≠ d.data ∧
      p.Points s.heap 1 fun _ => f i) :
    ∃ h1 h2, checkOrResizeN true true s x es.length = .ok ({ s with heap := h1 }.setVec x
        (some { d with data := some s.heap.next, size := es.length })) ∧
      Out.loop (storeStep true x fun s i => ERef.nth s.heap es i) 0 k ({ s with heap := h1 }.setVec x
        (some { d with data := some s.heap.next, size := es.length })) = .ok ({ s with heap := h2 }.setVec x
        (some { d with data := some s.heap.next, size := es.length })) ∧
      (∀ i, i < k → h2.cell s.heap.next i = some (some (f i))) ∧
      (∀ b, b ≠ s.heap.next → some b ≠ d.data → ∀ o, h2.cell b o = s.heap.cell b o) ∧
      (∀ b, some b = d.data → h2.blk b = none) := by
  obtain ⟨h1, l1, r1, r2, r3, r4, r5, r6, -⟩ :=
    vResizeWith_ok (copy := true) (triv := true) (n := (es.length : Int)) hx (by omega)
      (by simpa using hl) hal hfr ho (fun _ => Or.inl rfl)
  set s1 := ({ s with heap := h1 }.setVec x
      (some { d with data := some s.heap.next, size := es.length }) : State E) with hs1
  have hx1 : s1.vec x = some { d with data := some s.heap.next, size := es.length } := by simp [hs1, State.setVec]
  have hh1 : s1.heap = h1 := rfl
  have hcell1 : ∀ b, b ≠ s.heap.next → some b ≠ d.data → ∀ o, h1.cell b o = s.heap.cell b o := by
    intro b a1 a2 o
    simp [Heap.cell, r5 b a1 a2]
  obtain ⟨h2, e1, e2⟩ := storeSteps_ok (triv := true) hx1 rfl k hk
    (fun i hi => by
      have hi' : i < es.length := hi
      obtain ⟨c, hc⟩ : ∃ c, l1[i]? = some c := ⟨_, r4 i (by simpa using hi')⟩
      refine ⟨c, ?_, Or.inl rfl⟩
      simp only [hh1, Heap.cell, r2, hoff, Nat.zero_add, Option.bind_some]
      exact hc)
    (f := fun s i => ERef.nth s.heap es i) f
    (fun i s' hi hv hm hst' => by
      show ERef.nth s'.heap es i = _
      rw [ERef.nth_eq (by omega)]
      rcases hb i hi with h | ⟨p, h, hp1, hp2⟩
      · rw [h]; rfl
      · rw [h]
        obtain ⟨b', q1, q2⟩ := hp2 0
        refine Ptr.read_ok.2 ⟨b', q1, ?_⟩
        have hn : b' ≠ s.heap.next := by
          rintro rfl
          simp [Heap.cell, hfr] at q2
        have hd : some b' ≠ d.data := by rw [← q1]; exact hp1
        rw [hst'.frame _ _ (Or.inl hn), hh1, hcell1 b' hn hd]
        exact q2)
  refine ⟨h1, h2, ?_, ?_, ?_, ?_, ?_⟩
  · have hc : checkOrResizeN true true s x es.length = vResizeWith true true s x es.length := by
      unfold checkOrResizeN
      simp only [State.vobj, hx, Out.withVal_ok, hst]
      rfl
    rw [hc]
    exact r1
  · rw [e1]; rfl
  · intro i hi
    have := e2.val i hi
    simpa [hoff] using this
  · intro b a1 a2 o
    rw [e2.frame _ _ (Or.inl a1), hh1, hcell1 b a1 a2]
  · intro b hb'
    have a1 := r6 b hb'
    have a2 := e2.live b
    rw [hh1, a1] at a2
    cases hh : h2.blk b with
    | none => rfl
    | some l => rw [hh] at a2; cases a2

/-- C123, proved part for a dynamic vector whose size changes (trivial element type, successful allocation): if all
arguments are values or elements of something else, the vector has the values of the arguments afterwards, in a new
array; the old one is released and no other memory changes.  Missing: an argument that refers to an element of the
vector, for which the behaviour is undefined (`vset_resize_dangling`). -/
theorem vset_resize_partial {s : State E} {x : Nat} {d : VObj} (hx : s.vec x = some d)
    (hst : d.storage = .allocated) (hoff : d.off = 0) (ho : d.Owned s.heap)
    (hal : s.heap.fail s.heap.tick = false) (hfr : s.heap.blk s.heap.next = none) {es : List (ERef E)}
    (hl : es.length ≠ d.size) (hpos : 0 < es.length) (f : Fin es.length → E)
    (hb : ∀ i : Fin es.length, es[i] = .val (f i) ∨ ∃ p, es[i] = .ref p ∧ p.blk ≠ d.data ∧
      p.Points s.heap 1 fun _ => f i) :
    ∃ h', vSetRefs true s x es = .ok ({ s with heap := h' }.setVec x
        (some { d with data := some s.heap.next, size := es.length })) ∧
      VRep ({ s with heap := h' }.setVec x (some { d with data := some s.heap.next, size := es.length }))
        (.var x) ⟨es.length, f⟩ ∧
      (∀ b, b ≠ s.heap.next → some b ≠ d.data → ∀ o, h'.cell b o = s.heap.cell b o) ∧
      (∀ b, some b = d.data → h'.blk b = none) := by
  obtain ⟨g, hg⟩ := exists_ext hpos f
  obtain ⟨h1, h2, a1, a2, a3, a4, a5⟩ := vset_steps hx hst hoff ho hal hfr hl es.length le_rfl g
    (fun i hi => by rw [hg ⟨i, hi⟩]; exact hb ⟨i, hi⟩)
  refine ⟨h2, ?_, ⟨by simp [VNode.size, State.vobj, State.setVec], fun i => ?_⟩, a4, a5⟩
  · unfold vSetRefs
    rw [a1, Out.ok_andThen]
    exact a2
  · rw [VNode.var_get]
    refine ⟨{ d with data := some s.heap.next, size := es.length }, s.heap.next, by simp [State.setVec], rfl, i.2, ?_⟩
    have := a3 i i.2
    rw [hg] at this
    simpa [hoff, State.setVec] using this

/-- C123, dynamic vectors (trivial element type, successful allocation): if the number of arguments is not the size
of the vector, its old array is released before the arguments are read, so that an argument that refers to an element
of the vector is a dangling reference; reading it is undefined behaviour.  (`k` is the first such argument.) -/
theorem vset_resize_dangling {s : State E} {x : Nat} {d : VObj} (hx : s.vec x = some d)
    (hst : d.storage = .allocated) (hoff : d.off = 0) (ho : d.Owned s.heap)
    (hal : s.heap.fail s.heap.tick = false) (hfr : s.heap.blk s.heap.next = none) {es : List (ERef E)}
    (hl : es.length ≠ d.size) (k : Fin es.length) (j : Fin d.size) (hk : es[k] = .ref ⟨d.data, d.off + j⟩)
    (f : Nat → E)
    (hb : ∀ i : Fin es.length, i < k → es[i] = .val (f i) ∨ ∃ p, es[i] = .ref p ∧ p.blk ≠ d.data ∧
      p.Points s.heap 1 fun _ => f i) :
    vSetRefs true s x es = .ub .dead := by
  obtain ⟨h1, h2, a1, a2, a3, a4, a5⟩ := vset_steps hx hst hoff ho hal hfr hl k k.2.le f
    (fun i hi => hb ⟨i, by omega⟩ hi)
  obtain ⟨m, hm⟩ : ∃ m, es.length = k + (m + 1) := ⟨es.length - k - 1, by omega⟩
  have hdata : ∃ b, d.data = some b := by
    rcases ho with ⟨-, hz⟩ | ⟨b, l, hd, -⟩
    · have := j.2; omega
    · exact ⟨b, hd⟩
  obtain ⟨b, hd⟩ := hdata
  have hread : ERef.nth h2 es k = .ub .dead := by
    rw [ERef.nth_eq k.2, show es[(k : Nat)] = _ from hk]
    simp [ERef.read, Ptr.read, hd, Heap.read, a5 b hd.symm]
  unfold vSetRefs
  rw [a1, Out.ok_andThen]
  conv_lhs => rw [hm]
  rw [Out.loop_add, ← hm, a2, Out.ok_andThen]
  simp only [Out.loop, Nat.zero_add, storeStep]
  simp only [State.setVec, hread]
  rfl

/-- C123.  `M.set(e0, e1, ...)` with as many arguments as elements, in row-major reading order, each of them a value,
an element of `M` itself or an element of something else: the elements are stored in turn, so that a reference to an
element of `M` in front of the one being stored has the new value of that element, whatever the layout.  Nothing else
changes. -/
theorem mset_in_turn {triv : Bool} {s : State E} {x : Nat} {d : MObj} (hx : s.mat x = some d)
    {q : Fin (d.rows * d.cols) → E}
    (hq : MRep s (.var x) ⟨d.rows, d.cols, fun i j => q ⟨(i : Nat) * d.cols + j, rowMajor_lt i.2 j.2⟩⟩)
    {es : List (ERef E)} (hl : es.length = d.rows * d.cols) {src : Fin (d.rows * d.cols) → Src E (d.rows * d.cols)}
    (hs : ∀ k : Fin (d.rows * d.cols), (es[(k : Nat)]'(by omega)).Is s.heap d.flat
      (fun l => d.index ((l : Nat) / d.cols) ((l : Nat) % d.cols)) (src k)) :
    ∃ h' r, InTurn q src r ∧ mSetRefs triv s x es = .ok { s with heap := h' } ∧
      MRep { s with heap := h' } (.var x)
        ⟨d.rows, d.cols, fun i j => r ⟨(i : Nat) * d.cols + j, rowMajor_lt i.2 j.2⟩⟩ ∧
      SameOutside d.flat s.heap h' := by
  have hr : InTurn q src (inTurn q src) := inTurn_iff.2 rfl
  have hrun : mSetRefs triv s x es = Out.loop (fun k s => .withVal (ERef.nth s.heap es k) s fun v =>
      mPut triv s x (k / d.cols) (k % d.cols) v) 0 (d.rows * d.cols) s := by
    unfold mSetRefs
    simp only [State.mobj, hx, Out.withVal_ok, hl, beq_self_eq_true, Res.require, if_true]
  by_cases h0 : 0 < d.rows * d.cols
  · obtain ⟨b, hb⟩ : ∃ b, d.data = some b := by
      have h := (mrep_var hx).1 hq ⟨0 / d.cols, (divMod_lt h0).1⟩ ⟨0 % d.cols, (divMod_lt h0).2⟩
      cases hb : d.data with
      | none => simp [MObj.get, hb] at h
      | some b => exact ⟨b, rfl⟩
    let place : Nat → Nat := fun l => d.index (l / d.cols) (l % d.cols)
    have hinj : ∀ k l, k < d.rows * d.cols → l < d.rows * d.cols → place k = place l → k = l := by
      intro k l hk hl' h
      have h1 := divMod_lt hk
      have h2 := divMod_lt hl'
      have h3 := MObj.index_inj h1.1 h1.2 h2.1 h2.2 h
      rw [← Nat.div_add_mod k d.cols, ← Nat.div_add_mod l d.cols, h3.1, h3.2]
    have hlt : ∀ k, k < d.rows * d.cols → place k < d.rows * d.cols := fun k hk =>
      MObj.index_lt (divMod_lt hk).1 (divMod_lt hk).2
    have hold : ∀ k : Fin (d.rows * d.cols), s.heap.cell b (d.off + place k) = some (some (q k)) := by
      intro k
      have h1 := divMod_lt k.2
      have h := (mrep_var hx).1 hq ⟨(k : Nat) / d.cols, h1.1⟩ ⟨(k : Nat) % d.cols, h1.2⟩
      rw [MObj.get_eq_ok hb h1.1 h1.2] at h
      rw [h]
      simp [Nat.div_add_mod']
    obtain ⟨s', e1, e2, e3, e4, e5, e6⟩ := Out.loop_inv (lo := 0) (n := d.rows * d.cols) (s := s)
      (body := fun k s => .withVal (ERef.nth s.heap es k) s fun v => mPut triv s x (k / d.cols) (k % d.cols) v)
      (fun k s' => s'.vec = s.vec ∧ s'.mat = s.mat ∧
        (∀ l : Fin (d.rows * d.cols), (l : Nat) < k → s'.heap.cell b (d.off + place l) = some (some (inTurn q src l))) ∧
        (∀ l : Fin (d.rows * d.cols), k ≤ (l : Nat) → s'.heap.cell b (d.off + place l) = some (some (q l))) ∧
        ∀ b' o', (b' ≠ b ∨ o' < d.off ∨ d.off + d.rows * d.cols ≤ o') → s'.heap.cell b' o' = s.heap.cell b' o')
      ⟨rfl, rfl, fun l hl => absurd hl (by omega), fun l _ => hold l, fun _ _ _ => rfl⟩
      (by
        rintro k s' - hk ⟨i1, i2, i3, i4, i5⟩
        have hk' : k < d.rows * d.cols := by omega
        have hrd : ERef.nth s'.heap es k = .ok (inTurn q src ⟨k, hk'⟩) := by
          rw [ERef.nth_eq (by omega)]
          exact (hs ⟨k, hk'⟩).read_step (h' := s'.heap) (d := d.flat) hb hr (fun j hj => i3 j hj) (fun j hj => i4 j hj)
            (fun b' o' ho => i5 b' o' ho)
        have hdm := divMod_lt hk'
        obtain ⟨h', w1, w2, w3, -⟩ := mPut_ok (triv := triv) (s := s') (x := x) (e := inTurn q src ⟨k, hk'⟩)
          (by rw [i2]; exact hx) hb hdm.1 hdm.2
          ⟨some (q ⟨k, hk'⟩), i4 ⟨k, hk'⟩ le_rfl, Or.inr rfl⟩
        refine ⟨{ s' with heap := h' }, by simp [hrd, w1], i1, i2, ?_, ?_, ?_⟩
        · intro l hl'
          by_cases hlk : (l : Nat) = k
          · have : l = ⟨k, hk'⟩ := Fin.ext hlk
            subst this
            exact w2
          · rw [w3 _ _ (fun h => hlk (hinj l k l.2 hk' (by simp only [Prod.mk.injEq] at h; exact Nat.add_left_cancel h.2)))]
            exact i3 l (by omega)
        · intro l hl'
          rw [w3 _ _ (fun h => by
            have := hinj l k l.2 hk' (by simp only [Prod.mk.injEq] at h; exact Nat.add_left_cancel h.2)
            omega)]
          exact i4 l (by omega)
        · intro b' o' ho
          rw [w3 _ _ (fun h => by
            simp only [Prod.mk.injEq] at h
            have := hlt k hk'
            have h2 : o' = d.off + place k := h.2
            rcases ho with h1 | h1 | h1
            · exact h1 h.1
            · omega
            · omega)]
          exact i5 b' o' ho)
    refine ⟨s'.heap, inTurn q src, hr, ?_, ?_, ?_⟩
    · rw [hrun, e1]
      cases s'
      simp only at e2 e3
      subst e2 e3
      rfl
    · refine (mrep_var (s := { s with heap := s'.heap }) (x := x) hx).2 fun i j => ?_
      rw [MObj.get_eq_ok hb i.2 j.2]
      have h := e4 ⟨(i : Nat) * d.cols + j, rowMajor_lt i.2 j.2⟩ (by simpa using rowMajor_lt i.2 j.2)
      simp only [place, (divMod_mk (i := (i : Nat)) j.2).1, (divMod_mk (i := (i : Nat)) j.2).2] at h
      exact h
    · intro b' o' hbo
      apply e6
      by_contra hcon
      apply hbo
      push Not at hcon
      obtain ⟨rfl, h1, h2⟩ := hcon
      exact ⟨hb, h1, h2⟩
  · have hz : d.rows * d.cols = 0 := by omega
    refine ⟨s.heap, inTurn q src, hr, by rw [hrun, hz]; rfl,
      (mrep_var (s := { s with heap := s.heap }) (x := x) hx).2 fun i j => ?_, fun _ _ _ => rfl⟩
    have := rowMajor_lt i.2 j.2
    omega

/-- C123, proved part for `M.set(e0, e1, ...)`: every element becomes what the caller means, the value of its argument
before the call.  Missing: an argument that refers to an element of `M` in front of its own position that is changed
(false, see `mset_own_false`). -/
theorem mset_partial [Nontrivial E] {triv : Bool} {s : State E} {x : Nat} {d : MObj} (hx : s.mat x = some d)
    {q : Fin (d.rows * d.cols) → E}
    (hq : MRep s (.var x) ⟨d.rows, d.cols, fun i j => q ⟨(i : Nat) * d.cols + j, rowMajor_lt i.2 j.2⟩⟩)
    {es : List (ERef E)} (hl : es.length = d.rows * d.cols) {src : Fin (d.rows * d.cols) → Src E (d.rows * d.cols)}
    (hs : ∀ k : Fin (d.rows * d.cols), (es[(k : Nat)]'(by omega)).Is s.heap d.flat
      (fun l => d.index ((l : Nat) / d.cols) ((l : Nat) % d.cols)) (src k))
    (hok : ∀ i j, src i = .own j → j < i → src j = .own j) :
    ∃ h', mSetRefs triv s x es = .ok { s with heap := h' } ∧
      MRep { s with heap := h' } (.var x)
        ⟨d.rows, d.cols, fun i j => (src ⟨(i : Nat) * d.cols + j, rowMajor_lt i.2 j.2⟩).meant q⟩ ∧
      SameOutside d.flat s.heap h' := by
  obtain ⟨h', r, h1, h2, h3, h4⟩ := mset_in_turn (triv := triv) hx hq hl hs
  refine ⟨h', h2, ?_, h4⟩
  have : r = fun i => (src i).meant q := funext (((in_turn_meant_iff src).2.2 hok) q r h1)
  rw [this] at h3
  exact h3

/-- C123.  Another number of arguments than elements is refused by a matrix, with nothing changed. -/
theorem mset_length {triv : Bool} {s : State E} {x : Nat} {d : MObj} (hx : s.mat x = some d) {es : List (ERef E)}
    (hl : es.length ≠ d.rows * d.cols) :
    mSetRefs triv s x es = .throw (if d.fixed then .staticAssert else .matSize) s := by
  unfold mSetRefs
  have : (d.rows * d.cols == es.length) = false := by
    rw [beq_eq_false_iff_ne]; exact fun h => hl h.symm
  simp only [State.mobj, hx, Out.withVal_ok, this, Res.require]
  rfl

end

section Examples

private theorem exS_v0 : VRep exS (.var 0) ⟨3, ![1, 2, 3]⟩ := ⟨rfl, fun i => by fin_cases i <;> rfl⟩
private theorem exS_v2 : VRep exS (.var 2) ⟨2, ![7, 8]⟩ := ⟨rfl, fun i => by fin_cases i <;> rfl⟩
private theorem exS_m0 : MRep exS (.var 0) ⟨3, 3, fun i j => ![1, 2, 3, 4, 5, 6, 7, 8, 9] ⟨(i : Nat) * 3 + j, by omega⟩⟩ :=
  ⟨rfl, fun i j => by fin_cases i <;> fin_cases j <;> rfl⟩

/-- C123 is false for vectors: `v.set(v[1], v[0])` does not exchange the two elements of (7, 8), it gives (8, 8). -/
theorem vset_own_false : ∃ s', vSetRefs true exS 2 [.ref ⟨some 2, 1⟩, .ref ⟨some 2, 0⟩] = .ok s' ∧
    VRep exS (.var 2) ⟨2, ![7, 8]⟩ ∧ VRep s' (.var 2) ⟨2, ![8, 8]⟩ ∧ ¬ VRep s' (.var 2) ⟨2, ![8, 7]⟩ := by
  refine ⟨_, rfl, exS_v2, ⟨rfl, fun i => by fin_cases i <;> rfl⟩, fun h => ?_⟩
  have := h.get (1 : Fin 2)
  exact absurd (Res.ok.inj (show Res.ok (8 : ℤ) = Res.ok 7 from this)) (by decide)

/-- C123 is false for dynamic vectors that change their size: `v.set(v[0], v[1], 9)` on a vector of two elements reads
released memory. -/
theorem vset_resize_false : VRep exS (.var 2) ⟨2, ![7, 8]⟩ ∧
    vSetRefs true exS 2 [.ref ⟨some 2, 0⟩, .ref ⟨some 2, 1⟩, .val 9] = .ub .dead := by
  refine ⟨exS_v2, ?_⟩
  exact vset_resize_dangling (d := ⟨.allocated, false, some 2, 0, 2⟩) rfl rfl rfl
    (Or.inr ⟨2, _, rfl, rfl, rfl⟩) rfl rfl (by decide) ⟨0, by decide⟩ ⟨0, by decide⟩ rfl (fun _ => 0)
    (fun i hi => absurd hi (by simp))

/-- C123 is false for matrices: exchanging the first two elements with `M.set(M(0,1), M(0,0), ...)` sets both to the
second. -/
theorem mset_own_false : ∃ s', mSetRefs true exS 0 [.ref ⟨some 3, 1⟩, .ref ⟨some 3, 0⟩, .val 3, .val 4, .val 5, .val 6,
      .val 7, .val 8, .val 9] = .ok s' ∧
    (MNode.var 0 : MNode ℤ).get exS 0 0 = .ok 1 ∧ (MNode.var 0 : MNode ℤ).get exS 0 1 = .ok 2 ∧
    (MNode.var 0 : MNode ℤ).get s' 0 0 = .ok 2 ∧ (MNode.var 0 : MNode ℤ).get s' 0 1 = .ok 2 :=
  ⟨_, rfl, rfl, rfl, rfl, rfl⟩

/-- Arguments of all three kinds: `v0.set(v0[0], v1[2], v0[2])` … -/
private theorem exArgs : ∀ i : Fin 3,
    ([.ref ⟨some 0, 0⟩, .ref ⟨some 1, 2⟩, .ref ⟨some 0, 2⟩] : List (ERef ℤ))[(i : Nat)].Is exS.heap
      ⟨.compiled, true, some 0, 0, 3⟩ (fun j : Fin 3 => (j : Nat)) (![.own 0, .val 6, .own 2] i) := by
  intro i
  fin_cases i
  · exact .own (0 : Fin 3)
  · exact .other _ _ (fun k => ⟨1, rfl, by fin_cases k; rfl⟩) (Or.inl (by decide))
  · exact .own (2 : Fin 3)

/-- … stores what the caller means. -/
example : ∃ h', vSetRefs true exS 0 [.ref ⟨some 0, 0⟩, .ref ⟨some 1, 2⟩, .ref ⟨some 0, 2⟩] = .ok { exS with heap := h' } ∧
    VRep { exS with heap := h' } (.var 0)
      ⟨3, fun i => ((![.own 0, .val 6, .own 2] : Fin 3 → Src ℤ 3) i).meant ![1, 2, 3]⟩ ∧
    SameOutside ⟨.compiled, true, some 0, 0, 3⟩ exS.heap h' :=
  vset_partial (d := ⟨.compiled, true, some 0, 0, 3⟩) (src := ![.own 0, .val 6, .own 2]) rfl exS_v0 rfl exArgs
    (by decide +revert)

/-- `v0.set(v0[2], v0[0], v0[1])`: not a rotation of the elements. -/
example : ∃ h' r, InTurn ![1, 2, 3] (![.own 2, .own 0, .own 1] : Fin 3 → Src ℤ 3) r ∧
    vSetRefs true exS 0 [.ref ⟨some 0, 2⟩, .ref ⟨some 0, 0⟩, .ref ⟨some 0, 1⟩] = .ok { exS with heap := h' } ∧
    VRep { exS with heap := h' } (.var 0) ⟨3, r⟩ ∧ SameOutside ⟨.compiled, true, some 0, 0, 3⟩ exS.heap h' :=
  vset_in_turn (d := ⟨.compiled, true, some 0, 0, 3⟩) rfl exS_v0 rfl (fun i => by
    fin_cases i
    · exact .own (2 : Fin 3)
    · exact .own (0 : Fin 3)
    · exact .own (1 : Fin 3))

example : InTurn ![1, 2, 3] (![.own 2, .own 0, .own 1] : Fin 3 → Src ℤ 3) ![3, 3, 3] := by
  intro i; fin_cases i <;> rfl

/-- `v2.set(v0[0], 5, v1[1])` makes `v2` larger. -/
example : ∃ h', vSetRefs true exS 2 [.ref ⟨some 0, 0⟩, .val 5, .ref ⟨some 1, 1⟩] = .ok ({ exS with heap := h' }.setVec 2
      (some ⟨.allocated, false, some 4, 0, 3⟩)) ∧
    VRep ({ exS with heap := h' }.setVec 2 (some ⟨.allocated, false, some 4, 0, 3⟩)) (.var 2) ⟨3, ![1, 5, 5]⟩ ∧
    (∀ b, b ≠ 4 → some b ≠ some 2 → ∀ o, h'.cell b o = exS.heap.cell b o) ∧ (∀ b, some b = some 2 → h'.blk b = none) :=
  vset_resize_partial (s := exS) (x := 2) (es := [.ref ⟨some 0, 0⟩, .val 5, .ref ⟨some 1, 1⟩])
    (d := ⟨.allocated, false, some 2, 0, 2⟩) rfl rfl rfl (Or.inr ⟨2, _, rfl, rfl, rfl⟩) rfl rfl
    (by decide) (by decide) ![1, 5, 5] (fun i => by
      fin_cases i
      · exact Or.inr ⟨_, rfl, by decide, fun k => ⟨0, rfl, by fin_cases k; rfl⟩⟩
      · exact Or.inl rfl
      · exact Or.inr ⟨_, rfl, by decide, fun k => ⟨1, rfl, by fin_cases k; rfl⟩⟩)

/-- `M.set(9, M(0,1), M(2,2), ...)`. -/
example : ∃ h', mSetRefs true exS 0 [.val 9, .ref ⟨some 3, 1⟩, .ref ⟨some 3, 8⟩, .val 0, .val 0, .val 0, .val 0, .val 0,
      .ref ⟨some 0, 1⟩] = .ok { exS with heap := h' } ∧
    MRep { exS with heap := h' } (.var 0) ⟨3, 3, fun i j => ((![.val 9, .own 1, .own 8, .val 0, .val 0, .val 0, .val 0,
      .val 0, .val 2] : Fin 9 → Src ℤ 9) ⟨(i : Nat) * 3 + j, by omega⟩).meant ![1, 2, 3, 4, 5, 6, 7, 8, 9]⟩ ∧
    SameOutside ⟨.compiled, true, some 3, 0, 9⟩ exS.heap h' :=
  mset_partial (d := ⟨.compiled, true, some 3, 0, 3, 3, false, false⟩) (q := ![1, 2, 3, 4, 5, 6, 7, 8, 9])
    (src := ![.val 9, .own 1, .own 8, .val 0, .val 0, .val 0, .val 0, .val 0, .val 2]) rfl exS_m0 rfl (fun k => by
      fin_cases k
      · exact .val 9
      · exact .own (1 : Fin 9)
      · exact .own (8 : Fin 9)
      · exact .val 0
      · exact .val 0
      · exact .val 0
      · exact .val 0
      · exact .val 0
      · exact .other _ _ (fun k => ⟨0, rfl, by fin_cases k; rfl⟩) (Or.inl (by decide)))
    (by decide +revert)

example : mSetRefs true exS 0 [.val 9, .val 1] = .throw .staticAssert exS :=
  mset_length (d := ⟨.compiled, true, some 3, 0, 3, 3, false, false⟩) rfl (by decide)

end Examples

end CML

#print axioms CML.in_turn_meant_iff
#print axioms CML.vset_in_turn
#print axioms CML.vset_partial
#print axioms CML.vset_resize_partial
#print axioms CML.vset_resize_dangling
#print axioms CML.mset_in_turn
#print axioms CML.mset_partial
#print axioms CML.mset_length
#print axioms CML.vset_own_false
#print axioms CML.vset_resize_false
#print axioms CML.mset_own_false
