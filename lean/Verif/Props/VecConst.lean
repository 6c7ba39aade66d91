import Verif.Lemmas.OpAssign
import Verif.Lemmas.Demo
import Verif.Model.VecReal

/-!
C84: constant vectors and list assignment.
-/

set_option linter.unusedSectionVars false

namespace CML

variable {E : Type} [Add E] [Sub E] [Mul E] [Div E] [Neg E]

/-- C84: `zero()` sets every element to zero and nothing else. -/
theorem vzero_spec [Zero E] [One E] {triv : Bool} {s : State E} {x : Nat} {d : VObj}
    (hx : s.vec x = some d) (hw : d.Ready triv s.heap) :
    ∃ h', vZero triv s x = .ok { s with heap := h' } ∧
      VRep { s with heap := h' } (.var x) ⟨d.size, fun _ => 0⟩ ∧ SameOutside d s.heap h' := by
  obtain ⟨h', e1, e2, e3, -⟩ := storeLoop_fin hx hw rfl (fun _ => (0 : E)) (f := fun _ _ => .ok 0)
    (fun _ _ _ _ _ _ _ _ => rfl)
  refine ⟨h', e1, ⟨by simp [VNode.size, State.vobj, hx], fun i => ?_⟩, e3⟩
  simpa [VNode.get, State.vobj, hx] using e2 i

/-- C84: `fill(c)` sets every element to the value `c` had before the call, also when `c` is a
reference to an element of the vector itself or of a vector that shares no memory with it. -/
theorem vfill_spec {triv : Bool} {s : State E} {x : Nat} {d : VObj} (hx : s.vec x = some d)
    (hw : d.Ready triv s.heap) (c : ScalarRef E) (v : E) (hc : c.read s = .ok v)
    (hd : ∀ y k, c = .elem y k → y = x ∨ VDisj s d y) :
    ∃ h', vFill triv s x c = .ok { s with heap := h' } ∧
      VRep { s with heap := h' } (.var x) ⟨d.size, fun _ => v⟩ ∧ SameOutside d s.heap h' := by
  by_cases h0 : 0 < d.size
  · obtain ⟨b, hb, -⟩ := hw 0 h0
    obtain ⟨h', e1, e2⟩ := storeLoop_ok (triv := triv) hx hb
      (fun i hi => by
        obtain ⟨b', hb', hw'⟩ := hw i hi
        rw [hb] at hb'; cases hb'; exact hw')
      (f := fun s _ => c.read s) (fun _ => v)
      (fun i s' hi hv hm hst => by
        cases c with
        | val c => exact hc
        | elem y k =>
          rcases hd y k rfl with rfl | h
          · simp only [ScalarRef.read] at hc ⊢
            rw [VNode.var_get] at hc ⊢
            obtain ⟨w, b', q1, q2, q3, q4⟩ := hc
            rw [hx] at q1; cases q1
            rw [hb] at q2; cases q2
            refine ⟨d, b, by rw [hv, hx], hb, q3, ?_⟩
            by_cases hk : k < i
            · rw [hst.val k hk]
            · rw [hst.frame _ _ (by omega), q4]
          · exact var_get_disj hv hb (by omega) hst h hc)
    refine ⟨h', e1, ⟨by simp [VNode.size, State.vobj, hx], fun i => ?_⟩, ?_⟩
    · rw [VNode.var_get]
      have hi : (i : Nat) < d.size := i.2
      exact ⟨d, b, hx, hb, hi, e2.val i hi⟩
    · intro b' o' hbo
      apply e2.frame
      by_contra hcon
      apply hbo
      push Not at hcon
      obtain ⟨rfl, h1, h2⟩ := hcon
      exact ⟨hb, h1, h2⟩
  · have hz : d.size = 0 := by omega
    refine ⟨s.heap, by simp [vFill, storeLoop, State.vobj, hx, hz, Out.loop],
      ⟨by simp [VNode.size, State.vobj, hx], fun i => by have := i.2; simp only at this; omega⟩,
      fun _ _ _ => rfl⟩

/-- C84: storing one element of a vector that has values changes that element only. -/
theorem vput_spec {triv : Bool} {s : State E} {x : Nat} {d : VObj} (hx : s.vec x = some d)
    (q : VVal E) (hq : VRep s (.var x) q) (i : Fin q.n) (v : E) :
    ∃ h', vPut triv s x i v = .ok { s with heap := h' } ∧
      VRep { s with heap := h' } (.var x) ⟨q.n, Function.update q.f i v⟩ ∧
      SameOutside d s.heap h' := by
  have hsz : q.n = d.size := by
    have := hq.size
    simp only [VNode.size, State.vobj, hx, Res.ok_bind, Res.pure_eq, Res.ok.injEq] at this
    omega
  obtain ⟨b, hb, hw⟩ := ready_after (triv := triv) (s := s) (h' := s.heap) hx hq i (by omega)
  obtain ⟨h', w1, w2, w3, -⟩ := Heap.write_ok (v := v) hw
  refine ⟨h', ?_, ⟨hq.size, fun j => ?_⟩, ?_⟩
  · have hi : (i : Nat) < d.size := by omega
    simp [vPut, State.vobj, hx, VObj.put, hb, hi, w1]
  · have hj : (j : Nat) < d.size := by have := j.2; simp only at this; omega
    rw [VNode.var_get]
    refine ⟨d, b, hx, hb, hj, ?_⟩
    by_cases hji : j = i
    · rw [hji]
      simp [w2]
    · have h0 := hq.get j
      rw [VNode.var_get] at h0
      obtain ⟨w, b', q1, q2, q3, q4⟩ := h0
      rw [hx] at q1; cases q1
      rw [hb] at q2; cases q2
      have hne : (j : Nat) ≠ i := fun h => hji (Fin.ext h)
      simp only [Function.update_of_ne hji]
      rw [← q4]
      exact w3 b _ (by simp only [ne_eq, Prod.mk.injEq, not_and]; omega)
  · intro b' o' hbo
    apply w3
    rintro ⟨⟩
    exact hbo ⟨hb, by omega, by omega⟩

/-- C84: an index outside the vector is undefined behaviour for `put`. -/
theorem vput_oob {triv : Bool} {s : State E} {x : Nat} {d : VObj} (hx : s.vec x = some d) {i : Nat}
    (hi : d.size ≤ i) (v : E) : ∃ u, vPut triv s x i v = .ub u := by
  have hi' : ¬i < d.size := by omega
  cases hd : d.data <;> simp [vPut, State.vobj, hx, VObj.put, hi', hd]

/-- C84: `cardinal(i)` makes the vector the `i`-th unit vector and changes nothing else. -/
theorem vcardinal_spec [Zero E] [One E] {triv : Bool} {s : State E} {x : Nat} {d : VObj}
    (hx : s.vec x = some d) (hw : d.Ready triv s.heap) (i : Fin d.size) :
    ∃ h', vCardinal triv s x i = .ok { s with heap := h' } ∧
      VRep { s with heap := h' } (.var x) ⟨d.size, Pi.single i 1⟩ ∧ SameOutside d s.heap h' := by
  obtain ⟨h1, a1, a2, a3⟩ := vzero_spec hx hw
  obtain ⟨h2, b1, b2, b3⟩ := vput_spec (triv := triv) (s := { s with heap := h1 }) hx _ a2 i 1
  refine ⟨h2, by simp [vCardinal, a1, b1], ?_, fun b o h => by rw [b3 b o h, a3 b o h]⟩
  exact b2

/-- C84: array or initializer-list assignment of the right length stores the listed elements in order
and changes nothing else; for dynamic vectors it does not reallocate. -/
theorem vlist_spec {triv cst : Bool} {s : State E} {x : Nat} {d : VObj} (hx : s.vec x = some d)
    (hw : d.Ready triv s.heap) (xs : List E) (hl : xs.length = d.size) :
    ∃ h', vAssignList triv cst s x xs = .ok { s with heap := h' } ∧
      VRep { s with heap := h' } (.var x) ⟨xs.length, fun i => xs[i]⟩ ∧ SameOutside d s.heap h' := by
  obtain ⟨h', e1, e2, e3, -⟩ := storeLoop_fin hx hw hl (fun i => xs[i])
    (f := fun s i => (VNode.temp true xs).get s i)
    (fun b k s' g _ _ _ _ => by simp [VNode.get])
  refine ⟨h', ?_, ⟨by simp [VNode.size, State.vobj, hx, hl], fun i => ?_⟩, e3⟩
  · have hc : checkOrResizeN triv cst s x xs.length = .ok s := by
      unfold checkOrResizeN
      simp only [State.vobj, hx, Out.withVal_ok]
      cases d.storage <;>
        simp [vResize, vResizeWith, State.vobj, hx, hl, checkSizeC, Res.require]
    unfold storeLoop at e1
    simp only [State.vobj, hx, Out.withVal_ok, ← hl] at e1
    simp only [vAssignList, hc, Out.ok_andThen]
    exact e1
  · simpa [VNode.get, State.vobj, hx] using e2 i

/-- C84: a list of the wrong length is rejected by vectors that cannot be resized, before anything is
stored (at compile time when both lengths are compile-time constants). -/
theorem vlist_missized {triv cst : Bool} {s : State E} {x : Nat} {d : VObj} (hx : s.vec x = some d)
    (hst : d.storage ≠ .allocated) (xs : List E) (hl : xs.length ≠ d.size) :
    vAssignList triv cst s x xs
      = .throw (if d.fixed && cst then .staticAssert else .vecSize) s := by
  have hl' : ¬((d.size : Int) = xs.length) := by omega
  have hc : checkOrResizeN triv cst s x xs.length
      = .throw (if d.fixed && cst then .staticAssert else .vecSize) s := by
    unfold checkOrResizeN
    simp only [State.vobj, hx, Out.withVal_ok]
    cases hs : d.storage with
    | allocated => exact absurd hs hst
    | _ => cases d.fixed <;> cases cst <;> simp [checkSizeC, Res.require, hl']
  simp [vAssignList, hc]

/-- C84: a list of another length assigned to a dynamic vector (trivial element type) is stored in a
fresh array; the old one is released and no other memory changes. -/
theorem vlist_resizing {cst : Bool} {s : State E} {x : Nat} {d : VObj} (hx : s.vec x = some d)
    (hst : d.storage = .allocated) (hoff : d.off = 0) (ho : d.Owned s.heap)
    (hal : s.heap.fail s.heap.tick = false) (hfr : s.heap.blk s.heap.next = none) (xs : List E)
    (hl : xs.length ≠ d.size) :
    ∃ h', vAssignList true cst s x xs = .ok ({ s with heap := h' }.setVec x
        (some { d with data := some s.heap.next, size := xs.length })) ∧
      VRep ({ s with heap := h' }.setVec x (some { d with data := some s.heap.next, size := xs.length }))
        (.var x) ⟨xs.length, fun i => xs[i]⟩ ∧
      (∀ b o, b ≠ s.heap.next → some b ≠ d.data → h'.cell b o = s.heap.cell b o) ∧
      (∀ b, some b = d.data → h'.blk b = none) := by
  obtain ⟨h', e1, e2, e3, e4, -⟩ := vAssign_resize_ok (n := .temp true xs) (p := ⟨xs.length, fun i => xs[i]⟩)
    hx hst hoff ho hal hfr ⟨by simp [VNode.size], fun i => by simp [VNode.get]⟩ hl trivial
  refine ⟨h', ?_, ⟨by simp [VNode.size, State.vobj, State.setVec], fun i => ?_⟩, e3, e4⟩
  · rw [← e1]
    unfold vAssign checkOrResize vAssignList checkOrResizeN
    obtain ⟨h1, l1, r1, -⟩ :=
      vResizeWith_ok (copy := true) (triv := true) (n := (xs.length : Int)) hx (by omega)
        (by simpa using hl) hal hfr ho (fun _ => Or.inl rfl)
    have hsz : (VNode.temp true xs : VNode E).size s = .ok (xs.length : Int) := by simp [VNode.size]
    simp only [State.vobj, hx, Out.withVal_ok, hst, hsz, vResize, r1, Out.ok_andThen, storeLoop,
      State.setVec, if_true, Int.toNat_natCast]
    rfl
  · simpa [VNode.get, State.vobj, State.setVec] using e2 i

section Examples

/-- The hypotheses hold for the fixed-size `v0` of the example state. -/
example : exS.vec 0 = some ⟨.compiled, true, some 0, 0, 3⟩ ∧
    (⟨.compiled, true, some 0, 0, 3⟩ : VObj).Ready true exS.heap :=
  ⟨rfl, fun i hi => ⟨0, rfl, ready_after (s := exS) (h' := exS.heap) rfl (exS_agree.v 0 _ rfl) i hi |>.elim
    fun b hb => by obtain ⟨h1, h2⟩ := hb; cases h1; exact h2⟩⟩

/-- `v0.cardinal(1)` and what the other vector holds afterwards. -/
example : ∃ s', vCardinal true exS 0 1 = .ok s' ∧
    (VNode.var 0 : VNode ℤ).get s' 0 = .ok 0 ∧ (VNode.var 0 : VNode ℤ).get s' 1 = .ok 1 ∧
    (VNode.var 0 : VNode ℤ).get s' 2 = .ok 0 ∧ (VNode.var 1 : VNode ℤ).get s' 1 = .ok 5 :=
  ⟨_, rfl, rfl, rfl, rfl, rfl⟩

/-- `v0.fill(v0[2])`. -/
example : ∃ s', vFill true exS 0 (.elem 0 2) = .ok s' ∧
    (VNode.var 0 : VNode ℤ).get s' 0 = .ok 3 ∧ (VNode.var 0 : VNode ℤ).get s' 2 = .ok 3 :=
  ⟨_, rfl, rfl, rfl⟩

/-- `v1 = {7, 8}` resizes the dynamic vector; `v0 = {7, 8}` is rejected. -/
example : (∃ s', vAssignList true false exS 1 [7, 8] = .ok s' ∧
    (VNode.var 1 : VNode ℤ).size s' = .ok 2 ∧ (VNode.var 1 : VNode ℤ).get s' 1 = .ok 8) ∧
    vAssignList true false exS 0 [7, 8] = .throw .vecSize exS :=
  ⟨⟨_, rfl, rfl, rfl⟩, rfl⟩

end Examples

end CML

#print axioms CML.vzero_spec
#print axioms CML.vfill_spec
#print axioms CML.vput_spec
#print axioms CML.vput_oob
#print axioms CML.vcardinal_spec
#print axioms CML.vlist_spec
#print axioms CML.vlist_missized
#print axioms CML.vlist_resizing
