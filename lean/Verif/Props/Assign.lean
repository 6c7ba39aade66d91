import Verif.Lemmas.OpAssign
import Verif.Lemmas.Stable
import Verif.Lemmas.Demo

/-!
C08, C76, C15, C16, C17 and the vector part of C09: assignment statements.
-/

set_option linter.unusedSectionVars false

namespace CML

variable {E : Type} [Add E] [Sub E] [Mul E] [Div E] [Neg E]

/-! ### C08: aliasing of element-wise expressions -/

/-- C08.  `x = e` where every vector read lazily by the element-wise part of `e` is disjoint from the
destination or starts at or behind its first element (in particular is the destination itself), and
every vector or matrix under a `cross`, `row` or `col` is disjoint from it: afterwards the destination
holds the value `e` had before the statement and no other memory cell has changed. -/
theorem assign_elementwise {triv : Bool} {s : State E} {ρ : Env E} (hA : Agree s ρ) {x : Nat}
    {d : VObj} (hx : s.vec x = some d) (e : VExpr E) (hc : e.Regular s) (p : VVal E)
    (hp : e.den ρ = some p) (hsz : p.n = d.size) (hw : d.Ready triv s.heap)
    (hal : e.Ahead (VAhead s d) (VDisj s d) (MDisj s d)) :
    ∃ h', stmtAssign triv s x e = .ok { s with heap := h' } ∧
      VRep { s with heap := h' } (.var x) p ∧ SameOutside d s.heap h' := by
  obtain ⟨n, h1, h2, f, h3⟩ := VExpr.build_ok hA e (VExpr.supported_of_regular e hc) p hp
  obtain ⟨h', e1, e2, e3⟩ := vAssign_ok (triv := triv) hx h2 h3 hsz hw (VExpr.build_ahead e n h1 hal)
  refine ⟨h', by simp [stmtAssign, h1, e1], ⟨?_, ?_⟩, e3⟩
  · simp [VNode.size, State.vobj, hx, hsz]
  · intro i; simp [VNode.get, State.vobj, hx, e2]

/-- C08 for `x += e` and `x -= e` with operands of the same size. -/
theorem opAssign_elementwise {triv : Bool} {o : BinOp} {s : State E} {ρ : Env E} (hA : Agree s ρ)
    {x : Nat} {d : VObj} (hx : s.vec x = some d) (e : VExpr E) (hc : e.Regular s) (n : Nat)
    (p q : Fin n → E) (hp : e.den ρ = some ⟨n, p⟩) (hq : ρ.v x = some ⟨n, q⟩)
    (hw : d.Ready triv s.heap) (hal : e.Ahead (VAhead s d) (VDisj s d) (MDisj s d)) :
    ∃ h', stmtOpAssign triv o s x e = .ok { s with heap := h' } ∧
      VRep { s with heap := h' } (.var x) ⟨n, fun i => o.den (q i) (p i)⟩ ∧
      SameOutside d s.heap h' := by
  obtain ⟨m, h1, h2, f, h3⟩ := VExpr.build_ok hA e (VExpr.supported_of_regular e hc) _ hp
  have hq' := hA.v x _ hq
  obtain ⟨h', e1, e2, e3⟩ := vOpAssign_ok (triv := triv) (o := o) hx h2 hq' h3 rfl hw
    (VExpr.build_ahead e m h1 hal)
  refine ⟨h', by simp [stmtOpAssign, h1, e1], ⟨?_, ?_⟩, e3⟩
  · have := hq'.size
    simpa [VNode.size, State.vobj, hx] using this
  · intro i
    have := e2 i
    simpa [VNode.get, State.vobj, hx] using this

/-- C08: an operand that is a product may contain the destination in any way (`v = M * v`,
`v = v * (M + transpose(M))`): the product is evaluated before anything is stored. -/
theorem assign_product {triv : Bool} {s : State E} {ρ : Env E} (hA : Agree s ρ) {x : Nat}
    {d : VObj} (hx : s.vec x = some d) (m : MExpr E) (v : VExpr E) (hm : m.Regular s)
    (hv : v.Regular s) (hu : m.Upright s) (p : VVal E) (hp : (VExpr.mulMV m v).den ρ = some p)
    (hsz : p.n = d.size) (hw : d.Ready triv s.heap) :
    ∃ h', stmtAssign triv s x (.mulMV m v) = .ok { s with heap := h' } ∧
      VRep { s with heap := h' } (.var x) p ∧ SameOutside d s.heap h' :=
  assign_elementwise hA hx (.mulMV m v) ⟨hm, hv, hu⟩ p hp hsz hw trivial

/-- C08 with a change of size: `x = e` for a dynamic vector of a trivial element type stores the value
of `e` in a fresh array and releases the old one, if no lazily read operand uses the old array. -/
theorem assign_resizing {s : State E} {ρ : Env E} (hA : Agree s ρ) {x : Nat} {d : VObj}
    (hx : s.vec x = some d) (hst : d.storage = .allocated) (hoff : d.off = 0) (ho : d.Owned s.heap)
    (hal : s.heap.fail s.heap.tick = false) (hfr : s.heap.blk s.heap.next = none) (e : VExpr E)
    (hc : e.Regular s) (p : VVal E) (hp : e.den ρ = some p) (hsz : p.n ≠ d.size)
    (hl : e.Leaves (VKept s x d) (MKept s d)) :
    ∃ h', stmtAssign true s x e = .ok ({ s with heap := h' }.setVec x
        (some { d with data := some s.heap.next, size := p.n })) ∧
      VRep ({ s with heap := h' }.setVec x (some { d with data := some s.heap.next, size := p.n }))
        (.var x) p ∧
      (∀ b o, b ≠ s.heap.next → some b ≠ d.data → h'.cell b o = s.heap.cell b o) ∧
      (∀ b, some b = d.data → h'.blk b = none) := by
  obtain ⟨n, h1, h2, f, h3⟩ := VExpr.build_ok hA e (VExpr.supported_of_regular e hc) p hp
  obtain ⟨h', e1, e2, e3, e4, -⟩ := vAssign_resize_ok hx hst hoff ho hal hfr h2 hsz
    (VExpr.build_leaves e n h1 hl)
  refine ⟨h', by simp [stmtAssign, h1, e1], ⟨?_, ?_⟩, e3, e4⟩
  · simp [VNode.size, State.vobj, State.setVec]
  · intro i
    have := e2 i
    simpa [VNode.get, State.vobj, State.setVec] using this

/-- C08: if the allocation fails, the statement throws `bad_alloc` and neither the vector nor any
memory cell has changed. -/
theorem assign_bad_alloc {triv : Bool} {s : State E} {ρ : Env E} (hA : Agree s ρ) {x : Nat} {d : VObj}
    (hx : s.vec x = some d) (hst : d.storage = .allocated)
    (hal : s.heap.fail s.heap.tick = true) (e : VExpr E)
    (hc : e.Regular s) (p : VVal E) (hp : e.den ρ = some p) (hsz : p.n ≠ d.size) :
    ∃ s', stmtAssign triv s x e = .throw .badAlloc s' ∧ s'.vec = s.vec ∧ s'.mat = s.mat ∧
      s'.heap.blk = s.heap.blk := by
  obtain ⟨n, h1, h2, f, h3⟩ := VExpr.build_ok hA e (VExpr.supported_of_regular e hc) p hp
  refine ⟨{ s with heap := { s.heap with tick := s.heap.tick + 1 } }, ?_, rfl, rfl, rfl⟩
  have h0 : ¬ ((p.n : Int) < 0) := by omega
  simp [stmtAssign, h1, vAssign, checkOrResize, State.vobj, hx, hst, h2.size, vResize, vResizeWith,
    Heap.alloc, hal, hsz, h0]

section Examples

/-- `v0 = (v0 + v1) * 2` on fixed-size `v0` and dynamic `v1`: the hypotheses of `assign_elementwise`. -/
private def exA : VExpr ℤ := .scal .mul (.bin .plus (.var 0) (.var 1)) 2

example : exA.Regular exS ∧ exA.den exρ = some ⟨3, ![10, 14, 18]⟩ ∧
    (⟨.compiled, true, some 0, 0, 3⟩ : VObj).Ready true exS.heap ∧
    exA.Ahead (VAhead exS ⟨.compiled, true, some 0, 0, 3⟩) (VDisj exS ⟨.compiled, true, some 0, 0, 3⟩)
      (MDisj exS ⟨.compiled, true, some 0, 0, 3⟩) := by
  refine ⟨?_, ?_, ?_, ?_⟩
  · simp [exA, VExpr.Regular]
  · simp only [exA, VExpr.den, exρ]
    simp only [dif_pos, Option.some.injEq, VVal.mk.injEq, heq_eq_eq, true_and]
    funext i
    fin_cases i <;> rfl
  · intro i hi
    refine ⟨0, rfl, ?_⟩
    simp only at hi
    interval_cases i <;> exact ⟨_, rfl, Or.inl rfl⟩
  · refine ⟨?_, ?_⟩
    · intro w hw
      cases hw
      exact Or.inr ⟨rfl, le_refl _⟩
    · intro w hw
      cases hw
      exact Or.inl (Or.inl (by simp))

/-- The provision is needed: with two views of the same array, the destination starting one element
behind the source, `w = v` does not copy the old elements. -/
private def exV : State ℤ :=
  demo [[some 1, some 2, some 3]] [⟨.external, true, some 0, 0, 2⟩, ⟨.external, true, some 0, 1, 2⟩] []

example : ∃ s', stmtAssign true exV 1 (.var 0) = .ok s' ∧
    (VNode.var 1 : VNode ℤ).get s' 1 = .ok 1 ∧ (VNode.var 0 : VNode ℤ).get exV 1 = .ok 2 :=
  ⟨_, rfl, rfl, rfl⟩

/-- A resizing assignment `v2 = v0 + v1` (size 2 becomes 3). -/
example : ∃ s', stmtAssign true exS 2 (.bin .plus (.var 0) (.var 1)) = .ok s' ∧
    (VNode.var 2 : VNode ℤ).size s' = .ok 3 ∧ (VNode.var 2 : VNode ℤ).get s' 2 = .ok 9 :=
  ⟨_, rfl, rfl, rfl⟩

end Examples

/-! ### C76: size errors leave everything unchanged -/

/-- C76.  Assigning a well-formed expression to a vector that cannot be resized either throws a size
error and changes nothing, exactly if the sizes differ, or stores the value and changes nothing else. -/
theorem assign_checked {triv : Bool} {s : State E} {ρ : Env E} (hA : Agree s ρ) {x : Nat} {d : VObj}
    (hx : s.vec x = some d) (hst : d.storage ≠ .allocated) (e : VExpr E) (hc : e.Regular s)
    (p : VVal E) (hp : e.den ρ = some p) (hw : d.Ready triv s.heap)
    (hal : e.Ahead (VAhead s d) (VDisj s d) (MDisj s d)) :
    (p.n ≠ d.size ∧ ∃ er, (er = .vecIncompatible ∨ er = .staticAssert) ∧
        stmtAssign triv s x e = .throw er s) ∨
      (p.n = d.size ∧ ∃ h', stmtAssign triv s x e = .ok { s with heap := h' } ∧
        VRep { s with heap := h' } (.var x) p ∧ SameOutside d s.heap h') := by
  by_cases hsz : p.n = d.size
  · exact Or.inr ⟨hsz, assign_elementwise hA hx e hc p hp hsz hw hal⟩
  · left
    obtain ⟨n, h1, h2, f, h3⟩ := VExpr.build_ok hA e (VExpr.supported_of_regular e hc) p hp
    have h4 := typed_vec hx
    have h5 : (VNode.var x : VNode E).size s = .ok (d.size : Int) := by
      simp [VNode.size, State.vobj, hx]
    refine ⟨hsz, if d.fixed && f then .staticAssert else .vecIncompatible, ?_, ?_⟩
    · split <;> simp
    · have h6 : ¬ (d.size : Int) = (p.n : Int) := by omega
      simp only [stmtAssign, h1, Out.withVal_ok, vAssign, checkOrResize, State.vobj, hx]
      cases hd : d.storage with
      | allocated => exact absurd hd hst
      | compiled => simp [checkSameSize_eq h4 h3 h5 h2.size, h6]
      | external => simp [checkSameSize_eq h4 h3 h5 h2.size, h6]

/-- C76: a mis-sized right-hand side throws and changes nothing. -/
theorem assign_missized {triv : Bool} {s : State E} {ρ : Env E} (hA : Agree s ρ) (x : Nat)
    (e : VExpr E) (hc : e.Regular s) (hpre : e.Pre ρ) (hp : e.den ρ = none) :
    ∃ er, stmtAssign triv s x e = .throw er s ∧ (∀ o, stmtOpAssign triv o s x e = .throw er s) ∧
      (er.IsSize ∨ er = .invalidArgument ∧ e.NegLine) := by
  obtain ⟨er, h, hk⟩ := VExpr.build_throw hA e (VExpr.supported_of_regular e hc) hpre hp
  exact ⟨er, by simp [stmtAssign, h], fun o => by simp [stmtOpAssign, h], hk⟩

example : stmtAssign true exS 0 (.var 2) = .throw .vecIncompatible exS := rfl
example : stmtAssign true exS 0 (.temp true [1]) = .throw .staticAssert exS := rfl
example : stmtAssign true exS 0 (.bin .minus (.var 0) (.var 2)) = .throw .vecIncompatible exS := rfl

/-! ### C15: minimize, maximize -/

section MinMax
variable [LinearOrder E]

/-- C15.  After `x.minimize(e)` (`x.maximize(e)`) every element is the smaller (larger) of the two old
ones, nothing else changes. -/
theorem extremize_spec {triv lower : Bool} {s : State E} {ρ : Env E} (hA : Agree s ρ)
    {x : Nat} {d : VObj} (hx : s.vec x = some d) (e : VExpr E) (hc : e.Regular s) (n : Nat)
    (p q : Fin n → E) (hp : e.den ρ = some ⟨n, p⟩) (hq : ρ.v x = some ⟨n, q⟩)
    (hw : d.Ready triv s.heap) (hal : e.Ahead (VAhead s d) (VDisj s d) (MDisj s d)) :
    ∃ h', stmtExtremize triv lower s x e = .ok { s with heap := h' } ∧
      VRep { s with heap := h' } (.var x)
        ⟨n, fun i => if lower then min (q i) (p i) else max (q i) (p i)⟩ ∧
      SameOutside d s.heap h' := by
  obtain ⟨m, h1, h2, f, h3⟩ := VExpr.build_ok hA e (VExpr.supported_of_regular e hc) _ hp
  have hq' := hA.v x _ hq
  obtain ⟨h', e1, e2, e3⟩ := vExtremize_ok (triv := triv) (lower := lower) hx h2 hq' h3 rfl hw
    (VExpr.build_ahead e m h1 hal)
  refine ⟨h', by simp [stmtExtremize, h1, e1], ⟨?_, ?_⟩, e3⟩
  · have := hq'.size
    simpa [VNode.size, State.vobj, hx] using this
  · intro i
    have := e2 i
    simpa [VNode.get, State.vobj, hx] using this

/-- C15: different sizes are rejected for every kind of destination (also resizable ones), and nothing
changes. -/
theorem extremize_size_error {triv lower : Bool} {s : State E} {ρ : Env E} (hA : Agree s ρ)
    {x : Nat} (e : VExpr E) (hc : e.Regular s) (p q : VVal E) (hp : e.den ρ = some p)
    (hq : ρ.v x = some q) (hne : p.n ≠ q.n) :
    ∃ er, (er = .vecIncompatible ∨ er = .staticAssert) ∧
      stmtExtremize triv lower s x e = .throw er s := by
  obtain ⟨m, h1, h2, f, h3⟩ := VExpr.build_ok hA e (VExpr.supported_of_regular e hc) _ hp
  have hq' := hA.v x _ hq
  obtain ⟨b, hb⟩ := typed_var_v hq'.size
  have h6 : ¬ (q.n : Int) = (p.n : Int) := by omega
  refine ⟨if b && f then .staticAssert else .vecIncompatible, ?_, ?_⟩
  · split <;> simp
  · simp [stmtExtremize, h1, vExtremize, checkSameSize_eq hb h3 hq'.size h2.size, h6]

/-- C15, lattice laws on the statements: with `y` disjoint from `x`, `x.minimize(y); x.maximize(y)`
(or the other way round) leaves `x` equal to `y` (absorption), and doing the same operation twice is
doing it once (idempotence). -/
theorem extremize_twice {triv lower lower' : Bool} {s : State E} {x y : Nat} {d : VObj}
    (hx : s.vec x = some d) (n : Nat) (p q : Fin n → E) (hp : VRep s (.var y) ⟨n, p⟩)
    (hq : VRep s (.var x) ⟨n, q⟩) (hdis : VDisj s d y) :
    ∃ h1 h2, stmtExtremize triv lower s x (.var y) = .ok { s with heap := h1 } ∧
      stmtExtremize triv lower' { s with heap := h1 } x (.var y) = .ok { s with heap := h2 } ∧
      VRep { s with heap := h2 } (.var x) ⟨n, fun i =>
        if lower = lower' then (if lower then min (q i) (p i) else max (q i) (p i)) else p i⟩ := by
  have hal : (VExpr.var y : VExpr E).Ahead (VAhead s d) (VDisj s d) (MDisj s d) :=
    fun w hw => Or.inl (hdis w hw)
  have hrd : d.Ready triv s.heap := ready_after (s := s) (h' := s.heap) hx hq
  obtain ⟨fy, hfy⟩ := typed_var_v hp.size
  obtain ⟨h1, e1, e2, e3⟩ := vExtremize_ok (triv := triv) (lower := lower) hx hp hq hfy rfl hrd hal
  have hq1 : VRep { s with heap := h1 } (.var x)
      ⟨n, fun i => if lower then min (q i) (p i) else max (q i) (p i)⟩ :=
    ⟨hq.size, fun i => by
      have := e2 i
      simpa [VNode.get, State.vobj, hx] using this⟩
  have hp1 := vrep_frame e3 hdis hp
  obtain ⟨h2, g1, g2, g3⟩ := vExtremize_ok (triv := triv) (lower := lower')
    (s := { s with heap := h1 }) hx hp1 hq1 (typed_var_v hp1.size).choose_spec rfl (ready_after hx hq1) hal
  refine ⟨h1, h2, by simpa [stmtExtremize, VExpr.build] using e1,
    by simpa [stmtExtremize, VExpr.build] using g1, ⟨hq.size, fun i => ?_⟩⟩
  have := g2 i
  simp only [VNode.get, State.vobj, hx, Res.ok_bind]
  rw [this]
  simp only [Fin.cast_eq_self]
  cases lower <;> cases lower' <;> simp

/-- C15, lattice laws: `x.minimize(y); x.minimize(z)` and `x.minimize(z); x.minimize(y)` leave the same
elements in `x` (commutativity and associativity), and likewise for `maximize`. -/
theorem extremize_comm {triv lower : Bool} {s : State E} {x y z : Nat} {d : VObj}
    (hx : s.vec x = some d) (n : Nat) (p q r : Fin n → E) (hp : VRep s (.var y) ⟨n, p⟩)
    (hr : VRep s (.var z) ⟨n, r⟩) (hq : VRep s (.var x) ⟨n, q⟩) (hy : VDisj s d y) (hz : VDisj s d z) :
    ∃ h1 h2 k1 k2 t,
      stmtExtremize triv lower s x (.var y) = .ok { s with heap := h1 } ∧
      stmtExtremize triv lower { s with heap := h1 } x (.var z) = .ok { s with heap := h2 } ∧
      stmtExtremize triv lower s x (.var z) = .ok { s with heap := k1 } ∧
      stmtExtremize triv lower { s with heap := k1 } x (.var y) = .ok { s with heap := k2 } ∧
      VRep { s with heap := h2 } (.var x) ⟨n, t⟩ ∧ VRep { s with heap := k2 } (.var x) ⟨n, t⟩ := by
  have hrd : d.Ready triv s.heap := ready_after (s := s) (h' := s.heap) hx hq
  have step : ∀ (s : State E) (hx : s.vec x = some d) (y : Nat) (p q : Fin n → E),
      VRep s (.var y) ⟨n, p⟩ → VRep s (.var x) ⟨n, q⟩ → VDisj s d y →
      ∃ h1, stmtExtremize triv lower s x (.var y) = .ok { s with heap := h1 } ∧
        VRep { s with heap := h1 } (.var x)
          ⟨n, fun i => if lower then min (q i) (p i) else max (q i) (p i)⟩ ∧
        SameOutside d s.heap h1 := by
    intro s hx y p q hp hq hdis
    obtain ⟨fy, hfy⟩ := typed_var_v hp.size
    obtain ⟨h1, e1, e2, e3⟩ := vExtremize_ok (triv := triv) (lower := lower) hx hp hq hfy rfl
      (ready_after (s := s) (h' := s.heap) hx hq)
      (show (VNode.var y : VNode E).Ahead (VAhead s d) (VDisj s d) (MDisj s d) from
        fun w hw => Or.inl (hdis w hw))
    refine ⟨h1, by simpa [stmtExtremize, VExpr.build] using e1, ⟨hq.size, fun i => ?_⟩, e3⟩
    have := e2 i
    simpa [VNode.get, State.vobj, hx] using this
  obtain ⟨h1, a1, a2, a3⟩ := step s hx y p q hp hq hy
  obtain ⟨h2, b1, b2, b3⟩ := step { s with heap := h1 } hx z r _ (vrep_frame a3 hz hr) a2 hz
  obtain ⟨k1, c1, c2, c3⟩ := step s hx z r q hr hq hz
  obtain ⟨k2, d1, d2, d3⟩ := step { s with heap := k1 } hx y p _ (vrep_frame c3 hy hp) c2 hy
  refine ⟨h1, h2, k1, k2, _, a1, b1, c1, d1, b2, ?_⟩
  convert d2 using 3
  rename_i i
  cases lower
  · simp only [Bool.false_eq_true, if_false]
    rw [max_assoc, max_assoc, max_comm (p i)]
  · simp only [if_true]
    rw [min_assoc, min_assoc, min_comm (p i)]

end MinMax

example : ∃ s', stmtExtremize true true exS 0 (.temp true [3, 1, 2]) = .ok s' ∧
    (VNode.var 0 : VNode ℤ).get s' 0 = .ok 1 ∧ (VNode.var 0 : VNode ℤ).get s' 1 = .ok 1 ∧
    (VNode.var 0 : VNode ℤ).get s' 2 = .ok 2 := ⟨_, rfl, rfl, rfl, rfl⟩

/-- The hypotheses of `extremize_twice` and `extremize_comm` hold for `v0`, `v1` of the example state. -/
example : VRep exS (.var 1) ⟨3, ![4, 5, 6]⟩ ∧ VRep exS (.var 0) ⟨3, ![1, 2, 3]⟩ ∧
    VDisj exS ⟨.compiled, true, some 0, 0, 3⟩ 1 :=
  ⟨exS_agree.v 1 _ rfl, exS_agree.v 0 _ rfl, fun w hw => by cases hw; exact Or.inl (by simp)⟩

example : stmtExtremize true true exS 2 (.var 0) = .throw .vecIncompatible exS := rfl

/-! ### C16: scalar compound assignment -/

/-- C16 restricted to a scalar that is not an element of the destination: every element is combined
with the scalar the caller passed.  Missing: a reference to an element of the destination itself, for
which the claim is false (`scalAssign_self`). -/
theorem scalAssign_partial {triv : Bool} {o : ScalOp} {s : State E} {x : Nat} {d : VObj}
    (hx : s.vec x = some d) (q : VVal E) (hq : VRep s (.var x) q) (c : ScalarRef E) (v : E)
    (hc : c.read s = .ok v) (hd : ∀ y i, c = .elem y i → VDisj s d y) :
    ∃ h', vScalAssign triv o s x c = .ok { s with heap := h' } ∧
      VRep { s with heap := h' } (.var x) ⟨q.n, fun i => o.den (q.f i) v⟩ ∧
      SameOutside d s.heap h' := by
  have hsz : q.n = d.size := by
    have := hq.size
    simp only [VNode.size, State.vobj, hx, Res.ok_bind, Res.pure_eq, Res.ok.injEq] at this
    omega
  obtain ⟨h', e1, e2, e3, -⟩ := storeLoop_fin (triv := triv) hx
    (ready_after (s := s) (h' := s.heap) hx hq) hsz (fun i => o.den (q.f i) v)
    (f := fun s i => do
      let a ← (VNode.var x : VNode E).get s i
      let b ← c.read s
      pure (o.apply a b))
    (fun b k s' g hb hv hm hst => by
      have h2 : (VNode.var x : VNode E).get s' k = .ok (q.f k) :=
        var_get_ahead hv hb (by omega) hst (y := x)
          (by
            intro w hw'
            rw [hx] at hw'; cases hw'
            exact Or.inr ⟨rfl, le_refl _⟩) (le_refl _) (hq.get k)
      have h3 : c.read s' = .ok v := by
        cases c with
        | val c => exact hc
        | elem y i => exact var_get_disj hv hb (by omega) hst (hd y i rfl) hc
      simp [h2, h3])
  refine ⟨h', e1, ⟨hq.size, fun i => ?_⟩, e3⟩
  have := e2 i
  simpa [VNode.get, State.vobj, hx] using this

/-- C16, what really happens for `v *= v[k]`, `v /= v[k]`: the elements up to and including `k` are
combined with the old `v[k]`, those after `k` with the new one. -/
theorem scalAssign_self {triv : Bool} {o : ScalOp} {s : State E} {x : Nat} {d : VObj}
    (hx : s.vec x = some d) (q : VVal E) (hq : VRep s (.var x) q) (k : Fin q.n) :
    ∃ h', vScalAssign triv o s x (.elem x k) = .ok { s with heap := h' } ∧
      VRep { s with heap := h' } (.var x) ⟨q.n, fun i =>
        if i ≤ k then o.den (q.f i) (q.f k) else o.den (q.f i) (o.den (q.f k) (q.f k))⟩ ∧
      SameOutside d s.heap h' := by
  have hsz : q.n = d.size := by
    have := hq.size
    simp only [VNode.size, State.vobj, hx, Res.ok_bind, Res.pure_eq, Res.ok.injEq] at this
    omega
  have hrd := ready_after (triv := triv) (s := s) (h' := s.heap) hx hq
  obtain ⟨b, hb, -⟩ := hrd k (by omega)
  have hself : VAhead s d x := by
    intro w hw'
    rw [hx] at hw'; cases hw'
    exact Or.inr ⟨rfl, le_refl _⟩
  obtain ⟨g, hg⟩ := exists_ext (Nat.lt_of_le_of_lt (Nat.zero_le _) k.2) (fun i : Fin q.n =>
    if i ≤ k then o.den (q.f i) (q.f k) else o.den (q.f i) (o.den (q.f k) (q.f k)))
  obtain ⟨h', e1, e2⟩ := storeLoop_ok (triv := triv) hx hb
    (fun i hi => by
      obtain ⟨b', hb', hw'⟩ := hrd i hi
      rw [hb] at hb'; cases hb'; exact hw')
    (f := fun s i => do
      let a ← (VNode.var x : VNode E).get s i
      let b ← (ScalarRef.elem x k : ScalarRef E).read s
      pure (o.apply a b)) g
    (fun i s' hi hv hm hst => by
      have h2 : (VNode.var x : VNode E).get s' i = .ok (q.f ⟨i, by omega⟩) :=
        var_get_ahead hv hb (by omega) hst (y := x) hself (le_refl _) (hq.get ⟨i, by omega⟩)
      by_cases hik : i ≤ k
      · have h3 : (VNode.var x : VNode E).get s' k = .ok (q.f k) :=
          var_get_ahead hv hb (by omega) hst (y := x) hself hik (hq.get k)
        have h4 := hg ⟨i, by omega⟩
        rw [if_pos (by simpa [Fin.le_def] using hik)] at h4
        simp [h2, h3, h4, ScalarRef.read]
      · have h3 : (VNode.var x : VNode E).get s' k = .ok (o.den (q.f k) (q.f k)) := by
          rw [VNode.var_get]
          refine ⟨d, b, by rw [hv, hx], hb, by omega, ?_⟩
          rw [hst.val k (by omega)]
          have := hg k
          rw [if_pos (le_refl _)] at this
          rw [this]
        have h4 := hg ⟨i, by omega⟩
        rw [if_neg (by simpa [Fin.le_def] using hik)] at h4
        simp [h2, h3, h4, ScalarRef.read])
  refine ⟨h', e1, ⟨hq.size, fun i => ?_⟩, ?_⟩
  · rw [VNode.var_get]
    refine ⟨d, b, hx, hb, by have := i.2; simp only at this; omega, ?_⟩
    rw [e2.val i (by have := i.2; simp only at this; omega), hg i]
  · intro b' o' hbo
    apply e2.frame
    by_contra hcon
    apply hbo
    push Not at hcon
    obtain ⟨rfl, h1, h2⟩ := hcon
    exact ⟨hb, h1, h2⟩

/-- C16 is false: `v *= v[0]` does not multiply every element by the old `v[0]`. -/
theorem scalAssign_false :
    ¬ ∀ (s : State ℤ) (x : Nat) (q : VVal ℤ) (c : ScalarRef ℤ) (v : ℤ), VRep s (.var x) q →
      c.read s = .ok v → ∃ h', vScalAssign true .mul s x c = .ok { s with heap := h' } ∧
        VRep { s with heap := h' } (.var x) ⟨q.n, fun i => q.f i * v⟩ := by
  intro h
  have hS : VRep (demo [[some 2, some 3]] [⟨.compiled, true, some 0, 0, 2⟩] [] : State ℤ) (.var 0)
      ⟨2, ![2, 3]⟩ := ⟨rfl, fun i => by fin_cases i <;> rfl⟩
  obtain ⟨h', e1, e2⟩ := h _ 0 _ (.elem 0 0) 2 hS rfl
  have h1 := e2.get 1
  have hh : vScalAssign true .mul
      (demo [[some 2, some 3]] [⟨.compiled, true, some 0, 0, 2⟩] [] : State ℤ) 0 (.elem 0 0)
      = .ok { (demo [[some 2, some 3]] [⟨.compiled, true, some 0, 0, 2⟩] [] : State ℤ) with
          heap := ((demo [[some 2, some 3]] [] [] : State ℤ).heap.setBlk 0
            (some [some 4, some 3])).setBlk 0 (some [some 4, some 12]) } := rfl
  rw [hh] at e1
  simp only [Out.ok.injEq, State.mk.injEq, and_true] at e1
  rw [← e1] at h1
  have h2 : (VNode.var 0 : VNode ℤ).get
      { (demo [[some 2, some 3]] [⟨.compiled, true, some 0, 0, 2⟩] [] : State ℤ) with
          heap := ((demo [[some 2, some 3]] [] [] : State ℤ).heap.setBlk 0
            (some [some 4, some 3])).setBlk 0 (some [some 4, some 12]) } 1 = .ok 12 := rfl
  have h3 : (Res.ok 12 : Res ℤ) = .ok 6 := by rw [← h2]; exact h1
  simp at h3

example : VRep exS (.var 0) ⟨3, ![1, 2, 3]⟩ ∧ (ScalarRef.elem 1 2 : ScalarRef ℤ).read exS = .ok 6 ∧
    VDisj exS ⟨.compiled, true, some 0, 0, 3⟩ 1 :=
  ⟨exS_agree.v 0 _ rfl, rfl, fun w hw => by cases hw; exact Or.inl (by simp)⟩

/-! ### C17: compound assignment to resizable vectors -/

/-- C17 restricted to operands of the same size, for every kind of destination: element-wise sums.
Missing: operands of different size, for which the claim is false (`opAssign_longer_ub`,
`opAssign_shorter_truncates`). -/
theorem opAssign_same_size_partial {triv : Bool} {o : BinOp} {s : State E} {ρ : Env E} (hA : Agree s ρ)
    {x : Nat} {d : VObj} (hx : s.vec x = some d) (e : VExpr E) (hc : e.Regular s) (n : Nat)
    (p q : Fin n → E) (hp : e.den ρ = some ⟨n, p⟩) (hq : ρ.v x = some ⟨n, q⟩)
    (hal : e.Ahead (VAhead s d) (VDisj s d) (MDisj s d)) :
    ∃ h', stmtOpAssign triv o s x e = .ok { s with heap := h' } ∧
      VRep { s with heap := h' } (.var x) ⟨n, fun i => o.den (q i) (p i)⟩ ∧
      SameOutside d s.heap h' := by
  have hrd : d.Ready triv s.heap := by
    have hq' := hA.v x _ hq
    have hsz : n = d.size := by
      have := hq'.size
      simp only [VNode.size, State.vobj, hx, Res.ok_bind, Res.pure_eq, Res.ok.injEq] at this
      omega
    intro i hi
    have := hq'.get ⟨i, by simp only; omega⟩
    rw [VNode.var_get] at this
    obtain ⟨w, b, h1, h2, h3, h4⟩ := this
    simp only [hx, Option.some.injEq] at h1
    subst h1
    exact ⟨b, h2, _, h4, Or.inr rfl⟩
  exact opAssign_elementwise hA hx e hc n p q hp hq hrd hal

/-- C17, what happens for a dynamic vector and a longer operand: an uninitialised element is read. -/
theorem opAssign_longer_ub {o : BinOp} {s : State E} {ρ : Env E} (hA : Agree s ρ) {x : Nat} {d : VObj}
    (hx : s.vec x = some d) (hst : d.storage = .allocated) (hoff : d.off = 0) (ho : d.Owned s.heap)
    (hal : s.heap.fail s.heap.tick = false) (hfr : s.heap.blk s.heap.next = none) (e : VExpr E)
    (hc : e.Regular s) (p q : VVal E) (hp : e.den ρ = some p) (hq : ρ.v x = some q)
    (hlt : q.n < p.n) (hl : e.Leaves (VKept s x d) (MKept s d)) :
    stmtOpAssign true o s x e = .ub .uninit := by
  obtain ⟨n, h1, h2, f, h3⟩ := VExpr.build_ok hA e (VExpr.supported_of_regular e hc) p hp
  simp only [stmtOpAssign, h1, Out.withVal_ok]
  exact vOpAssign_grow hx hst hoff ho hal hfr h2 (hA.v x q hq) hlt (VExpr.build_leaves e n h1 hl)

/-- C17, what happens for a dynamic vector and a shorter operand: no error, the destination is silently
truncated. -/
theorem opAssign_shorter_truncates {o : BinOp} {s : State E} {ρ : Env E} (hA : Agree s ρ) {x : Nat}
    {d : VObj} (hx : s.vec x = some d) (hst : d.storage = .allocated) (hoff : d.off = 0)
    (ho : d.Owned s.heap) (hal : s.heap.fail s.heap.tick = false)
    (hfr : s.heap.blk s.heap.next = none) (e : VExpr E) (hc : e.Regular s) (p q : VVal E)
    (hp : e.den ρ = some p) (hq : ρ.v x = some q) (hlt : p.n < q.n)
    (hl : e.Leaves (VKept s x d) (MKept s d)) :
    ∃ s', stmtOpAssign true o s x e = .ok s' ∧
      VRep s' (.var x) ⟨p.n, fun i => o.den (q.f ⟨i, lt_trans i.2 hlt⟩) (p.f i)⟩ := by
  obtain ⟨n, h1, h2, f, h3⟩ := VExpr.build_ok hA e (VExpr.supported_of_regular e hc) p hp
  obtain ⟨h', e1, e2⟩ := vOpAssign_shrink (o := o) hx hst hoff ho hal hfr h2 (hA.v x q hq) hlt
    (VExpr.build_leaves e n h1 hl)
  refine ⟨_, by simp only [stmtOpAssign, h1, Out.withVal_ok]; exact e1, ⟨?_, ?_⟩⟩
  · simp [VNode.size, State.vobj, State.setVec]
  · intro i
    have := e2 i
    simpa [VNode.get, State.vobj, State.setVec] using this

/-- C17 is false: a concrete state in which `v2 += v1` is undefined behaviour. -/
theorem opAssign_false :
    ¬ ∀ (s : State ℤ) (ρ : Env ℤ) (x : Nat) (e : VExpr ℤ), Agree s ρ → e.Regular s → e.Pre ρ →
      ∀ u, stmtOpAssign true .plus s x e ≠ .ub u := by
  intro h
  exact h exS exρ 2 (.var 1) exS_agree trivial (by simp [VExpr.Pre, exρ]) .uninit rfl

/-- Hypotheses of the two theorems for `v2 += v1` and `v1 += v2`. -/
example : (⟨.allocated, false, some 2, 0, 2⟩ : VObj).Owned exS.heap ∧
    exS.heap.fail exS.heap.tick = false ∧ exS.heap.blk exS.heap.next = none ∧
    (VExpr.var 1 : VExpr ℤ).Leaves (VKept exS 2 ⟨.allocated, false, some 2, 0, 2⟩)
      (MKept exS ⟨.allocated, false, some 2, 0, 2⟩) := by
  refine ⟨Or.inr ⟨2, _, rfl, rfl, rfl⟩, rfl, rfl, ?_, ?_⟩
  · decide
  · intro w hw; cases hw; right; simp

example : ∃ s', stmtOpAssign true .plus exS 1 (.var 2) = .ok s' ∧
    (VNode.var 1 : VNode ℤ).size s' = .ok 2 ∧ (VNode.var 1 : VNode ℤ).get s' 1 = .ok 13 :=
  ⟨_, rfl, rfl, rfl⟩

/-! ### C09 (vectors): cross and subvector of the destination itself -/

/-- C09, what `v = cross(v, w)` does for a vector `v` of size 3 and a disjoint `w`: each element is
computed from the elements already overwritten. -/
theorem cross_self_assign {triv : Bool} {s : State E} {x y : Nat} {d : VObj} (hx : s.vec x = some d)
    (p q : Fin 3 → E) (hp : VRep s (.var x) ⟨3, p⟩) (hq : VRep s (.var y) ⟨3, q⟩)
    (hdis : VDisj s d y) :
    ∃ h', stmtAssign triv s x (.cross (.var x) (.var y)) = .ok { s with heap := h' } ∧
      VRep { s with heap := h' } (.var x) ⟨3,
        let a := p 1 * q 2 - p 2 * q 1
        let b := p 2 * q 0 - a * q 2
        ![a, b, a * q 1 - b * q 0]⟩ := by
  have hsz : 3 = d.size := by
    have := hp.size
    simp only [VNode.size, State.vobj, hx, Res.ok_bind, Res.pure_eq, Res.ok.injEq] at this
    omega
  have hrd := ready_after (triv := triv) (s := s) (h' := s.heap) hx hp
  obtain ⟨b, hb, -⟩ := hrd 0 (by omega)
  obtain ⟨fx, hfx⟩ := typed_var_v hp.size
  obtain ⟨fy, hfy⟩ := typed_var_v hq.size
  have hself : VAhead s d x := by
    intro w hw'
    rw [hx] at hw'; cases hw'
    exact Or.inr ⟨rfl, le_refl _⟩
  have hsx : (VNode.var x : VNode E).ctorSize s fx = .ok 3 := by
    have := hp.size
    cases fx <;> simpa [VNode.ctorSize, VNode.movedSize, VNode.size, hfx.csize] using this
  have hsy : (VNode.var y : VNode E).ctorSize s fy = .ok 3 := by
    have := hq.size
    cases fy <;> simpa [VNode.ctorSize, VNode.movedSize, VNode.size, hfy.csize] using this
  have hbuild : (VExpr.cross (.var x) (.var y) : VExpr E).build s = .ok (.cross (.var x) (.var y)) := by
    simp [VExpr.build, hfx.fixed, hfy.fixed, hsx, hsy, checkSizeC, Res.require]
  let a0 := p 1 * q 2 - p 2 * q 1
  let b0 := p 2 * q 0 - a0 * q 2
  let c0 := a0 * q 1 - b0 * q 0
  let g : Nat → E := fun i => match i with | 0 => a0 | 1 => b0 | _ => c0
  obtain ⟨h', e1, e2⟩ := storeLoop_ok (triv := triv) hx hb
    (fun i hi => by
      obtain ⟨b', hb', hw'⟩ := hrd i hi
      rw [hb] at hb'; cases hb'; exact hw')
    (f := fun s i => (VNode.cross (.var x) (.var y) : VNode E).get s i) g
    (fun i s' hi hv hm hst => by
      have hY : ∀ j : Fin 3, (VNode.var y : VNode E).get s' j = .ok (q j) := fun j =>
        var_get_disj hv hb (by omega) hst hdis (hq.get j)
      have hX : ∀ j : Fin 3, i ≤ j → (VNode.var x : VNode E).get s' j = .ok (p j) := fun j hj =>
        var_get_ahead hv hb (by omega) hst (y := x) hself hj (hp.get j)
      have hX' : ∀ j : Nat, j < i → (VNode.var x : VNode E).get s' j = .ok (g j) := fun j hj => by
        rw [VNode.var_get]
        exact ⟨d, b, by rw [hv, hx], hb, by omega, hst.val j hj⟩
      have y0 := hY 0
      have y1 := hY 1
      have y2 := hY 2
      rw [← hsz] at hi
      interval_cases i
      · have x1 := hX 1 (by simp)
        have x2 := hX 2 (by simp)
        simp only [Fin.val_zero, Fin.val_one, Fin.val_two] at x1 x2 y0 y1 y2
        rw [VNode.get]; simp [x1, x2, y1, y2, g, a0]
      · have x0 := hX' 0 (by simp)
        have x2 := hX 2 (by simp)
        simp only [Fin.val_zero, Fin.val_one, Fin.val_two] at x0 x2 y0 y1 y2
        rw [VNode.get]; simp [x0, x2, y0, y2, g, b0]
      · have x0 := hX' 0 (by simp)
        have x1 := hX' 1 (by simp)
        simp only [Fin.val_zero, Fin.val_one, Fin.val_two] at x0 x1 y0 y1 y2
        rw [VNode.get]; simp [x0, x1, y0, y1, g, c0])
  refine ⟨h', ?_, ⟨hp.size, fun i => ?_⟩⟩
  · simp only [stmtAssign, hbuild, Out.withVal_ok, vAssign]
    have hf : (VNode.cross (.var x) (.var y) : VNode E).Typed s (fx || fy) d.size := by
      rw [← hsz]
      exact hfx.cross hfy
    rw [checkOrResize_same hx (by simp [VNode.size, ← hsz]) hf]
    simpa using e1
  · rw [VNode.var_get]
    refine ⟨d, b, hx, hb, by have := i.2; simp only at this; omega, ?_⟩
    rw [e2.val i (by have := i.2; simp only at this; omega)]
    fin_cases i <;> rfl

/-- C09 is false for vectors: `v = cross(v, w)` does not store the cross product. -/
theorem cross_self_assign_false :
    ¬ ∀ (s : State ℤ) (ρ : Env ℤ) (x y : Nat) (p : VVal ℤ), Agree s ρ →
      (VExpr.cross (.var x) (.var y)).den ρ = some p →
      ∃ s', stmtAssign true s x (.cross (.var x) (.var y)) = .ok s' ∧ VRep s' (.var x) p := by
  intro h
  obtain ⟨s', h1, h2⟩ := h exS exρ 0 1 _ exS_agree rfl
  obtain ⟨h', e1, e2⟩ := cross_self_assign (triv := true) (s := exS) (x := 0) (y := 1) rfl
    ![1, 2, 3] ![4, 5, 6] (exS_agree.v 0 _ rfl) (exS_agree.v 1 _ rfl)
    (fun w hw => by cases hw; exact Or.inl (by simp))
  rw [h1] at e1
  cases e1
  have a := h2.get 1
  have b := e2.get 1
  have : (Res.ok 6 : Res ℤ) = .ok 30 := by
    have ha : (VNode.var 0 : VNode ℤ).get { exS with heap := h' } 1 = .ok 6 := a
    have hb : (VNode.var 0 : VNode ℤ).get { exS with heap := h' } 1 = .ok 30 := b
    rw [← ha, hb]
  simp at this

/-- C09: `v = subvector(v, k)` on a dynamic vector of at least two elements (trivial element type) is
undefined behaviour unless the last element is the one dropped: the vector is shrunk first and then read
past its new end. -/
theorem subvector_self_assign_ub {s : State E} {x : Nat} {d : VObj} (hx : s.vec x = some d)
    (hst : d.storage = .allocated) (hoff : d.off = 0) (ho : d.Owned s.heap)
    (hal : s.heap.fail s.heap.tick = false) (hfr : s.heap.blk s.heap.next = none)
    (q : VVal E) (hq : VRep s (.var x) q) (k : Nat) (hk : k + 1 < q.n) :
    stmtAssign true s x (.sub (.var x) k) = .ub .oob := by
  have hsz : q.n = d.size := by
    have := hq.size
    simp only [VNode.size, State.vobj, hx, Res.ok_bind, Res.pure_eq, Res.ok.injEq] at this
    omega
  obtain ⟨h1, r1, r2, r3, r4, -⟩ := resize_step hx hoff ho hal hfr (n := q.n - 1) (by omega)
  set d1 : VObj := { d with data := some s.heap.next, size := q.n - 1 } with hd1
  set s1 : State E := { s with heap := h1 }.setVec x (some d1) with hs1
  have hx1 : s1.vec x = some d1 := by simp [hs1, State.setVec]
  have ho1 : d1.off = 0 := hoff
  have hb1 : d1.data = some s.heap.next := rfl
  -- the copied elements
  have hcell : ∀ i (hi : i < q.n - 1), h1.cell s.heap.next i = some (some (q.f ⟨i, by omega⟩)) := by
    intro i hi
    have := r2 i hi
    rw [if_pos (by omega)] at this
    have hold := hq.get ⟨i, by omega⟩
    rw [VNode.var_get] at hold
    obtain ⟨w, b, w1, w2, w3, w4⟩ := hold
    rw [hx] at w1; cases w1
    rw [hoff, Nat.zero_add] at w4
    rw [w2] at this
    simp only at w4
    simp only [Option.bind_some, w4, Option.getD_some] at this
    exact this
  obtain ⟨g, hg⟩ := exists_ext (n := q.n - 1) (by omega)
    (fun i => if (i : Nat) < k then q.f ⟨i, by omega⟩ else q.f ⟨i + 1, by omega⟩)
  obtain ⟨h', e1, e2⟩ := storeSteps_ok (triv := true) hx1 hb1 (q.n - 2)
    (by show q.n - 2 ≤ q.n - 1; omega)
    (fun i hi => ⟨_, by rw [ho1, Nat.zero_add]; exact r2 i hi, Or.inl rfl⟩)
    (f := fun s i => (VNode.sub (.var x) k : VNode E).get s i) g
    (fun i s' hi hv hm hstd => by
      have h4 := hg ⟨i, by omega⟩
      simp only at h4
      have hread : ∀ j (hj : j < q.n - 1), i ≤ j →
          (VNode.var x : VNode E).get s' j = .ok (q.f ⟨j, by omega⟩) := by
        intro j hj hij
        rw [VNode.var_get]
        refine ⟨d1, s.heap.next, by rw [hv]; exact hx1, rfl, hj, ?_⟩
        rw [hstd.frame _ _ (Or.inr (Or.inr (by omega))), ho1, Nat.zero_add]
        exact hcell j hj
      unfold VNode.get
      rw [h4]
      by_cases hik : i < k
      · rw [if_pos (by omega), if_pos hik]
        exact hread i (by omega) (le_refl _)
      · rw [if_neg (by omega), if_neg hik]
        exact hread (i + 1) (by omega) (by omega))
  simp only [stmtAssign, VExpr.build, Res.pure_eq, Res.ok_bind, Out.withVal_ok, vAssign, checkOrResize,
    State.vobj, hx, hst]
  have hs : (VNode.sub (.var x) k : VNode E).size s = .ok (((q.n - 1 : Nat) : Int)) := by
    simp only [VNode.size]
    have := hq.size
    simp only [VNode.size] at this
    rw [this]
    simp only [Res.ok_bind, Res.pure_eq, Res.ok.injEq]
    omega
  rw [hs]
  simp only [Out.withVal_ok, r1, Out.ok_andThen]
  unfold storeLoop
  simp only [State.vobj, hx1, Out.withVal_ok]
  rw [show d1.size = q.n - 2 + 1 from by show q.n - 1 = _; omega, Out.loop_add, e1]
  simp only [Out.ok_andThen, Nat.zero_add, Out.loop, storeStep]
  have hlast : (VNode.sub (.var x) k : VNode E).get { s1 with heap := h' } (q.n - 2) = .ub .oob := by
    unfold VNode.get
    rw [if_neg (by omega)]
    simp only [VNode.get, State.vobj, hx1, Res.ok_bind, VObj.get, hd1]
    rw [if_neg (by omega)]
  simp only [hlast, Out.withVal_ub, Out.ub_andThen]

/-- C09 restricted to destinations that do not overlap any operand of a `cross` and are not overlapped
by a lazily read operand starting before them: the value of the right-hand side is stored.  Missing:
`v = cross(v, w)` and (resizable vectors) `v = subvector(v, k)`, where the claim is false. -/
theorem self_assign_partial {triv : Bool} {s : State E} {ρ : Env E} (hA : Agree s ρ) {x : Nat}
    {d : VObj} (hx : s.vec x = some d) (e : VExpr E) (hc : e.Regular s) (p : VVal E)
    (hp : e.den ρ = some p) (hsz : p.n = d.size) (hw : d.Ready triv s.heap)
    (hal : e.Ahead (VAhead s d) (VDisj s d) (MDisj s d)) :
    ∃ h', stmtAssign triv s x e = .ok { s with heap := h' } ∧
      VRep { s with heap := h' } (.var x) p ∧ SameOutside d s.heap h' :=
  assign_elementwise hA hx e hc p hp hsz hw hal

/-- `v1 = subvector(v1, 0)` on the dynamic vector of the example state. -/
example : stmtAssign true exS 1 (.sub (.var 1) 0) = .ub .oob := rfl

#print axioms assign_elementwise
#print axioms opAssign_elementwise
#print axioms assign_product
#print axioms assign_resizing
#print axioms assign_bad_alloc
#print axioms assign_checked
#print axioms assign_missized
#print axioms extremize_spec
#print axioms extremize_size_error
#print axioms extremize_twice
#print axioms extremize_comm
#print axioms scalAssign_partial
#print axioms scalAssign_self
#print axioms scalAssign_false
#print axioms opAssign_same_size_partial
#print axioms opAssign_longer_ub
#print axioms opAssign_shorter_truncates
#print axioms opAssign_false
#print axioms cross_self_assign
#print axioms cross_self_assign_false
#print axioms subvector_self_assign_ub
#print axioms self_assign_partial

end CML
