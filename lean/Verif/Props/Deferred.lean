import Verif.Lemmas.DeferredProgram
import Verif.Lemmas.Stable
import Verif.Lemmas.Demo
import Verif.Props.Program

/-!
C113: expression objects that are stored (`auto e = ...;`) and evaluated later.

The nodes of the library keep named operands by reference and temporaries by value
(`/repo/cml/vector/binary_node.h:103-115` and the same in the other node classes), products are computed when
they are written.  In the model the node built in one state is evaluated in another.
-/

namespace CML

set_option linter.unusedSectionVars false

variable {E : Type} [Add E] [Sub E] [Mul E] [Div E] [Neg E]

/-- An expression object, built in one state and evaluated in a later one in which the variables it refers to
(those outside of products) are still there and have kept their sizes: it has kept its size, and its elements
are those of the expression with the variables' current values, except that products have the value they had
at first. -/
theorem deferred_value {s s' : State E} {ρ ρ' : Env E} (hA : Agree s ρ) (hA' : Agree s' ρ') (e : VExpr E)
    (hc : e.Regular s) {p : VVal E} (hp : e.den ρ = some p) (hS : e.Leaves (VStays ρ ρ') (MStays ρ ρ')) :
    ∃ n p', e.build s = .ok n ∧ (e.freeze ρ).den ρ' = some p' ∧ p'.n = p.n ∧ VRep s' n p' := by
  have hs := VExpr.supported_of_regular e hc
  obtain ⟨n, e1, -⟩ := VExpr.build_ok hA e hs p hp
  obtain ⟨p', e2, e3⟩ := VExpr.freeze_shape e p hS hp
  exact ⟨n, p', e1, e2, e3, VExpr.build_later hA hA' e hs p hp n e1 p' e2⟩

@[inherit_doc deferred_value]
theorem mdeferred_value {s s' : State E} {ρ ρ' : Env E} (hA : Agree s ρ) (hA' : Agree s' ρ') (e : MExpr E)
    (hc : e.Regular s) {p : MVal E} (hp : e.den ρ = some p) (hS : e.Leaves (VStays ρ ρ') (MStays ρ ρ')) :
    ∃ n p', e.build s = .ok n ∧ (e.freeze ρ).den ρ' = some p' ∧ (p'.r = p.r ∧ p'.c = p.c) ∧ MRep s' n p' := by
  have hs := MExpr.supported_of_regular e hc
  obtain ⟨n, e1, -⟩ := MExpr.build_ok hA e hs p hp
  obtain ⟨p', e2, e3⟩ := MExpr.freeze_shape e p hS hp
  exact ⟨n, p', e1, e2, e3, MExpr.build_later hA hA' e hs p hp n e1 p' e2⟩

/-- Without products the stored object always has the value that the expression has now. -/
theorem deferred_current {s s' : State E} {ρ ρ' : Env E} (hA : Agree s ρ) (hA' : Agree s' ρ') (e : VExpr E)
    (hc : e.Regular s) (hl : e.Lazy) {p : VVal E} (hp : e.den ρ = some p)
    (hS : e.Leaves (VStays ρ ρ') (MStays ρ ρ')) :
    ∃ n p', e.build s = .ok n ∧ e.den ρ' = some p' ∧ p'.n = p.n ∧ VRep s' n p' := by
  have := deferred_value hA hA' e hc hp hS
  rwa [VExpr.freeze_lazy ρ e hl] at this

@[inherit_doc deferred_current]
theorem mdeferred_current {s s' : State E} {ρ ρ' : Env E} (hA : Agree s ρ) (hA' : Agree s' ρ') (e : MExpr E)
    (hc : e.Regular s) (hl : e.Lazy) {p : MVal E} (hp : e.den ρ = some p)
    (hS : e.Leaves (VStays ρ ρ') (MStays ρ ρ')) :
    ∃ n p', e.build s = .ok n ∧ e.den ρ' = some p' ∧ (p'.r = p.r ∧ p'.c = p.c) ∧ MRep s' n p' := by
  have := mdeferred_value hA hA' e hc hp hS
  rwa [MExpr.freeze_lazy ρ e hl] at this

/-- A stored product keeps its value whatever happens to its operands, even if they cease to exist. -/
theorem deferred_product {s : State E} {ρ : Env E} (hA : Agree s ρ) {m : MExpr E} {v : VExpr E} :
    (∀ p, (VExpr.mulMV m v).Regular s → (VExpr.mulMV m v).den ρ = some p →
      ∃ n, (VExpr.mulMV m v).build s = .ok n ∧ ∀ s', VRep s' n p) ∧
    (∀ p, (VExpr.mulVM v m).Regular s → (VExpr.mulVM v m).den ρ = some p →
      ∃ n, (VExpr.mulVM v m).build s = .ok n ∧ ∀ s', VRep s' n p) ∧
    (∀ m' p, (MExpr.mul m m').Regular s → (MExpr.mul m m').den ρ = some p →
      ∃ n, (MExpr.mul m m').build s = .ok n ∧ ∀ s', MRep s' n p) := by
  have hE : ∀ s' : State E, Agree s' ⟨fun _ => none, fun _ => none⟩ := fun s' =>
    ⟨fun _ _ h => (nomatch h), fun _ _ h => (nomatch h)⟩
  refine ⟨fun p hc hp => ?_, fun p hc hp => ?_, fun m' p hc hp => ?_⟩
  · obtain ⟨n, e1, -⟩ := VExpr.build_ok hA _ (VExpr.supported_of_regular _ hc) p hp
    exact ⟨n, e1, fun s' => VExpr.build_later hA (hE s') _ (VExpr.supported_of_regular _ hc) p hp n e1 p
      (by simp only [VExpr.freeze, hp, VVal.lit_den])⟩
  · obtain ⟨n, e1, -⟩ := VExpr.build_ok hA _ (VExpr.supported_of_regular _ hc) p hp
    exact ⟨n, e1, fun s' => VExpr.build_later hA (hE s') _ (VExpr.supported_of_regular _ hc) p hp n e1 p
      (by simp only [VExpr.freeze, hp, VVal.lit_den])⟩
  · obtain ⟨n, e1, -⟩ := MExpr.build_ok hA _ (MExpr.supported_of_regular _ hc) p hp
    exact ⟨n, e1, fun s' => MExpr.build_later hA (hE s') _ (MExpr.supported_of_regular _ hc) p hp n e1 p
      (by simp only [MExpr.freeze, hp, MVal.lit_den])⟩

/-! ### In programs -/

/-- A program runs between construction and evaluation of the expression object. -/
theorem deferred_program {s : State E} {σ σ' : Store E} (H : Holds s σ) (hf : ∀ k, s.heap.fail k = false)
    {e : VExpr E} {p : VVal E} (h : e.Has σ p) {l : List (Op E)} (hl : Means σ l σ')
    (hS : e.Leaves (VStays σ.env σ'.env) (MStays σ.env σ'.env)) :
    ∃ n s' p', e.build s = .ok n ∧ runAll s l = .ok s' ∧ (e.freeze σ.env).den σ'.env = some p' ∧ p'.n = p.n ∧
      VRep s' n p' := by
  rcases program_refines H hl with ⟨s', e1, H'⟩ | ⟨-, -, -, -, -, -, ⟨k, hk⟩, -⟩
  · obtain ⟨n, e2, -⟩ := h.build H
    obtain ⟨p', e3, e4⟩ := h.freeze hS
    obtain ⟨n', e5, e6, -⟩ := e4.build H'
    rw [VExpr.freeze_build H H' e p p' h e4, e2, Res.ok.injEq] at e5
    subst e5
    exact ⟨n, s', p', e2, e1, e4.2.2, e3, e6⟩
  · rw [hf] at hk
    cases hk

@[inherit_doc deferred_program]
theorem mdeferred_program {s : State E} {σ σ' : Store E} (H : Holds s σ) (hf : ∀ k, s.heap.fail k = false)
    {e : MExpr E} {p : MVal E} (h : e.Has σ p) {l : List (Op E)} (hl : Means σ l σ')
    (hS : e.Leaves (VStays σ.env σ'.env) (MStays σ.env σ'.env)) :
    ∃ n s' p', e.build s = .ok n ∧ runAll s l = .ok s' ∧ (e.freeze σ.env).den σ'.env = some p' ∧
      (p'.r = p.r ∧ p'.c = p.c) ∧ MRep s' n p' := by
  rcases program_refines H hl with ⟨s', e1, H'⟩ | ⟨-, -, -, -, -, -, ⟨k, hk⟩, -⟩
  · obtain ⟨n, e2, -⟩ := h.build H
    obtain ⟨p', e3, e4⟩ := h.freeze hS
    obtain ⟨n', e5, e6, -⟩ := e4.build H'
    rw [MExpr.freeze_build H H' e p p' h e4, e2, Res.ok.injEq] at e5
    subst e5
    exact ⟨n, s', p', e2, e1, e4.2.2, e3, e6⟩
  · rw [hf] at hk
    cases hk

/-- `x = e;`, `x += e;`, `x -= e;` with a stored object `e` have the effect of the same statement with the
expression with its products frozen: the usage rules for `x` are the same, too. -/
theorem deferred_statements {s s' : State E} {σ σ' : Store E} (H : Holds s σ) (H' : Holds s' σ') {e : VExpr E}
    {p : VVal E} (h : e.Has σ p) (hS : e.Leaves (VStays σ.env σ'.env) (MStays σ.env σ'.env)) (x : Nat) :
    ∃ n, e.build s = .ok n ∧
      (∀ σ'', (Op.vAssign x (e.freeze σ.env)).Means σ' σ'' →
        (∃ s'', vAssign true s' x n = .ok s'' ∧ Holds s'' σ'') ∨
        (s'.heap.fail s'.heap.tick = true ∧ ∃ s'', vAssign true s' x n = .throw .badAlloc s'' ∧ Holds s'' σ')) ∧
      (∀ o σ'', (Op.vOp o x (e.freeze σ.env)).Means σ' σ'' →
        (∃ s'', vOpAssign true o s' x n = .ok s'' ∧ Holds s'' σ'') ∨
        (s'.heap.fail s'.heap.tick = true ∧ ∃ s'', vOpAssign true o s' x n = .throw .badAlloc s'' ∧ Holds s'' σ')) := by
  obtain ⟨p', -, e4⟩ := h.freeze hS
  have hb := VExpr.freeze_build H H' e p p' h e4
  obtain ⟨n, e2, -⟩ := h.build H
  rw [e2] at hb
  refine ⟨n, e2, fun σ'' hm => ?_, fun o σ'' hm => ?_⟩
  · have := op_refines H' hm
    simpa only [Op.run, stmtAssign, hb, Out.withVal_ok] using this
  · have := op_refines H' hm
    simpa only [Op.run, stmtOpAssign, hb, Out.withVal_ok] using this

@[inherit_doc deferred_statements]
theorem mdeferred_statements {s s' : State E} {σ σ' : Store E} (H : Holds s σ) (H' : Holds s' σ') {e : MExpr E}
    {p : MVal E} (h : e.Has σ p) (hS : e.Leaves (VStays σ.env σ'.env) (MStays σ.env σ'.env)) (x : Nat) :
    ∃ n, e.build s = .ok n ∧
      (∀ σ'', (Op.mAssign x (e.freeze σ.env)).Means σ' σ'' →
        (∃ s'', mAssign true s' x n = .ok s'' ∧ Holds s'' σ'') ∨
        (s'.heap.fail s'.heap.tick = true ∧ ∃ s'', mAssign true s' x n = .throw .badAlloc s'' ∧ Holds s'' σ')) ∧
      (∀ o σ'', (Op.mOp o x (e.freeze σ.env)).Means σ' σ'' →
        (∃ s'', mOpAssign true o s' x n = .ok s'' ∧ Holds s'' σ'') ∨
        (s'.heap.fail s'.heap.tick = true ∧ ∃ s'', mOpAssign true o s' x n = .throw .badAlloc s'' ∧ Holds s'' σ')) := by
  obtain ⟨p', -, e4⟩ := h.freeze hS
  have hb := MExpr.freeze_build H H' e p p' h e4
  obtain ⟨n, e2, -⟩ := h.build H
  rw [e2] at hb
  refine ⟨n, e2, fun σ'' hm => ?_, fun o σ'' hm => ?_⟩
  · have := op_refines H' hm
    simpa only [Op.run, mstmtAssign, hb, Out.withVal_ok] using this
  · have := op_refines H' hm
    simpa only [Op.run, mstmtOpAssign, hb, Out.withVal_ok] using this

/-! ### What the stored object does not check -/

/-- The sizes of the operands are compared at construction only.  If the second operand has become longer, the
object silently uses a part of it; if it has become shorter, reading the first missing element is an access
out of bounds (or through a null pointer, if the vector has become empty). -/
theorem deferred_sizes_unchecked {s' : State E} {o : BinOp} {x y : Nat} {p q : VVal E}
    (hx : VRep s' (.var x) p) (hy : VRep s' (.var y) q) :
    (∀ h : p.n ≤ q.n, VRep s' (.bin o (.var x) (.var y))
      ⟨p.n, fun i => o.den (p.f i) (q.f (i.castLE h))⟩) ∧
    (q.n < p.n → (VNode.bin o (.var x) (.var y) : VNode E).get s' q.n = .ub .oob ∨
      (VNode.bin o (.var x) (.var y) : VNode E).get s' q.n = .ub .dead) := by
  refine ⟨fun h => ⟨by simpa [VNode.size] using hx.size, fun i => ?_⟩, fun h => ?_⟩
  · have e2 := hy.get (i.castLE h)
    simp only [Fin.val_castLE] at e2
    rw [VNode.get, hx.get i, e2]
    simp
  · have e1 := hx.get ⟨q.n, h⟩
    obtain ⟨w, hw, hn⟩ := vrep_vec hy
    simp only at e1
    rw [VNode.get, e1, Res.ok_bind, VNode.get]
    cases hd : w.data <;> simp [State.vobj, hw, VObj.get, hn, hd]

/-- Using an object one of whose operands has been destroyed is undefined behaviour. -/
theorem deferred_dangling {s' : State E} {o : BinOp} {x : Nat} (hx : s'.vec x = none) (b : VNode E) (i : Nat) :
    (VNode.bin o (.var x) b).size s' = .ub .dead ∧ (VNode.bin o (.var x) b).get s' i = .ub .dead := by
  constructor
  · simp [VNode.size, State.vobj, hx]
  · simp [VNode.get, State.vobj, hx]

section Examples

/-- `exS` later: `v1` and the matrix have been overwritten, `v0` and `v2` are gone. -/
private def exS' : State ℤ :=
  (demo [[some 7], [some 0, some 0, some 1], [some 7],
      [some 0, some 0, some 0, some 0, some 0, some 0, some 0, some 0, some 5]]
    [⟨.compiled, true, none, 0, 0⟩, ⟨.allocated, false, some 1, 0, 3⟩]
    [⟨.compiled, true, some 3, 0, 3, 3, false, false⟩]).setVec 0 none

private def exρ' : Env ℤ :=
  ⟨fun x => if x = 1 then some ⟨3, ![0, 0, 1]⟩ else none,
   fun x => if x = 0 then some ⟨3, 3, ![![0, 0, 0], ![0, 0, 0], ![0, 0, 5]]⟩ else none⟩

private theorem exS'_agree : Agree exS' exρ' := by
  constructor
  · intro x p h
    simp only [exρ'] at h
    split at h
    next hx =>
      subst hx
      simp only [Option.some.injEq] at h
      subst h
      exact ⟨rfl, fun i => by fin_cases i <;> rfl⟩
    next => cases h
  · intro x p h
    simp only [exρ'] at h
    split at h
    next hx =>
      subst hx
      simp only [Option.some.injEq] at h
      subst h
      exact ⟨rfl, fun i j => by fin_cases i <;> fin_cases j <;> rfl⟩
    next => cases h

/-- `auto e = M*v0 + (v1 + M.row(2))` -/
private def exD : VExpr ℤ :=
  .bin .plus (.mulMV (.var 0) (.var 0)) (.bin .plus (.var 1) (.row (.var 0) 2))

/-- The object is built, `v0` ceases to exist, `v1` and `M` change; then the object is worth the old product plus
the new `v1` plus the new row. -/
example : exD.Regular exS ∧ exD.den exρ = some ⟨3, ![25, 45, 65]⟩ ∧
    exD.Leaves (VStays exρ exρ') (MStays exρ exρ') ∧ (exD.freeze exρ).den exρ' = some ⟨3, ![14, 32, 56]⟩ := by
  have hd : (VExpr.mulMV (.var 0) (.var 0)).den exρ = some (⟨3, ![14, 32, 50]⟩ : VVal ℤ) := by
    simp [VExpr.den, MExpr.den, exρ]
    funext i
    fin_cases i <;> rfl
  refine ⟨?_, ?_, ?_, ?_⟩
  · simp only [exD, VExpr.Regular, MExpr.Regular, MExpr.Upright, and_self, and_true, true_and]
    intro m hm _
    simp only [exS, demo, List.getElem?_cons_zero, Option.some.injEq] at hm
    subst hm
    decide
  · unfold exD
    rw [VExpr.den, hd]
    simp [VExpr.den, MExpr.den, exρ]
    funext i
    fin_cases i <;> rfl
  · simp [exD, VExpr.Leaves, MExpr.Leaves, VStays, MStays, exρ, exρ']
  · simp only [exD, VExpr.freeze, MExpr.freeze, hd]
    rw [VExpr.den, VVal.lit_den]
    simp [VExpr.den, MExpr.den, exρ']
    funext i
    fin_cases i <;> rfl

end Examples

/-- A stored object is not the expression re-evaluated: the product is stale. -/
theorem deferred_stale :
    ¬ ∀ (s s' : State ℤ) (ρ ρ' : Env ℤ) (e : VExpr ℤ) (n : VNode ℤ) (p : VVal ℤ), Agree s ρ → Agree s' ρ' →
      e.Regular s → (e.den ρ).isSome → e.build s = .ok n → e.den ρ' = some p → VRep s' n p := by
  intro h
  have hd : (VExpr.mulMV (.var 0) (.row (.var 0) 0)).den exρ = some (⟨3, ![14, 32, 50]⟩ : VVal ℤ) := by
    simp [VExpr.den, MExpr.den, exρ]
    funext i
    fin_cases i <;> rfl
  have hd' : (VExpr.mulMV (.var 0) (.row (.var 0) 0)).den exρ' = some (⟨3, ![0, 0, 0]⟩ : VVal ℤ) := by
    simp [VExpr.den, MExpr.den, exρ']
    funext i
    fin_cases i <;> rfl
  have hr : (VExpr.mulMV (.var 0) (.row (.var 0) 0)).Regular exS := by
    simp only [VExpr.Regular, MExpr.Regular, MExpr.Upright, and_self, and_true, true_and]
    intro m hm _
    simp only [exS, demo, List.getElem?_cons_zero, Option.some.injEq] at hm
    subst hm
    decide
  obtain ⟨n, e1, e2⟩ := (deferred_product exS_agree).1 _ hr hd
  have h1 := (h exS exS' exρ exρ' _ n _ exS_agree exS'_agree hr (by simp [hd]) e1 hd').get 0
  have h2 := (e2 exS').get 0
  rw [h1] at h2
  simp at h2

/-- `vector a(2), b(2); a.fill(1); b.fill(2); auto e = a + b; a.fill(5); b = e;` -/
example : ∃ σ σ' σ'' : Store Int,
    Means .empty [.vNew 0 2, .vFill 0 (.val 1), .vNew 1 2, .vFill 1 (.val 2)] σ ∧
    Means σ [.vFill 0 (.val 5)] σ' ∧
    (VExpr.bin .plus (.var 0) (.var 1)).Has σ ⟨2, ![3, 3]⟩ ∧
    (VExpr.bin .plus (.var 0) (.var 1) : VExpr Int).Leaves (VStays σ.env σ'.env) (MStays σ.env σ'.env) ∧
    (Op.vAssign 1 ((VExpr.bin .plus (.var 0) (.var 1)).freeze σ.env)).Means σ' σ'' ∧
    σ''.v 1 = some (.of ⟨2, ![7, 7]⟩) := by
  refine ⟨_, _, _, .cons (.vNew rfl) (.cons (.vFill rfl rfl) (.cons (.vNew rfl) (.cons (.vFill rfl rfl) (.nil _)))),
    .cons (.vFill rfl rfl) (.nil _), ⟨⟨trivial, trivial⟩, ?_, ?_⟩, ?_,
    .vAssign (p := ⟨2, ![7, 7]⟩) rfl ⟨⟨trivial, trivial⟩, ?_, ?_⟩ (fun _ => ?_) (fun h => ?_), rfl⟩
  · simp [VExpr.Pre, Store.env, Store.setV, VCont.val?_of]
  · simp [VExpr.den, Store.env, Store.setV, VCont.val?_of]
    funext i
    fin_cases i <;> rfl
  · simp [VExpr.Leaves, VStays, Store.env, Store.setV, VCont.val?_of]
    rfl
  · simp [VExpr.freeze, VExpr.Pre, Store.env, Store.setV, VCont.val?_of]
  · simp [VExpr.freeze, VExpr.den, Store.env, Store.setV, VCont.val?_of]
    refine ⟨rfl, heq_of_eq ?_⟩
    funext i
    fin_cases i <;> rfl
  · simp [VExpr.freeze, VExpr.Ahead]
  · exact absurd rfl h

#print axioms deferred_value
#print axioms mdeferred_value
#print axioms deferred_current
#print axioms mdeferred_current
#print axioms deferred_product
#print axioms deferred_program
#print axioms mdeferred_program
#print axioms deferred_statements
#print axioms mdeferred_statements
#print axioms deferred_sizes_unchecked
#print axioms deferred_dangling
#print axioms deferred_stale

end CML
