import Verif.Model.MatMem
import Verif.Lemmas.MatAccess

/-! Simulation between the algorithms on matrices in memory and the algorithms on matrix values. -/

set_option linter.unusedSectionVars false

namespace CML

/-- Same outcome: related results, the same exception, or the same undefined behaviour (an access outside of a
matrix value may correspond to an access through a null pointer). -/
def Sim {α β : Type} (R : α → β → Prop) : Res α → Res β → Prop
  | .ok a, .ok b => R a b
  | .throw e, .throw e' => e = e'
  | .ub u, .ub u' => u' = .oob ∨ u = u'
  | _, _ => False

theorem Sim.pure {α β : Type} {R : α → β → Prop} {a : α} {b : β} (h : R a b) :
    Sim R (Pure.pure a : Res α) (Pure.pure b : Res β) := h

theorem Sim.refl {α : Type} (x : Res α) : Sim Eq x x := by
  cases x <;> simp [Sim]

theorem Sim.bind {α β γ δ : Type} {R : α → β → Prop} {Q : γ → δ → Prop} {x : Res α} {y : Res β}
    {f : α → Res γ} {g : β → Res δ} (h : Sim R x y) (hf : ∀ a b, R a b → Sim Q (f a) (g b)) :
    Sim Q (x >>= f) (y >>= g) := by
  cases x <;> cases y <;> simp [Sim] at h
  · exact hf _ _ h
  · simp [Sim, h]
  · simpa [Sim] using h

/-- Both sides compute the same value. -/
theorem Sim.bindEq {α γ δ : Type} {Q : γ → δ → Prop} {x y : Res α}
    {f : α → Res γ} {g : α → Res δ} (h : Sim Eq x y) (hf : ∀ a, Sim Q (f a) (g a)) :
    Sim Q (x >>= f) (y >>= g) :=
  h.bind fun a b e => by subst e; exact hf a

theorem Sim.loop {α β : Type} {R : α → β → Prop} {f : Nat → α → Res α} {g : Nat → β → Res β}
    (hf : ∀ i a b, R a b → Sim R (f i a) (g i b)) (lo n : Nat) {a : α} {b : β} (h : R a b) :
    Sim R (Res.loop f lo n a) (Res.loop g lo n b) := by
  induction n generalizing lo a b with
  | zero => exact h
  | succ n ih => exact Sim.bind (hf lo a b h) fun a b h => ih (lo + 1) h

theorem Sim.ite {α β : Type} {R : α → β → Prop} {c : Prop} [Decidable c] {x x' : Res α} {y y' : Res β}
    (h : Sim R x y) (h' : Sim R x' y') : Sim R (if c then x else x') (if c then y else y') := by
  split <;> assumption

section
variable {K : Type}

/-- In heap `h` the matrix object `d` holds `M`; apart from its cells memory is as in `h0`. -/
structure InMem (d : MObj) (h0 : Heap K) (h : Heap K) (M : Mat K) : Prop where
  rows : d.rows = M.rows
  cols : d.cols = M.cols
  el : ∀ i j, i < M.rows → j < M.cols → d.get h i j = .ok (M.el i j)
  out : SameOutside d.flat h0 h
  len : ∀ b, (h.blk b).map List.length = (h0.blk b).map List.length
  next : h.next = h0.next
  tick : h.tick = h0.tick
  fail : h.fail = h0.fail

theorem InMem.refl {d : MObj} {h : Heap K} {M : Mat K} (h1 : d.rows = M.rows) (h2 : d.cols = M.cols)
    (h3 : ∀ i j, i < M.rows → j < M.cols → d.get h i j = .ok (M.el i j)) : InMem d h h M :=
  ⟨h1, h2, h3, fun _ _ _ => rfl, fun _ => rfl, rfl, rfl, rfl⟩

theorem MObj.get_oob {d : MObj} {h : Heap K} {i j : Nat} (hij : ¬ (i < d.rows ∧ j < d.cols)) :
    ∃ u, d.get h i j = .ub u := by
  unfold MObj.get
  split
  · exact ⟨_, rfl⟩
  · rw [if_neg hij]; exact ⟨_, rfl⟩

theorem MObj.put_oob {triv : Bool} {d : MObj} {h : Heap K} {i j : Nat} {v : K}
    (hij : ¬ (i < d.rows ∧ j < d.cols)) : ∃ u, d.put triv h i j v = .ub u := by
  unfold MObj.put
  split
  · exact ⟨_, rfl⟩
  · rw [if_neg hij]; exact ⟨_, rfl⟩

theorem InMem.get {d : MObj} {h0 h : Heap K} {M : Mat K} (H : InMem d h0 h M) (i j : Nat) :
    Sim Eq (d.get h i j) (M.get i j) := by
  unfold Mat.get
  by_cases hij : i < M.rows ∧ j < M.cols
  · rw [if_pos hij, H.el i j hij.1 hij.2]; rfl
  · obtain ⟨u, hu⟩ := MObj.get_oob (h := h) (by rwa [← H.rows, ← H.cols] at hij)
    rw [if_neg hij, hu]; exact .inl rfl

/-- A readable element can be overwritten: effect on memory. -/
theorem MObj.put_ok {triv : Bool} {d : MObj} {h : Heap K} {i j : Nat} {w : K} (hg : d.get h i j = .ok w) (v : K) :
    ∃ h', d.put triv h i j v = .ok h' ∧ d.get h' i j = .ok v ∧
      (∀ i' j', i' < d.rows → j' < d.cols → ¬ (i' = i ∧ j' = j) → d.get h' i' j' = d.get h i' j') ∧
      SameOutside d.flat h h' ∧
      (∀ b, (h'.blk b).map List.length = (h.blk b).map List.length) ∧
      h'.next = h.next ∧ h'.tick = h.tick ∧ h'.fail = h.fail := by
  obtain ⟨hi, hj⟩ := MObj.get_lt hg
  cases hd : d.data with
  | none => simp [MObj.get, hd] at hg
  | some b =>
    have hc := (MObj.get_eq_ok hd hi hj).1 hg
    obtain ⟨h', w1, w2, w3, w4, w5, w6, w7, w8⟩ :=
      Heap.write_ok (v := v) (triv := triv) (h := h) ⟨_, hc, .inr rfl⟩
    refine ⟨h', ?_, (MObj.get_eq_ok hd hi hj).2 w2, ?_, ?_, w5, w6, w7, w8⟩
    · simp [MObj.put, hd, hi, hj, w1]
    · intro i' j' hi' hj' hne
      apply MObj.get_congr hd
      · apply w3
        intro he
        simp only [Prod.mk.injEq, Nat.add_left_cancel_iff, true_and] at he
        exact hne (MObj.index_inj hi' hj' hi hj he)
      · exact w5 b
    · intro b' o' hn
      apply w3
      rintro he
      simp only [Prod.mk.injEq] at he
      apply hn
      have := MObj.index_lt hi hj
      simp only [MObj.flat]
      exact ⟨by rw [hd, he.1], by omega, by omega⟩

theorem InMem.put {triv : Bool} {d : MObj} {h0 h : Heap K} {M : Mat K} (H : InMem d h0 h M) (i j : Nat) (v : K) :
    Sim (InMem d h0) (d.put triv h i j v) (M.put i j v) := by
  unfold Mat.put
  by_cases hij : i < M.rows ∧ j < M.cols
  · rw [if_pos hij]
    obtain ⟨h', p1, p2, p3, p4, p5, p6, p7, p8⟩ := MObj.put_ok (triv := triv) (H.el i j hij.1 hij.2) v
    rw [p1]
    refine ⟨H.rows, H.cols, ?_, H.out.trans p4, fun b => (p5 b).trans (H.len b), p6.trans H.next,
      p7.trans H.tick, p8.trans H.fail⟩
    intro a b ha hb
    simp only [Mat.set] at ha hb ⊢
    by_cases hab : a = i ∧ b = j
    · rw [if_pos hab, hab.1, hab.2, p2]
    · rw [if_neg hab, p3 a b (by rwa [H.rows]) (by rwa [H.cols]) hab, H.el a b ha hb]
  · obtain ⟨u, hu⟩ := MObj.put_oob (triv := triv) (h := h) (v := v) (by rwa [← H.rows, ← H.cols] at hij)
    rw [if_neg hij, hu]; exact .inl rfl

end

/-- Run both sides in lockstep. -/
macro "sim_step" : tactic => `(tactic| first
  | assumption
  | exact Sim.refl _
  | exact InMem.get (by assumption) _ _
  | exact InMem.put (by assumption) _ _ _
  | exact Sim.pure rfl
  | (refine Sim.bindEq (InMem.get (by assumption) _ _) fun _ => ?_)
  | (refine Sim.bindEq (Sim.refl _) fun _ => ?_)
  | (refine Sim.bind (InMem.put (by assumption) _ _ _) fun _ _ _ => ?_)
  | dsimp only)

@[inherit_doc tacticSim_step]
macro "sim_tac" : tactic => `(tactic| repeat sim_step)

section Lu
variable {K : Type} [Zero K] [Add K] [Sub K] [Mul K] [Div K] [DecidableEq K]
variable {triv : Bool} {d : MObj} {h0 h : Heap K} {M : Mat K}

theorem InMem.luSum (H : InMem d h0 h M) (i j k : Nat) : Sim Eq (memLuSum d h i j k) (luSum M i j k) := by
  refine Sim.loop (fun p a b e => ?_) 0 k rfl
  subst e
  sim_tac

theorem InMem.luUpper (H : InMem d h0 h M) (k j : Nat) :
    Sim (InMem d h0) (memLuUpper triv d k j h) (luUpperStep k j M) := by
  refine Sim.bindEq (H.luSum k j k) fun _ => ?_
  sim_tac

theorem InMem.luLower (H : InMem d h0 h M) (k j : Nat) :
    Sim (InMem d h0) (memLuLower triv d k j h) (luLowerStep k j M) := by
  refine Sim.bindEq (H.luSum j k k) fun _ => ?_
  sim_tac

theorem InMem.luInplace (H : InMem d h0 h M) : Sim (InMem d h0) (memLuInplace triv d h) (luInplace M) := by
  unfold memLuInplace CML.luInplace
  rw [H.rows]
  refine Sim.loop (fun k h M H => ?_) _ _ H
  refine Sim.bind (R := InMem d h0) (Sim.loop (fun j h M H => InMem.luUpper H k j) _ _ H) fun h M H => ?_
  exact Sim.loop (fun j h M H => InMem.luLower H k j) _ _ H

end Lu

section Swap
variable {K : Type} {triv : Bool} {d : MObj} {h0 h : Heap K} {M : Mat K}

theorem InMem.swapRows (H : InMem d h0 h M) (a b : Nat) :
    Sim (InMem d h0) (memSwapRows triv d h a b) (swapRows M a b) := by
  unfold memSwapRows CML.swapRows
  rw [H.rows]
  refine Sim.loop (fun j h M H => ?_) _ _ H
  sim_tac

theorem InMem.swapCols (H : InMem d h0 h M) (a b : Nat) :
    Sim (InMem d h0) (memSwapCols triv d h a b) (swapCols M a b) := by
  unfold memSwapCols CML.swapCols
  rw [H.rows]
  refine Sim.loop (fun j h M H => ?_) _ _ H
  sim_tac

theorem InMem.undoSwaps (l : List (Nat × Nat)) {h : Heap K} {M : Mat K} (H : InMem d h0 h M) :
    Sim (InMem d h0) (memUndoSwaps triv d h l) (undoSwaps M l) := by
  induction l generalizing h M with
  | nil => exact H
  | cons p l ih =>
    refine Sim.bind (Sim.ite (Sim.pure H) (H.swapCols p.1 p.2)) fun h M H => ih H

end Swap

section LuPivot
variable {K : Type} [Zero K] [Sub K] [Mul K] [Div K] [LinearOrder K] [Fabs K]
variable {triv : Bool} {d : MObj} {h0 h : Heap K} {M : Mat K}

theorem InMem.pivotSearch (H : InMem d h0 h M) (k : Nat) :
    Sim Eq (memPivotSearch d h k) (pivotSearch M k) := by
  unfold memPivotSearch CML.pivotSearch
  rw [H.rows]
  refine Sim.bindEq (H.get k k) fun m0 => ?_
  refine Sim.loop (fun i a b e => ?_) _ _ rfl
  subst e
  sim_tac

theorem InMem.schurRow (H : InMem d h0 h M) (k i : Nat) :
    Sim (InMem d h0) (memSchurRow triv d k i h) (schurRow k i M) := by
  unfold memSchurRow CML.schurRow
  refine Sim.bindEq (H.get _ _) fun _ => ?_
  refine Sim.bindEq (H.get _ _) fun _ => ?_
  refine Sim.bindEq (Sim.refl _) fun _ => ?_
  refine Sim.bind (H.put _ _ _) fun h M H => ?_
  rw [H.rows]
  refine Sim.loop (fun j h M H => ?_) _ _ H
  sim_tac

/-- Corresponding intermediate results of the pivoted decomposition. -/
structure InMemP (d : MObj) (h0 : Heap K) (r : MemLuPivot K) (q : LuPivot K) : Prop where
  lu : InMem d h0 r.heap q.lu
  order : r.order = q.order
  sign : r.sign = q.sign

/-- The same, with the early return. -/
def InMemS (d : MObj) (h0 : Heap K) : MemLuPivot K ⊕ MemLuPivot K → LuPivot K ⊕ LuPivot K → Prop
  | .inl r, .inl q => InMemP d h0 r q
  | .inr r, .inr q => InMemP d h0 r q
  | _, _ => False

theorem InMemP.step {r : MemLuPivot K} {q : LuPivot K} (H : InMemP d h0 r q) (eps : K) (k : Nat) :
    Sim (InMemS d h0) (memLuPivotStep triv d eps k r) (luPivotStep eps k q) := by
  unfold memLuPivotStep luPivotStep
  refine Sim.bindEq (H.lu.pivotSearch k) fun p => Sim.ite ?_ ?_
  · exact Sim.pure (R := InMemS d h0) ⟨H.lu, H.order, rfl⟩
  · refine Sim.bind (R := InMemP d h0) (Sim.ite ?_ (Sim.pure H)) fun r q H => ?_
    · refine Sim.bind (H.lu.swapRows k p.1) fun h M H' => Sim.pure ⟨H', ?_, ?_⟩
      · simp only [H.order]
      · simp only [H.sign]
    · rw [H.lu.rows]
      refine Sim.bind (R := InMem d h0) (Sim.loop (fun i h M H => InMem.schurRow H k i) _ _ H.lu) fun h M H' => ?_
      exact Sim.pure (R := InMemS d h0) ⟨H', H.order, H.sign⟩

theorem InMem.luPivotInplace (H : InMem d h0 h M) (eps : K) :
    Sim (InMemP d h0) (memLuPivotInplace triv d eps h) (luPivotInplace eps M) := by
  unfold memLuPivotInplace CML.luPivotInplace
  rw [H.rows]
  refine Sim.bind (R := InMemS d h0) (Sim.loop (fun k r q H => ?_) _ _ ?_) fun r q H => ?_
  · rcases r with r | r <;> rcases q with q | q
    · exact InMemP.step H eps k
    · exact H.elim
    · exact H.elim
    · exact H
  · exact ⟨H, rfl, rfl⟩
  · rcases r with r | r <;> rcases q with q | q
    · exact H
    · exact H.elim
    · exact H.elim
    · exact H

end LuPivot

section Inv
variable {K : Type} [Zero K] [Add K] [Sub K] [Mul K] [Div K] [Neg K] [DecidableEq K]
variable {triv : Bool} {d : MObj} {h0 h : Heap K} {M : Mat K}

theorem InMem.inverse2 (H : InMem d h0 h M) : Sim (InMem d h0) (memInverse2 triv d h) (inverse2 M) := by
  unfold memInverse2 CML.inverse2
  sim_tac

theorem InMem.inverse3 (H : InMem d h0 h M) : Sim (InMem d h0) (memInverse3 triv d h) (inverse3 M) := by
  unfold memInverse3 CML.inverse3
  sim_tac

omit [Zero K] [Add K] [Sub K] [Mul K] [Div K] [Neg K] [DecidableEq K] in
theorem InMem.els4 (H : InMem d h0 h M) : Sim Eq (memEls4 d h) (els4 M) := by
  unfold memEls4 CML.els4
  sim_tac

theorem InMem.inverse4 (H : InMem d h0 h M) : Sim (InMem d h0) (memInverse4 triv d h) (inverse4 M) := by
  unfold memInverse4 CML.inverse4
  refine Sim.bindEq H.els4 fun e => ?_
  sim_tac

end Inv

section InvPivot
variable {K : Type} [Zero K] [One K] [Add K] [Sub K] [Mul K] [Div K] [Neg K] [LinearOrder K] [Fabs K]
variable {triv : Bool} {d : MObj} {h0 h : Heap K} {M : Mat K}

theorem InMem.invSearch (H : InMem d h0 h M) (pv : Nat → Bool) :
    Sim Eq (memInvSearch d h pv) (invSearch M pv) := by
  unfold memInvSearch CML.invSearch
  rw [H.rows]
  refine Sim.bindEq (H.get 0 0) fun m0 => ?_
  refine Sim.loop (fun j a b e => ?_) _ _ rfl
  subst e
  refine Sim.ite (Sim.refl _) (Sim.loop (fun k a b e => ?_) _ _ rfl)
  subst e
  refine Sim.ite (Sim.refl _) ?_
  sim_tac

theorem InMem.invPivotRow (H : InMem d h0 h M) (col : Nat) :
    Sim (InMem d h0) (memInvPivotRow triv d h col) (invPivotRow M col) := by
  unfold memInvPivotRow CML.invPivotRow
  refine Sim.bindEq (H.get _ _) fun _ => ?_
  refine Sim.bind (H.put _ _ _) fun h M H => ?_
  refine Sim.bindEq (Sim.refl _) fun _ => ?_
  rw [H.rows]
  refine Sim.loop (fun j h M H => ?_) _ _ H
  sim_tac

theorem InMem.invOtherRow (H : InMem d h0 h M) (col j : Nat) :
    Sim (InMem d h0) (memInvOtherRow triv d col j h) (invOtherRow col j M) := by
  unfold memInvOtherRow CML.invOtherRow
  refine Sim.ite (Sim.pure H) ?_
  refine Sim.bindEq (H.get _ _) fun _ => ?_
  refine Sim.bind (H.put _ _ _) fun h M H => ?_
  rw [H.rows]
  refine Sim.loop (fun j h M H => ?_) _ _ H
  sim_tac

/-- Corresponding intermediate results of the pivoting inverse. -/
structure InMemI (d : MObj) (h0 : Heap K) (r : MemInvState K) (q : InvState K) : Prop where
  m : InMem d h0 r.heap q.m
  idx : r.idx = q.idx
  pivoted : r.pivoted = q.pivoted

theorem InMemI.step {r : MemInvState K} {q : InvState K} (H : InMemI d h0 r q) :
    Sim (InMemI d h0) (memInvStep triv d r) (invStep q) := by
  unfold memInvStep invStep
  rw [H.pivoted, H.idx]
  refine Sim.bindEq (H.m.invSearch _) fun p => ?_
  refine Sim.bind (Sim.ite (H.m.swapRows _ _) (Sim.pure H.m)) fun h M H => ?_
  refine Sim.bind (H.invPivotRow _) fun h M H => ?_
  rw [H.rows]
  refine Sim.bind (R := InMem d h0) (Sim.loop (fun j h M H => InMem.invOtherRow H _ j) _ _ H) fun h M H => ?_
  exact Sim.pure ⟨H, rfl, rfl⟩

theorem InMem.inversePivot (H : InMem d h0 h M) :
    Sim (InMem d h0) (memInversePivot triv d h) (inversePivot M) := by
  unfold memInversePivot CML.inversePivot
  rw [H.rows]
  refine Sim.bind (R := InMemI d h0) (Sim.loop (fun k r q H => InMemI.step H) _ _ ⟨H, rfl, rfl⟩) fun r q H => ?_
  rw [H.idx]
  exact InMem.undoSwaps _ H.m

theorem InMem.checkSquare (H : InMem d h0 h M) : memCheckSquare d = checkSquare d.fixed M := by
  unfold memCheckSquare CML.checkSquare
  rw [H.rows, H.cols]

theorem InMem.inverse (H : InMem d h0 h M) :
    Sim (InMem d h0) (memInverse triv d h) (inverse d.fixed M) := by
  unfold memInverse CML.inverse
  rw [H.checkSquare, H.rows]
  refine Sim.bindEq (Sim.refl _) fun _ => ?_
  generalize M.rows = n
  match n with
  | 2 => exact H.inverse2
  | 3 => exact H.inverse3
  | 4 => exact H.inverse4
  | 0 => exact H.inversePivot
  | 1 => exact H.inversePivot
  | n + 5 => exact H.inversePivot

end InvPivot

section Det
variable {K : Type} {d : MObj} {h0 h : Heap K} {M : Mat K}

theorem InMem.det2 [Mul K] [Sub K] (H : InMem d h0 h M) : Sim Eq (memDet2 d h) (det2 M) := by
  unfold memDet2 CML.det2
  sim_tac

theorem InMem.det3 [Mul K] [Sub K] [Add K] (H : InMem d h0 h M) : Sim Eq (memDet3 d h) (det3 M) := by
  unfold memDet3 CML.det3
  sim_tac

theorem InMem.diagonal [Mul K] (H : InMem d h0 h M) : Sim Eq (memDiagonal d h) (diagonalProduct M) := by
  unfold memDiagonal CML.diagonalProduct
  rw [H.rows]
  refine Sim.bindEq (H.get 0 0) fun m0 => ?_
  refine Sim.loop (fun i a b e => ?_) _ _ rfl
  subst e
  sim_tac

theorem InMem.det4 [Mul K] [Sub K] [Add K] [Neg K] (H : InMem d h0 h M) : Sim Eq (memDet4 d h) (det4 M) := by
  unfold memDet4 CML.det4
  refine Sim.bindEq H.els4 fun e => ?_
  sim_tac

theorem InMem.detLu [Zero K] [Sub K] [Mul K] [Div K] [IntCast K] [LinearOrder K] [Fabs K] {triv : Bool}
    (H : InMem d h0 h M) (eps : K) :
    Sim (fun r v => r.2 = v ∧ ∃ M', InMem d h0 r.1 M') (memDetLu triv eps d h) (detLu eps M) := by
  unfold memDetLu CML.detLu
  refine Sim.bind (H.luPivotInplace eps) fun r q H => ?_
  rw [H.sign]
  refine Sim.bindEq H.lu.diagonal fun _ => ?_
  exact Sim.pure ⟨rfl, _, H.lu⟩

end Det

section Solve
variable {K : Type}

/-- In heap `h` the vector object `v` holds `X` (elements without a value included) and can be assigned to;
apart from its cells memory is as in `h0`. -/
structure VInMem (triv : Bool) (v : VObj) (h0 : Heap K) (h : Heap K) (X : Vec K) : Prop where
  size : v.size = X.size
  ready : v.Ready triv h
  some : ∀ i e, i < X.size → X.el i = some e → v.get h i = .ok e
  none : ∀ i, i < X.size → X.el i = none → v.get h i = .ub .uninit
  out : SameOutside v h0 h
  len : ∀ b, (h.blk b).map List.length = (h0.blk b).map List.length
  next : h.next = h0.next
  tick : h.tick = h0.tick
  fail : h.fail = h0.fail

variable {triv : Bool} {v : VObj} {h0 h : Heap K} {X : Vec K}

theorem VInMem.get (H : VInMem triv v h0 h X) (i : Nat) : Sim Eq (v.get h i) (X.get i) := by
  unfold Vec.get
  by_cases hi : i < X.size
  · rw [if_pos hi]
    cases he : X.el i with
    | none => rw [H.none i hi he]; exact .inr rfl
    | some e => rw [H.some i e hi he]; rfl
  · rw [if_neg hi]
    unfold VObj.get
    split
    · exact .inl rfl
    · rw [if_neg (by rwa [H.size])]; exact .inl rfl

theorem VInMem.put (H : VInMem triv v h0 h X) (i : Nat) (e : K) :
    Sim (VInMem triv v h0) (v.put triv h i e) (X.put i e) := by
  unfold Vec.put
  by_cases hi : i < X.size
  · rw [if_pos hi]
    have hi' : i < v.size := by rwa [H.size]
    obtain ⟨b, hb, hw⟩ := H.ready i hi'
    obtain ⟨h', w1, w2, w3, w4, w5, w6, w7, w8⟩ := Heap.write_ok (v := e) hw
    have hp : v.put triv h i e = .ok h' := by simp [VObj.put, hb, hi', w1]
    have hget : ∀ k, k ≠ i → v.get h' k = v.get h k := by
      intro k hk
      unfold VObj.get
      simp only [hb]
      split
      · apply Heap.read_congr (w4 b)
        apply w3
        simp only [ne_eq, Prod.mk.injEq, true_and]
        omega
      · rfl
    rw [hp]
    refine ⟨H.size, ?_, ?_, ?_, ?_, fun b => (w5 b).trans (H.len b), w6.trans H.next, w7.trans H.tick,
      w8.trans H.fail⟩
    · intro k hk
      obtain ⟨b', hb', c, hc, ht⟩ := H.ready k hk
      obtain rfl : b = b' := by rw [hb] at hb'; cases hb'; rfl
      refine ⟨b, hb, ?_⟩
      by_cases hki : k = i
      · subst hki; exact ⟨_, w2, .inr rfl⟩
      · refine ⟨c, ?_, ht⟩
        rw [w3, hc]
        simp only [ne_eq, Prod.mk.injEq, true_and]
        omega
    · intro k e' hk he
      simp only at hk he
      by_cases hki : k = i
      · subst hki
        rw [if_pos rfl] at he
        cases he
        exact (VObj.get_eq_ok hb hi').2 w2
      · rw [if_neg hki] at he
        rw [hget k hki]
        exact H.some k e' hk he
    · intro k hk he
      simp only at hk he
      by_cases hki : k = i
      · subst hki; rw [if_pos rfl] at he; cases he
      · rw [if_neg hki] at he
        rw [hget k hki]
        exact H.none k hk he
    · intro b' o' hn
      rw [← H.out b' o' hn]
      apply w3
      intro he
      simp only [Prod.mk.injEq] at he
      exact hn ⟨by rw [hb, he.1], by omega, by omega⟩
  · rw [if_neg hi]
    unfold VObj.put
    split
    · exact .inl rfl
    · rw [if_neg (by rwa [H.size])]; exact .inl rfl

/-- Writing a vector does not change a disjoint matrix. -/
theorem VInMem.frame (H : VInMem triv v h0 h X) {d : MObj} {M : Mat K} (hM : InMem d h0 h0 M)
    (hd : d.DisjointV v) : InMem d h h M := by
  refine InMem.refl hM.rows hM.cols fun i j hi hj => ?_
  rw [← hM.el i j hi hj]
  cases hb : d.data with
  | none => simp [MObj.get, hb]
  | some b =>
    have hl := MObj.index_lt (m := d) (i := i) (j := j) (by rwa [hM.rows]) (by rwa [hM.cols])
    apply MObj.get_congr hb
    · apply H.out
      rintro ⟨k1, k2, k3⟩
      rcases hd with hd | hd | hd
      · exact hd (by rw [hb, k1])
      · omega
      · omega
    · exact H.len b

variable [Zero K] [Add K] [Sub K] [Mul K] [Div K] [DecidableEq K]

theorem InMem.forward {d : MObj} {M : Mat K} {b : VObj} {B : Vec K} (H : InMem d h h M) (P : Nat → Nat)
    (hs : b.size = B.size) (hb : ∀ i, Sim Eq (b.get h i) (B.get i)) :
    Sim Eq (memForward d P b h) (forwardSubst M P B) := by
  unfold memForward forwardSubst
  rw [hs]
  refine Sim.loop (fun i a b e => ?_) _ _ rfl
  subst e
  refine Sim.bindEq (Sim.loop (fun j a b e => ?_) _ _ rfl) fun _ => ?_
  · subst e
    sim_tac
  · refine Sim.bindEq (hb _) fun _ => ?_
    sim_tac

theorem VInMem.backward {d : MObj} {M : Mat K} (H : VInMem triv v h0 h X) (hM : InMem d h0 h0 M)
    (hd : d.DisjointV v) (y : Vec K) (N : Nat) :
    Sim (VInMem triv v h0) (memBackward triv d v y N h) (backwardSubst M y X N) := by
  unfold memBackward backwardSubst
  refine Sim.loop (fun t h X H => ?_) _ _ H
  have HM := H.frame hM hd
  refine Sim.bindEq (Sim.loop (fun j a b e => ?_) _ _ rfl) fun _ => ?_
  · subst e
    refine Sim.bindEq (HM.get _ _) fun _ => Sim.bindEq (H.get _) fun _ => Sim.pure rfl
  · refine Sim.bindEq (Sim.refl _) fun _ => Sim.bindEq (HM.get _ _) fun _ => Sim.bindEq (Sim.refl _) fun _ => ?_
    exact H.put _ _

end Solve

section Copy
variable {E : Type} [Add E] [Sub E] [Mul E] [Div E] [Neg E]

/-- A copy of matrix `x` in the unused variable `t`. -/
theorem mCopyNew_ok {s : State E} {x t r c : Nat} {d : MObj} (hx : s.mat x = some d) (cm cb : Bool)
    (ht : s.mat t = none) (hfr : s.heap.blk s.heap.next = none)
    (hal : r * c ≠ 0 → s.heap.fail s.heap.tick = false)
    (p : Fin r → Fin c → E) (hp : MRep s (.var x) ⟨r, c, p⟩) :
    ∃ h' dt, mCopyNew true cm cb s t (.var x) = .ok ({ s with heap := h' }.setMat t (some dt)) ∧
      (dt.fixed = false ∧ dt.colMajor = cm ∧ dt.colBasis = cb ∧ dt.Owned h') ∧
      (dt.data = if r * c = 0 then none else some s.heap.next) ∧
      MRep ({ s with heap := h' }.setMat t (some dt)) (.var t) ⟨r, c, p⟩ ∧
      (∀ b o, b ≠ s.heap.next → h'.cell b o = s.heap.cell b o) ∧
      (r * c = 0 → h'.blk s.heap.next = none) := by
  obtain ⟨hr, hc⟩ := mrep_dims hx hp
  simp only at hr hc
  have hxt : x ≠ t := by rintro rfl; rw [ht] at hx; cases hx
  set d0 : MObj := ⟨.allocated, false, none, 0, 0, 0, cm, cb⟩ with hd0
  set s0 : State E := mDefault cm cb s t with hs0
  have hx0 : s0.mat t = some d0 := by simp [hs0, mDefault, State.setMat, hd0]
  have hxx0 : s0.mat x = some d := by simp [hs0, mDefault, State.setMat, hxt, hx]
  have hh0 : s0.heap = s.heap := rfl
  have hrep0 : MRep s0 (.var x) ⟨r, c, p⟩ := by
    refine ⟨by rw [MNode.var_dims hxx0, ← hr, ← hc], fun i j => ?_⟩
    have := hp.get i j
    rw [MNode.var_get_eq hx] at this
    rw [MNode.var_get_eq hxx0, hh0, this]
  have hz : d0.rows * d0.cols = 0 := rfl
  obtain ⟨h1, dt, a1, ⟨a2, a3, a3', a3'', a3''', a4⟩, a5, a6, a7, -, a9, a10, a11, a12, a13⟩ :=
    mAssign_resize_ok (n := .var x) hx0 rfl rfl (Or.inl ⟨rfl, rfl⟩)
      (by rw [hz]; exact hal) (by rw [hh0]; exact hfr) hrep0
      (show _ from ⟨hxt, fun w hw => by
        rw [hd0]
        cases hwd : w.data with
        | none => exact Or.inl rfl
        | some b => exact Or.inr (by simp)⟩)
  simp only [hz, hh0] at a5 a7 a9
  have hs : ({ s0 with heap := h1 } : State E).setMat t (some dt) = { s with heap := h1 }.setMat t (some dt) := by
    simp only [hs0, mDefault, State.setMat]
    congr 1
    funext y
    split <;> rfl
  rw [hs] at a1 a6
  refine ⟨h1, dt, ?_, ⟨a3', a3'', a3''', a4⟩, a5, a6, fun b o hb => a7 b o hb (by simp [hd0]), a9⟩
  unfold mCopyNew
  rw [a1]
  rfl

end Copy

end CML
