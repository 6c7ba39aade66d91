import Verif.Lemmas.ProgramStep
import Verif.Lemmas.ProgramFail
import Verif.Props.MatAccess

/-!
C112: programs over dynamic vectors and matrices compute what the mathematics says.
-/

namespace CML

set_option linter.unusedSectionVars false

variable {E : Type} [Add E] [Sub E] [Mul E] [Div E] [Neg E]

/-- Every statement used as documented does exactly what it means, to the variable it names and to no other;
the only alternative is that there is no memory for it, and then nothing has changed. -/
theorem op_refines {s : State E} {σ σ' : Store E} (H : Holds s σ) {o : Op E} (h : o.Means σ σ') :
    (∃ s', o.run true s = .ok s' ∧ Holds s' σ') ∨
    (s.heap.fail s.heap.tick = true ∧ ∃ s', o.run true s = .throw .badAlloc s' ∧ Holds s' σ) :=
  h.does H

/-- Expressions whose sizes do not fit, negative sizes and element lists of the wrong length are rejected with
an exception that tells so, and nothing has changed. -/
theorem op_rejected {s : State E} {σ : Store E} (H : Holds s σ) {o : Op E} (h : o.Rejected σ) :
    ∃ e s', o.run true s = .throw e s' ∧ (e.IsSize ∨ e = .invalidArgument ∨ e = .matSize) ∧ Holds s' σ := by
  have key : o.NameFree s ∧ ∃ e s', o.run true s = .throw e s' ∧ (e.IsSize ∨ e = .invalidArgument ∨ e = .matSize) := by
    cases h with
    | vNew h hn =>
      rename_i x n
      refine ⟨H.vnone h, .invalidArgument, (vDefault s x).setVec x none, ctor_throw ?_, by simp⟩
      exact ((vresize_errors (d := ⟨.allocated, false, none, 0, 0⟩) (by simp [vDefault, State.setVec]) _).1 hn)
    | vCopyNew h hb =>
      obtain ⟨er, e1, e2⟩ := hb.build H
      refine ⟨H.vnone h, er, s, by simp [Op.run, e1], ?_⟩
      tauto
    | vResize h hn =>
      rename_i fast x n
      refine ⟨trivial, .invalidArgument, s, ?_, by simp⟩
      obtain ⟨c, hc⟩ := Option.isSome_iff_exists.mp h
      obtain ⟨d, d1, -⟩ := H.vec hc
      cases fast <;> exact (vresize_errors d1 _).1 hn
    | vAssign hb =>
      obtain ⟨er, e1, e2⟩ := hb.build H
      refine ⟨trivial, er, s, by simp [Op.run, stmtAssign, e1], ?_⟩
      tauto
    | vOp hb =>
      obtain ⟨er, e1, e2⟩ := hb.build H
      refine ⟨trivial, er, s, by simp [Op.run, stmtOpAssign, e1], ?_⟩
      tauto
    | mNew h hn =>
      rename_i cm cb x r c
      refine ⟨H.mnone h, .invalidArgument, (mDefault cm cb s x).setMat x none, mctor_throw ?_, by simp⟩
      exact ((mresize_errors (mDefault_mat cm cb s x)).1 hn)
    | mCopyNew h hb =>
      obtain ⟨er, e1, e2⟩ := hb.build H
      refine ⟨H.mnone h, er, s, by simp [Op.run, e1], ?_⟩
      tauto
    | mResize h hn =>
      rename_i fast x r c
      refine ⟨trivial, .invalidArgument, s, ?_, by simp⟩
      obtain ⟨c, hc⟩ := Option.isSome_iff_exists.mp h
      obtain ⟨d, d1, -⟩ := H.mat hc
      cases fast <;> exact (mresize_errors d1).1 hn
    | mAssign hb =>
      obtain ⟨er, e1, e2⟩ := hb.build H
      refine ⟨trivial, er, s, by simp [Op.run, mstmtAssign, e1], ?_⟩
      tauto
    | mOp hb =>
      obtain ⟨er, e1, e2⟩ := hb.build H
      refine ⟨trivial, er, s, by simp [Op.run, mstmtOpAssign, e1], ?_⟩
      tauto
    | mList hx hl =>
      obtain ⟨d, d1, -, -, d4, d5, -⟩ := H.mat hx
      obtain ⟨er, e1, e2⟩ := massign_list_length (triv := true) d1 _ (by rw [d4, d5]; exact hl)
      refine ⟨trivial, er, s, e2, ?_⟩
      unfold Err.IsSize
      tauto
  obtain ⟨hf, e, s', e1, e2⟩ := key
  exact ⟨e, s', e1, e2, H.thrown hf e1⟩

theorem runAll_append (s : State E) (l₁ l₂ : List (Op E)) :
    runAll s (l₁ ++ l₂) = (runAll s l₁).andThen fun s => runAll s l₂ := by
  induction l₁ generalizing s with
  | nil => rfl
  | cons o l ih =>
    simp only [List.cons_append, runAll]
    cases o.run true s with
    | ok s' => simp only [Out.ok_andThen]; exact ih s'
    | throw e s' => rfl
    | ub u => rfl

/-- The start of the program represents the empty store. -/
theorem start_holds (fail : Nat → Bool) : Holds (State.start fail : State E) .empty :=
  ⟨start_inv fail, fun _ => rfl, fun _ => rfl⟩

/-- A program started in a state that represents `σ`: it ends in a state that represents its meaning, or it
stops for lack of memory in a state that represents the meaning of the statements executed so far. -/
theorem program_refines {s : State E} {σ σ' : Store E} (H : Holds s σ) {l : List (Op E)} (h : Means σ l σ') :
    (∃ s', runAll s l = .ok s' ∧ Holds s' σ') ∨
    (∃ l₁ l₂ σ₁ s', l = l₁ ++ l₂ ∧ Means σ l₁ σ₁ ∧ (∃ k, s.heap.fail k = true) ∧
      runAll s l = .throw .badAlloc s' ∧ Holds s' σ₁) := by
  induction h generalizing s with
  | nil σ => exact Or.inl ⟨s, rfl, H⟩
  | @cons σ σ₁ σ₂ o l h1 h2 ih =>
    rcases op_refines H h1 with ⟨s1, e1, H1⟩ | ⟨hal, s1, e1, H1⟩
    · have hf : s1.heap.fail = s.heap.fail := by
        have := Op.run_fail true s o
        rw [e1] at this
        exact this
      rcases ih H1 with ⟨s2, e2, H2⟩ | ⟨l₁, l₂, σ₃, s2, rfl, m, ⟨k, hk⟩, e2, H2⟩
      · exact Or.inl ⟨s2, by simp only [runAll, e1, Out.ok_andThen, e2], H2⟩
      · exact Or.inr ⟨o :: l₁, l₂, σ₃, s2, rfl, .cons h1 m, ⟨k, by rw [← hf]; exact hk⟩,
          by simp only [runAll, e1, Out.ok_andThen, e2], H2⟩
    · exact Or.inr ⟨[], o :: l, σ, s1, rfl, .nil σ, ⟨_, hal⟩, by simp only [runAll, e1]; rfl, H1⟩

/-- If no allocation fails, the program computes its meaning. -/
theorem program_completes {fail : Nat → Bool} (hf : ∀ k, fail k = false) {l : List (Op E)} {σ : Store E}
    (h : Means .empty l σ) : ∃ s, runAll (State.start fail) l = .ok s ∧ Holds s σ := by
  rcases program_refines (start_holds fail) h with h | ⟨-, -, -, -, -, -, ⟨k, hk⟩, -⟩
  · exact h
  · rw [show (State.start fail : State E).heap.fail k = fail k from rfl, hf] at hk
    cases hk

/-- A statement that has to be rejected stops the program with the exception; the variables are as the
statements before have left them. -/
theorem program_rejects {fail : Nat → Bool} (hf : ∀ k, fail k = false) {l l' : List (Op E)} {σ : Store E}
    (h : Means .empty l σ) {o : Op E} (hr : o.Rejected σ) :
    ∃ e s, runAll (State.start fail) (l ++ o :: l') = .throw e s ∧
      (e.IsSize ∨ e = .invalidArgument ∨ e = .matSize) ∧ Holds s σ := by
  obtain ⟨s1, e1, H1⟩ := program_completes hf h
  obtain ⟨e, s2, e2, he, H2⟩ := op_rejected H1 hr
  refine ⟨e, s2, ?_, he, H2⟩
  rw [runAll_append, e1, Out.ok_andThen, runAll, e2]
  rfl

/-- After a program every well-formed expression has the value that the meaning of the program gives it. -/
theorem program_value {s : State E} {σ : Store E} (H : Holds s σ) {e : VExpr E} {p : VVal E} (h : e.Has σ p) :
    ∃ n, e.build s = .ok n ∧ n.size s = .ok p.n ∧ ∀ i : Fin p.n, n.get s i = .ok (p.f i) := by
  obtain ⟨n, e1, e2, -⟩ := h.build H
  exact ⟨n, e1, e2.size, e2.get⟩

theorem program_mvalue {s : State E} {σ : Store E} (H : Holds s σ) {e : MExpr E} {p : MVal E} (h : e.Has σ p) :
    ∃ n, e.build s = .ok n ∧ n.dims s = .ok (p.r, p.c) ∧ ∀ (i : Fin p.r) (j : Fin p.c), n.get s i j = .ok (p.f i j) := by
  obtain ⟨n, e1, e2, -⟩ := h.build H
  exact ⟨n, e1, e2.dims, e2.get⟩

/-- When all variables are gone, all memory has been released. -/
theorem program_releases {fail : Nat → Bool} {l : List (Op E)} {σ : Store E} (h : Means .empty l σ)
    (hv : ∀ x, σ.v x = none) (hm : ∀ x, σ.m x = none) {s : State E}
    (hr : runAll (State.start fail) l = .ok s) : ∀ b, s.heap.blk b = none := by
  rcases program_refines (start_holds fail) h with ⟨s', e, H⟩ | ⟨-, -, -, s', -, -, -, e, -⟩
  · rw [hr] at e
    cases e
    intro b
    cases hb : s.heap.blk b with
    | none => rfl
    | some c =>
      obtain ⟨k, v, hk, -⟩ := H.inv.noLeak b c hb
      cases k with
      | inl x => have := H.vnone (hv x); simp [State.owner, this] at hk
      | inr x => have := H.mnone (hm x); simp [State.owner, this] at hk
  · rw [hr] at e
    cases e

/-- The meaning of a statement is unique. -/
theorem Op.Means.unique {σ σ₁ σ₂ : Store E} {o : Op E} (h₁ : o.Means σ σ₁) (h₂ : o.Means σ σ₂) : σ₁ = σ₂ := by
  cases h₁ <;> cases h₂ <;> try (simp_all [VExpr.Has, MExpr.Has]; done)
  case vResize.vResize c h c' h' => obtain rfl := Option.some.inj (h.symm.trans h'); rfl
  case vPut.vPut c _ h c' h' _ => obtain rfl := Option.some.inj (h.symm.trans h'); rfl
  case vOp.vOp q p _ h1 h2 _ q' p' _ h1' h2' _ =>
    obtain rfl := Option.some.inj (h1.symm.trans h1')
    obtain rfl := Option.some.inj (h2.2.2.symm.trans h2'.2.2)
    rfl
  case vScal.vScal a q h1 h2 _ a' q' h1' h2' _ =>
    obtain rfl := Option.some.inj (h1.symm.trans h1')
    obtain rfl := Option.some.inj (h2.symm.trans h2')
    rfl
  case vFill.vFill a c h1 h2 a' c' h1' h2' =>
    obtain rfl := Option.some.inj (h1.symm.trans h1')
    obtain rfl := Option.some.inj (h2.symm.trans h2')
    rfl
  case mResize.mResize c h c' h' => obtain rfl := Option.some.inj (h.symm.trans h'); rfl
  case mPut.mPut c _ _ h c' h' _ _ => obtain rfl := Option.some.inj (h.symm.trans h'); rfl
  case mOp.mOp c q p _ h1 h2 h3 _ c' q' p' _ h2' h1' h3' _ =>
    obtain rfl := Option.some.inj (h1.symm.trans h1')
    obtain rfl := Option.some.inj (h2.symm.trans h2')
    obtain rfl := Option.some.inj (h3.2.2.symm.trans h3'.2.2)
    rfl
  case mScal.mScal a c q h1 h2 h3 _ a' c' q' h2' h1' h3' _ =>
    obtain rfl := Option.some.inj (h1.symm.trans h1')
    obtain rfl := Option.some.inj (h2.symm.trans h2')
    obtain rfl := Option.some.inj (h3.symm.trans h3')
    rfl
  case mFill.mFill a c h1 h2 a' c' h1' h2' =>
    obtain rfl := Option.some.inj (h1.symm.trans h1')
    obtain rfl := Option.some.inj (h2.symm.trans h2')
    rfl
  case mList.mList c _ h c' h' _ => obtain rfl := Option.some.inj (h.symm.trans h'); rfl

theorem Means.unique {σ σ₁ σ₂ : Store E} {l : List (Op E)} (h₁ : Means σ l σ₁) (h₂ : Means σ l σ₂) : σ₁ = σ₂ := by
  induction h₁ with
  | nil => cases h₂; rfl
  | cons a b ih =>
    cases h₂ with
    | cons a' b' =>
      have := a.unique a'
      subst this
      exact ih b'

/-! A program that meets the hypotheses: `v = (1,2,3)`, `M` a 2×3 matrix, `w = M v`, `w -= w + (1,1)`, `v` destroyed. -/

/-- `vector v(3); v = {1,2,3}; matrix M(2,3); M = {1,0,2,0,1,1}; vector w(M*v); w -= w + (1,1); v.~vector();` -/
def sampleProgram : List (Op Int) :=
  [.vNew 0 3, .vList false 0 [1, 2, 3], .mNew true false 0 2 3, .mList .array 0 [1, 0, 2, 0, 1, 1],
   .vCopyNew 1 (.mulMV (.var 0) (.var 0)), .vOp .minus 1 (.bin .plus (.var 1) (.temp false [1, 1])), .vDestroy 0]

theorem VCont.val?_of (p : VVal E) : (VCont.of p).val? = some p := by simp [VCont.val?, VCont.of]

theorem MCont.val?_of (cm cb : Bool) (p : MVal E) : (MCont.of cm cb p).val? = some p := by
  simp [MCont.val?, MCont.of]

example : ∃ σ : Store Int, Means .empty sampleProgram σ ∧ σ.v 0 = none ∧ σ.v 1 = some (.of ⟨2, ![-1, -1]⟩) := by
  refine ⟨_, .cons (.vNew rfl) (.cons (.vList rfl) (.cons (.mNew rfl) (.cons (.mList rfl rfl)
    (.cons (.vCopyNew (p := ⟨2, ![7, 5]⟩) rfl ⟨⟨trivial, trivial⟩, ?_, ?_⟩) (.cons (.vOp (q := ⟨2, ![7, 5]⟩)
      (p := ⟨2, ![8, 6]⟩) rfl ?_ ⟨⟨trivial, rfl⟩, ?_, ?_⟩ ?_) (.cons (.vDestroy rfl) (.nil _))))))), ?_, ?_⟩
  · simp [VExpr.Pre, MExpr.Pre, MExpr.den, Store.env, Store.setV, Store.setM, VCont.val?_of, MCont.val?_of]
  · simp [VExpr.den, MExpr.den, Store.env, Store.setV, Store.setM, VCont.val?_of, MCont.val?_of]
    funext i
    fin_cases i <;> rfl
  · simp [Store.env, Store.setV, Store.setM, VCont.val?_of]
  · simp [VExpr.Pre, Store.env, Store.setV, Store.setM, VCont.val?_of]
  · simp [VExpr.den, Store.env, Store.setV, Store.setM, VCont.val?_of]
    funext i
    fin_cases i <;> rfl
  · simp [VExpr.Ahead]
  · rfl
  · show some (VCont.of _) = some (VCont.of _)
    refine congrArg (fun f => some (VCont.of (⟨2, f⟩ : VVal Int))) ?_
    funext i
    fin_cases i <;> rfl

/-- `vector v(2); v.fill(4); v = v + (1,1,1);` is rejected at the last statement. -/
example : ∃ σ : Store Int, Means .empty [.vNew 0 2, .vFill 0 (.val 4)] σ ∧
    (Op.vAssign 0 (.bin .plus (.var 0) (.temp false [1, 1, 1]))).Rejected σ := by
  refine ⟨_, .cons (.vNew rfl) (.cons (.vFill rfl rfl) (.nil _)), .vAssign ⟨⟨trivial, rfl⟩, ?_, ?_⟩⟩
  · simp [VExpr.Pre, Store.env, Store.setV, VCont.val?_of]
  · simp [VExpr.den, Store.env, Store.setV, VCont.val?_of]

/-- `vector v(2); vector w(std::move(v)); v.~vector(); w.~vector();` -/
example : ∃ σ : Store Int, Means .empty [.vNew 0 2, .vMoveNew 1 0, .vDestroy 0, .vDestroy 1] σ ∧
    (∀ x, σ.v x = none) ∧ ∀ x, σ.m x = none := by
  refine ⟨_, .cons (.vNew rfl) (.cons (.vMoveNew rfl rfl) (.cons (.vDestroy rfl) (.cons (.vDestroy rfl)
    (.nil _)))), fun x => ?_, fun x => rfl⟩
  simp only [Store.setV, Store.empty]
  repeat' split
  all_goals first
    | rfl
    | omega

#print axioms op_refines
#print axioms op_rejected
#print axioms program_refines
#print axioms program_completes
#print axioms program_rejects
#print axioms program_value
#print axioms program_mvalue
#print axioms program_releases
#print axioms Op.Means.unique
#print axioms Means.unique

end CML
