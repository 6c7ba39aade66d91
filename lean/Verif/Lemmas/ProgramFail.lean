import Verif.Lemmas.HistoryStep

/-! No statement has an influence on which allocations will fail. -/

namespace CML

set_option linter.unusedSectionVars false

section
variable {E : Type}

theorem Heap.copyCell_fail {triv : Bool} {h h' : Heap E} {b d o : Nat} (e : h.copyCell triv b d o = .ok h') :
    h'.fail = h.fail := by
  unfold Heap.copyCell at e
  repeat' split at e
  all_goals first
    | (cases e; done)
    | (simp only [Res.ok.injEq] at e; subst e; rfl)

theorem copyOld_fail {triv : Bool} {h h' : Heap E} {src : Option Nat} {d k : Nat}
    (e : copyOld triv h src d k = .ok h') : h'.fail = h.fail := by
  unfold copyOld at e
  split at e
  · simp only [Res.ok.injEq] at e; subst e; rfl
  · next b =>
    have : ∀ lo (h : Heap E), Res.loop (fun o h => h.copyCell triv b d o) lo k h = .ok h' → h'.fail = h.fail := by
      clear e
      induction k with
      | zero => intro lo h e; simp only [Res.loop, Res.ok.injEq] at e; subst e; rfl
      | succ k ih =>
        intro lo h e
        simp only [Res.loop] at e
        cases hc : h.copyCell triv b d lo with
        | ok h2 =>
          rw [hc] at e
          exact (ih (lo + 1) h2 e).trans (Heap.copyCell_fail hc)
        | throw er => rw [hc] at e; cases e
        | ub u => rw [hc] at e; cases e
    exact this 0 h e

theorem Heap.destruct_fail (triv : Bool) (h : Heap E) (b : Option Nat) : (h.destruct triv b).fail = h.fail := by
  unfold Heap.destruct
  repeat' split
  all_goals rfl

theorem Heap.free_fail {h h' : Heap E} {b : Option Nat} {n : Nat} (e : h.free b n = .ok h') :
    h'.fail = h.fail := by
  unfold Heap.free at e
  repeat' split at e
  all_goals first
    | (cases e; done)
    | (simp only [Res.ok.injEq] at e; subst e; rfl)

theorem Heap.alloc_fail {h h' : Heap E} {n : Nat} {b : Option Nat} (e : h.alloc n = (h', b)) :
    h'.fail = h.fail := by
  unfold Heap.alloc at e
  repeat' split at e
  all_goals
    simp only [Prod.mk.injEq] at e
    obtain ⟨e, -⟩ := e
    subst e
    rfl

/-- The future of the allocator is as before. -/
def SameFail (s s' : State E) : Prop := s'.heap.fail = s.heap.fail

theorem SameFail.refl (s : State E) : SameFail s s := rfl

theorem vResizeWith_fail (copy triv : Bool) (s : State E) (x : Nat) (n : Int) :
    (vResizeWith copy triv s x n).Post (SameFail s) (SameFail s) := by
  unfold vResizeWith
  refine .withVal (fun v _ => ?_) fun _ _ => .refl s
  split
  · exact .refl s
  split
  · exact .refl s
  split
  next h e => exact Heap.alloc_fail e
  next h b e =>
    refine .withVal (fun h1 e1 => .withVal (fun h2 e2 => ?_) fun _ _ => .refl s) fun _ _ => .refl s
    have h0 : h1.fail = h.fail := by
      split at e1
      · exact (copyOld_fail e1).trans (Heap.destruct_fail _ _ _)
      · simp only [Res.ok.injEq] at e1; subst e1; exact Heap.destruct_fail _ _ _
    exact (Heap.free_fail e2).trans (h0.trans (Heap.alloc_fail e))

theorem mResizeWith_fail (copy triv : Bool) (s : State E) (x : Nat) (r c : Int) :
    (mResizeWith copy triv s x r c).Post (SameFail s) (SameFail s) := by
  unfold mResizeWith
  refine .withVal (fun v _ => ?_) fun _ _ => .refl s
  split
  · exact .refl s
  split
  · exact .refl s
  split
  · exact .refl s
  split
  next h e => exact Heap.alloc_fail e
  next h b e =>
    refine .withVal (fun h1 e1 => .withVal (fun h2 e2 => ?_) fun _ _ => .refl s) fun _ _ => .refl s
    have h0 : h1.fail = h.fail := by
      split at e1
      · exact (copyOld_fail e1).trans (Heap.destruct_fail _ _ _)
      · simp only [Res.ok.injEq] at e1; subst e1; exact Heap.destruct_fail _ _ _
    exact (Heap.free_fail e2).trans (h0.trans (Heap.alloc_fail e))

theorem ctor_fail {s : State E} {x : Nat} {o : Out (State E)} (h : o.Post (SameFail s) (SameFail s)) :
    (ctor x o).Post (SameFail s) (SameFail s) := by
  cases o <;> exact h

theorem mctor_fail {s : State E} {x : Nat} {o : Out (State E)} (h : o.Post (SameFail s) (SameFail s)) :
    (mctor x o).Post (SameFail s) (SameFail s) := by
  cases o <;> exact h

theorem vMoveAssign_fail (s : State E) (x y : Nat) : (vMoveAssign s x y).Post (SameFail s) (SameFail s) := by
  unfold vMoveAssign
  exact .withVal (fun _ _ => .withVal (fun _ _ => SameFail.refl s) fun _ _ => .refl s) fun _ _ => .refl s

theorem mMoveAssign_fail (s : State E) (x y : Nat) : (mMoveAssign s x y).Post (SameFail s) (SameFail s) := by
  unfold mMoveAssign
  exact .withVal (fun _ _ => .withVal (fun _ _ => SameFail.refl s) fun _ _ => .refl s) fun _ _ => .refl s

end

section
variable {E : Type} [Add E] [Sub E] [Mul E] [Div E] [Neg E]

theorem Out.Quiet.sameFail {s0 s : State E} {o : Out (State E)} (h0 : SameFail s0 s) (h : o.Quiet s) :
    o.Post (SameFail s0) (SameFail s0) :=
  Out.Post.mono h (fun _ hc => hc.fail.trans h0) (fun _ hf => hf.elim)

theorem checkOrResize_fail (triv : Bool) (s : State E) (x : Nat) (e : VNode E) :
    (checkOrResize triv s x e).Post (SameFail s) (SameFail s) := by
  unfold checkOrResize
  refine .withVal (fun v _ => ?_) fun _ _ => .refl s
  split
  · exact .withVal (fun n _ => vResizeWith_fail _ _ s x n) fun _ _ => .refl s
  · exact .withVal (fun n _ => SameFail.refl s) fun _ _ => .refl s

theorem checkOrResizeN_fail (triv cst : Bool) (s : State E) (x n : Nat) :
    (checkOrResizeN triv cst s x n).Post (SameFail s) (SameFail s) := by
  unfold checkOrResizeN
  refine .withVal (fun v _ => ?_) fun _ _ => .refl s
  split
  · exact vResizeWith_fail _ _ s x n
  · exact .withVal (fun n _ => SameFail.refl s) fun _ _ => .refl s

theorem mReshape_fail (s : State E) (x : Nat) (r c : Int) :
    (mReshape s x r c).Post (SameFail s) (SameFail s) := by
  unfold mReshape
  refine .withVal (fun v _ => ?_) fun _ _ => .refl s
  repeat' split
  all_goals first
    | exact SameFail.refl s
    | trivial

theorem mCheckOrResize_fail (triv : Bool) (s : State E) (x : Nat) (e : MNode E) :
    (mCheckOrResize triv s x e).Post (SameFail s) (SameFail s) := by
  unfold mCheckOrResize
  refine .withVal (fun v _ => ?_) fun _ _ => .refl s
  split
  · exact .withVal (fun n _ => mResizeWith_fail _ _ s x n.1 n.2) fun _ _ => .refl s
  · exact .withVal (fun n _ => SameFail.refl s) fun _ _ => .refl s
  · split
    · exact .withVal (fun n _ => SameFail.refl s) fun _ _ => .refl s
    · exact .withVal (fun n _ => mReshape_fail s x n.1 n.2) fun _ _ => .refl s

theorem vAssign_fail' (triv : Bool) (s : State E) (x : Nat) (e : VNode E) :
    (vAssign triv s x e).Post (SameFail s) (SameFail s) :=
  (checkOrResize_fail triv s x e).andThen fun s' h =>
    Out.Quiet.sameFail h (storeLoop_quiet (.refl s') fun s i => e.get_noThrow s i)

theorem mAssign_fail' (triv : Bool) (s : State E) (x : Nat) (e : MNode E) :
    (mAssign triv s x e).Post (SameFail s) (SameFail s) :=
  (mCheckOrResize_fail triv s x e).andThen fun s' h =>
    Out.Quiet.sameFail h (mStore_quiet (.refl s') fun s i j => e.get_noThrow s i j)

/-- Which allocations will fail does not depend on the statements. -/
theorem Op.run_fail (triv : Bool) (s : State E) (o : Op E) :
    (o.run triv s).Post (SameFail s) (SameFail s) := by
  cases o with
  | vDefault x => exact SameFail.refl s
  | vNew x n => exact ctor_fail (vResizeWith_fail _ _ _ x n)
  | vCopyNew x e => exact .withVal (fun n _ => ctor_fail (vAssign_fail' _ _ x n)) fun _ _ => .refl s
  | vMoveNew x y => exact ctor_fail (vMoveAssign_fail _ x y)
  | vResize fast x n => cases fast <;> exact vResizeWith_fail _ _ s x n
  | vPut x i e => exact Out.Quiet.sameFail (.refl s) (vPut_quiet triv s s (.refl s) x i e)
  | vAssign x e => exact .withVal (fun n _ => vAssign_fail' _ s x n) fun _ _ => .refl s
  | vOp o x e =>
    exact .withVal (fun n _ => (checkOrResize_fail triv s x n).andThen fun s' h =>
      Out.Quiet.sameFail h (storeLoop_quiet (.refl s') fun s i =>
        (VNode.get_noThrow s (.var x) i).bind fun _ => (n.get_noThrow s i).bind fun _ => .ok _)) fun _ _ => .refl s
  | vScal o x c =>
    exact Out.Quiet.sameFail (.refl s) (storeLoop_quiet (.refl s) fun s i =>
      (VNode.get_noThrow s (.var x) i).bind fun _ => (c.read_noThrow s).bind fun _ => .ok _)
  | vFill x c => exact Out.Quiet.sameFail (.refl s) (storeLoop_quiet (.refl s) fun s i => c.read_noThrow s)
  | vList cst x xs =>
    refine (checkOrResizeN_fail triv cst s x xs.length).andThen fun s' h => Out.Quiet.sameFail h ?_
    exact .loop (fun k s'' h'' => .withVal (fun a _ => vPut_quiet triv s' s'' h'' x k a) fun e he =>
      VNode.get_noThrow s'' (.temp true xs) k e he) (.refl s')
  | vMove x y => exact vMoveAssign_fail s x y
  | vDestroy x =>
    exact .withVal (fun v _ => .withVal (fun h' hh => (Heap.free_fail hh).trans (Heap.destruct_fail _ _ _))
      fun _ _ => .refl s) fun _ _ => .refl s
  | mDefault cm cb x => exact SameFail.refl s
  | mNew cm cb x r c => exact mctor_fail (mResizeWith_fail _ _ _ x r c)
  | mCopyNew cm cb x e => exact .withVal (fun n _ => mctor_fail (mAssign_fail' _ _ x n)) fun _ _ => .refl s
  | mMoveNew x y => exact .withVal (fun w _ => mctor_fail (mMoveAssign_fail _ x y)) fun _ _ => .refl s
  | mResize fast x r c => cases fast <;> exact mResizeWith_fail _ _ s x r c
  | mPut x i j e => exact Out.Quiet.sameFail (.refl s) (mPut_quiet triv s s (.refl s) x i j e)
  | mAssign x e => exact .withVal (fun n _ => mAssign_fail' _ s x n) fun _ _ => .refl s
  | mOp o x e =>
    exact .withVal (fun n _ => (mCheckOrResize_fail triv s x n).andThen fun s' h =>
      Out.Quiet.sameFail h (mStore_quiet (.refl s') fun s i j =>
        (MNode.get_noThrow s (.var x) i j).bind fun _ => (n.get_noThrow s i j).bind fun _ => .ok _))
      fun _ _ => .refl s
  | mScal o x c =>
    exact Out.Quiet.sameFail (.refl s) (mStore_quiet (.refl s) fun s i j =>
      (MNode.get_noThrow s (.var x) i j).bind fun _ => (c.read_noThrow s).bind fun _ => .ok _)
  | mFill x c => exact Out.Quiet.sameFail (.refl s) (mStore_quiet (.refl s) fun s i j => c.read_noThrow s)
  | mList kind x xs =>
    refine .withVal (fun m _ => .withVal (fun _ _ => Out.Quiet.sameFail (.refl s) ?_) fun _ _ => .refl s)
      fun _ _ => .refl s
    exact .loop (fun k s'' h'' => .withVal (fun a _ => mPut_quiet triv s s'' h'' x _ _ a) fun e he =>
      VNode.get_noThrow s'' (.temp true xs) k e he) (.refl s)
  | mMove x y => exact mMoveAssign_fail s x y
  | mDestroy x =>
    exact .withVal (fun v _ => .withVal (fun h' hh => (Heap.free_fail hh).trans (Heap.destruct_fail _ _ _))
      fun _ _ => .refl s) fun _ _ => .refl s

end

end CML
