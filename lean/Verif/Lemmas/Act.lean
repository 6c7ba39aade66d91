import Verif.Model.Act
import Verif.Lemmas.Lin
import Verif.Model.Basis

/-! Procedures: relation to the model without exception states, and rules for the strong guarantee. -/

set_option linter.unusedSectionVars false

namespace CML
open Act

section
variable {σ α β : Type}

theorem Res.bind_assoc {α β γ : Type} (x : Res α) (f : α → Res β) (g : β → Res γ) :
    (x >>= f) >>= g = x >>= fun a => f a >>= g := by
  cases x <;> rfl

theorem Res.loop_noThrow {σ : Type} {body : Nat → σ → Res σ} (h : ∀ i s e, body i s ≠ .throw e) (lo n : Nat) (s : σ)
    (e : Err) : Res.loop body lo n s ≠ .throw e := by
  induction n generalizing lo s with
  | zero => simp [Res.loop]
  | succ n ih =>
    unfold Res.loop
    cases hb : body lo s with
    | ok t => exact ih _ _
    | throw e' => exact absurd hb (h _ _ _)
    | ub u => simp [Res.bind]

namespace Act

theorem bind_eq (a : Act σ α) (f : α → Act σ β) (s : σ) : (a >>= f) s =
    match a s with
    | .ok v s => f v s
    | .throw e s => .throw e s
    | .ub u => .ub u := rfl

theorem read_bind (r : σ → Res α) (f : α → Act σ β) (s : σ) : (read r >>= f) s =
    match r s with
    | .ok v => f v s
    | .throw e => .throw e s
    | .ub u => .ub u := by
  rw [bind_eq]
  unfold read
  cases r s <;> rfl

theorem final_read (r : σ → Res α) (f : α → Act σ Unit) (s : σ) :
    final (read r >>= f) s = r s >>= fun a => final (f a) s := by
  unfold final
  rw [read_bind]
  cases r s <;> rfl

theorem final_eval (r : Res α) (f : α → Act σ Unit) (s : σ) :
    final (eval r >>= f) s = r >>= fun a => final (f a) s := final_read _ _ _

theorem final_modify (g : σ → σ) (f : Unit → Act σ Unit) (s : σ) :
    final (modify g >>= f) s = final (f ()) (g s) := rfl

theorem final_modify_end (g : σ → σ) (s : σ) : final (modify g) s = .ok (g s) := rfl

theorem final_seq (a b : Act σ Unit) (s : σ) :
    final (a >>= fun _ => b) s = final a s >>= fun s => final b s := by
  unfold final
  rw [bind_eq]
  cases a s <;> rfl

theorem final_pure (s : σ) : final (pure () : Act σ Unit) s = .ok s := rfl

theorem final_loop (body : Nat → Act σ Unit) (lo n : Nat) (s : σ) :
    final (loop body lo n) s = Res.loop (fun i s => final (body i) s) lo n s := by
  induction n generalizing lo s with
  | zero => rfl
  | succ n ih =>
    rw [loop, final_seq, Res.loop]
    show Res.bind _ _ = _
    congr 1
    funext s'
    exact ih _ _

/-- If the procedure ends without exception in the other model, it does not throw. -/
theorem not_throw_of_final {a : Act σ Unit} {s t : σ} (h : final a s = .ok t) : a s = .ok () t := by
  unfold final at h
  cases ha : a s with
  | ok v t' => rw [ha] at h; cases h; rfl
  | throw e t' => rw [ha] at h; cases h
  | ub u => rw [ha] at h; cases h

/-- The procedure has the strong guarantee: an exception leaves the argument as it was. -/
def Strong (a : Act σ α) : Prop := ∀ s e s', a s = .throw e s' → s' = s

/-- The procedure does not throw. -/
def NoThrow (a : Act σ α) : Prop := ∀ s e s', a s ≠ .throw e s'

theorem NoThrow.strong {a : Act σ α} (h : NoThrow a) : Strong a := fun s e s' hs => absurd hs (h s e s')

theorem Strong.read (r : σ → Res α) {f : α → Act σ β} (h : ∀ a, Strong (f a)) : Strong (Act.read r >>= f) := by
  intro s e s' hs
  rw [read_bind] at hs
  cases hr : r s with
  | ok a => rw [hr] at hs; exact h a s e s' hs
  | throw e' => rw [hr] at hs; cases hs; rfl
  | ub u => rw [hr] at hs; cases hs

theorem Strong.eval (r : Res α) {f : α → Act σ β} (h : ∀ a, Strong (f a)) : Strong (Act.eval r >>= f) :=
  Strong.read _ h

theorem NoThrow.bind {a : Act σ α} {f : α → Act σ β} (ha : NoThrow a) (h : ∀ v, NoThrow (f v)) :
    NoThrow (a >>= f) := by
  intro s e s' hs
  rw [bind_eq] at hs
  cases hr : a s with
  | ok v t => rw [hr] at hs; exact h v t e s' hs
  | throw e' t => exact ha s e' t hr
  | ub u => rw [hr] at hs; cases hs

theorem NoThrow.read {r : σ → Res α} (h : ∀ s e, r s ≠ .throw e) : NoThrow (Act.read r : Act σ α) := by
  intro s e s' hs
  unfold Act.read at hs
  cases hr : r s with
  | ok a => rw [hr] at hs; cases hs
  | throw e' => exact h s e' hr
  | ub u => rw [hr] at hs; cases hs

theorem NoThrow.eval {r : Res α} (h : ∀ e, r ≠ .throw e) : NoThrow (Act.eval r : Act σ α) :=
  NoThrow.read fun _ => h

theorem NoThrow.modify (g : σ → σ) : NoThrow (Act.modify g) := by
  intro s e s' h; cases h

theorem NoThrow.pure (a : α) : NoThrow (Pure.pure a : Act σ α) := by
  intro s e s' h; cases h

theorem NoThrow.loop {body : Nat → Act σ Unit} (h : ∀ i, NoThrow (body i)) (lo n : Nat) :
    NoThrow (Act.loop body lo n) := by
  induction n generalizing lo with
  | zero => exact NoThrow.pure ()
  | succ n ih => exact (h lo).bind fun _ => ih _

end Act

end

section
variable {K : Type}

theorem Mat.get_noThrow (m : Mat K) (i j : Nat) (e : Err) : m.get i j ≠ .throw e := by
  unfold Mat.get; split <;> simp

theorem BMat.bput_noThrow (m : BMat K) (i j : Nat) (v : K) (e : Err) : m.bput i j v ≠ .throw e := by
  unfold BMat.bput Mat.put
  cases m.basis <;> dsimp only <;> split <;> simp

theorem BMat.bget_noThrow (m : BMat K) (i j : Nat) (e : Err) : m.bget i j ≠ .throw e := by
  unfold BMat.bget
  cases m.basis <;> exact Mat.get_noThrow _ _ _ _

theorem AVec.get_noThrow (v : AVec K) (i : Nat) (e : Err) : v.get i ≠ .throw e := by
  unfold AVec.get; split <;> simp

theorem divR_noThrow [Field K] [DecidableEq K] (a b : K) (e : Err) : divR a b ≠ .throw e := by
  unfold divR; split <;> simp

theorem final_aPut (i j : Nat) (v : K) (m : BMat K) : final (aPut i j v) m = m.bput i j v := by
  unfold final aPut
  cases m.bput i j v <;> rfl

theorem final_aPut_bind (i j : Nat) (v : K) (f : Unit → Act (BMat K) Unit) (m : BMat K) :
    final (aPut i j v >>= f) m = m.bput i j v >>= fun m => final (f ()) m := by
  rw [show (aPut i j v >>= f) = (aPut i j v >>= fun _ => f ()) from rfl, final_seq, final_aPut]

theorem aPut_noThrow (i j : Nat) (v : K) : NoThrow (aPut i j v) := by
  intro m e m' h
  unfold aPut at h
  cases hr : m.bput i j v with
  | ok a => rw [hr] at h; cases h
  | throw e' => exact BMat.bput_noThrow m i j v e' hr
  | ub u => rw [hr] at h; cases h

theorem final_aPut9 (i j k : Nat) (ii ij ik ji jj jk ki kj kk : K) (m : BMat K) :
    final (aPut9 i j k ii ij ik ji jj jk ki kj kk) m = m.bput9 i j k ii ij ik ji jj jk ki kj kk := by
  simp only [aPut9, BMat.bput9, final_aPut_bind, final_aPut]

theorem aPut9_noThrow (i j k : Nat) (ii ij ik ji jj jk ki kj kk : K) :
    NoThrow (aPut9 i j k ii ij ik ji jj jk ki kj kk) := by
  unfold aPut9
  iterate 8 refine (aPut_noThrow _ _ _).bind fun _ => ?_
  exact aPut_noThrow _ _ _

end

/-- Prove the strong guarantee of a procedure that reads and checks first and then only writes. -/
macro "strong_tac" : tactic => `(tactic| repeat' first
  | refine Strong.read _ fun _ => ?_
  | refine Strong.eval _ fun _ => ?_
  | refine NoThrow.bind (NoThrow.modify _) fun _ => ?_
  | refine NoThrow.bind (aPut_noThrow _ _ _) fun _ => ?_
  | refine NoThrow.bind (NoThrow.eval fun _ => AVec.get_noThrow _ _ _) fun _ => ?_
  | refine NoThrow.bind (NoThrow.eval fun _ => divR_noThrow _ _ _) fun _ => ?_
  | refine NoThrow.bind (NoThrow.read fun _ _ => BMat.bget_noThrow _ _ _ _) fun _ => ?_
  | exact aPut_noThrow _ _ _
  | exact aPut9_noThrow _ _ _ _ _ _ _ _ _ _ _ _
  | exact NoThrow.pure _
  | refine NoThrow.loop (fun _ => ?_) _ _
  | apply NoThrow.strong)

end CML
