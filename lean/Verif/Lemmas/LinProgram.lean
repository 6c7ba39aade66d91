import Verif.Spec.LinProgram
import Verif.Lemmas.ProgramStep
import Verif.Lemmas.ProgramFail
import Verif.Props.MatMem
import Verif.Props.MatRows
import Verif.Props.Program

/-! Programs with linear algebra: each statement does what it means. -/

namespace CML

set_option linter.unusedSectionVars false

section Touch
variable {E : Type} [Add E] [Sub E] [Mul E] [Div E] [Neg E]

theorem Touches.content {d : VObj} {s s' : State E} (T : Touches d s s') : Content s s' :=
  ⟨T.vec, T.mat, T.len, T.next, T.tick, T.fail⟩

theorem Content.touches {d : VObj} {s s' : State E} (C : Content s s') (h : SameOutside d s.heap s'.heap) :
    Touches d s s' := ⟨C.vec, C.mat, h, C.len, C.next, C.tick, C.fail⟩

theorem Touches.vget {d w : VObj} {s s' : State E} (T : Touches d s s') (hd : w.Disjoint d) {i : Nat} {e : E}
    (h : w.get s.heap i = .ok e) : w.get s'.heap i = .ok e := by
  cases hb : w.data with
  | none => simp [VObj.get, hb] at h
  | some b =>
    have hi : i < w.size := by
      by_contra hi
      simp [VObj.get, hb, hi] at h
    rw [VObj.get_eq_ok hb hi] at h ⊢
    rw [T.out, h]
    rintro ⟨h1, h2, h3⟩
    rcases hd with hd | hd | hd
    · exact hd (hb.trans h1.symm)
    · omega
    · omega

theorem Touches.mget {d : VObj} {w : MObj} {s s' : State E} (T : Touches d s s') (hd : w.flat.Disjoint d)
    {i j : Nat} {e : E} (h : w.get s.heap i j = .ok e) : w.get s'.heap i j = .ok e := by
  obtain ⟨hi, hj⟩ := MObj.get_lt h
  cases hb : w.data with
  | none => simp [MObj.get, hb] at h
  | some b =>
    rw [MObj.get_eq_ok hb hi hj] at h ⊢
    have hl := MObj.index_lt hi hj
    rw [T.out, h]
    rintro ⟨h1, h2, h3⟩
    rcases hd with hd | hd | hd
    · exact hd (hb.trans h1.symm)
    · simp only [MObj.flat] at hd; omega
    · simp only [MObj.flat] at hd; omega

theorem Touches.vholds {d : VObj} {s s' : State E} (T : Touches d s s') {y : Nat}
    (hd : ∀ w, s.vec y = some w → w.Disjoint d) {c : Option (VCont E)} (h : VHolds s y c) : VHolds s' y c := by
  cases c with
  | none => exact (congrFun T.vec y).trans h
  | some c =>
    obtain ⟨w, h1, h2, h3⟩ := h
    exact ⟨w, (congrFun T.vec y).trans h1, h2, fun i e he => T.vget (hd w h1) (h3 i e he)⟩

theorem Touches.mholds {d : VObj} {s s' : State E} (T : Touches d s s') {y : Nat}
    (hd : ∀ w, s.mat y = some w → w.flat.Disjoint d) {c : Option (MCont E)} (h : MHolds s y c) :
    MHolds s' y c := by
  cases c with
  | none => exact (congrFun T.mat y).trans h
  | some c =>
    obtain ⟨w, h1, h2, h3, h4, h5, h6⟩ := h
    exact ⟨w, (congrFun T.mat y).trans h1, h2, h3, h4, h5, fun i j e he => T.mget (hd w h1) (h6 i j e he)⟩

/-- Only the elements of matrix `x` have changed. -/
theorem Holds.touchM {s s' : State E} {σ : Store E} (H : Holds s σ) {x : Nat} {d : MObj} (hx : s.mat x = some d)
    (T : Touches d.flat s s') {c : Option (MCont E)} (h : MHolds s' x c) : Holds s' (σ.setM x c) := by
  refine ⟨T.content.inv H.inv, fun y => ?_, fun y => ?_⟩
  · exact T.vholds (H.inv.vdisjM hx y) (H.v y)
  · by_cases hy : y = x
    · subst hy; simpa [Store.setM] using h
    · simp only [Store.setM, hy, if_false]
      exact T.mholds (fun w hw => H.inv.mdisj' hx hy w hw) (H.m y)

/-- Only the elements of vector `x` have changed. -/
theorem Holds.touchV {s s' : State E} {σ : Store E} (H : Holds s σ) {x : Nat} {d : VObj} (hx : s.vec x = some d)
    (T : Touches d s s') {c : Option (VCont E)} (h : VHolds s' x c) : Holds s' (σ.setV x c) := by
  refine ⟨T.content.inv H.inv, fun y => ?_, fun y => ?_⟩
  · by_cases hy : y = x
    · subst hy; simpa [Store.setV] using h
    · simp only [Store.setV, hy, if_false]
      exact T.vholds (fun w hw => H.inv.vdisj' hx hy w hw) (H.v y)
  · exact T.mholds (fun w hw => H.inv.mdisjV hx y w hw) (H.m y)

theorem Store.setM_same {σ : Store E} {x : Nat} {c c' : Option (MCont E)} : (σ.setM x c).setM x c' = σ.setM x c' := by
  unfold Store.setM
  congr 1
  funext y
  by_cases h : y = x <;> simp [h]

theorem Store.setM_none {σ : Store E} {x : Nat} (h : σ.m x = none) : σ.setM x none = σ := by
  unfold Store.setM
  cases σ
  congr 1
  funext y
  by_cases hy : y = x
  · subst hy; simpa using h.symm
  · simp [hy]

theorem Store.setM_comm {σ : Store E} {x y : Nat} (h : x ≠ y) {c c' : Option (MCont E)} :
    (σ.setM x c).setM y c' = (σ.setM y c').setM x c := by
  unfold Store.setM
  congr 1
  funext z
  by_cases h1 : z = x <;> by_cases h2 : z = y <;> simp [h1, h2, h, Ne.symm h]

theorem Store.setV_setM {σ : Store E} {x y : Nat} {c : Option (VCont E)} {c' : Option (MCont E)} :
    (σ.setV x c).setM y c' = (σ.setM y c').setV x c := rfl

/-- The outcome of a statement: it does what it means, or there was no memory for it and nothing has changed. -/
def Out.Does (s : State E) (σ σ' : Store E) (o : Out (State E)) : Prop :=
  (∃ s', o = .ok s' ∧ s'.heap.fail = s.heap.fail ∧ Holds s' σ') ∨
    ((∃ k, s.heap.fail k = true) ∧ ∃ s', o = .throw .badAlloc s' ∧ s'.heap.fail = s.heap.fail ∧ Holds s' σ)

theorem Op.Does.out {s : State E} {σ σ' : Store E} {o : Op E} (h : o.Does s σ σ') : (o.run true s).Does s σ σ' := by
  have hf := Op.run_fail true s o
  rcases h with ⟨s', e, H⟩ | ⟨hal, s', e, H⟩
  · rw [e] at hf
    exact Or.inl ⟨s', e, hf, H⟩
  · rw [e] at hf
    exact Or.inr ⟨⟨_, hal⟩, s', e, hf, H⟩

/-- A statement followed by another one that cannot fail. -/
theorem Out.Does.andThen {s : State E} {σ σ₁ σ₂ : Store E} {o : Out (State E)} {f : State E → Out (State E)}
    (h : o.Does s σ σ₁) (hf : ∀ s', Holds s' σ₁ → ∃ s'', f s' = .ok s'' ∧ s''.heap.fail = s'.heap.fail ∧ Holds s'' σ₂) :
    (o.andThen f).Does s σ σ₂ := by
  rcases h with ⟨s', e, hs, H⟩ | ⟨hal, s', e, hs, H⟩
  · obtain ⟨s'', e', hs', H'⟩ := hf s' H
    exact Or.inl ⟨s'', by rw [e, Out.ok_andThen, e'], hs'.trans hs, H'⟩
  · exact Or.inr ⟨hal, s', by rw [e]; rfl, hs, H⟩

theorem Out.Does.okM {s s' : State E} {σ : Store E} {o : Out (State E)} (H : Holds s σ) {x : Nat} {d : MObj}
    (hx : s.mat x = some d) (e : o = .ok s') (T : Touches d.flat s s') {c : Option (MCont E)} (h : MHolds s' x c) :
    o.Does s σ (σ.setM x c) := Or.inl ⟨s', e, T.fail, H.touchM hx T h⟩

theorem Out.Does.okV {s s' : State E} {σ : Store E} {o : Out (State E)} (H : Holds s σ) {x : Nat} {d : VObj}
    (hx : s.vec x = some d) (e : o = .ok s') (T : Touches d s s') {c : Option (VCont E)} (h : VHolds s' x c) :
    o.Does s σ (σ.setV x c) := Or.inl ⟨s', e, T.fail, H.touchV hx T h⟩

/-- The destructor of a temporary cannot fail. -/
theorem mDestroy_does {s : State E} {σ : Store E} (H : Holds s σ) {x : Nat} {c : MCont E} (hx : σ.m x = some c) :
    ∃ s', mDestroy true s x = .ok s' ∧ s'.heap.fail = s.heap.fail ∧ Holds s' (σ.setM x none) := by
  have hf := Op.run_fail true s (.mDestroy x)
  rcases does_mDestroy H hx with ⟨s', e, H'⟩ | ⟨-, s', e, -⟩
  · rw [e] at hf
    exact ⟨s', e, hf, H'⟩
  · obtain ⟨d, d1, -⟩ := H.mat hx
    obtain ⟨h', e'⟩ := destroy_ok (triv := true) (v := d.flat) (H.inv.mat_alloc d1).2.2.2
    have e' : (s.heap.destruct true d.data).free d.data (d.rows * d.cols) = .ok h' := e'
    simp [Op.run, CML.mDestroy, State.mobj, d1, e'] at e

/-- A copy of a matrix variable that has a value. -/
theorem mCopyVar_does {s : State E} {σ : Store E} (H : Holds s σ) {x t : Nat} {c : MCont E} {p : MVal E}
    (hx : σ.m x = some c) (hp : c.val? = some p) (ht : σ.m t = none) (cm cb : Bool) :
    (mCopyNew true cm cb s t (.var x)).Does s σ (σ.setM t (some (.of cm cb p))) := by
  have hH : (MExpr.var x : MExpr E).Has σ p := ⟨trivial, by simp [MExpr.Pre, Store.env, hx, hp], by
    simp [MExpr.den, Store.env, hx, hp]⟩
  have := (does_mCopyNew H (cm := cm) (cb := cb) ht hH).out
  simpa [Op.run, MExpr.build] using this

end Touch

end CML
