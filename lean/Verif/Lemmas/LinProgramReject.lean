import Verif.Lemmas.LinProgramAlg

/-! Programs with linear algebra: statements that are rejected. -/

namespace CML

set_option linter.unusedSectionVars false

section
variable {K : Type} [Field K] [LinearOrder K] [IsStrictOrderedRing K]

/-- The exceptions with which statements are rejected. -/
def Err.Reason (er : Err) : Prop :=
  er.IsSize ∨ er = .invalidArgument ∨ er = .matSize ∨ er = .nonSquare

theorem mNonSquare {s : State K} {σ : Store K} (H : Holds s σ) {x : Nat} {c : MCont K} (hx : σ.m x = some c)
    (hne : c.r ≠ c.c) : ∃ d, s.mat x = some d ∧ d.rows ≠ d.cols ∧ d.fixed = false := by
  obtain ⟨d, d1, d2, d3, d4, d5, -⟩ := H.mat hx
  exact ⟨d, d1, by rwa [d4, d5], (H.inv.mat_alloc d1).2.1⟩

/-- `lu_solve(lu_pivot(m), x, b)` with vectors of the wrong size or without a decomposition. -/
theorem mPivotSolve_rejected {eps : K} {s : State K} {σ : Store K} (H : Holds s σ) {m x b t u n : Nat}
    {cm cb : Bool} {A : Matrix (Fin n) (Fin n) K} {cx cv : VCont K} {r : LuPivot K} (hm : σ.Square m cm cb A)
    (hx : σ.v x = some cx) (hb : σ.v b = some cv) (hr : luPivot false eps (Mat.of A) = .ok r)
    (h : ¬ (n = cx.n ∧ n = cv.n) ∨ r.sign = 0) (ht : σ.m t = none) (hu : σ.m u = none) (htu : t ≠ u) :
    ∃ er s', mPivotSolve true eps s m x b t u = .throw er s' ∧ s'.heap.fail = s.heap.fail ∧ Holds s' σ ∧
      (er.Reason ∨ er = .badAlloc ∧ ∃ k, s.heap.fail k = true) := by
  obtain ⟨cM, hc, rfl, rfl, hv⟩ := hm
  obtain ⟨d, d1, d2, d3, d4, d5, d6, d7⟩ := H.obj hc hv
  simp only at d4 d5
  have hst : mPivotSolve true eps s m x b t u = (mPivotResult true s d m t u).andThen fun s =>
        Out.scoped true t (.withVal (mLuPivot true eps s t) s fun r => mLuPivotSolve true r.1 t r.2.1 r.2.2 x b) := by
    simp [mPivotSolve, State.mobj, d1, memCheckSquare, Res.require, d4, d5]
  rw [hst]
  rcases mPivotResult_does H hc hv d2 d3 ht hu htu with ⟨s₁, e, hf, H₁⟩ | ⟨hal, s', e, hf, H'⟩
  · obtain ⟨c', hc', k1, k2, hv'⟩ := σ.square_set t n cM.colMajor cM.colBasis A
    obtain ⟨d', f1, f2, f3, f4, f5, f6, f7⟩ := H₁.obj hc' hv'
    have hA := Mat.of_is A
    obtain ⟨s₂, e1, e2, T⟩ := (mlupivot_mem (triv := true) eps f1 (Mat.of A) ((rep_is hA).2 f7)).1 r
      (by rw [f6]; exact hr)
    have H₂ := H₁.touchM f1 T (.of_rep' e2 ((congrFun T.mat t).trans f1) (f2.trans k1) (f3.trans k2))
    rw [Store.setM_same] at H₂
    have f1' : s₂.mat t = some d' := (congrFun T.mat t).trans f1
    obtain ⟨vb, w1, w2, -⟩ := H₂.vec (x := b) (c := cv) hb
    obtain ⟨vx, x1, x2, -⟩ := H₂.vec (x := x) (c := cx) hx
    obtain ⟨p1, p2, p3⟩ := mlupivotsolve_error (triv := true) f1' x1 w1 r.order r.sign
    obtain ⟨er, g1, g2⟩ : ∃ er, mLuPivotSolve true s₂ t r.order r.sign x b = .throw er s₂ ∧ er.Reason := by
      simp only at f5
      by_cases h1 : d'.cols = vx.size
      · by_cases h2 : d'.cols = vb.size
        · refine ⟨_, p3 h1 h2 ?_, by simp [Err.Reason]⟩
          rcases h with h | h
          · exact absurd ⟨by omega, by omega⟩ h
          · exact h
        · exact ⟨_, p2 h1 h2, by simp [Err.Reason, Err.IsSize, f6]⟩
      · exact ⟨_, p1 h1, by simp [Err.Reason, Err.IsSize, f6]⟩
    obtain ⟨s₃, e3, hf3, H₃⟩ := mDestroy_does H₂ (x := t) (c := .of cM.colMajor cM.colBasis r.lu.val)
      (by simp [Store.setM])
    rw [Store.setM_same, Store.setM_none ht] at H₃
    refine ⟨er, s₃, ?_, hf3.trans (T.fail.trans hf), H₃, Or.inl g2⟩
    rw [e, Out.ok_andThen, e1, Out.withVal_ok, g1, Out.scoped, e3, Out.ok_andThen]
  · exact ⟨.badAlloc, s', by rw [e]; rfl, hf, H', Or.inr ⟨rfl, hal⟩⟩

end

end CML
