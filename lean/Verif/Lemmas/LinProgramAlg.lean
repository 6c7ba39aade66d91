import Verif.Lemmas.LinProgramStep
import Verif.Props.PivotSolve

/-! Programs with linear algebra: transpose, inverse, decompositions, systems and determinants. -/

namespace CML

set_option linter.unusedSectionVars false

section
variable {E : Type} [Add E] [Sub E] [Mul E] [Div E] [Neg E]

/-- A statement followed by another one that may fail too; what the first one has done is then undone. -/
theorem Out.Does.bind {s : State E} {σ σ₁ σ₂ : Store E} {o : Out (State E)} {f : State E → Out (State E)}
    (h : o.Does s σ σ₁) (hf : ∀ s', Holds s' σ₁ → (f s').Does s' σ σ₂) :
    (o.andThen f).Does s σ σ₂ := by
  rcases h with ⟨s', e, hs, H⟩ | ⟨hal, s', e, hs, H⟩
  · rw [e, Out.ok_andThen]
    rcases hf s' H with ⟨s'', e', hs', H'⟩ | ⟨hal, s'', e', hs', H'⟩
    · exact Or.inl ⟨s'', e', hs'.trans hs, H'⟩
    · exact Or.inr ⟨by rwa [hs] at hal, s'', e', hs'.trans hs, H'⟩
  · exact Or.inr ⟨hal, s', by rw [e]; rfl, hs, H⟩

/-- A temporary is destroyed however its scope is left. -/
theorem Out.Does.scoped {s : State E} {σ₁ σ₂ : Store E} {o : Out (State E)} {u : Nat} {c₁ c₂ : MCont E}
    (h : o.Does s σ₁ σ₂) (h₁ : σ₁.m u = some c₁) (h₂ : σ₂.m u = some c₂) :
    (Out.scoped true u o).Does s (σ₁.setM u none) (σ₂.setM u none) := by
  rcases h with ⟨s', e, hs, H⟩ | ⟨hal, s', e, hs, H⟩
  · obtain ⟨s'', e', hs', H'⟩ := mDestroy_does H h₂
    exact Or.inl ⟨s'', by rw [e]; exact e', hs'.trans hs, H'⟩
  · obtain ⟨s'', e', hs', H'⟩ := mDestroy_does H h₁
    exact Or.inr ⟨hal, s'', by rw [e, Out.scoped, e', Out.ok_andThen], hs'.trans hs, H'⟩

/-- The object behind a matrix variable with a value. -/
theorem Holds.obj {s : State E} {σ : Store E} (H : Holds s σ) {x : Nat} {c : MCont E} {q : MVal E}
    (hx : σ.m x = some c) (hq : c.val? = some q) :
    ∃ d, s.mat x = some d ∧ d.colMajor = c.colMajor ∧ d.colBasis = c.colBasis ∧ d.rows = q.r ∧ d.cols = q.c ∧
      d.fixed = false ∧ MRep s (.var x) q := by
  obtain ⟨d, d1, d2, d3, d4, d5, -⟩ := H.mat hx
  obtain ⟨e1, e2, -⟩ := MCont.val?_some hq
  have := H.m x
  rw [hx] at this
  exact ⟨d, d1, d2, d3, d4.trans e1.symm, d5.trans e2.symm, (H.inv.mat_alloc d1).2.1, this.rep hq⟩

theorem does_mTranspose {s : State E} {σ : Store E} (H : Holds s σ) {x t : Nat} {c : MCont E} {q : MVal E}
    (hx : σ.m x = some c) (hq : c.val? = some q) (ht : σ.m t = none) :
    (mTransposeDyn true s x t).Does s σ
      (σ.setM x (some (.of c.colMajor c.colBasis ⟨q.c, q.r, fun i j => q.f j i⟩))) := by
  obtain ⟨d, d1, d2, d3, d4, d5, d6, d7⟩ := H.obj hx hq
  have hne : x ≠ t := by rintro rfl; rw [hx] at ht; cases ht
  have hst : mTransposeDyn true s x t = (mCopyNew true c.colMajor c.colBasis s t (.var x)).andThen fun s =>
      (mAssign true s x (.transpose (.var t))).andThen fun s => mDestroy true s t := by
    simp only [mTransposeDyn, State.mobj, d1, Out.withVal_ok, d2, d3]
  rw [hst]
  refine (mCopyVar_does H hx hq ht c.colMajor c.colBasis).andThen fun s₁ H₁ => ?_
  have hx1 : (σ.setM t (some (.of c.colMajor c.colBasis q))).m x = some c := by simp [Store.setM, hne, hx]
  have ht1 : (σ.setM t (some (.of c.colMajor c.colBasis q))).m t = some (.of c.colMajor c.colBasis q) := by
    simp [Store.setM]
  have hv : (MCont.of c.colMajor c.colBasis q).val? = some q := MCont.val?_of _ _ _
  have hH : (MExpr.transpose (.var t) : MExpr E).Has (σ.setM t (some (.of c.colMajor c.colBasis q)))
      ⟨q.c, q.r, fun i j => q.f j i⟩ := ⟨trivial, by simp [MExpr.Pre, Store.env, ht1, hv], by
    simp [MExpr.den, Store.env, ht1, hv]⟩
  obtain ⟨dx, f1, f2, f3, f4, f5, f6, f7⟩ := H₁.obj hx1 hq
  obtain ⟨a1, a2, a3, a4⟩ := H₁.inv.mat_alloc f1
  obtain ⟨n, b1, b2, -⟩ := hH.build H₁
  have hn : n = .transpose (.var t) := by
    simp only [MExpr.build, Res.pure_eq, Res.ok_bind, Res.ok.injEq] at b1
    exact b1.symm
  subst hn
  have hf := Op.run_fail true s₁ (.mAssign x (.transpose (.var t)))
  have hrun : (Op.mAssign x (.transpose (.var t))).run true s₁ = mAssign true s₁ x (.transpose (.var t)) := by
    simp [Op.run, mstmtAssign, b1]
  obtain ⟨s₂, e2, H₂⟩ : ∃ s₂, mAssign true s₁ x (.transpose (.var t)) = .ok s₂ ∧ Holds s₂
      ((σ.setM t (some (.of c.colMajor c.colBasis q))).setM x
        (some (.of c.colMajor c.colBasis ⟨q.c, q.r, fun i j => q.f j i⟩))) := by
    rcases does_mAssign H₁ hx1 hH (fun _ => hne.symm) (fun _ => hne.symm) with ⟨s', e, H'⟩ | ⟨-, s', e, -⟩
    · exact ⟨s', by rw [← hrun]; exact e, H'⟩
    · obtain ⟨h', d', k1, -⟩ := mAssign_resize_ok f1 a1 a3 a4 (fun hc => absurd (by simp only [f4, f5]; exact Nat.mul_comm _ _) hc)
        (H₁.inv.fresh _ (le_refl _)) b2 (MNode.Leaves.imp (fun y _ => H₁.inv.mvkept f1 y)
        (fun y hy => ⟨hy, fun w hw => H₁.inv.mdisj hy f1 hw⟩) _ (show MNode.Leaves (fun _ => True) (· ≠ x) (.transpose (.var t)) from hne.symm))
      rw [hrun, k1] at e
      cases e
  rw [hrun, e2] at hf
  have ht2 : ((σ.setM t (some (.of c.colMajor c.colBasis q))).setM x
        (some (.of c.colMajor c.colBasis ⟨q.c, q.r, fun i j => q.f j i⟩))).m t = some (.of c.colMajor c.colBasis q) := by
    simp [Store.setM, hne.symm]
  obtain ⟨s₃, e3, hf3, H₃⟩ := mDestroy_does H₂ ht2
  refine ⟨s₃, by rw [e2, Out.ok_andThen, e3], hf3.trans hf, ?_⟩
  rwa [Store.setM_comm hne, Store.setM_same, Store.setM_none ht] at H₃

end

section
variable {K : Type} [Field K] [LinearOrder K] [IsStrictOrderedRing K]

theorem mInverse_ok {s : State K} {x n : Nat} {d : MObj} (hx : s.mat x = some d) (h1 : 1 ≤ n) (h4 : n ≤ 4)
    (A : Matrix (Fin n) (Fin n) K) (h : MRep s (.var x) ⟨n, n, A⟩) (h0 : A.det ≠ 0) :
    ∃ s', mInverse true s x = .ok s' ∧ MRep s' (.var x) ⟨n, n, (A⁻¹ : Matrix (Fin n) (Fin n) K)⟩ ∧
      Touches d.flat s s' := by
  by_cases hn : n = 1
  · subst hn
    obtain ⟨M', e1, e2⟩ := (inverse_one d.fixed (Mat.of A) A (Mat.of_is A)).1 h0
    obtain ⟨s', g1, g2, g3⟩ := (minverse_mem (triv := true) hx (Mat.of A) ((rep_is (Mat.of_is A)).2 h)).1 M' e1
    exact ⟨s', g1, (rep_is e2).1 g2, g3⟩
  · exact (minverse_small hx (by omega) A h).1 h0

theorem does_mInverse {s : State K} {σ : Store K} (H : Holds s σ) {x n : Nat} {cm cb : Bool}
    {A : Matrix (Fin n) (Fin n) K} (hx : σ.Square x cm cb A) (h1 : 1 ≤ n) (h4 : n ≤ 4) (h0 : A.det ≠ 0) :
    (mInverse true s x).Does s σ (σ.setM x (some (.of cm cb ⟨n, n, (A⁻¹ : Matrix (Fin n) (Fin n) K)⟩))) := by
  obtain ⟨c, hc, rfl, rfl, hv⟩ := hx
  obtain ⟨d, d1, d2, d3, d4, d5, d6, d7⟩ := H.obj hc hv
  obtain ⟨s', e1, e2, T⟩ := mInverse_ok d1 h1 h4 A d7 h0
  exact .okM H d1 e1 T (.of_rep' e2 ((congrFun T.mat x).trans d1) d2 d3)

theorem Out.Does.ok_of_noFail {s : State K} {σ σ' : Store K} {o : Out (State K)} (h : o.Does s σ σ')
    (ho : ∀ s', o ≠ .throw .badAlloc s') : ∃ s', o = .ok s' ∧ s'.heap.fail = s.heap.fail ∧ Holds s' σ' := by
  rcases h with h | ⟨-, s', e, -⟩
  · exact h
  · exact absurd e (ho s')

theorem Store.square_set (σ : Store K) (t n : Nat) (cm cb : Bool) (A : Matrix (Fin n) (Fin n) K) :
    (σ.setM t (some (.of cm cb ⟨n, n, A⟩))).Square t cm cb A :=
  ⟨.of cm cb ⟨n, n, A⟩, by simp [Store.setM], rfl, rfl, MCont.val?_of _ _ _⟩

theorem does_mInverseNew {s : State K} {σ : Store K} (H : Holds s σ) {x t n : Nat} {cm cb : Bool}
    {A : Matrix (Fin n) (Fin n) K} (hx : σ.Square x cm cb A) (h1 : 1 ≤ n) (h4 : n ≤ 4) (h0 : A.det ≠ 0)
    (ht : σ.m t = none) :
    (mInverseNew true s x t).Does s σ (σ.setM t (some (.of cm cb ⟨n, n, (A⁻¹ : Matrix (Fin n) (Fin n) K)⟩))) := by
  obtain ⟨c, hc, rfl, rfl, hv⟩ := hx
  obtain ⟨d, d1, d2, d3, d4, d5, d6, d7⟩ := H.obj hc hv
  simp only at d4 d5
  have hst : mInverseNew true s x t = (mCopyNew true c.colMajor c.colBasis s t (.var x)).andThen fun s =>
      mInverse true s t := by
    simp [mInverseNew, State.mobj, d1, memCheckSquare, Res.require, d4, d5, d2, d3]
  rw [hst]
  refine (mCopyVar_does H hc hv ht c.colMajor c.colBasis).andThen fun s₁ H₁ => ?_
  obtain ⟨c', hc', k1, k2, hv'⟩ := σ.square_set t n c.colMajor c.colBasis A
  obtain ⟨d', f1, f2, f3, f4, f5, f6, f7⟩ := H₁.obj hc' hv'
  obtain ⟨s', e1, e2, T⟩ := mInverse_ok f1 h1 h4 A f7 h0
  refine ⟨s', e1, T.fail, ?_⟩
  have := H₁.touchM f1 T (.of_rep' e2 ((congrFun T.mat t).trans f1) (f2.trans k1) (f3.trans k2))
  rwa [Store.setM_same] at this

/-- At most one matrix packs both factors of `A`. -/
theorem packed_unique {n : Nat} {A B B' : Matrix (Fin n) (Fin n) K}
    (hl : ∀ k (hk : k < n), (leading A k hk.le).det ≠ 0) (hB : unitLower B * upper B = A)
    (hB' : unitLower B' * upper B' = A) : B = B' := by
  have hA := Mat.of_is A
  obtain ⟨M', g1⟩ := (lu_ok_iff false (Mat.of A) n A hA).1.2 hl
  obtain ⟨C, g2, -⟩ := lu_factors false (Mat.of A) M' n A hA g1
  have key : ∀ B, unitLower B * upper B = A → C = B := by
    intro B hB
    obtain ⟨q1, q2⟩ := lu_unique false (Mat.of A) M' n A C (unitLower B) (upper B) hA g1 g2
      (fun i j hij => by simp [unitLower, hij.ne, hij.not_gt]) (fun i => by simp [unitLower])
      (fun i j hij => by simp [upper, hij]) hB
    ext i j
    rcases lt_or_ge j i with hij | hij
    · have := congrFun (congrFun q1 i) j
      simp only [unitLower, hij, if_true] at this
      exact this.symm
    · have := congrFun (congrFun q2 i) j
      simp only [upper, hij, if_true] at this
      exact this.symm
  exact (key B hB).symm.trans (key B' hB')

theorem does_mLuNew {s : State K} {σ : Store K} (H : Holds s σ) {x t n : Nat} {cm cb : Bool}
    {A B : Matrix (Fin n) (Fin n) K} (hx : σ.Square x cm cb A)
    (hl : ∀ k (hk : k < n), (leading A k hk.le).det ≠ 0) (hB : unitLower B * upper B = A) (ht : σ.m t = none) :
    (mLuNew true s x t).Does s σ (σ.setM t (some (.of cm cb ⟨n, n, B⟩))) := by
  obtain ⟨c, hc, rfl, rfl, hv⟩ := hx
  obtain ⟨d, d1, d2, d3, d4, d5, d6, d7⟩ := H.obj hc hv
  simp only at d4 d5
  have hst : mLuNew true s x t = (mCopyNew true c.colMajor c.colBasis s t (.var x)).andThen fun s =>
      mLuInplace true s t := by
    simp [mLuNew, State.mobj, d1, memCheckSquare, Res.require, d4, d5, d2, d3]
  rw [hst]
  refine (mCopyVar_does H hc hv ht c.colMajor c.colBasis).andThen fun s₁ H₁ => ?_
  obtain ⟨c', hc', k1, k2, hv'⟩ := σ.square_set t n c.colMajor c.colBasis A
  obtain ⟨d', f1, f2, f3, f4, f5, f6, f7⟩ := H₁.obj hc' hv'
  have hA := Mat.of_is A
  obtain ⟨M', g1⟩ := (lu_ok_iff d'.fixed (Mat.of A) n A hA).1.2 hl
  obtain ⟨B', g2, g3, -⟩ := lu_factors d'.fixed (Mat.of A) M' n A hA g1
  have hBB : B' = B := packed_unique hl g3 hB
  subst hBB
  obtain ⟨s', e1, e2, T⟩ := (mlu_mem (triv := true) f1 (Mat.of A) ((rep_is hA).2 f7)).1 M' g1
  refine ⟨s', e1, T.fail, ?_⟩
  have := H₁.touchM f1 T (.of_rep' ((rep_is g2).1 e2) ((congrFun T.mat t).trans f1) (f2.trans k1) (f3.trans k2))
  rwa [Store.setM_same] at this

/-- The object behind a vector variable with a value. -/
theorem Holds.vobj {s : State K} {σ : Store K} (H : Holds s σ) {b n : Nat} {p : Fin n → K} (hb : σ.Vector b p) :
    ∃ d, s.vec b = some d ∧ d.size = n ∧ VRep s (.var b) ⟨n, p⟩ := by
  obtain ⟨c, hc, hv⟩ := hb
  obtain ⟨d, d1, d2, -⟩ := H.vec hc
  obtain ⟨e1, -⟩ := VCont.val?_some hv
  have := H.v b
  rw [hc] at this
  exact ⟨d, d1, d2.trans e1.symm, this.rep hv⟩

theorem does_mLuSolve {s : State K} {σ : Store K} (H : Holds s σ) {m x b n : Nat} {cm cb : Bool}
    {B : Matrix (Fin n) (Fin n) K} {c : VCont K} {p q : Fin n → K} (hm : σ.Square m cm cb B) (hb : σ.Vector b p)
    (hx : σ.v x = some c) (hn : c.n = n) (hB : ∀ i, B i i ≠ 0) (hq : (unitLower B * upper B).mulVec q = p) :
    (mLuSolve true s m x b).Does s σ (σ.setV x (some (.of ⟨n, q⟩))) := by
  obtain ⟨cM, hc, rfl, rfl, hv⟩ := hm
  obtain ⟨d, d1, d2, d3, d4, d5, d6, d7⟩ := H.obj hc hv
  obtain ⟨vb, w1, w2, w3⟩ := H.vobj hb
  obtain ⟨vx, x1, x2, -⟩ := H.vec hx
  obtain ⟨a1, a2, a3, a4⟩ := H.inv.vec_alloc x1
  obtain ⟨s', q', e1, e2, -, T, -, e3⟩ := (mlusolve_spec d1 x1 w1 B d7 p w3 (x2.trans hn) (Owned.ready a4 a3)
    (H.inv.mdisjV x1 m d d1)).1 hB
  obtain rfl := e3 q hq
  exact .okV H x1 e1 T (.of_rep e2)

theorem mPivotResult_does {s : State K} {σ : Store K} (H : Holds s σ) {m t u : Nat} {c : MCont K} {q : MVal K}
    {d : MObj} (hc : σ.m m = some c) (hv : c.val? = some q) (h1 : d.colMajor = c.colMajor)
    (h2 : d.colBasis = c.colBasis) (ht : σ.m t = none) (hu : σ.m u = none) (htu : t ≠ u) :
    (mPivotResult true s d m t u).Does s σ (σ.setM t (some (.of c.colMajor c.colBasis q))) := by
  unfold mPivotResult
  rw [h1, h2]
  refine (mCopyVar_does H hc hv hu c.colMajor c.colBasis).bind fun s₁ H₁ => ?_
  have hu1 : (σ.setM u (some (.of c.colMajor c.colBasis q))).m u = some (.of c.colMajor c.colBasis q) := by
    simp [Store.setM]
  have ht1 : (σ.setM u (some (.of c.colMajor c.colBasis q))).m t = none := by simp [Store.setM, htu, ht]
  have := (mCopyVar_does H₁ hu1 (MCont.val?_of _ _ _) ht1 c.colMajor c.colBasis).scoped (u := u) hu1
    (c₂ := .of c.colMajor c.colBasis q) (by simp [Store.setM, htu.symm])
  rwa [Store.setM_same, Store.setM_none hu, Store.setM_comm htu, Store.setM_same, Store.setM_none hu] at this

theorem does_mPivotSolve {eps : K} {s : State K} {σ : Store K} (H : Holds s σ) {m x b t u n : Nat} {cm cb : Bool}
    {A : Matrix (Fin n) (Fin n) K} {c : VCont K} {p q : Fin n → K} (hm : σ.Square m cm cb A) (hb : σ.Vector b p)
    (hx : σ.v x = some c) (hn : c.n = n) (h0 : A.det ≠ 0) (hp : PivotOk eps A) (hq : A.mulVec q = p)
    (ht : σ.m t = none) (hu : σ.m u = none) (htu : t ≠ u) :
    (mPivotSolve true eps s m x b t u).Does s σ (σ.setV x (some (.of ⟨n, q⟩))) := by
  obtain ⟨cM, hc, rfl, rfl, hv⟩ := hm
  obtain ⟨d, d1, d2, d3, d4, d5, d6, d7⟩ := H.obj hc hv
  simp only at d4 d5
  obtain ⟨r, hr, hs0⟩ := hp
  have hst : mPivotSolve true eps s m x b t u = (mPivotResult true s d m t u).andThen fun s =>
        Out.scoped true t (.withVal (mLuPivot true eps s t) s fun r => mLuPivotSolve true r.1 t r.2.1 r.2.2 x b) := by
    simp [mPivotSolve, State.mobj, d1, memCheckSquare, Res.require, d4, d5]
  rw [hst]
  refine (mPivotResult_does H hc hv d2 d3 ht hu htu).bind fun s₁ H₁ => ?_
  obtain ⟨c', hc', k1, k2, hv'⟩ := σ.square_set t n cM.colMajor cM.colBasis A
  obtain ⟨d', f1, f2, f3, f4, f5, f6, f7⟩ := H₁.obj hc' hv'
  have hA := Mat.of_is A
  obtain ⟨s₂, e1, e2, T⟩ := (mlupivot_mem (triv := true) eps f1 (Mat.of A) ((rep_is hA).2 f7)).1 r
    (by rw [f6]; exact hr)
  have H₂ := H₁.touchM f1 T (.of_rep' e2 ((congrFun T.mat t).trans f1) (f2.trans k1) (f3.trans k2))
  rw [Store.setM_same] at H₂
  have f1' : s₂.mat t = some d' := (congrFun T.mat t).trans f1
  obtain ⟨vb, w1, w2, w3⟩ := H₂.vobj (b := b) (p := p) hb
  obtain ⟨vx, x1, x2, -⟩ := H₂.vec (x := x) (c := c) hx
  obtain ⟨a1, a2, a3, a4⟩ := H₂.inv.vec_alloc x1
  obtain ⟨s₃, q', g1, g2, -, T', -, g3⟩ := (mlupivotsolve_spec f1' x1 w1 A hr hs0 e2 p w3 (x2.trans hn)
    (Owned.ready a4 a3) (H₂.inv.mdisjV x1 t d' f1')).1 h0
  obtain rfl := g3 q hq
  have H₃ := H₂.touchV x1 T' (.of_rep g2)
  have hdo : (Out.withVal (mLuPivot true eps s₁ t) s₁ fun r => mLuPivotSolve true r.1 t r.2.1 r.2.2 x b).Does s₁
      (σ.setM t (some (.of cM.colMajor cM.colBasis ⟨n, n, A⟩))) _ :=
    Or.inl ⟨s₃, by rw [e1, Out.withVal_ok, g1], T'.fail.trans T.fail, H₃⟩
  have := hdo.scoped (u := t) hc' (c₂ := .of cM.colMajor cM.colBasis r.lu.val) (by simp [Store.setM, Store.setV])
  rwa [Store.setM_same, Store.setM_none ht, Store.setV_setM, Store.setM_same, Store.setM_none ht] at this

/-- The determinant as part of an expression. -/
theorem mDeterminant_does {eps : K} {s : State K} {σ : Store K} (H : Holds s σ) {m t n : Nat} {cm cb : Bool}
    {A : Matrix (Fin n) (Fin n) K} (hm : σ.Square m cm cb A) (h1 : 1 ≤ n) (h4 : n ≤ 4 ∨ PivotOk eps A)
    (ht : σ.m t = none) :
    (∃ s', mDeterminant true eps s m t = .ok (s', A.det) ∧ s'.heap.fail = s.heap.fail ∧ Holds s' σ) ∨
    ((∃ k, s.heap.fail k = true) ∧ mDeterminant true eps s m t = .throw .badAlloc) := by
  obtain ⟨cM, hc, rfl, rfl, hv⟩ := hm
  obtain ⟨d, d1, d2, d3, d4, d5, d6, d7⟩ := H.obj hc hv
  simp only at d4 d5
  have hA := Mat.of_is A
  have hval : determinant false eps (Mat.of A) = .ok A.det := by
    obtain ⟨k, rfl⟩ : ∃ k, n = k + 1 := ⟨n - 1, by omega⟩
    obtain ⟨p1, p2, -⟩ := determinant_partial false eps (Mat.of A) k A hA
    rcases h4 with h4 | ⟨r, hr, hs⟩
    · exact p1 (by omega)
    · exact p2 r hr hs
  have I := inMem_of d1 ((rep_is hA).2 d7)
  obtain ⟨k, hk⟩ : ∃ k, k = n := ⟨_, rfl⟩
  have hv' : (match (generalizing := false) k with
      | 2 => det2 (Mat.of A)
      | 3 => det3 (Mat.of A)
      | 4 => det4 (Mat.of A)
      | _ => detLu eps (Mat.of A)) = .ok A.det := by
    simp only [determinant, checkSquare, Res.require, decide_true, if_true, Res.ok_bind, hA.rows, hA.cols] at hval
    rw [hk]
    exact hval
  have hst : mDeterminant true eps s m t = (match (generalizing := false) k with
      | 2 => do let v ← memDet2 d s.heap; pure (s, v)
      | 3 => do let v ← memDet3 d s.heap; pure (s, v)
      | 4 => do let v ← memDet4 d s.heap; pure (s, v)
      | _ => do
        let s ← (mCopyNew true d.colMajor d.colBasis s t (.var m)).res
        let a ← s.mobj t
        let r ← memDetLu true eps a s.heap
        let s ← (mDestroy true { s with heap := r.1 } t).res
        pure (s, r.2)) := by
    simp only [mDeterminant, State.mobj, d1, Res.ok_bind, memCheckSquare, d4, d5, Res.require, decide_true, if_true, hk]
    rfl
  have small : ∀ {m : Res K} {w : Res K}, Sim Eq m w → w = .ok A.det →
      (do let v ← m; pure (s, v) : Res (State K × K)) = .ok (s, A.det) := by
    intro m w hs hw
    rw [hw] at hs
    cases m <;> simp only [Sim] at hs
    subst hs
    rfl
  have big : detLu eps (Mat.of A) = .ok A.det →
      (∃ s', (do
        let s ← (mCopyNew true d.colMajor d.colBasis s t (.var m)).res
        let a ← s.mobj t
        let r ← memDetLu true eps a s.heap
        let s ← (mDestroy true { s with heap := r.1 } t).res
        pure (s, r.2) : Res (State K × K)) = .ok (s', A.det) ∧ s'.heap.fail = s.heap.fail ∧ Holds s' σ) ∨
      ((∃ k, s.heap.fail k = true) ∧ (do
        let s ← (mCopyNew true d.colMajor d.colBasis s t (.var m)).res
        let a ← s.mobj t
        let r ← memDetLu true eps a s.heap
        let s ← (mDestroy true { s with heap := r.1 } t).res
        pure (s, r.2) : Res (State K × K)) = .throw .badAlloc) := by
    intro hb
    rw [d2, d3]
    rcases mCopyVar_does H hc hv ht cM.colMajor cM.colBasis with ⟨s₁, e1, hf1, H₁⟩ | ⟨hal, s₁, e1, -, -⟩
    · left
      obtain ⟨c', hc', k1, k2, hv'⟩ := σ.square_set t n cM.colMajor cM.colBasis A
      obtain ⟨d', f1, f2, f3, f4, f5, f6, f7⟩ := H₁.obj hc' hv'
      have I₁ := inMem_of f1 ((rep_is hA).2 f7)
      have key := I₁.detLu (triv := true) eps
      rw [hb] at key
      cases hr : memDetLu true eps d' s₁.heap with
      | throw e => rw [hr] at key; exact key.elim
      | ub u => rw [hr] at key; exact key.elim
      | ok r =>
        rw [hr] at key
        obtain ⟨hr2, M', HM⟩ := key
        obtain ⟨R, T⟩ := rep_of f1 HM
        have H₂ := H₁.touchM f1 T (.of_rep' R f1 (f2.trans k1) (f3.trans k2))
        rw [Store.setM_same] at H₂
        obtain ⟨s₃, e3, hf3, H₃⟩ := mDestroy_does H₂ (x := t) (c := .of cM.colMajor cM.colBasis M'.val)
          (by simp [Store.setM])
        rw [Store.setM_same, Store.setM_none ht] at H₃
        refine ⟨s₃, ?_, hf3.trans (T.fail.trans hf1), H₃⟩
        simp [e1, Out.res, State.mobj, f1, hr, e3, hr2]
    · right
      refine ⟨hal, ?_⟩
      simp [e1, Out.res]
  rw [hst]
  clear hk
  match k, hv' with
  | 2, hv' => exact Or.inl ⟨s, small I.det2 hv', rfl, H⟩
  | 3, hv' => exact Or.inl ⟨s, small I.det3 hv', rfl, H⟩
  | 4, hv' => exact Or.inl ⟨s, small I.det4 hv', rfl, H⟩
  | 0, hv' => exact big hv'
  | 1, hv' => exact big hv'
  | k + 5, hv' => exact big hv'

theorem does_vPutDet {eps : K} {s : State K} {σ : Store K} (H : Holds s σ) {x i m t n : Nat} {cm cb : Bool}
    {A : Matrix (Fin n) (Fin n) K} {c : VCont K} (hi : i < c.n) (hx : σ.v x = some c) (hm : σ.Square m cm cb A)
    (h1 : 1 ≤ n) (h4 : n ≤ 4 ∨ PivotOk eps A) (ht : σ.m t = none) :
    (vPutDet true eps s x i m t).Does s σ
      (σ.setV x (some ⟨c.n, Function.update c.f ⟨i, hi⟩ (some A.det)⟩)) := by
  unfold vPutDet
  rcases mDeterminant_does H hm h1 h4 ht with ⟨s', e, hf, H'⟩ | ⟨hal, e⟩
  · rw [e, Out.withVal_ok]
    have hq := vPut_quiet true s' s' (.refl s') x i A.det
    rcases (does_vPut H' (e := A.det) hi hx).out with ⟨s'', e', hf', H''⟩ | ⟨-, s'', e', -⟩
    · exact Or.inl ⟨s'', e', hf'.trans hf, H''⟩
    · have e' : vPut true s' x i A.det = .throw .badAlloc s'' := e'
      rw [e'] at hq
      exact hq.elim
  · exact Or.inr ⟨hal, s, by rw [e]; rfl, rfl, H⟩

end

end CML
