import Verif.Lemmas.LinProgramReject
import Verif.Lemmas.VecRead

/-!
C118: programs that also use the linear algebra (element-wise mutators, `transpose`, `inverse`, `lu`, `lu_pivot`,
`lu_solve`, `determinant`) compute what the mathematics says.
-/

namespace CML

set_option linter.unusedSectionVars false

variable {K : Type} [Field K] [LinearOrder K] [IsStrictOrderedRing K]

/-- Every statement used as documented does exactly what it means, to the variable it names and to no other
(temporaries are gone and their memory is released); the only alternative is that there is no memory for it,
and then nothing has changed. -/
theorem stmt_refines {eps : K} {s : State K} {σ σ' : Store K} (H : Holds s σ) {c : Stmt K} (h : c.Means eps σ σ') :
    (∃ s', c.run eps s = .ok s' ∧ s'.heap.fail = s.heap.fail ∧ Holds s' σ') ∨
    ((∃ k, s.heap.fail k = true) ∧ ∃ s', c.run eps s = .throw .badAlloc s' ∧ s'.heap.fail = s.heap.fail ∧
      Holds s' σ) := by
  show (c.run eps s).Does s σ σ'
  cases h with
  | op h => exact (h.does H).out
  | vZero hx => exact does_vZero H hx
  | vCardinal hi hx => exact does_vCardinal H hi hx
  | vExtremize hx he ha =>
    obtain ⟨c, hc, hv⟩ := hx
    exact does_vExtremize H hc hv he ha
  | mZero hx => exact does_mZero H hx
  | mIdentity hx => exact does_mIdentity H hx
  | mSetRow hi hx he hl => exact does_mSetRow H hi hx he hl
  | mSetCol hj hx he hl => exact does_mSetCol H hj hx he hl
  | mTranspose hx hq ht => exact does_mTranspose H hx hq ht
  | mInverse hx h1 h4 h0 => exact does_mInverse H hx h1 h4 h0
  | mInverseNew hx h1 h4 h0 ht => exact does_mInverseNew H hx h1 h4 h0 ht
  | mLuNew hx hl hB ht => exact does_mLuNew H hx hl hB ht
  | mLuSolve hm hb hx hn hB hq => exact does_mLuSolve H hm hb hx hn hB hq
  | mPivotSolve hm hb hx hn h0 hp hq ht hu htu => exact does_mPivotSolve H hm hb hx hn h0 hp hq ht hu htu
  | vPutDet hi hx hm h1 h4 ht => exact does_vPutDet H hi hx hm h1 h4 ht

/-- Matrices that have to be square but are not, operands whose sizes do not fit and systems without a usable
decomposition are rejected with an exception that tells so, and nothing has changed. -/
theorem stmt_rejected {eps : K} {s : State K} {σ : Store K} (H : Holds s σ) {c : Stmt K} (h : c.Rejected eps σ) :
    ∃ er s', c.run eps s = .throw er s' ∧ Holds s' σ ∧
      (er.Reason ∨ er = .badAlloc ∧ ∃ k, s.heap.fail k = true) := by
  have bad : ∀ {er : Err} {e : VExpr K}, (er.IsSize ∨ er = .invalidArgument ∧ e.NegLine) → er.Reason := by
    rintro er e (h | ⟨h, -⟩)
    · exact Or.inl h
    · exact Or.inr (Or.inl h)
  cases h with
  | op h =>
    obtain ⟨er, s', e1, e2, H'⟩ := op_rejected H h
    exact ⟨er, s', e1, H', Or.inl (by unfold Err.Reason; tauto)⟩
  | vExtremize hb =>
    obtain ⟨er, e1, e2⟩ := hb.build H
    exact ⟨er, s, by simp [Stmt.run, stmtExtremize, e1], H, Or.inl (bad e2)⟩
  | @vExtremizeSize lower x e c p hx he hne =>
    obtain ⟨d, d1, d2, -⟩ := H.vec hx
    obtain ⟨m, b1, b2, b3⟩ := he.build H
    have hsz : (VNode.var x : VNode K).size s = .ok (d.size : Int) := by simp [VNode.size, State.vobj, d1]
    obtain ⟨g, hg⟩ := typed_var_v hsz
    have h6 : ¬ (d.size : Int) = (p.n : Int) := by omega
    refine ⟨.vecIncompatible, s, ?_, H, Or.inl (by simp [Err.Reason, Err.IsSize])⟩
    simp [Stmt.run, stmtExtremize, b1, vExtremize, checkSameSize_eq hg b3 hsz b2.size, h6]
  | mSetRow hb =>
    obtain ⟨er, e1, e2⟩ := hb.build H
    exact ⟨er, s, by simp [Stmt.run, e1], H, Or.inl (bad e2)⟩
  | mSetRowSize hx he hne =>
    obtain ⟨d, d1, d2, d3, d4, d5, -⟩ := H.mat hx
    obtain ⟨m, b1, b2, b3⟩ := he.build H
    refine ⟨.matIncompatible, s, ?_, H, Or.inl (by simp [Err.Reason, Err.IsSize])⟩
    simp only [Stmt.run, b1, Out.withVal_ok, (set_row_col_size d1 b3 b2.size).1 (by omega)]
    simp
  | mSetCol hb =>
    obtain ⟨er, e1, e2⟩ := hb.build H
    exact ⟨er, s, by simp [Stmt.run, e1], H, Or.inl (bad e2)⟩
  | mSetColSize hx he hne =>
    obtain ⟨d, d1, d2, d3, d4, d5, -⟩ := H.mat hx
    obtain ⟨m, b1, b2, b3⟩ := he.build H
    refine ⟨.matIncompatible, s, ?_, H, Or.inl (by simp [Err.Reason, Err.IsSize])⟩
    simp only [Stmt.run, b1, Out.withVal_ok, (set_row_col_size d1 b3 b2.size).2 (by omega)]
    simp
  | mInverse hx hne =>
    obtain ⟨d, d1, d2, d3⟩ := mNonSquare H hx hne
    refine ⟨.nonSquare, s, ?_, H, Or.inl (by simp [Err.Reason])⟩
    simp only [Stmt.run, minverse_not_square d1 d2, d3]
    rfl
  | mInverseNew hx hne =>
    obtain ⟨d, d1, d2, d3⟩ := mNonSquare H hx hne
    refine ⟨.nonSquare, s, ?_, H, Or.inl (by simp [Err.Reason])⟩
    simp [Stmt.run, CML.mInverseNew, State.mobj, d1, memCheckSquare, Res.require, d2, d3]
  | mLuNew hx hne =>
    obtain ⟨d, d1, d2, d3⟩ := mNonSquare H hx hne
    refine ⟨.nonSquare, s, ?_, H, Or.inl (by simp [Err.Reason])⟩
    simp [Stmt.run, CML.mLuNew, State.mobj, d1, memCheckSquare, Res.require, d2, d3]
  | mLuSolve hm hx hb hne =>
    obtain ⟨d, d1, d2, d3, d4, d5, -⟩ := H.mat hm
    obtain ⟨vx, x1, x2, -⟩ := H.vec hx
    obtain ⟨vb, w1, w2, -⟩ := H.vec hb
    have hf := (H.inv.mat_alloc d1).2.1
    obtain ⟨p1, p2, p3⟩ := mlusolve_size_error (triv := true) d1 x1 w1
    by_cases h1 : d.rows = d.cols
    · by_cases h2 : d.cols = vx.size
      · refine ⟨_, s, p3 h1 h2 (fun h3 => hne ⟨by omega, by omega, by omega⟩), H, Or.inl ?_⟩
        simp [Err.Reason, Err.IsSize, hf]
      · exact ⟨_, s, p2 h1 h2, H, Or.inl (by simp [Err.Reason, Err.IsSize, hf])⟩
    · exact ⟨_, s, p1 h1, H, Or.inl (by simp [Err.Reason, hf])⟩
  | mPivotSolve hx hne =>
    obtain ⟨d, d1, d2, d3⟩ := mNonSquare H hx hne
    refine ⟨.nonSquare, s, ?_, H, Or.inl (by simp [Err.Reason])⟩
    simp [Stmt.run, CML.mPivotSolve, State.mobj, d1, memCheckSquare, Res.require, d2, d3]
  | mPivotSolveSize he hm hx hb hne ht hu htu =>
    rename_i A cx cv
    obtain ⟨r, hr⟩ := lu_pivot_total false eps he (Mat.of A) rfl
    obtain ⟨er, s', e1, -, e2, e3⟩ := mPivotSolve_rejected H hm hx hb hr (.inl hne) ht hu htu
    exact ⟨er, s', e1, e2, e3⟩
  | mPivotSolveSingular hm hx hb hg ht hu htu =>
    obtain ⟨r, hr, h0⟩ := hg
    obtain ⟨er, s', e1, -, e2, e3⟩ := mPivotSolve_rejected H hm hx hb hr (.inr h0) ht hu htu
    exact ⟨er, s', e1, e2, e3⟩
  | vPutDet hx hne =>
    obtain ⟨d, d1, d2, d3⟩ := mNonSquare H hx hne
    refine ⟨.nonSquare, s, ?_, H, Or.inl (by simp [Err.Reason])⟩
    simp [Stmt.run, CML.vPutDet, mdeterminant_not_square eps d1 d2, d3]

theorem runStmts_append (eps : K) (s : State K) (l₁ l₂ : List (Stmt K)) :
    runStmts eps s (l₁ ++ l₂) = (runStmts eps s l₁).andThen fun s => runStmts eps s l₂ := by
  induction l₁ generalizing s with
  | nil => rfl
  | cons o l ih =>
    simp only [List.cons_append, runStmts]
    cases o.run eps s with
    | ok s' => simp only [Out.ok_andThen]; exact ih s'
    | throw e s' => rfl
    | ub u => rfl

/-- A program started in a state that represents `σ`: it ends in a state that represents its meaning, or it
stops for lack of memory in a state that represents the meaning of the statements executed so far. -/
theorem lin_program_refines {eps : K} {s : State K} {σ σ' : Store K} (H : Holds s σ) {l : List (Stmt K)}
    (h : SMeans eps σ l σ') :
    (∃ s', runStmts eps s l = .ok s' ∧ Holds s' σ') ∨
    (∃ l₁ l₂ σ₁ s', l = l₁ ++ l₂ ∧ SMeans eps σ l₁ σ₁ ∧ (∃ k, s.heap.fail k = true) ∧
      runStmts eps s l = .throw .badAlloc s' ∧ Holds s' σ₁) := by
  induction h generalizing s with
  | nil σ => exact Or.inl ⟨s, rfl, H⟩
  | @cons σ σ₁ σ₂ o l h1 h2 ih =>
    rcases stmt_refines H h1 with ⟨s1, e1, hf, H1⟩ | ⟨hal, s1, e1, -, H1⟩
    · rcases ih H1 with ⟨s2, e2, H2⟩ | ⟨l₁, l₂, σ₃, s2, rfl, m, ⟨k, hk⟩, e2, H2⟩
      · exact Or.inl ⟨s2, by simp only [runStmts, e1, Out.ok_andThen, e2], H2⟩
      · exact Or.inr ⟨o :: l₁, l₂, σ₃, s2, rfl, .cons h1 m, ⟨k, by rw [← hf]; exact hk⟩,
          by simp only [runStmts, e1, Out.ok_andThen, e2], H2⟩
    · exact Or.inr ⟨[], o :: l, σ, s1, rfl, .nil σ, hal, by simp only [runStmts, e1]; rfl, H1⟩

/-- If no allocation fails, the program computes its meaning. -/
theorem lin_program_completes {eps : K} {fail : Nat → Bool} (hf : ∀ k, fail k = false) {l : List (Stmt K)}
    {σ : Store K} (h : SMeans eps .empty l σ) :
    ∃ s, runStmts eps (State.start fail) l = .ok s ∧ s.heap.fail = fail ∧ Holds s σ := by
  have key : ∀ {s : State K} {σ σ' : Store K} {l : List (Stmt K)}, SMeans eps σ l σ' → s.heap.fail = fail →
      Holds s σ → ∃ s', runStmts eps s l = .ok s' ∧ s'.heap.fail = fail ∧ Holds s' σ' := by
    intro s σ σ' l h
    induction h generalizing s with
    | nil σ => exact fun h H => ⟨s, rfl, h, H⟩
    | @cons σ σ₁ σ₂ o l h1 h2 ih =>
      intro hs H
      rcases stmt_refines H h1 with ⟨s1, e1, hf1, H1⟩ | ⟨⟨k, hk⟩, -⟩
      · obtain ⟨s2, e2, hf2, H2⟩ := ih (hf1.trans hs) H1
        exact ⟨s2, by simp only [runStmts, e1, Out.ok_andThen, e2], hf2, H2⟩
      · rw [hs, hf] at hk
        cases hk
  exact key h rfl (start_holds fail)

/-- A statement that has to be rejected stops the program with the exception; the variables are as the
statements before have left them. -/
theorem lin_program_rejects {eps : K} {fail : Nat → Bool} (hf : ∀ k, fail k = false) {l l' : List (Stmt K)}
    {σ : Store K} (h : SMeans eps .empty l σ) {c : Stmt K} (hr : c.Rejected eps σ) :
    ∃ e s, runStmts eps (State.start fail) (l ++ c :: l') = .throw e s ∧ e.Reason ∧ Holds s σ := by
  obtain ⟨s1, e1, hf1, H1⟩ := lin_program_completes hf h
  obtain ⟨e, s2, e2, H2, he⟩ := stmt_rejected H1 hr
  refine ⟨e, s2, ?_, ?_, H2⟩
  · rw [runStmts_append, e1, Out.ok_andThen, runStmts, e2]
    rfl
  · rcases he with he | ⟨-, k, hk⟩
    · exact he
    · rw [hf1, hf] at hk
      cases hk

/-- When all variables are gone, all memory has been released (also that of the temporaries). -/
theorem lin_program_releases {eps : K} {fail : Nat → Bool} {l : List (Stmt K)} {σ : Store K}
    (h : SMeans eps .empty l σ) (hv : ∀ x, σ.v x = none) (hm : ∀ x, σ.m x = none) {s : State K}
    (hr : runStmts eps (State.start fail) l = .ok s) : ∀ b, s.heap.blk b = none := by
  rcases lin_program_refines (start_holds fail) h with ⟨s', e, H⟩ | ⟨-, -, -, s', -, -, -, e, -⟩
  · rw [hr] at e
    cases e
    intro b
    cases hb : s.heap.blk b with
    | none => rfl
    | some c =>
      obtain ⟨k, v, hk, -⟩ := H.inv.noLeak b c hb
      cases k with
      | inl x => have := H.vnone (hv x); simp [State.owner, this] at hk
      | inr x => have := H.mnone (hm x); simp [State.owner, this] at hk
  · rw [hr] at e
    cases e

/-! ### The meaning is unique -/

theorem Store.Square.unique {σ : Store K} {x : Nat} {cm cb cm' cb' : Bool} {n n' : Nat}
    {A : Matrix (Fin n) (Fin n) K} {A' : Matrix (Fin n') (Fin n') K} (h : σ.Square x cm cb A)
    (h' : σ.Square x cm' cb' A') : cm = cm' ∧ cb = cb' ∧ (⟨n, n, A⟩ : MVal K) = ⟨n', n', A'⟩ := by
  obtain ⟨c, h1, h2, h3, h4⟩ := h
  obtain ⟨c', h1', h2', h3', h4'⟩ := h'
  obtain rfl := Option.some.inj (h1.symm.trans h1')
  exact ⟨h2.symm.trans h2', h3.symm.trans h3', Option.some.inj (h4.symm.trans h4')⟩

theorem Store.Vector.unique {σ : Store K} {x n n' : Nat} {p : Fin n → K} {p' : Fin n' → K} (h : σ.Vector x p)
    (h' : σ.Vector x p') : (⟨n, p⟩ : VVal K) = ⟨n', p'⟩ := by
  obtain ⟨c, h1, h2⟩ := h
  obtain ⟨c', h1', h2'⟩ := h'
  obtain rfl := Option.some.inj (h1.symm.trans h1')
  exact Option.some.inj (h2.symm.trans h2')

/-- Solutions with an invertible matrix are unique. -/
theorem mulVec_unique {n : Nat} {A : Matrix (Fin n) (Fin n) K} (h : A.det ≠ 0) {p q q' : Fin n → K}
    (h1 : A.mulVec q = p) (h2 : A.mulVec q' = p) : q = q' := by
  have hu : IsUnit A.det := isUnit_iff_ne_zero.mpr h
  have : ∀ q, A⁻¹.mulVec (A.mulVec q) = q := fun q => by
    rw [Matrix.mulVec_mulVec, Matrix.nonsing_inv_mul _ hu, Matrix.one_mulVec]
  rw [← this q, ← this q', h1, h2]

theorem det_packed {n : Nat} (B : Matrix (Fin n) (Fin n) K) : (unitLower B * upper B).det = ∏ i, B i i := by
  rw [Matrix.det_mul, Matrix.det_of_lowerTriangular _ (fun i j hij => by
      have : i < j := hij
      simp [unitLower, this.ne, this.not_gt]),
    Matrix.det_of_upperTriangular (fun i j hij => by
      have : j < i := hij
      simp [upper, this])]
  simp [unitLower, upper]

/-- The meaning of a statement is unique. -/
theorem Stmt.Means.unique {eps : K} {σ σ₁ σ₂ : Store K} {c : Stmt K} (h₁ : c.Means eps σ σ₁)
    (h₂ : c.Means eps σ σ₂) : σ₁ = σ₂ := by
  cases h₁ with
  | op h => cases h₂ with | op h' => exact h.unique h'
  | vZero h => cases h₂ with | vZero h' => obtain rfl := Option.some.inj (h.symm.trans h'); rfl
  | vCardinal _ h => cases h₂ with | vCardinal _ h' => obtain rfl := Option.some.inj (h.symm.trans h'); rfl
  | vExtremize h g =>
    cases h₂ with
    | vExtremize h' g' =>
      cases h.unique h'
      cases Option.some.inj (g.2.2.symm.trans g'.2.2)
      rfl
  | mZero h => cases h₂ with | mZero h' => obtain rfl := Option.some.inj (h.symm.trans h'); rfl
  | mIdentity h => cases h₂ with | mIdentity h' => obtain rfl := Option.some.inj (h.symm.trans h'); rfl
  | mSetRow _ h g =>
    cases h₂ with
    | mSetRow _ h' g' =>
      obtain rfl := Option.some.inj (h.symm.trans h')
      cases Option.some.inj (g.2.2.symm.trans g'.2.2)
      rfl
  | mSetCol _ h g =>
    cases h₂ with
    | mSetCol _ h' g' =>
      obtain rfl := Option.some.inj (h.symm.trans h')
      cases Option.some.inj (g.2.2.symm.trans g'.2.2)
      rfl
  | mTranspose h g =>
    cases h₂ with
    | mTranspose h' g' =>
      obtain rfl := Option.some.inj (h.symm.trans h')
      cases Option.some.inj (g.symm.trans g')
      rfl
  | mInverse h =>
    cases h₂ with
    | mInverse h' =>
      obtain ⟨rfl, rfl, e⟩ := h.unique h'
      cases e
      rfl
  | mInverseNew h =>
    cases h₂ with
    | mInverseNew h' =>
      obtain ⟨rfl, rfl, e⟩ := h.unique h'
      cases e
      rfl
  | mLuNew h hl hB =>
    cases h₂ with
    | mLuNew h' hl' hB' =>
      obtain ⟨rfl, rfl, e⟩ := h.unique h'
      cases e
      rw [packed_unique hl hB hB']
  | mLuSolve hm hb hx hn hd hq =>
    cases h₂ with
    | mLuSolve hm' hb' hx' hn' hd' hq' =>
      obtain ⟨rfl, rfl, e⟩ := hm.unique hm'
      cases e
      cases hb.unique hb'
      rw [mulVec_unique (by rw [det_packed]; exact Finset.prod_ne_zero_iff.mpr fun i _ => hd i) hq hq']
  | mPivotSolve hm hb hx hn h0 hp hq =>
    cases h₂ with
    | mPivotSolve hm' hb' hx' hn' h0' hp' hq' =>
      obtain ⟨rfl, rfl, e⟩ := hm.unique hm'
      cases e
      cases hb.unique hb'
      rw [mulVec_unique h0 hq hq']
  | vPutDet _ hx hm =>
    cases h₂ with
    | vPutDet _ hx' hm' =>
      obtain ⟨rfl, rfl, e⟩ := hm.unique hm'
      cases e
      obtain rfl := Option.some.inj (hx.symm.trans hx')
      rfl

theorem SMeans.unique {eps : K} {σ σ₁ σ₂ : Store K} {l : List (Stmt K)} (h₁ : SMeans eps σ l σ₁)
    (h₂ : SMeans eps σ l σ₂) : σ₁ = σ₂ := by
  induction h₁ with
  | nil => cases h₂; rfl
  | cons a b ih =>
    cases h₂ with
    | cons a' b' =>
      have := a.unique a'
      subst this
      exact ih b'

/-! ### Programs for the usual tasks -/

/-- `auto t = lu(m); lu_solve(t, x, b);`, then `t` goes out of scope: `x` is the solution of `m x = b`, and no other
variable has changed. -/
theorem solve_program {eps : K} {σ : Store K} {m x b t n : Nat} {cm cb : Bool} {A : Matrix (Fin n) (Fin n) K}
    {c : VCont K} {p q : Fin n → K} (hm : σ.Square m cm cb A) (hb : σ.Vector b p) (hx : σ.v x = some c)
    (hn : c.n = n) (ht : σ.m t = none) (hl : ∀ k (hk : k ≤ n), (leading A k hk).det ≠ 0) (hq : A.mulVec q = p) :
    SMeans eps σ [.mLuNew m t, .mLuSolve t x b, .op (.mDestroy t)] (σ.setV x (some (.of ⟨n, q⟩))) := by
  have hl' : ∀ k (hk : k < n), (leading A k hk.le).det ≠ 0 := fun k hk => hl k hk.le
  obtain ⟨M', g1⟩ := (lu_ok_iff false (Mat.of A) n A (Mat.of_is A)).1.2 hl'
  obtain ⟨B, -, g2, g3⟩ := lu_factors false (Mat.of A) M' n A (Mat.of_is A) g1
  have hdet : A.det ≠ 0 := hl n le_rfl
  have hd : ∀ i, B i i ≠ 0 := fun i => by
    rw [g3] at hdet
    exact Finset.prod_ne_zero_iff.mp hdet i (Finset.mem_univ i)
  have e : σ.setV x (some (.of ⟨n, q⟩)) = ((σ.setM t (some (.of cm cb ⟨n, n, B⟩))).setV x (some (.of ⟨n, q⟩))).setM t none := by
    rw [Store.setV_setM, Store.setM_same, Store.setM_none ht]
  rw [e]
  refine .cons (.mLuNew hm hl' g2 ht) (.cons (.mLuSolve (σ.square_set t n cm cb B) hb hx hn hd (by rw [g2, hq]))
    (.cons (.op (.mDestroy (c := .of cm cb ⟨n, n, B⟩) ?_)) (.nil _)))
  simp [Store.setM, Store.setV]

/-- `auto t = inverse(m); auto z = m*t;`: `z` is the identity matrix (for 1 ≤ n ≤ 4). -/
theorem inverse_program {eps : K} {σ : Store K} {m t z n : Nat} {cm cb zm zb : Bool} {A : Matrix (Fin n) (Fin n) K}
    (hm : σ.Square m cm cb A) (h1 : 1 ≤ n) (h4 : n ≤ 4) (h0 : A.det ≠ 0) (ht : σ.m t = none) (hz : σ.m z = none)
    (htz : t ≠ z) :
    SMeans eps σ [.mInverseNew m t, .op (.mCopyNew zm zb z (.mul (.var m) (.var t)))]
      ((σ.setM t (some (.of cm cb ⟨n, n, (A⁻¹ : Matrix (Fin n) (Fin n) K)⟩))).setM z
        (some (.of zm zb ⟨n, n, (1 : Matrix (Fin n) (Fin n) K)⟩))) := by
  refine .cons (.mInverseNew hm h1 h4 h0 ht) (.cons (.op (.mCopyNew ?_ ?_)) (.nil _))
  · simp [Store.setM, htz.symm, hz]
  · obtain ⟨c, hc, -, -, hv⟩ := hm
    have hne : m ≠ t := by rintro rfl; rw [hc] at ht; cases ht
    have e1 : (MExpr.var m : MExpr K).den (σ.setM t (some (.of cm cb ⟨n, n, (A⁻¹ : Matrix (Fin n) (Fin n) K)⟩))).env =
        some ⟨n, n, A⟩ := by simp [MExpr.den, Store.env, Store.setM, hne, hc, hv]
    have e2 : (MExpr.var t : MExpr K).den (σ.setM t (some (.of cm cb ⟨n, n, (A⁻¹ : Matrix (Fin n) (Fin n) K)⟩))).env =
        some ⟨n, n, (A⁻¹ : Matrix (Fin n) (Fin n) K)⟩ := by
      simp [MExpr.den, Store.env, Store.setM, MCont.val?_of]
    refine ⟨⟨trivial, trivial⟩, ⟨?_, ?_, fun p hp => ?_⟩, ?_⟩
    · simp [MExpr.Pre, Store.env, Store.setM, hne, hc, hv]
    · simp [MExpr.Pre, Store.env, Store.setM, MCont.val?_of]
    · rw [e1] at hp
      cases hp
      exact h1
    · have hn : 0 < n := h1
      simp only [MExpr.den] at e1 e2
      simp only [MExpr.den, e1, e2, hn, and_self, dif_pos]
      have : (1 : Matrix (Fin n) (Fin n) K) = A * A⁻¹ := (Matrix.mul_nonsing_inv _ (isUnit_iff_ne_zero.mpr h0)).symm
      rw [this]
      congr 2
      funext i j
      rw [Matrix.mul_apply, dotLeft_eq_sum]
      rfl

/-- `m.transpose(); m.transpose();` leaves every variable as it was. -/
theorem transpose_program {eps : K} {σ : Store K} {m t : Nat} {cm cb : Bool} {q : MVal K}
    (hm : σ.m m = some (.of cm cb q)) (ht : σ.m t = none) :
    SMeans eps σ [.mTranspose m t, .mTranspose m t] σ := by
  have hne : t ≠ m := by rintro rfl; rw [hm] at ht; cases ht
  have e : σ = (σ.setM m (some (.of cm cb ⟨q.c, q.r, fun i j => q.f j i⟩))).setM m (some (.of cm cb ⟨q.r, q.c, fun i j => q.f i j⟩)) := by
    rw [Store.setM_same]
    unfold Store.setM
    cases σ
    congr 1
    funext y
    by_cases hy : y = m
    · subst hy; simpa using hm
    · simp [hy]
  conv => arg 4; rw [e]
  exact .cons (.mTranspose hm (MCont.val?_of _ _ _) ht) (.cons (.mTranspose (c := .of cm cb ⟨q.c, q.r, fun i j => q.f j i⟩)
    (by simp [Store.setM, MCont.of]) (MCont.val?_of _ _ _) (by simp [Store.setM, hne, ht])) (.nil _))

theorem SMeans.append {eps : K} {σ σ₁ σ₂ : Store K} {l l' : List (Stmt K)} (h : SMeans eps σ l σ₁)
    (h' : SMeans eps σ₁ l' σ₂) : SMeans eps σ (l ++ l') σ₂ := by
  induction h with
  | nil => exact h'
  | cons a _ ih => exact .cons a (ih h')

/-! ### Examples -/

/-- `matrix m(2,2); m = {a,b,c,d}; vector v(2); v = {5,3}; vector x(2);` -/
def exLinStart (a b c d : ℚ) : List (Stmt ℚ) :=
  [.op (.mNew false false 0 2 2), .op (.mList .array 0 [a, b, c, d]), .op (.vNew 0 2), .op (.vList false 0 [5, 3]),
   .op (.vNew 1 2)]

/-- The meaning of `exLinStart`. -/
theorem exLinStart_means (eps a b c d : ℚ) : ∃ σ, SMeans eps .empty (exLinStart a b c d) σ ∧
    σ.Square 0 false false !![a, b; c, d] ∧ σ.v 0 = some (.of ⟨2, ![5, 3]⟩) ∧ σ.v 1 = some ⟨2, fun _ => none⟩ ∧
    ∀ t, t ≠ 0 → σ.m t = none := by
  refine ⟨_, .cons (.op (.mNew rfl)) (.cons (.op (.mList (c := ⟨false, false, 2, 2, fun _ _ => none⟩) rfl rfl))
    (.cons (.op (.vNew rfl)) (.cons (.op (.vList rfl)) (.cons (.op (.vNew rfl)) (.nil _))))), ?_, ?_, rfl, fun t ht => ?_⟩
  · refine ⟨_, rfl, rfl, rfl, ?_⟩
    rw [MCont.val?_of]
    congr 2
    funext i j
    fin_cases i <;> fin_cases j <;> rfl
  · refine congrArg (fun f => some (VCont.of (⟨2, f⟩ : VVal ℚ))) ?_
    funext i
    fin_cases i <;> rfl
  · simp [Store.setM, Store.setV, Store.empty, ht]

/-- Example for C118: `lu_solve(lu_pivot(m), x, v);` for a matrix that needs an exchange of rows. -/
example : ∃ σ, SMeans (1 / 1000) .empty (exLinStart 0 1 2 0 ++ [.mPivotSolve 0 1 0 1 2]) σ ∧
    σ.v 1 = some (.of ⟨2, ![3 / 2, 5]⟩) := by
  obtain ⟨σ, h, h1, h2, h3, h4⟩ := exLinStart_means (1 / 1000) 0 1 2 0
  have hp : PivotOk (1 / 1000) (!![0, 1; 2, 0] : Matrix (Fin 2) (Fin 2) ℚ) := by
    have h : (luPivot false (1 / 1000) (Mat.of (!![0, 1; 2, 0] : Matrix (Fin 2) (Fin 2) ℚ))).bind (fun r => .ok r.sign) =
        .ok (-1) := by decide +kernel
    revert h
    unfold PivotOk
    cases luPivot false (1 / 1000) (Mat.of (!![0, 1; 2, 0] : Matrix (Fin 2) (Fin 2) ℚ)) <;> simp [Res.bind]
    rintro h; omega
  refine ⟨_, h.append (.cons (.mPivotSolve h1 ⟨_, h2, VCont.val?_of _⟩ h3 rfl (by rw [Matrix.det_fin_two]; simp) hp (q := ![3 / 2, 5]) ?_
    (h4 1 (by decide)) (h4 2 (by decide)) (by decide)) (.nil _)), by simp [Store.setV]⟩
  funext i
  fin_cases i <;> simp [Matrix.mulVec, dotProduct, Fin.sum_univ_two]
  norm_num

/-- Example for C118: with a singular matrix the same statement is rejected. -/
example : ∃ σ, SMeans (1 / 1000) .empty (exLinStart 0 1 0 0) σ ∧
    (Stmt.mPivotSolve 0 1 0 1 2).Rejected (1 / 1000) σ := by
  obtain ⟨σ, h, h1, h2, h3, h4⟩ := exLinStart_means (1 / 1000) 0 1 0 0
  refine ⟨σ, h, .mPivotSolveSingular h1 h3 h2 ?_ (h4 1 (by decide)) (h4 2 (by decide)) (by decide)⟩
  have h : (luPivot false (1 / 1000) (Mat.of (!![0, 1; 0, 0] : Matrix (Fin 2) (Fin 2) ℚ))).bind (fun r => .ok r.sign) =
      .ok 0 := by decide +kernel
  revert h
  unfold PivotGivesUp
  cases luPivot false (1 / 1000) (Mat.of (!![0, 1; 0, 0] : Matrix (Fin 2) (Fin 2) ℚ)) <;> simp [Res.bind]

/-- Example for C118: `auto t = lu(m); lu_solve(t, x, v);` -/
example : ∃ σ, SMeans (1 / 1000) .empty (exLinStart 1 1 1 2 ++ [.mLuNew 0 1, .mLuSolve 1 1 0, .op (.mDestroy 1)]) σ ∧
    σ.v 1 = some (.of ⟨2, ![7, -2]⟩) := by
  obtain ⟨σ, h, h1, h2, h3, h4⟩ := exLinStart_means (1 / 1000) 1 1 1 2
  refine ⟨_, h.append (solve_program (q := ![7, -2]) h1 ⟨_, h2, VCont.val?_of _⟩ h3 rfl (h4 1 (by decide)) ?_ ?_), by simp [Store.setV]⟩
  · intro k hk
    interval_cases k
    · rw [Matrix.det_fin_zero]; exact one_ne_zero
    · rw [Matrix.det_fin_one]; simp [leading]
    · rw [Matrix.det_fin_two]; simp [leading]; norm_num
  · funext i
    fin_cases i <;> simp [Matrix.mulVec, dotProduct, Fin.sum_univ_two] <;> norm_num

/-- Example for C118: `m.inverse(); m.transpose(); x.cardinal(1); x.maximize(v + x); m.set_row(0, x);
v[0] = determinant(m);` -/
example : ∃ σ, SMeans (1 / 1000) .empty (exLinStart 1 1 1 2 ++ [.mInverse 0, .mTranspose 0 1, .vCardinal 1 1,
    .vExtremize false 1 (.bin .plus (.var 0) (.var 1)), .mSetRow 0 0 (.var 1), .vPutDet 0 0 0 1]) σ ∧
    σ.v 1 = some (.of ⟨2, ![5, 4]⟩) ∧ ∃ c, σ.v 0 = some c ∧ c.val? = some ⟨2, ![9, 3]⟩ := by
  obtain ⟨σ, h, h1, h2, h3, h4⟩ := exLinStart_means (1 / 1000) 1 1 1 2
  have hinv : (!![1, 1; 1, 2] : Matrix (Fin 2) (Fin 2) ℚ)⁻¹ = !![2, -1; -1, 1] := by
    refine Matrix.inv_eq_right_inv ?_
    ext i j
    fin_cases i <;> fin_cases j <;> simp [Matrix.mul_apply, Fin.sum_univ_two] <;> norm_num
  -- after `inverse`
  have m1 := Stmt.Means.mInverse (eps := (1 / 1000 : ℚ)) h1 (by decide) (by decide) (by rw [Matrix.det_fin_two]; norm_num)
  rw [hinv] at m1
  obtain ⟨σ2, hσ2⟩ : ∃ σ2, σ2 = σ.setM 0 (some (.of false false ⟨2, 2, !![2, -1; -1, 1]⟩)) := ⟨_, rfl⟩
  rw [← hσ2] at m1
  have q0 : σ2.v 0 = some (.of ⟨2, ![5, 3]⟩) := by rw [hσ2]; exact h2
  have q1 : σ2.v 1 = some ⟨2, fun _ => none⟩ := by rw [hσ2]; exact h3
  have qm : σ2.m 0 = some (.of false false ⟨2, 2, !![2, -1; -1, 1]⟩) := by rw [hσ2]; rfl
  have qt : σ2.m 1 = none := by rw [hσ2]; exact h4 1 (by decide)
  -- after `transpose` (the matrix is symmetric)
  have m2 : (Stmt.mTranspose 0 1 : Stmt ℚ).Means (1 / 1000) σ2 σ2 := by
    have := Stmt.Means.mTranspose (eps := (1 / 1000 : ℚ)) (σ := σ2) (x := 0) (t := 1) qm (MCont.val?_of _ _ _) qt
    convert this using 1
    conv_lhs => rw [hσ2]
    rw [hσ2, Store.setM_same]
    congr 2
    refine congrArg (fun f => (MCont.of false false (⟨2, 2, f⟩ : MVal ℚ))) ?_
    funext i j
    fin_cases i <;> fin_cases j <;> rfl
  -- after `cardinal` and `maximize`
  have m3 : (Stmt.vCardinal 1 1).Means (1 / 1000) σ2 (σ2.setV 1 (some (.of ⟨2, Pi.single 1 1⟩))) :=
    .vCardinal (c := ⟨2, fun _ => none⟩) (by decide) q1
  have m4 : (Stmt.vExtremize false 1 (.bin .plus (.var 0) (.var 1))).Means (1 / 1000)
      (σ2.setV 1 (some (.of ⟨2, Pi.single 1 1⟩))) (σ2.setV 1 (some (.of ⟨2, ![5, 4]⟩))) := by
    have hx : (σ2.setV 1 (some (.of ⟨2, Pi.single 1 1⟩))).Vector 1 (Pi.single 1 1 : Fin 2 → ℚ) :=
      ⟨_, rfl, VCont.val?_of _⟩
    have hH : (VExpr.bin .plus (.var 0) (.var 1) : VExpr ℚ).Has (σ2.setV 1 (some (.of ⟨2, Pi.single 1 1⟩)))
        ⟨2, ![5, 4]⟩ := by
      refine ⟨⟨trivial, trivial⟩, ?_, ?_⟩
      · simp [VExpr.Pre, Store.env, Store.setV, q0, VCont.val?_of]
      · simp [VExpr.den, Store.env, Store.setV, q0, VCont.val?_of]
        funext i
        fin_cases i <;> simp [BinOp.den] <;> norm_num
    have := Stmt.Means.vExtremize (eps := (1 / 1000 : ℚ)) (lower := false) hx hH (by simp [VExpr.Ahead])
    convert this using 1
    unfold Store.setV
    congr 1
    funext y
    by_cases hy : y = 1
    · simp only [hy, if_true]
      refine congrArg (fun f => some (VCont.of (⟨2, f⟩ : VVal ℚ))) ?_
      funext i
      fin_cases i <;> simp
    · simp [hy]
  -- after `set_row`
  have m5 : (Stmt.mSetRow 0 0 (.var 1)).Means (1 / 1000) (σ2.setV 1 (some (.of ⟨2, ![5, 4]⟩)))
      ((σ2.setV 1 (some (.of ⟨2, ![5, 4]⟩))).setM 0 (some (.of false false ⟨2, 2, !![5, 4; -1, 1]⟩))) := by
    have := Stmt.Means.mSetRow (eps := (1 / 1000 : ℚ)) (σ := σ2.setV 1 (some (.of ⟨2, ![5, 4]⟩))) (x := 0) (i := 0)
      (e := .var 1) (c := .of false false ⟨2, 2, !![2, -1; -1, 1]⟩) (p := ![5, 4]) (by decide) qm
      ⟨trivial, by simp [VExpr.Pre, Store.env, Store.setV, VCont.val?_of],
        by simp [VExpr.den, Store.env, Store.setV, VCont.val?_of, MCont.of]⟩ (Or.inl trivial)
    convert this using 3
    refine congrArg (fun f => (⟨false, false, 2, 2, f⟩ : MCont ℚ)) ?_
    funext i j
    fin_cases i <;> fin_cases j <;> rfl
  -- after the determinant
  have m6 := Stmt.Means.vPutDet (eps := (1 / 1000 : ℚ)) (x := 0) (i := 0) (m := 0) (t := 1) (c := .of ⟨2, ![5, 3]⟩)
    (σ := (σ2.setV 1 (some (.of ⟨2, ![5, 4]⟩))).setM 0 (some (.of false false ⟨2, 2, !![5, 4; -1, 1]⟩)))
    (by decide) q0 ⟨_, rfl, rfl, rfl, MCont.val?_of _ _ _⟩ (by decide) (Or.inl (by decide)) qt
  refine ⟨_, h.append (.cons m1 (.cons m2 (.cons m3 (.cons m4 (.cons m5 (.cons m6 (.nil _))))))), rfl, .of ⟨2, ![9, 3]⟩, ?_,
    VCont.val?_of _⟩
  refine congrArg (fun f => some (⟨2, f⟩ : VCont ℚ)) ?_
  funext i
  fin_cases i
  · show some (Matrix.det _) = some (9 : ℚ)
    rw [Matrix.det_fin_two]
    simp; norm_num
  · rfl

#print axioms stmt_refines
#print axioms stmt_rejected
#print axioms lin_program_refines
#print axioms lin_program_completes
#print axioms lin_program_rejects
#print axioms lin_program_releases
#print axioms Stmt.Means.unique
#print axioms SMeans.unique
#print axioms solve_program
#print axioms inverse_program
#print axioms transpose_program

end CML
