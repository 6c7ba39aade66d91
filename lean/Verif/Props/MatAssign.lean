import Verif.Lemmas.MatAssign
import Verif.Lemmas.Demo
import Verif.Lemmas.Stable

/-!
C24, C25, the matrix parts of C08, C09, C16 and C76: storage layout, assignment and element-wise mutation
of matrices.
-/

set_option linter.unusedSectionVars false

namespace CML

variable {E : Type} [Add E] [Sub E] [Mul E] [Div E] [Neg E]

section Demo

/-- Three matrices: `m0` fixed 2×2 row-major row-basis, `m1` fixed 2×2 column-major column-basis, `m2`
dynamic 2×3 column-major; a vector `v0` of size 2. -/
def exM : State ℤ :=
  demo [[some 1, some 2, some 3, some 4], [some 5, some 7, some 6, some 8],
      [some 1, some 4, some 2, some 5, some 3, some 6], [some 10, some 20]]
    [⟨.compiled, true, some 3, 0, 2⟩]
    [⟨.compiled, true, some 0, 0, 2, 2, false, false⟩, ⟨.compiled, true, some 1, 0, 2, 2, true, true⟩,
      ⟨.allocated, false, some 2, 0, 2, 3, true, false⟩]

/-- The values of the variables of `exM`. -/
def exMρ : Env ℤ :=
  ⟨fun x => match x with
    | 0 => some ⟨2, ![10, 20]⟩
    | _ => none,
   fun x => match x with
    | 0 => some ⟨2, 2, ![![1, 2], ![3, 4]]⟩
    | 1 => some ⟨2, 2, ![![5, 6], ![7, 8]]⟩
    | 2 => some ⟨2, 3, ![![1, 2, 3], ![4, 5, 6]]⟩
    | _ => none⟩

theorem exM_agree : Agree exM exMρ := by
  constructor
  · intro x p h
    match x, h with
    | 0, h =>
      simp only [exMρ, Option.some.injEq] at h
      subst h
      exact ⟨rfl, fun i => by fin_cases i <;> rfl⟩
    | n + 1, h => simp [exMρ] at h
  · intro x p h
    match x, h with
    | 0, h =>
      simp only [exMρ, Option.some.injEq] at h
      subst h
      exact ⟨rfl, fun i j => by fin_cases i <;> fin_cases j <;> rfl⟩
    | 1, h =>
      simp only [exMρ, Option.some.injEq] at h
      subst h
      exact ⟨rfl, fun i j => by fin_cases i <;> fin_cases j <;> rfl⟩
    | 2, h =>
      simp only [exMρ, Option.some.injEq] at h
      subst h
      exact ⟨rfl, fun i j => by fin_cases i <;> fin_cases j <;> rfl⟩
    | n + 3, h => simp [exMρ] at h

end Demo

/-! ### C24: the storage layout is a bijection -/

/-- C24.  In both layouts every element has its own linear index below `rows * cols`, and every such index
belongs to exactly one element. -/
theorem matrix_index_bijection (m : MObj) :
    (∀ i j, i < m.rows → j < m.cols → m.index i j < m.rows * m.cols) ∧
      (∀ i j i' j', i < m.rows → j < m.cols → i' < m.rows → j' < m.cols →
        m.index i j = m.index i' j' → i = i' ∧ j = j') ∧
      (∀ k, k < m.rows * m.cols → ∃ i j, i < m.rows ∧ j < m.cols ∧ m.index i j = k) := by
  refine ⟨fun i j hi hj => MObj.index_lt hi hj, ?_, ?_⟩
  · intro i j i' j' hi hj hi' hj' h
    have h1 := MObj.unindex_index hi hj
    have h2 := MObj.unindex_index hi' hj'
    rw [h, h2] at h1
    simp only [Prod.mk.injEq] at h1
    exact ⟨h1.1.symm, h1.2.symm⟩
  · intro k hk
    exact ⟨_, _, (MObj.unindex_lt hk).1, (MObj.unindex_lt hk).2, m.index_unindex k⟩

/-- C24.  Writing element `(i,j)` changes that element and no other memory cell; in particular no other
element of the matrix. -/
theorem matrix_put_get {triv : Bool} {s : State E} {x r c : Nat} {p : Fin r → Fin c → E}
    (hp : MRep s (.var x) ⟨r, c, p⟩) (i : Fin r) (j : Fin c) (e : E) :
    ∃ h', mPut triv s x i j e = .ok { s with heap := h' } ∧
      MRep { s with heap := h' } (.var x) ⟨r, c, fun i' j' => if i' = i ∧ j' = j then e else p i' j'⟩ ∧
      ∃ b o, ∀ b' o', (b', o') ≠ (b, o) → h'.cell b' o' = s.heap.cell b' o' := by
  have hg := hp.get i j
  rw [MNode.var_get] at hg
  obtain ⟨d, b, hx, hb, hi, hj, hc⟩ := hg
  obtain ⟨h', w1, w2, w3, -⟩ := mPut_ok (e := e) hx hb hi hj ⟨_, hc, Or.inr rfl⟩
  refine ⟨h', w1, ⟨hp.dims, ?_⟩, b, _, w3⟩
  intro i' j'
  have hg' := hp.get i' j'
  rw [MNode.var_get] at hg' ⊢
  obtain ⟨d', b', hx', hb', hi', hj', hc'⟩ := hg'
  rw [hx] at hx'; cases hx'
  rw [hb] at hb'; cases hb'
  refine ⟨d, b, hx, hb, hi', hj', ?_⟩
  by_cases h : i' = i ∧ j' = j
  · rw [h.1, h.2, w2]; simp
  · rw [w3 _ _ ?_, hc']
    · simp [h]
    · intro hcon
      simp only [Prod.mk.injEq, true_and] at hcon
      have := (matrix_index_bijection d).2.1 _ _ _ _ hi' hj' hi hj (by omega)
      exact h ⟨Fin.ext this.1, Fin.ext this.2⟩

example : (⟨.compiled, true, some 0, 0, 2, 3, false, false⟩ : MObj).index 1 2 = 5 ∧
    (⟨.compiled, true, some 0, 0, 2, 3, true, false⟩ : MObj).index 1 2 = 5 ∧
    (⟨.compiled, true, some 0, 0, 2, 3, true, false⟩ : MObj).index 0 2 = 4 := by decide

example : MRep exM (.var 2) ⟨2, 3, ![![1, 2, 3], ![4, 5, 6]]⟩ := exM_agree.m 2 _ rfl

/-! ### C25: assignment does not depend on the layout -/

/-- C25 (and C08 for matrices).  `x = e` for a destination of the right dimensions in either layout: every
matrix read lazily by the element-wise part of `e` is disjoint from the destination or has its layout and
dimensions and starts at or behind it (in particular is the destination itself), everything under a
`transpose` or outer product is disjoint from it; then element `(i,j)` of the destination becomes element
`(i,j)` of the value `e` had before the statement, and no other memory cell changes. -/
theorem massign_elementwise {triv : Bool} {s : State E} {ρ : Env E} (hA : Agree s ρ) {x : Nat}
    {d : MObj} (hx : s.mat x = some d) (e : MExpr E) (hc : e.Regular s)
    (p : Fin d.rows → Fin d.cols → E) (hp : e.den ρ = some ⟨d.rows, d.cols, p⟩)
    (hw : d.flat.Ready triv s.heap)
    (hal : e.Ahead (MAhead s d) (VDisj s d.flat) (MDisj s d.flat)) :
    ∃ h', mstmtAssign triv s x e = .ok { s with heap := h' } ∧
      MRep { s with heap := h' } (.var x) ⟨d.rows, d.cols, p⟩ ∧ SameOutside d.flat s.heap h' := by
  obtain ⟨n, h1, h2, f, h3⟩ := MExpr.build_ok hA e (MExpr.supported_of_regular e hc) _ hp
  obtain ⟨h', e1, e2, e3, -⟩ := mAssign_ok (triv := triv) hx h2 h3 hw (MExpr.build_ahead e n h1 hal)
  exact ⟨h', by simp [mstmtAssign, h1, e1], e2, e3⟩

/-- C25 for `x += e` and `x -= e` with operands of the same dimensions. -/
theorem mopAssign_elementwise {triv : Bool} {o : BinOp} {s : State E} {ρ : Env E} (hA : Agree s ρ)
    {x : Nat} {d : MObj} (hx : s.mat x = some d) (e : MExpr E) (hc : e.Regular s)
    (p q : Fin d.rows → Fin d.cols → E) (hp : e.den ρ = some ⟨d.rows, d.cols, p⟩)
    (hq : ρ.m x = some ⟨d.rows, d.cols, q⟩)
    (hal : e.Ahead (MAhead s d) (VDisj s d.flat) (MDisj s d.flat)) :
    ∃ h', mstmtOpAssign triv o s x e = .ok { s with heap := h' } ∧
      MRep { s with heap := h' } (.var x) ⟨d.rows, d.cols, fun i j => o.den (q i j) (p i j)⟩ ∧
      SameOutside d.flat s.heap h' := by
  obtain ⟨n, h1, h2, f, h3⟩ := MExpr.build_ok hA e (MExpr.supported_of_regular e hc) _ hp
  obtain ⟨h', e1, e2, e3⟩ := mOpAssign_ok (triv := triv) (o := o) hx h2 (hA.m x _ hq) h3
    (MExpr.build_ahead e n h1 hal)
  exact ⟨h', by simp [mstmtOpAssign, h1, e1], e2, e3⟩

/-- C25: the product of two matrices may be assigned to one of them (`M = M * N`, `M = N * transpose(M)`):
the product is evaluated before anything is stored. -/
theorem massign_product {triv : Bool} {s : State E} {ρ : Env E} (hA : Agree s ρ) {x : Nat}
    {d : MObj} (hx : s.mat x = some d) (a b : MExpr E) (ha : a.Regular s) (hb : b.Regular s)
    (ha' : a.Upright s) (hb' : b.Upright s)
    (p : Fin d.rows → Fin d.cols → E) (hp : (MExpr.mul a b).den ρ = some ⟨d.rows, d.cols, p⟩)
    (hw : d.flat.Ready triv s.heap) :
    ∃ h', mstmtAssign triv s x (.mul a b) = .ok { s with heap := h' } ∧
      MRep { s with heap := h' } (.var x) ⟨d.rows, d.cols, p⟩ ∧ SameOutside d.flat s.heap h' :=
  massign_elementwise hA hx (.mul a b) ⟨ha, hb, ha', hb'⟩ p hp hw trivial

/-- C25 for a dynamic destination (trivial element type) of whatever dimensions: it gets the dimensions and
elements of the value of `e`, if nothing read lazily uses the destination or its old array; other variables
and all memory except the destination's old and new array stay unchanged. -/
theorem massign_resizing {s : State E} {ρ : Env E} (hA : Agree s ρ) {x : Nat} {d : MObj}
    (hx : s.mat x = some d) (hst : d.storage = .allocated) (hoff : d.off = 0) (ho : d.Owned s.heap)
    (e : MExpr E) (hc : e.Regular s) (p : MVal E) (hp : e.den ρ = some p)
    (hal : p.r * p.c ≠ d.rows * d.cols → s.heap.fail s.heap.tick = false)
    (hfr : s.heap.blk s.heap.next = none)
    (hl : e.Leaves (fun y => ∀ w, s.vec y = some w → w.data = none ∨ w.data ≠ d.data)
      (fun y => y ≠ x ∧ ∀ w, s.mat y = some w → w.data = none ∨ w.data ≠ d.data)) :
    ∃ s', mstmtAssign true s x e = .ok s' ∧ MRep s' (.var x) p ∧ s'.vec = s.vec ∧
      (∀ y, y ≠ x → s'.mat y = s.mat y) ∧
      (∀ b o, b ≠ s.heap.next → some b ≠ d.data → s'.heap.cell b o = s.heap.cell b o) := by
  obtain ⟨n, h1, h2, f, h3⟩ := MExpr.build_ok hA e (MExpr.supported_of_regular e hc) _ hp
  obtain ⟨h', d', e1, e2, e3, e4, e5, -⟩ := mAssign_resize_ok hx hst hoff ho hal hfr h2
    (MExpr.build_leaves e n h1 hl)
  refine ⟨_, by simp only [mstmtAssign, h1, Out.withVal_ok]; exact e1, e4, rfl, ?_, e5⟩
  intro y hy
  simp [State.setMat, hy]

/-- C25/C76 for matrices that cannot be resized (compiled storage, or views whose dimensions are template
parameters; for the other views see C103): a size error exactly if the dimensions differ (nothing is
changed then), the value otherwise. -/
theorem massign_checked {triv : Bool} {s : State E} {ρ : Env E} (hA : Agree s ρ) {x : Nat} {d : MObj}
    (hx : s.mat x = some d) (hst : d.Rigid) (e : MExpr E) (hc : e.Regular s)
    (p : MVal E) (hp : e.den ρ = some p) (hw : d.flat.Ready triv s.heap)
    (hal : e.Ahead (MAhead s d) (VDisj s d.flat) (MDisj s d.flat)) :
    (¬(p.r = d.rows ∧ p.c = d.cols) ∧ ∃ er, (er = .matIncompatible ∨ er = .staticAssert) ∧
        mstmtAssign triv s x e = .throw er s) ∨
      (p.r = d.rows ∧ p.c = d.cols ∧ ∃ h', mstmtAssign triv s x e = .ok { s with heap := h' } ∧
        MRep { s with heap := h' } (.var x) p ∧ SameOutside d.flat s.heap h') := by
  by_cases hsz : p.r = d.rows ∧ p.c = d.cols
  · obtain ⟨r, c, f⟩ := p
    obtain ⟨h1, h2⟩ := hsz
    simp only at h1 h2
    subst h1 h2
    exact Or.inr ⟨rfl, rfl, massign_elementwise hA hx e hc f hp hw hal⟩
  · left
    obtain ⟨n, h1, h2, f, h3⟩ := MExpr.build_ok hA e (MExpr.supported_of_regular e hc) p hp
    refine ⟨hsz, if d.fixed && f then .staticAssert else .matIncompatible, ?_, ?_⟩
    · split <;> simp
    · have h6 : ¬ (((d.rows : Int), (d.cols : Int)) = ((p.r : Int), (p.c : Int))) := by
        simp only [Prod.mk.injEq]; omega
      simp only [mstmtAssign, h1, Out.withVal_ok, mAssign, mCheckOrResize, State.mobj, hx]
      rcases hst with hd | ⟨hd, hfx⟩
      · simp only [hd, checkSameDims_eq (typed_mat hx) h3 (MNode.var_dims hx) h2.dims, if_neg h6]
        rfl
      · simp only [hd, hfx, if_true, checkSameDims_eq (typed_mat hx) h3 (MNode.var_dims hx) h2.dims,
          if_neg h6]
        rfl

/-- C76 for matrices: a mis-sized right-hand side throws and changes nothing. -/
theorem massign_missized {triv : Bool} {s : State E} {ρ : Env E} (hA : Agree s ρ) (x : Nat)
    (e : MExpr E) (hc : e.Regular s) (hpre : e.Pre ρ) (hp : e.den ρ = none) :
    ∃ er, mstmtAssign triv s x e = .throw er s ∧ (∀ o, mstmtOpAssign triv o s x e = .throw er s) ∧
      (er.IsSize ∨ er = .invalidArgument ∧ e.NegLine) := by
  obtain ⟨er, h, hk⟩ := MExpr.build_throw hA e (MExpr.supported_of_regular e hc) hpre hp
  exact ⟨er, by simp [mstmtAssign, h], fun o => by simp [mstmtOpAssign, h], hk⟩

/-- C25: `zero()` in both layouts. -/
theorem mzero_spec [Zero E] {triv : Bool} {s : State E} {x : Nat} {d : MObj} (hx : s.mat x = some d)
    (hw : d.flat.Ready triv s.heap) :
    ∃ h', mZero triv s x = .ok { s with heap := h' } ∧
      MRep { s with heap := h' } (.var x) ⟨d.rows, d.cols, fun _ _ => 0⟩ ∧
      SameOutside d.flat s.heap h' := by
  obtain ⟨h', e1, e2, e3, -⟩ := mStore_fin hx hw (fun _ _ => (0 : E)) (f := fun _ _ _ => .ok 0)
    (fun _ _ _ _ _ _ _ _ _ _ => rfl)
  exact ⟨h', e1, (mrep_var (s := { s with heap := h' }) hx).2 e2, e3⟩

/-- C25: `identity()` in both layouts, also for matrices that are not square. -/
theorem midentity_spec [Zero E] [One E] {triv : Bool} {s : State E} {x : Nat} {d : MObj}
    (hx : s.mat x = some d) (hw : d.flat.Ready triv s.heap) :
    ∃ h', mIdentity triv s x = .ok { s with heap := h' } ∧
      MRep { s with heap := h' } (.var x)
        ⟨d.rows, d.cols, fun i j => if (i : Nat) = j then 1 else 0⟩ ∧
      SameOutside d.flat s.heap h' := by
  obtain ⟨h', e1, e2, e3, -⟩ := mStore_fin hx hw (fun i j => if (i : Nat) = j then (1 : E) else 0)
    (f := fun _ i j => .ok (if i = j then 1 else 0))
    (fun _ _ _ _ _ _ _ _ _ _ => rfl)
  exact ⟨h', e1, (mrep_var (s := { s with heap := h' }) hx).2 e2, e3⟩

/-- C25: `fill(v)` in both layouts, where `v` is a value, an element of a disjoint matrix or an element of
the matrix itself (`M.fill(M(k,l))`). -/
theorem mfill_spec {triv : Bool} {s : State E} {x : Nat} {d : MObj} (hx : s.mat x = some d)
    (hw : d.flat.Ready triv s.heap) (c : MScalarRef E) (v : E) (hc : c.read s = .ok v)
    (hd : ∀ y k l, c = .elem y k l → y = x ∨ MDisj s d.flat y) :
    ∃ h', mFill triv s x c = .ok { s with heap := h' } ∧
      MRep { s with heap := h' } (.var x) ⟨d.rows, d.cols, fun _ _ => v⟩ ∧
      SameOutside d.flat s.heap h' := by
  obtain ⟨h', e1, e2, e3, -⟩ := mStore_fin hx hw (fun _ _ => v) (f := fun s _ _ => c.read s)
    (fun b i j s' g hb hv hm hst hg => by
      cases c with
      | val c => exact hc
      | elem y k l =>
        have hlt : d.index i j ≤ d.flat.size := (MObj.index_lt i.2 j.2).le
        rcases hd y k l rfl with rfl | h
        · simp only [MScalarRef.read] at hc ⊢
          rw [MNode.var_get] at hc ⊢
          obtain ⟨w, b', q1, q2, q3, q4, q5⟩ := hc
          rw [hx] at q1; cases q1
          rw [hb] at q2; cases q2
          refine ⟨d, b, by rw [hm, hx], hb, q3, q4, ?_⟩
          by_cases hk : d.index k l < d.index i j
          · rw [hst.val _ hk]
            have := hg ⟨k, q3⟩ ⟨l, q4⟩
            rw [← this]
          · rw [hst.frame _ _ (by omega), q5]
        · exact mvar_get_disj (d := d.flat) hm hb hlt hst h hc)
  exact ⟨h', e1, (mrep_var (s := { s with heap := h' }) hx).2 e2, e3⟩

section Examples

/-- `m0 = m0 + 2 * m1`-like statement: the hypotheses of `massign_elementwise` (layouts differ). -/
private def exE : MExpr ℤ := .bin .plus (.var 0) (.scal .mul (.var 1) 2)

example : exE.den exMρ = some ⟨2, 2, ![![11, 14], ![17, 20]]⟩ ∧
    exE.Ahead (MAhead exM ⟨.compiled, true, some 0, 0, 2, 2, false, false⟩)
      (VDisj exM (⟨.compiled, true, some 0, 0, 2, 2, false, false⟩ : MObj).flat)
      (MDisj exM (⟨.compiled, true, some 0, 0, 2, 2, false, false⟩ : MObj).flat) ∧
    (⟨.compiled, true, some 0, 0, 2, 2, false, false⟩ : MObj).flat.Ready true exM.heap := by
  refine ⟨?_, ⟨?_, ?_⟩, ?_⟩
  · simp only [exE, MExpr.den, exMρ]
    simp only [and_self, dif_pos, Option.some.injEq, MVal.mk.injEq, heq_eq_eq, true_and]
    funext i j
    fin_cases i <;> fin_cases j <;> rfl
  · exact self_ahead rfl
  · intro w hw; cases hw; exact Or.inl (Or.inl (by simp [MObj.flat]))
  · intro k hk
    refine ⟨0, rfl, ?_⟩
    simp only [MObj.flat] at hk
    interval_cases k <;> exact ⟨_, rfl, Or.inl rfl⟩

/-- Column-major to row-major and back; a resizing assignment to a column-major matrix. -/
example : ∃ s', mstmtAssign true exM 0 (.var 1) = .ok s' ∧
    (MNode.var 0 : MNode ℤ).get s' 0 1 = .ok 6 := ⟨_, rfl, rfl⟩
example : ∃ s', mstmtAssign true exM 2 (.transpose (.var 0)) = .ok s' ∧
    (MNode.var 2 : MNode ℤ).dims s' = .ok (2, 2) ∧ (MNode.var 2 : MNode ℤ).get s' 0 1 = .ok 3 :=
  ⟨_, rfl, rfl, rfl⟩
example : mstmtAssign true exM 0 (.var 2) = .throw .matIncompatible exM := rfl
example : mstmtAssign true exM 0 (.bin .plus (.var 0) (.var 2)) = .throw .matIncompatible exM := rfl
example : ∃ s', mFill true exM 0 (.elem 0 1 0) = .ok s' ∧
    (MNode.var 0 : MNode ℤ).get s' 0 0 = .ok 3 ∧ (MNode.var 0 : MNode ℤ).get s' 1 1 = .ok 3 :=
  ⟨_, rfl, rfl, rfl⟩

end Examples

/-! ### C16 (matrices): scalar compound assignment -/

/-- C16 for matrices restricted to a scalar that is not an element of the destination.  Missing: a
reference to an element of the destination itself, for which the claim is false (`mscalAssign_false`). -/
theorem mscalAssign_partial {triv : Bool} {o : ScalOp} {s : State E} {x : Nat} {d : MObj}
    (hx : s.mat x = some d) (q : Fin d.rows → Fin d.cols → E) (hq : MRep s (.var x) ⟨d.rows, d.cols, q⟩)
    (c : MScalarRef E) (v : E)
    (hc : c.read s = .ok v) (hd : ∀ y k l, c = .elem y k l → MDisj s d.flat y) :
    ∃ h', mScalAssign triv o s x c = .ok { s with heap := h' } ∧
      MRep { s with heap := h' } (.var x) ⟨d.rows, d.cols, fun i j => o.den (q i j) v⟩ ∧
      SameOutside d.flat s.heap h' := by
  obtain ⟨h', e1, e2, e3, -⟩ := mStore_fin (triv := triv) hx (mready_after (h' := s.heap) hx hq)
    (fun i j => o.den (q i j) v)
    (f := fun s i j => do
      let a ← (MNode.var x : MNode E).get s i j
      let b ← c.read s
      pure (o.apply a b))
    (fun b i j s' g hb hv hm hst _ => by
      have hlt : d.index i j ≤ d.flat.size := (MObj.index_lt i.2 j.2).le
      have h1 : c.read s' = .ok v := by
        cases c with
        | val c => exact hc
        | elem y k l => exact mvar_get_disj (d := d.flat) hm hb hlt hst (hd y k l rfl) hc
      have h2 := node_get_ahead (n := .var x) hb i.2 j.2 hv hm hst (self_ahead hx) (hq.get i j)
      simp [h1, h2])
  exact ⟨h', e1, (mrep_var (s := { s with heap := h' }) hx).2 e2, e3⟩

/-- C16, what really happens for `M *= M(k,l)`, `M /= M(k,l)`: the elements up to and including `(k,l)`, in
storage order, are combined with the old element, those behind it with the new one.  The result therefore
depends on the layout. -/
theorem mscalAssign_self {triv : Bool} {o : ScalOp} {s : State E} {x : Nat} {d : MObj}
    (hx : s.mat x = some d) (q : Fin d.rows → Fin d.cols → E) (hq : MRep s (.var x) ⟨d.rows, d.cols, q⟩)
    (k : Fin d.rows) (l : Fin d.cols) :
    ∃ h', mScalAssign triv o s x (.elem x k l) = .ok { s with heap := h' } ∧
      MRep { s with heap := h' } (.var x) ⟨d.rows, d.cols, fun i j =>
        if d.index i j ≤ d.index k l then o.den (q i j) (q k l)
        else o.den (q i j) (o.den (q k l) (q k l))⟩ ∧
      SameOutside d.flat s.heap h' := by
  obtain ⟨h', e1, e2, e3, -⟩ := mStore_fin (triv := triv) hx (mready_after (h' := s.heap) hx hq)
    (fun i j => if d.index i j ≤ d.index k l then o.den (q i j) (q k l)
        else o.den (q i j) (o.den (q k l) (q k l)))
    (f := fun s i j => do
      let a ← (MNode.var x : MNode E).get s i j
      let b ← (MScalarRef.elem x k l : MScalarRef E).read s
      pure (o.apply a b))
    (fun b i j s' g hb hv hm hst hg => by
      have h2 := node_get_ahead (n := .var x) hb i.2 j.2 hv hm hst (self_ahead hx) (hq.get i j)
      have h3 : (MScalarRef.elem x k l : MScalarRef E).read s'
          = .ok (if d.index i j ≤ d.index k l then q k l else o.den (q k l) (q k l)) := by
        have hkl := hq.get k l
        simp only [MScalarRef.read]
        rw [MNode.var_get] at hkl ⊢
        obtain ⟨w, b', q1, q2, q3, q4, q5⟩ := hkl
        rw [hx] at q1; cases q1
        rw [hb] at q2; cases q2
        refine ⟨d, b, by rw [hm, hx], hb, q3, q4, ?_⟩
        by_cases hk : d.index i j ≤ d.index k l
        · rw [if_pos hk, hst.frame _ _ (by omega), q5]
        · rw [if_neg hk, hst.val _ (by omega), hg k l, if_pos (le_refl _)]
      rw [h2, Res.ok_bind, h3, Res.ok_bind, Res.pure_eq, ScalOp.apply_eq]
      split <;> first | rfl | simp_all)
  exact ⟨h', e1, (mrep_var (s := { s with heap := h' }) hx).2 e2, e3⟩

/-- C16 is false for matrices: `M *= M(0,0)` does not multiply every element by the old `M(0,0)`. -/
theorem mscalAssign_false :
    ¬ ∀ (s : State ℤ) (x : Nat) (q : MVal ℤ) (c : MScalarRef ℤ) (v : ℤ), MRep s (.var x) q →
      c.read s = .ok v → ∃ h', mScalAssign true .mul s x c = .ok { s with heap := h' } ∧
        MRep { s with heap := h' } (.var x) ⟨q.r, q.c, fun i j => q.f i j * v⟩ := by
  intro h
  obtain ⟨h1, e1, e2⟩ := h exM 1 _ (.elem 1 0 0) 5 (exM_agree.m 1 _ rfl) rfl
  obtain ⟨h2, f1, f2, -⟩ := mscalAssign_self (triv := true) (o := .mul) (s := exM) (x := 1) rfl _
    (exM_agree.m 1 _ rfl) 0 0
  have f1' : mScalAssign true .mul exM 1 (.elem 1 0 0) = .ok { exM with heap := h2 } := f1
  rw [f1'] at e1
  simp only [Out.ok.injEq, State.mk.injEq, and_true] at e1
  subst e1
  have a : (MNode.var 1 : MNode ℤ).get { exM with heap := h2 } 1 1 = .ok 40 := e2.get 1 1
  have b : (MNode.var 1 : MNode ℤ).get { exM with heap := h2 } 1 1 = .ok 200 := f2.get 1 1
  rw [a] at b
  simp at b

example : (MScalarRef.elem 1 0 0 : MScalarRef ℤ).read exM = .ok 5 ∧
    MDisj exM (⟨.compiled, true, some 0, 0, 2, 2, false, false⟩ : MObj).flat 1 :=
  ⟨rfl, fun w hw => by cases hw; exact Or.inl (by simp [MObj.flat])⟩

/-! ### C09 (matrices): assigning the transpose of the destination -/

/-- C09, what `M = transpose(M)` does for a square matrix: not the transpose.  With row-major storage the
lower triangle is mirrored to the upper one, with column-major storage the upper triangle to the lower. -/
theorem transpose_self_assign {triv : Bool} {s : State E} {x n : Nat} {d : MObj} (hx : s.mat x = some d)
    (p : Fin n → Fin n → E) (hp : MRep s (.var x) ⟨n, n, p⟩) :
    ∃ h', mstmtAssign triv s x (.transpose (.var x)) = .ok { s with heap := h' } ∧
      MRep { s with heap := h' } (.var x) ⟨n, n, fun i j =>
        if d.colMajor then p (min i j) (max i j) else p (max i j) (min i j)⟩ ∧
      SameOutside d.flat s.heap h' := by
  obtain ⟨hr, hc⟩ := mrep_dims hx hp
  simp only at hr hc
  have hp' : MRep s (.var x) ⟨d.rows, d.cols, fun i j => p (i.cast hr.symm) (j.cast hc.symm)⟩ :=
    ⟨MNode.var_dims hx, fun i j => hp.get (i.cast hr.symm) (j.cast hc.symm)⟩
  obtain ⟨f, hf⟩ := typed_var_m hp.dims
  obtain ⟨h', e1, e2, e3, -⟩ := mStore_fin (triv := triv) hx (mready_after (h' := s.heap) hx hp')
    (fun i j => if d.colMajor then p (min (i.cast hr.symm) (j.cast hc.symm)) (max (i.cast hr.symm) (j.cast hc.symm))
      else p (max (i.cast hr.symm) (j.cast hc.symm)) (min (i.cast hr.symm) (j.cast hc.symm)))
    (f := fun s i j => (MNode.transpose (.var x) : MNode E).get s i j)
    (fun b i j s' g hb hv hm hst hg => by
      have hkl := hp.get (j.cast hc.symm) (i.cast hr.symm)
      rw [MNode.get]
      rw [MNode.var_get] at hkl ⊢
      obtain ⟨w, b', q1, q2, q3, q4, q5⟩ := hkl
      rw [hx] at q1; cases q1
      rw [hb] at q2; cases q2
      simp only [Fin.val_cast] at q3 q4 q5
      refine ⟨d, b, by rw [hm, hx], hb, q3, q4, ?_⟩
      have hii : (i : Nat) < n := by rw [hr]; exact i.2
      have hjj : (j : Nat) < n := by rw [hc]; exact j.2
      have hri : ∀ a b : Nat, a < n → b < n → d.index a b = if d.colMajor then b * n + a else a * n + b := by
        intro a b _ _; simp only [MObj.index, ← hr, ← hc]
      have hlt : ∀ a b : Nat, a < n → b < n → a < b → a * n + b < b * n + a := by
        intro a b ha hb hab
        have : (a + 1) * n ≤ b * n := Nat.mul_le_mul_right _ hab
        rw [Nat.add_mul] at this
        omega
      have hg2 := hg ⟨j, q3⟩ ⟨i, q4⟩
      simp only [Fin.cast_mk] at hg2
      have hci : (⟨i, hii⟩ : Fin n) = i.cast hr.symm := rfl
      have hcj : (⟨j, hjj⟩ : Fin n) = j.cast hc.symm := rfl
      rw [hri _ _ hii hjj] at hst
      rw [hri _ _ hjj hii] at q5 hg2 ⊢
      rcases lt_trichotomy (i : Nat) j with hij | hij | hij
      · have hle : i.cast hr.symm ≤ j.cast hc.symm := by rw [Fin.le_def]; simpa using hij.le
        rw [min_eq_left hle, max_eq_right hle]
        have h1 := hlt _ _ hii hjj hij
        by_cases hcm : d.colMajor = true
        · simp only [hcm, if_true] at hst q5 hg2 ⊢
          rw [hst.val _ h1, hg2, min_eq_right (by rw [Fin.le_def]; simpa using hij.le),
            max_eq_left (by rw [Fin.le_def]; simpa using hij.le)]
          rfl
        · simp only [hcm] at hst q5 hg2 ⊢
          rw [hst.frame _ _ (by simp only [Bool.false_eq_true, if_false]; omega)]
          simpa using q5
      · have he : i.cast hr.symm = j.cast hc.symm := by ext; simpa using hij
        rw [he, min_self, max_self]
        rw [hst.frame _ _ (by rw [hij]; omega), q5, he]
        simp
      · have hle : j.cast hc.symm ≤ i.cast hr.symm := by rw [Fin.le_def]; simpa using hij.le
        rw [min_eq_right hle, max_eq_left hle]
        have h1 := hlt _ _ hjj hii hij
        by_cases hcm : d.colMajor = true
        · simp only [hcm, if_true] at hst q5 hg2 ⊢
          rw [hst.frame _ _ (by omega)]
          exact q5
        · simp only [hcm, Bool.false_eq_true, if_false] at hst q5 hg2 ⊢
          rw [hst.val _ h1, hg2, min_eq_left (by rw [Fin.le_def]; simpa using hij.le),
            max_eq_right (by rw [Fin.le_def]; simpa using hij.le)]
          rfl)
  refine ⟨h', ?_, ?_, e3⟩
  · simp only [mstmtAssign, MExpr.build, Res.pure_eq, Res.ok_bind, Out.withVal_ok, mAssign]
    rw [mCheckOrResize_same (f := f) hx (by
      simp only [MNode.dims, State.mobj, hx, Res.ok_bind, Res.pure_eq]
      rw [← hr, ← hc]) (by rw [← hr, ← hc]; exact hf.transpose)]
    exact e1
  · exact ⟨hp.dims, fun i j => by
      rw [MNode.var_get_eq (s := { s with heap := h' }) hx]
      exact e2 (i.cast hr) (j.cast hc)⟩

/-- C09 is false for matrices: `M = transpose(M)` does not store the transpose. -/
theorem transpose_self_assign_false :
    ¬ ∀ (s : State ℤ) (x : Nat) (p : MVal ℤ), MRep s (.var x) p →
      ∃ s', mstmtAssign true s x (.transpose (.var x)) = .ok s' ∧
        MRep s' (.var x) ⟨p.c, p.r, fun i j => p.f j i⟩ := by
  intro h
  obtain ⟨s', h1, h2⟩ := h exM 0 _ (exM_agree.m 0 _ rfl)
  obtain ⟨h', e1, e2, -⟩ := transpose_self_assign (triv := true) (s := exM) (x := 0) rfl _
    (exM_agree.m 0 _ rfl)
  rw [h1] at e1
  cases e1
  have a : (MNode.var 0 : MNode ℤ).get { exM with heap := h' } 1 0 = .ok 2 := h2.get 1 0
  have b : (MNode.var 0 : MNode ℤ).get { exM with heap := h' } 1 0 = .ok 3 := e2.get 1 0
  rw [a] at b
  simp at b

/-- A loop in which every iteration succeeds or is undefined behaviour, and iteration `k0` always is. -/
private theorem loop_ub {σ : Type} {body : Nat → σ → Out σ} (Inv : σ → Prop) {lo n k0 : Nat} {s : σ}
    (h0 : Inv s) (hk : lo ≤ k0 ∧ k0 < lo + n)
    (hstep : ∀ k s, Inv s → (∃ s', body k s = .ok s' ∧ Inv s') ∨ ∃ u, body k s = .ub u)
    (hub : ∀ s, Inv s → ∃ u, body k0 s = .ub u) : ∃ u, Out.loop body lo n s = .ub u := by
  induction n generalizing lo s with
  | zero => omega
  | succ n ih =>
    simp only [Out.loop]
    by_cases hlo : lo = k0
    · subst hlo
      obtain ⟨u, hu⟩ := hub s h0
      exact ⟨u, by rw [hu]; rfl⟩
    · rcases hstep lo s h0 with ⟨s', h1, h2⟩ | ⟨u, hu⟩
      · rw [h1, Out.ok_andThen]
        exact ih h2 (by omega)
      · exact ⟨u, by rw [hu]; rfl⟩

/-- C09: `M = transpose(M)` on a dynamic matrix that is not square is undefined behaviour: the matrix is
relabelled first and then read outside of its new dimensions. -/
theorem transpose_self_assign_rect_ub {s : State E} {x : Nat} {d : MObj} (hx : s.mat x = some d)
    (hst : d.storage = .allocated) (hr : 0 < d.rows) (hc : 0 < d.cols) (hne : d.rows ≠ d.cols) :
    ∃ u, mstmtAssign true s x (.transpose (.var x)) = .ub u := by
  simp only [mstmtAssign, MExpr.build, Res.pure_eq, Res.ok_bind, Out.withVal_ok, mAssign,
    mCheckOrResize, State.mobj, hx, hst, MNode.dims]
  rw [mResize, mResizeWith_relabel hx (Nat.mul_comm _ _), Out.ok_andThen]
  set d1 : MObj := { d with rows := d.cols, cols := d.rows } with hd1
  have hx1 : (s.setMat x (some d1)).mat x = some d1 := by simp [State.setMat]
  rw [mStore_linear true _ hx1]
  -- an element whose mirror image lies outside of the relabelled matrix
  let i0 := if d.rows < d.cols then d.rows else 0
  let j0 := if d.rows < d.cols then 0 else d.cols
  have hi0 : i0 < d1.rows := by simp only [i0, hd1]; split <;> omega
  have hj0 : j0 < d1.cols := by simp only [j0, hd1]; split <;> omega
  refine loop_ub (fun s' => s'.mat x = some d1) hx1 (k0 := d1.index i0 j0)
    ⟨Nat.zero_le _, by rw [Nat.zero_add]; exact MObj.index_lt hi0 hj0⟩ ?_ ?_
  · intro k s' hs'
    unfold mStep mPut
    cases hg : (MNode.transpose (.var x) : MNode E).get s' (d1.unindex k).1 (d1.unindex k).2 with
    | ub u => exact Or.inr ⟨u, by simp only [hg]; rfl⟩
    | throw e =>
      exfalso
      rw [MNode.get, MNode.var_get_eq hs'] at hg
      unfold MObj.get at hg
      split at hg
      · cases hg
      · split at hg
        · unfold Heap.read at hg
          split at hg
          · cases hg
          · split at hg <;> cases hg
        · cases hg
    | ok v =>
      simp only [Out.withVal_ok, State.mobj, hs']
      cases hp : d1.put true s'.heap (d1.unindex k).1 (d1.unindex k).2 v with
      | ub u => exact Or.inr ⟨u, by simp only [hg, Out.withVal_ok, hp]; rfl⟩
      | ok h' => exact Or.inl ⟨{ s' with heap := h' }, by simp only [hg, Out.withVal_ok, hp], hs'⟩
      | throw e =>
        exfalso
        unfold MObj.put at hp
        split at hp
        · cases hp
        · split at hp
          · unfold Heap.write at hp
            split at hp
            · cases hp
            · split at hp
              · cases hp
              · split at hp <;> cases hp
          · cases hp
  · intro s' hs'
    have hu := MObj.unindex_index hi0 hj0
    unfold mStep
    rw [hu]
    have : ∃ u, (MNode.transpose (.var x) : MNode E).get s' i0 j0 = .ub u := by
      rw [MNode.get, MNode.var_get_eq hs']
      unfold MObj.get
      split
      · exact ⟨_, rfl⟩
      · rw [if_neg]
        · exact ⟨_, rfl⟩
        · simp only [i0, j0, hd1]
          split <;> omega
    obtain ⟨u, hu'⟩ := this
    exact ⟨u, by simp only [hu']; rfl⟩

example : ∃ s', mstmtAssign true exM 1 (.transpose (.var 1)) = .ok s' ∧
    (MNode.var 1 : MNode ℤ).get s' 1 0 = .ok 6 ∧ (MNode.var 1 : MNode ℤ).get s' 0 1 = .ok 6 :=
  ⟨_, rfl, rfl, rfl⟩
example : mstmtAssign true exM 2 (.transpose (.var 2)) = .ub .oob := rfl

/-- C09: what is true is that a transpose of something disjoint from the destination is stored correctly.
Missing: the destination itself as operand (false, see above). -/
theorem transpose_assign_partial {triv : Bool} {s : State E} {x y : Nat} {d : MObj}
    (hx : s.mat x = some d) (p : Fin d.cols → Fin d.rows → E) (hp : MRep s (.var y) ⟨d.cols, d.rows, p⟩)
    (hw : d.flat.Ready triv s.heap) (hdis : MDisj s d.flat y) :
    ∃ h', mstmtAssign triv s x (.transpose (.var y)) = .ok { s with heap := h' } ∧
      MRep { s with heap := h' } (.var x) ⟨d.rows, d.cols, fun i j => p j i⟩ ∧
      SameOutside d.flat s.heap h' := by
  obtain ⟨f, hf⟩ := typed_var_m hp.dims
  have hr : MRep s (.transpose (.var y)) ⟨d.rows, d.cols, fun i j => p j i⟩ :=
    ⟨by rw [MNode.dims, hp.dims]; rfl, fun i j => by rw [MNode.get]; exact hp.get j i⟩
  obtain ⟨h', e1, e2, e3, -⟩ := mAssign_ok (triv := triv) hx hr hf.transpose hw
    (show MDisj s d.flat y from hdis)
  exact ⟨h', by simpa [mstmtAssign, MExpr.build] using e1, e2, e3⟩

#print axioms matrix_index_bijection
#print axioms matrix_put_get
#print axioms massign_elementwise
#print axioms mopAssign_elementwise
#print axioms massign_product
#print axioms massign_resizing
#print axioms massign_checked
#print axioms massign_missized
#print axioms mzero_spec
#print axioms midentity_spec
#print axioms mfill_spec
#print axioms mscalAssign_partial
#print axioms mscalAssign_self
#print axioms mscalAssign_false
#print axioms transpose_self_assign
#print axioms transpose_self_assign_false
#print axioms transpose_self_assign_rect_ub
#print axioms transpose_assign_partial

end CML
