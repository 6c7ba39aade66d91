import Verif.Lemmas.MatAccess
import Verif.Lemmas.ExprBuild
import Verif.Props.MatAssign

/-!
C31 (rows, columns, basis vectors), C42 (equality), C81 (compile-time size of basis nodes).
-/

set_option linter.unusedSectionVars false

namespace CML

variable {E : Type} [Add E] [Sub E] [Mul E] [Div E] [Neg E]

/-! ### C31: rows and columns -/

/-- Reading a node whose variables are disjoint from `d` is not affected by changes inside `d`. -/
private theorem vnode_frame {s s' : State E} {d : VObj} (hv : s'.vec = s.vec) (hm : s'.mat = s.mat)
    (ho : SameOutside d s.heap s'.heap) {n : VNode E} (hl : n.Leaves (VDisj s d) (MDisj s d)) {j : Nat}
    {v : E} (h : n.get s j = .ok v) : n.get s' j = .ok v := by
  refine VNode.get_mono ?_ ?_ n hl j v h
  · intro y hy j v h
    rw [VNode.var_get] at h ⊢
    obtain ⟨w, b, h1, h2, h3, h4⟩ := h
    refine ⟨w, b, by rw [hv, h1], h2, h3, ?_⟩
    rw [← h4]
    apply ho
    rintro ⟨q1, q2, q3⟩
    rcases hy w h1 with h | h | h
    · exact h (by rw [h2, q1])
    · omega
    · omega
  · intro y hy i j v h
    rw [MNode.var_get] at h ⊢
    obtain ⟨w, b, h1, h2, h3, h3', h4⟩ := h
    refine ⟨w, b, by rw [hm, h1], h2, h3, h3', ?_⟩
    rw [← h4]
    apply ho
    rintro ⟨q1, q2, q3⟩
    have := MObj.index_lt h3 h3'
    rcases hy w h1 with h | h | h
    · exact h (by rw [h2, q1])
    · omega
    · omega

/-- C31: `row(M, i)` is row `i` and `col(M, j)` is column `j`, for every matrix expression `M`. -/
theorem row_col_spec {s : State E} {m : MNode E} {q : MVal E} (hm : MRep s m q) :
    (∀ i : Fin q.r, VRep s (.row m i) ⟨q.c, fun j => q.f i j⟩) ∧
    (∀ j : Fin q.c, VRep s (.col m j) ⟨q.r, fun i => q.f i j⟩) := by
  refine ⟨fun i => ⟨?_, fun j => ?_⟩, fun j => ⟨?_, fun i => ?_⟩⟩
  · simp [VNode.size, hm.dims]
  · rw [VNode.get]; exact hm.get i j
  · simp [VNode.size, hm.dims]
  · rw [VNode.get]; exact hm.get i j

/-- C31: the index check of `row` and `col` rejects exactly the negative indices. -/
theorem row_col_negative {s : State E} {e : MExpr E} {m : MNode E} (he : e.build s = .ok m) (i : Int) :
    (VExpr.row e i).build s = (if i < 0 then .throw .invalidArgument else .ok (.row m i.toNat)) ∧
    (VExpr.col e i).build s = (if i < 0 then .throw .invalidArgument else .ok (.col m i.toNat)) := by
  by_cases h : i < 0
  · have h' : ¬ 0 ≤ i := by omega
    constructor <;> simp [VExpr.build, he, Res.require, h, h']
  · have h' : 0 ≤ i := by omega
    constructor <;> simp [VExpr.build, he, Res.require, h, h']

/-- C31, shared part of the statements about `set_row` and friends: `s'` differs from `s` only in the
elements of matrix `x` at the positions `P`, which hold the values `g`. -/
structure WroteExactly (s s' : State E) (x : Nat) (d : MObj) (P : Nat → Nat → Prop)
    (g : Nat → Nat → E) : Prop where
  vec : s'.vec = s.vec
  mat : s'.mat = s.mat
  wrote : ∀ i j, P i j → i < d.rows → j < d.cols → (MNode.var x : MNode E).get s' i j = .ok (g i j)
  kept : ∀ i j, ¬ P i j → i < d.rows → j < d.cols →
    (MNode.var x : MNode E).get s' i j = (MNode.var x : MNode E).get s i j
  outside : SameOutside d.flat s.heap s'.heap

/-- C31: `set_row(i, v)` writes exactly row `i`, for every source vector expression that does not read the
matrix itself; likewise for a row of the matrix itself (`SelfRow`). -/
theorem set_row_spec {triv : Bool} {s : State E} {x i : Nat} {d : MObj} (hx : s.mat x = some d)
    (hw : d.flat.Ready triv s.heap) (hi : i < d.rows) {v : VNode E} (p : Fin d.cols → E)
    (hf : ∃ f, v.Typed s f d.cols) (hv : VRep s v ⟨d.cols, p⟩)
    (hl : v.Leaves (VDisj s d.flat) (MDisj s d.flat) ∨ ∃ i', v = .row (.var x) i') :
    ∃ s', mSetRow triv s x i v = .ok s' ∧
      ∀ g : Nat → Nat → E, (∀ j : Fin d.cols, g i j = p j) →
        WroteExactly s s' x d (fun a _ => a = i) g := by
  obtain ⟨f, hf⟩ := hf
  obtain ⟨h', e1, e2, e3, e4, -⟩ := mPutLoop_get (triv := triv) (N := d.cols) hx
    (fun k => (i, k)) (fun k hk => ⟨hi, hk⟩) (fun k l _ _ h => by simpa using h) hw
    (f := fun k s => v.get s k) p
    (by
      intro k s' hv' hm' hout hkeep
      rcases hl with hl | ⟨i', rfl⟩
      · exact vnode_frame hv' hm' hout hl (hv.get k)
      · have h0 := hv.get k
        rw [VNode.get, MNode.var_get_eq hx] at h0
        rw [VNode.get, MNode.var_get_eq (by rw [hm', hx])]
        have hi' : i' < d.rows := (MObj.get_lt h0).1
        rw [← h0]
        refine hkeep i' k hi' k.2 fun l hl h => ?_
        simp only [Prod.mk.injEq] at h
        omega)
  refine ⟨{ s with heap := h' }, ?_, fun g hg => ⟨rfl, rfl, ?_, ?_, e4⟩⟩
  · unfold mSetRow
    have : ((d.cols : Int) == (d.cols : Int)) = true := by simp
    simp only [State.mobj, hx, Out.withVal_ok, hf.fixed,
      hf.chk hv.size (b := d.fixed && f) (by simp +contextual), this, Res.require, if_true]
    exact e1
  · rintro a b rfl ha hb
    rw [MNode.var_get_eq (s := { s with heap := h' }) hx, hg ⟨b, hb⟩]
    exact e2 ⟨b, hb⟩
  · intro a b hne ha hb
    rw [MNode.var_get_eq (s := { s with heap := h' }) hx, MNode.var_get_eq hx]
    refine e3 a b ha hb fun k hk h => hne ?_
    simp only [Prod.mk.injEq] at h
    exact h.1.symm

/-- C31: `set_col(j, v)` writes exactly column `j`. -/
theorem set_col_spec {triv : Bool} {s : State E} {x j : Nat} {d : MObj} (hx : s.mat x = some d)
    (hw : d.flat.Ready triv s.heap) (hj : j < d.cols) {v : VNode E} (p : Fin d.rows → E)
    (hf : ∃ f, v.Typed s f d.rows) (hv : VRep s v ⟨d.rows, p⟩)
    (hl : v.Leaves (VDisj s d.flat) (MDisj s d.flat) ∨ ∃ j', v = .col (.var x) j') :
    ∃ s', mSetCol triv s x j v = .ok s' ∧
      ∀ g : Nat → Nat → E, (∀ i : Fin d.rows, g i j = p i) →
        WroteExactly s s' x d (fun _ b => b = j) g := by
  obtain ⟨f, hf⟩ := hf
  obtain ⟨h', e1, e2, e3, e4, -⟩ := mPutLoop_get (triv := triv) (N := d.rows) hx
    (fun k => (k, j)) (fun k hk => ⟨hk, hj⟩) (fun k l _ _ h => by simpa using h) hw
    (f := fun k s => v.get s k) p
    (by
      intro k s' hv' hm' hout hkeep
      rcases hl with hl | ⟨j', rfl⟩
      · exact vnode_frame hv' hm' hout hl (hv.get k)
      · have h0 := hv.get k
        rw [VNode.get, MNode.var_get_eq hx] at h0
        rw [VNode.get, MNode.var_get_eq (by rw [hm', hx])]
        have hj' : j' < d.cols := (MObj.get_lt h0).2
        rw [← h0]
        refine hkeep k j' k.2 hj' fun l hl h => ?_
        simp only [Prod.mk.injEq] at h
        omega)
  refine ⟨{ s with heap := h' }, ?_, fun g hg => ⟨rfl, rfl, ?_, ?_, e4⟩⟩
  · unfold mSetCol
    have : ((d.rows : Int) == (d.rows : Int)) = true := by simp
    simp only [State.mobj, hx, Out.withVal_ok, hf.fixed,
      hf.chk hv.size (b := d.fixed && f) (by simp +contextual), this, Res.require, if_true]
    exact e1
  · rintro a b rfl ha hb
    rw [MNode.var_get_eq (s := { s with heap := h' }) hx, hg ⟨a, ha⟩]
    exact e2 ⟨a, ha⟩
  · intro a b hne ha hb
    rw [MNode.var_get_eq (s := { s with heap := h' }) hx, MNode.var_get_eq hx]
    refine e3 a b ha hb fun k hk h => hne ?_
    simp only [Prod.mk.injEq] at h
    exact h.2.symm

/-- C31: a source of the wrong size is rejected before anything is written. -/
theorem set_row_col_size {triv : Bool} {s : State E} {x i : Nat} {d : MObj} (hx : s.mat x = some d)
    {v : VNode E} {f : Bool} {n : Int} (hf : v.Typed s f n) (hn : v.size s = .ok n) :
    (n ≠ d.cols → mSetRow triv s x i v
      = .throw (if d.fixed && f then .staticAssert else .matIncompatible) s) ∧
    (n ≠ d.rows → mSetCol triv s x i v
      = .throw (if d.fixed && f then .staticAssert else .matIncompatible) s) := by
  constructor
  · intro h
    have : ((d.cols : Int) == n) = false := by rw [beq_eq_false_iff_ne]; exact fun h' => h h'.symm
    unfold mSetRow
    simp only [State.mobj, hx, Out.withVal_ok, hf.fixed, hf.chk hn (b := d.fixed && f) (by simp +contextual),
      this, Res.require]
    rfl
  · intro h
    have : ((d.rows : Int) == n) = false := by rw [beq_eq_false_iff_ne]; exact fun h' => h h'.symm
    unfold mSetCol
    simp only [State.mobj, hx, Out.withVal_ok, hf.fixed, hf.chk hn (b := d.fixed && f) (by simp +contextual),
      this, Res.require]
    rfl

/-- The restriction of `set_row_spec` is needed: `M.set_row(1, col(M, 0))` reads an element that it has
already overwritten; for `[[1,2],[3,4]]` the row becomes `(1,1)` instead of `(1,3)`. -/
theorem set_row_alias_false :
    ∃ s', mSetRow true exM 0 1 (.col (.var 0) 0) = .ok s' ∧
      VRep exM (.col (.var 0) 0) ⟨2, ![1, 3]⟩ ∧ (MNode.var 0 : MNode ℤ).get s' 1 1 = .ok 1 :=
  ⟨_, rfl, ⟨rfl, fun i => by fin_cases i <;> rfl⟩, rfl⟩

example : ∃ s', mSetRow true exM 0 1 (.var 0) = .ok s' ∧ (MNode.var 0 : MNode ℤ).get s' 1 1 = .ok 20 ∧
    (MNode.var 0 : MNode ℤ).get s' 0 1 = .ok 2 := ⟨_, rfl, rfl, rfl⟩
example : (VNode.var 0 : VNode ℤ).Leaves
    (VDisj exM (⟨.compiled, true, some 0, 0, 2, 2, false, false⟩ : MObj).flat)
    (MDisj exM (⟨.compiled, true, some 0, 0, 2, 2, false, false⟩ : MObj).flat) := by
  rw [VNode.Leaves]
  intro w hw
  have : w = ⟨.compiled, true, some 3, 0, 2⟩ := by
    have h : exM.vec 0 = some ⟨.compiled, true, some 3, 0, 2⟩ := rfl
    rw [h] at hw; cases hw; rfl
  rw [this]; left; simp [MObj.flat]
example : VRep exM (.var 0) ⟨2, ![10, 20]⟩ := exM_agree.v 0 _ rfl

/-! ### C31: basis vectors -/

/-- C31: component `j` of basis vector `i` is element `(i,j)` of a row-basis and `(j,i)` of a column-basis
matrix, and basis dimensions follow. -/
theorem basis_element_spec {s : State E} {x : Nat} {d : MObj} (hx : s.mat x = some d) :
    (d.colBasis = false → mBasisDims s x = .ok (d.rows, d.cols) ∧
      ∀ i j, mBasisElement s x i j = (MNode.var x : MNode E).get s i j) ∧
    (d.colBasis = true → mBasisDims s x = .ok (d.cols, d.rows) ∧
      ∀ i j, mBasisElement s x i j = (MNode.var x : MNode E).get s j i) := by
  constructor <;> intro h <;> simp [mBasisDims, mBasisElement, State.mobj, hx, h]

/-- C31: writing a component of a basis vector and reading it back; every other element and all other
memory keep their contents. -/
theorem set_basis_element_spec {triv : Bool} {s : State E} {x i j : Nat} {d : MObj}
    (hx : s.mat x = some d) (hw : d.flat.Ready triv s.heap) (e : E)
    (hij : if d.colBasis then j < d.rows ∧ i < d.cols else i < d.rows ∧ j < d.cols) :
    ∃ s', mSetBasisElement triv s x i j e = .ok s' ∧ mBasisElement s' x i j = .ok e ∧
      WroteExactly s s' x d
        (fun a b => if d.colBasis then a = j ∧ b = i else a = i ∧ b = j) (fun _ _ => e) := by
  set q : Nat × Nat := if d.colBasis then (j, i) else (i, j) with hq
  have hq1 : q.1 < d.rows ∧ q.2 < d.cols := by
    rw [hq]; split at hij
    · next h => simpa [h] using hij
    · next h => simpa [h] using hij
  obtain ⟨h', e1, e2, e3, e4, -⟩ := mPutLoop_get (triv := triv) (N := 1) hx
    (fun _ => q) (fun k hk => hq1) (fun k l _ _ _ => by omega) hw
    (f := fun k s => .ok e) (fun _ => e) (fun _ _ _ _ _ _ => rfl)
  have e2' := e2 0
  refine ⟨{ s with heap := h' }, ?_, ?_, ⟨rfl, rfl, ?_, ?_, e4⟩⟩
  · simp only [Out.loop, Out.withVal_ok, Out.andThen] at e1
    unfold mSetBasisElement
    simp only [State.mobj, hx, Out.withVal_ok]
    have : (if d.colBasis = true then mPut triv s x j i e else mPut triv s x i j e)
        = mPut triv s x q.1 q.2 e := by
      rw [hq]; split <;> rfl
    rw [this]
    cases hp : mPut triv s x q.1 q.2 e <;> rw [hp] at e1 <;> simpa using e1
  · unfold mBasisElement
    simp only [State.mobj, hx, Res.ok_bind, MNode.var_get_eq (s := { s with heap := h' }) hx]
    rw [← e2', hq]
    split <;> rfl
  · intro a b hP ha hb
    rw [MNode.var_get_eq (s := { s with heap := h' }) hx, ← e2']
    have : q = (a, b) := by
      rw [hq]; split at hP
      · next h => simp [h, hP]
      · next h => simp [h, hP]
    rw [this]
  · intro a b hP ha hb
    rw [MNode.var_get_eq (s := { s with heap := h' }) hx, MNode.var_get_eq hx]
    refine e3 a b ha hb fun k _ h => hP ?_
    rw [hq] at h
    split
    · next hc => simp only [hc, if_true, Prod.mk.injEq] at h; exact ⟨h.1.symm, h.2.symm⟩
    · next hc =>
      simp only [hc, Bool.false_eq_true, if_false, Prod.mk.injEq] at h
      exact ⟨h.1.symm, h.2.symm⟩

/-- C31 for `matrix_set_(transposed_)basis_vector(_2D)` and the corresponding getters (`n = 2` or `3` in
the library): writing vector `i` changes exactly its components, namely row `i` (row basis, not
transposed, or column basis, transposed) or column `i` (otherwise), each up to component `n`; reading
vector `i` back yields `v`. -/
theorem basis_vector_roundtrip {triv transposed : Bool} {n : Nat} {s : State E} {x : Nat} {i : Nat}
    {d : MObj} (hx : s.mat x = some d) (hw : d.flat.Ready triv s.heap) (hin : i < n)
    (hn : n ≤ d.rows ∧ n ≤ d.cols) {v : VNode E} (p : Fin n → E)
    (hf : ∃ f, v.Typed s f n) (hv : VRep s v ⟨n, p⟩)
    (hl : v.Leaves (VDisj s d.flat) (MDisj s d.flat)) :
    ∃ s', mSetBasisVector triv transposed n s x i v = .ok s' ∧
      mGetBasisVector transposed n s' x i = .ok (List.ofFn p) ∧
      ∀ g : Nat → Nat → E,
        (∀ k : Fin n, (if d.colBasis = transposed then g i k else g k i) = p k) →
        WroteExactly s s' x d
          (fun a b => if d.colBasis = transposed then a = i ∧ b < n else b = i ∧ a < n) g := by
  obtain ⟨f, hf⟩ := hf
  set q : Nat → Nat × Nat := fun k => if d.colBasis = transposed then (i, k) else (k, i) with hq
  obtain ⟨h', e1, e2, e3, e4, -⟩ := mPutLoop_get (triv := triv) (N := n) hx q
    (fun k hk => by rw [hq]; dsimp only; split <;> constructor <;> dsimp only <;> omega)
    (fun k l _ _ h => by rw [hq] at h; dsimp only at h; split at h <;> simpa using h) hw
    (f := fun k s => v.get s k) p
    (fun k s' hv' hm' hout _ => vnode_frame hv' hm' hout hl (hv.get k))
  have hi0 : (decide ((0 : Int) ≤ (i : Int)) && decide ((i : Int) ≤ (n : Int) - 1)) = true := by
    simp only [Bool.and_eq_true, decide_eq_true_eq]; omega
  have hnn : (decide (n ≤ d.rows) && decide (n ≤ d.cols)) = true := by
    simp only [Bool.and_eq_true, decide_eq_true_eq]; exact hn
  refine ⟨{ s with heap := h' }, ?_, ?_, fun g hg => ⟨rfl, rfl, ?_, ?_, e4⟩⟩
  · unfold mSetBasisVector
    have hnk : ((n : Int) == (n : Int)) = true := by simp
    simp only [State.mobj, hx, Out.withVal_ok, checkLinear, hnn, Res.require, if_true, hf.fixed,
      hf.chk hv.size id,
      checkSizeC, hnk, hi0, Int.toNat_natCast]
    rw [← e1]
    refine Out.loop_congr_inv (fun s1 => s1.mat = s.mat) rfl ?_ ?_
    · intro k s1 m1
      congr 1
      funext e
      simp only [mSetBasisElement, State.mobj, m1, hx, Out.withVal_ok, hq]
      cases hc : d.colBasis <;> cases ht : transposed <;> rfl
    · intro k s1 s2 m1 hs2
      cases hg : v.get s1 k with
      | ok e => simp only [hg, Out.withVal_ok] at hs2; rw [mPut_mat hs2, m1]
      | throw e => simp [hg, Out.withVal] at hs2
      | ub u => simp [hg, Out.withVal] at hs2
  · unfold mGetBasisVector
    simp only [State.mobj, hx, checkLinear, hnn, Res.require, if_true, hi0, Res.ok_bind,
      Int.toNat_natCast]
    have key : ∀ k : Fin n, (if transposed = true then mBasisElement { s with heap := h' } x k i
        else mBasisElement { s with heap := h' } x i k) = .ok (p k) := by
      intro k
      have h1 := e2 k
      rw [hq] at h1
      dsimp only at h1
      cases hc : d.colBasis <;> cases ht : transposed <;>
        simp only [hc, ht, mBasisElement, State.mobj, hx, Res.ok_bind,
          MNode.var_get_eq (s := { s with heap := h' }) hx, if_true, Bool.false_eq_true, if_false,
          reduceCtorEq] at h1 ⊢ <;> exact h1
    cases transposed
    · simp only [Bool.false_eq_true, if_false] at key ⊢
      exact loop_collect p key
    · simp only [if_true] at key ⊢
      exact loop_collect p key
  · intro a b hP ha hb
    rw [MNode.var_get_eq (s := { s with heap := h' }) hx]
    split at hP
    · next hc =>
      obtain ⟨rfl, hb'⟩ := hP
      have := e2 ⟨b, hb'⟩
      have hg' := hg ⟨b, hb'⟩
      rw [hq] at this
      simp only [hc, if_true] at this hg'
      rw [hg']; exact this
    · next hc =>
      obtain ⟨rfl, ha'⟩ := hP
      have := e2 ⟨a, ha'⟩
      have hg' := hg ⟨a, ha'⟩
      rw [hq] at this
      simp only [if_neg hc] at this hg'
      rw [hg']; exact this
  · intro a b hP ha hb
    rw [MNode.var_get_eq (s := { s with heap := h' }) hx, MNode.var_get_eq hx]
    refine e3 a b ha hb fun k hk h => hP ?_
    rw [hq] at h
    dsimp only at h
    split at h
    · next hc => rw [if_pos hc]; simp only [Prod.mk.injEq] at h; omega
    · next hc => rw [if_neg hc]; simp only [Prod.mk.injEq] at h; omega

/-- C31: the checks of the basis vector functions: matrix at least `n × n`, index within `0 … n-1`, vector
of size `n`; a violation is reported before anything is written: `std::invalid_argument` exactly if only the
index is wrong, a size error otherwise. -/
theorem basis_vector_errors {triv transposed : Bool} {n : Nat} {s : State E} {x : Nat} {i : Int}
    {d : MObj} (hx : s.mat x = some d) {v : VNode E} {f : Bool} {k : Int} (hf : v.Typed s f k)
    (hk : v.size s = .ok k) :
    (d.rows < n ∨ d.cols < n ∨ k ≠ n ∨ i < 0 ∨ n ≤ i →
      ∃ er, mSetBasisVector triv transposed n s x i v = .throw er s ∧
        (n ≤ d.rows ∧ n ≤ d.cols ∧ k = n → er = .invalidArgument) ∧
        (¬(n ≤ d.rows ∧ n ≤ d.cols ∧ k = n) → er = .matMinimum ∨ er = .vecSize ∨ er = .staticAssert)) ∧
    (d.rows < n ∨ d.cols < n ∨ i < 0 ∨ n ≤ i →
      ∃ er, mGetBasisVector transposed n s x i = .throw er ∧
        (n ≤ d.rows ∧ n ≤ d.cols → er = .invalidArgument) ∧
        (¬(n ≤ d.rows ∧ n ≤ d.cols) → er = .matMinimum ∨ er = .staticAssert)) := by
  constructor
  · intro h
    unfold mSetBasisVector
    simp only [State.mobj, hx, Out.withVal_ok, checkLinear, hf.fixed, hf.chk hk id, checkSizeC,
      Res.require]
    by_cases h1 : n ≤ d.rows ∧ n ≤ d.cols
    · have h1' : (decide (n ≤ d.rows) && decide (n ≤ d.cols)) = true := by simpa using h1
      simp only [h1', if_true, Out.withVal_ok]
      by_cases h2 : k = n
      · have h2' : (k == (n : Int)) = true := by simpa using h2
        have h3' : (decide (0 ≤ i) && decide (i ≤ (n : Int) - 1)) = false := by
          simp only [Bool.and_eq_false_iff, decide_eq_false_iff_not]; omega
        simp only [h2', if_true, Out.withVal_ok, h3']
        exact ⟨_, rfl, fun _ => rfl, fun hn => absurd ⟨h1.1, h1.2, h2⟩ hn⟩
      · have h2' : (k == (n : Int)) = false := by simpa using h2
        simp only [h2']
        exact ⟨_, rfl, fun hn => absurd hn.2.2 h2, fun _ => by split <;> simp⟩
    · have h1' : (decide (n ≤ d.rows) && decide (n ≤ d.cols)) = false := by
        simp only [Bool.and_eq_false_iff, decide_eq_false_iff_not]; omega
      simp only [h1']
      exact ⟨_, rfl, fun hn => absurd ⟨hn.1, hn.2.1⟩ h1, fun _ => by split <;> simp⟩
  · intro h
    unfold mGetBasisVector
    simp only [State.mobj, hx, Res.ok_bind, checkLinear, Res.require]
    by_cases h1 : n ≤ d.rows ∧ n ≤ d.cols
    · have h1' : (decide (n ≤ d.rows) && decide (n ≤ d.cols)) = true := by simpa using h1
      have h3' : (decide (0 ≤ i) && decide (i ≤ (n : Int) - 1)) = false := by
        simp only [Bool.and_eq_false_iff, decide_eq_false_iff_not]; omega
      simp only [h1', if_true, Res.ok_bind, h3']
      exact ⟨_, rfl, fun _ => rfl, fun hn => absurd h1 hn⟩
    · have h1' : (decide (n ≤ d.rows) && decide (n ≤ d.cols)) = false := by
        simp only [Bool.and_eq_false_iff, decide_eq_false_iff_not]; omega
      simp only [h1']
      exact ⟨_, rfl, fun hn => absurd hn h1, fun _ => by split <;> simp⟩

example : ∃ s', mSetBasisVector true false 2 exM 1 1 (.var 0) = .ok s' ∧
    (MNode.var 1 : MNode ℤ).get s' 0 1 = .ok 10 ∧ (MNode.var 1 : MNode ℤ).get s' 1 1 = .ok 20 ∧
    mGetBasisVector false 2 s' 1 1 = .ok [10, 20] := ⟨_, rfl, rfl, rfl, rfl⟩

/-! ### C42: equality -/

section Eq
variable [LinearOrder E]

private theorem mEqRow_ok {a b : Nat → Res E} {f g : Nat → E} {lo n : Nat}
    (ha : ∀ k, lo ≤ k → k < lo + n → a k = .ok (f k)) (hb : ∀ k, lo ≤ k → k < lo + n → b k = .ok (g k)) :
    ∃ r, mEqRow a b lo n = .ok r ∧ (r = true ↔ ∀ k, lo ≤ k → k < lo + n → f k = g k) := by
  induction n generalizing lo with
  | zero => exact ⟨true, rfl, by simp; intro k h1 h2; omega⟩
  | succ n ih =>
    obtain ⟨r, h1, h2⟩ := ih (lo := lo + 1) (fun k h1 h2 => ha k (by omega) (by omega))
      (fun k h1 h2 => hb k (by omega) (by omega))
    simp only [mEqRow, ha lo le_rfl (by omega), hb lo le_rfl (by omega), Res.ok_bind]
    rcases lt_trichotomy (f lo) (g lo) with h | h | h
    · exact ⟨false, by simp [h], by simp; exact ⟨lo, le_rfl, by omega, h.ne⟩⟩
    · refine ⟨r, by simp [h, h1], ?_⟩
      rw [h2]
      constructor
      · intro hh k hk1 hk2
        rcases Nat.eq_or_lt_of_le hk1 with hk | hk
        · rw [← hk, h]
        · exact hh k hk (by omega)
      · intro hh k hk1 hk2; exact hh k (by omega) (by omega)
    · exact ⟨false, by simp [h, not_lt.mpr h.le], by simp; exact ⟨lo, le_rfl, by omega, h.ne'⟩⟩

private theorem mEqRows_ok {a b : Nat → Nat → Res E} {f g : Nat → Nat → E} {c lo n : Nat}
    (ha : ∀ k j, lo ≤ k → k < lo + n → j < c → a k j = .ok (f k j))
    (hb : ∀ k j, lo ≤ k → k < lo + n → j < c → b k j = .ok (g k j)) :
    ∃ r, mEqRows a b c lo n = .ok r ∧
      (r = true ↔ ∀ k j, lo ≤ k → k < lo + n → j < c → f k j = g k j) := by
  induction n generalizing lo with
  | zero => exact ⟨true, rfl, by simp; intro k _ h1 h2; omega⟩
  | succ n ih =>
    obtain ⟨r, h1, h2⟩ := ih (lo := lo + 1) (fun k j h1 h2 => ha k j (by omega) (by omega))
      (fun k j h1 h2 => hb k j (by omega) (by omega))
    obtain ⟨r', q1, q2⟩ := mEqRow_ok (a := a lo) (b := b lo) (f := f lo) (g := g lo) (lo := 0) (n := c)
      (fun k _ h => ha lo k le_rfl (by omega) (by omega))
      (fun k _ h => hb lo k le_rfl (by omega) (by omega))
    simp only [mEqRows, q1, Res.ok_bind]
    cases r' with
    | false =>
      refine ⟨false, rfl, ?_⟩
      simp only [Bool.false_eq_true, false_iff]
      intro hh
      have := q2.mpr (fun k _ hk => hh lo k le_rfl (by omega) (by omega))
      simp at this
    | true =>
      refine ⟨r, by simp [h1], ?_⟩
      rw [h2]
      have q3 := q2.mp rfl
      constructor
      · intro hh k j hk1 hk2 hj
        rcases Nat.eq_or_lt_of_le hk1 with hk | hk
        · rw [← hk]; exact q3 j (by omega) (by omega)
        · exact hh k j hk (by omega) hj
      · intro hh k j hk1 hk2 hj; exact hh k j (by omega) (by omega) hj

variable {s : State E} {a b : MNode E}

/-- C42: `a == b` answers whether dimensions and all elements agree, for all matrix expressions in any
layouts; `a != b` is the negation. -/
theorem meq_iff {p q : MVal E} (ha : MRep s a p) (hb : MRep s b q) :
    ∃ r, mEq s a b = .ok r ∧ mNe s a b = .ok (!r) ∧ (r = true ↔ p = q) := by
  obtain ⟨r, c, f⟩ := p
  obtain ⟨r', c', g⟩ := q
  by_cases hd : r = r' ∧ c = c'
  · obtain ⟨rfl, rfl⟩ := hd
    -- extend the element functions to the naturals
    let F : Nat → Nat → Res E := fun i j => a.get s i j
    let G : Nat → Nat → Res E := fun i j => b.get s i j
    by_cases h0 : 0 < r ∧ 0 < c
    · let e : E := f ⟨0, h0.1⟩ ⟨0, h0.2⟩
      let f' : Nat → Nat → E := fun i j => if h : i < r ∧ j < c then f ⟨i, h.1⟩ ⟨j, h.2⟩ else e
      let g' : Nat → Nat → E := fun i j => if h : i < r ∧ j < c then g ⟨i, h.1⟩ ⟨j, h.2⟩ else e
      obtain ⟨z, h1, h2⟩ := mEqRows_ok (a := F) (b := G) (f := f') (g := g') (c := c) (lo := 0) (n := r)
        (fun k j _ hk hj => by
          have : k < r ∧ j < c := ⟨by omega, hj⟩
          simp only [f', this, and_self, dif_pos]
          exact ha.get ⟨k, this.1⟩ ⟨j, hj⟩)
        (fun k j _ hk hj => by
          have : k < r ∧ j < c := ⟨by omega, hj⟩
          simp only [g', this, and_self, dif_pos]
          exact hb.get ⟨k, this.1⟩ ⟨j, hj⟩)
      have e1 : mEq s a b = .ok z := by
        unfold mEq
        simp only [ha.dims, hb.dims, Res.ok_bind, ne_eq, not_true_eq_false, if_false, Int.toNat_natCast]
        exact h1
      refine ⟨z, e1, by simp [mNe, e1], ?_⟩
      rw [h2]
      constructor
      · intro hh
        congr 1
        funext i j
        have := hh i j (Nat.zero_le _) (by omega) j.2
        simpa [f', g', i.2, j.2] using this
      · intro hh k j _ hk hj
        simp only [MVal.mk.injEq, heq_eq_eq, true_and] at hh
        simp only [f', g', hh]
    · -- no elements
      have e1 : mEq s a b = .ok true := by
        obtain ⟨z, h1, h2⟩ : ∃ z, mEqRows F G c 0 r = .ok z ∧ z = true := by
          rcases Nat.eq_zero_or_pos r with hr | hr
          · rw [hr]; exact ⟨_, rfl, rfl⟩
          · have hc : c = 0 := by omega
            rw [hc]
            have : ∀ lo n, mEqRows F G 0 lo n = .ok true := by
              intro lo n
              induction n generalizing lo with
              | zero => rfl
              | succ n ih => simp [mEqRows, mEqRow, ih]
            exact ⟨_, this _ _, rfl⟩
        unfold mEq
        simp only [ha.dims, hb.dims, Res.ok_bind, ne_eq, not_true_eq_false, if_false, Int.toNat_natCast]
        rw [← h2]; exact h1
      refine ⟨true, e1, by simp [mNe, e1], ?_⟩
      simp only [true_iff]
      congr 1
      funext i j
      exact absurd ⟨i.pos, j.pos⟩ h0
  · have e1 : mEq s a b = .ok false := by
      unfold mEq
      have : ((r : Int), (c : Int)) ≠ ((r' : Int), (c' : Int)) := by
        simp only [ne_eq, Prod.mk.injEq]; omega
      simp only [ha.dims, hb.dims, Res.ok_bind, if_pos this, Res.pure_eq]
    refine ⟨false, e1, by simp [mNe, e1], ?_⟩
    simp only [Bool.false_eq_true, false_iff]
    intro h
    simp only [MVal.mk.injEq] at h
    exact hd ⟨h.1, h.2.1⟩

/-- C42: `==` is reflexive, symmetric and transitive. -/
theorem meq_equivalence {c : MNode E} {p q t : MVal E} (ha : MRep s a p) (hb : MRep s b q)
    (hc : MRep s c t) :
    mEq s a a = .ok true ∧ mEq s a b = mEq s b a ∧
    (mEq s a b = .ok true → mEq s b c = .ok true → mEq s a c = .ok true) := by
  obtain ⟨r1, e1, -, f1⟩ := meq_iff ha ha
  obtain ⟨r2, e2, -, f2⟩ := meq_iff ha hb
  obtain ⟨r3, e3, -, f3⟩ := meq_iff hb ha
  obtain ⟨r4, e4, -, f4⟩ := meq_iff hb hc
  obtain ⟨r5, e5, -, f5⟩ := meq_iff ha hc
  refine ⟨by rw [e1, f1.mpr rfl], ?_, ?_⟩
  · rw [e2, e3, Res.ok.injEq, Bool.eq_iff_iff, f2, f3]
    exact eq_comm
  · rw [e2, e4, e5]
    simp only [Res.ok.injEq]
    intro h1 h2
    exact f5.mpr ((f2.mp h1).trans (f4.mp h2))

end Eq

example : MRep exM (.var 0) ⟨2, 2, ![![1, 2], ![3, 4]]⟩ := exM_agree.m 0 _ rfl
example : mEq exM (.var 0) (.transpose (.transpose (.var 0))) = .ok true := by decide +kernel
example : mEq exM (.var 0) (.var 1) = .ok false := by decide +kernel
example : mNe exM (.var 0) (.var 2) = .ok true := by decide +kernel

/-! ### C81: compile-time size of basis nodes -/

/-- C81: the constant equals the run-time size exactly for row-basis and square matrices. -/
theorem basis_node_size_iff {s : State E} {x : Nat} {d : MObj} (hx : s.mat x = some d) {i : Int}
    (hi : 0 ≤ i) :
    mBasisNode s x i = .ok (basisNodeArraySize d) ↔ d.colBasis = false ∨ d.rows = d.cols := by
  have : decide (0 ≤ i) = true := by simpa using hi
  unfold mBasisNode mBasisDims basisNodeArraySize
  simp only [State.mobj, hx, Res.ok_bind, this, Res.require, if_true, Res.pure_eq]
  cases d.colBasis <;> simp

/-- C81 for row-basis or square matrices.  Missing: non-square column-basis matrices, for which the claim is
false (`basis_node_size_false`). -/
theorem basis_node_size_partial {s : State E} {x : Nat} {d : MObj} (hx : s.mat x = some d) {i : Int}
    (hi : 0 ≤ i) (h : d.colBasis = false ∨ d.rows = d.cols) :
    mBasisNode s x i = .ok (basisNodeArraySize d) := (basis_node_size_iff hx hi).mpr h

/-- C81 is false: a fixed 3×2 column-basis matrix has basis vectors of size 3, but the constant is 2. -/
theorem basis_node_size_false :
    ¬ ∀ (s : State ℤ) (x : Nat) (d : MObj) (i : Int), s.mat x = some d → d.fixed = true → 0 ≤ i →
      i < d.cols → mBasisNode s x i = .ok (basisNodeArraySize d) := by
  intro h
  have := h (demo [[some 1, some 2, some 3, some 4, some 5, some 6]] []
    [⟨.compiled, true, some 0, 0, 3, 2, true, true⟩]) 0 _ 0 rfl rfl (by decide) (by decide)
  simp [mBasisNode, mBasisDims, basisNodeArraySize, State.mobj, demo, Res.require] at this

example : exM.mat 1 = some ⟨.compiled, true, some 1, 0, 2, 2, true, true⟩ := rfl

#print axioms row_col_spec
#print axioms row_col_negative
#print axioms set_row_spec
#print axioms set_col_spec
#print axioms set_row_col_size
#print axioms set_row_alias_false
#print axioms basis_element_spec
#print axioms set_basis_element_spec
#print axioms basis_vector_roundtrip
#print axioms basis_vector_errors
#print axioms meq_iff
#print axioms meq_equivalence
#print axioms basis_node_size_iff
#print axioms basis_node_size_partial
#print axioms basis_node_size_false

end CML
