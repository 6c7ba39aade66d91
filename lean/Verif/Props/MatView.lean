import Verif.Lemmas.MatView
import Verif.Props.MatAssign

/-!
C103: external matrices are views of memory owned by somebody else.  C104: compound assignment of matrices of
different dimensions.
-/

set_option linter.unusedSectionVars false

namespace CML

variable {E : Type} [Add E] [Sub E] [Mul E] [Div E] [Neg E]

/-! ### C103: construction -/

/-- C103.  Construction of a view from a pointer and dimensions fails exactly for negative dimensions (and
then creates nothing); otherwise element `(i,j)` of the view is the memory cell with the storage index of
`(i,j)`, and the view can be resized.  Memory and all other variables stay as they are. -/
theorem mview_ctor (colMajor colBasis : Bool) (s : State E) (x b off : Nat) (r c : Int) :
    (¬ (0 ≤ r ∧ 0 ≤ c) ∧ mView colMajor colBasis s x b off r c = .throw .invalidArgument (s.setMat x none)) ∨
      (0 ≤ r ∧ 0 ≤ c) ∧ ∃ s', mView colMajor colBasis s x b off r c = .ok s' ∧ s'.heap = s.heap ∧
        s'.vec = s.vec ∧ (∀ y, y ≠ x → s'.mat y = s.mat y) ∧ (MNode.var x : MNode E).dims s' = .ok (r, c) ∧
        (∃ d, s'.mat x = some d ∧ ¬ d.Rigid ∧ d.colMajor = colMajor ∧ d.colBasis = colBasis) ∧
        ∀ i j : Nat, (i : Int) < r → (j : Int) < c → (MNode.var x : MNode E).get s' i j
          = s.heap.read b (off + if colMajor then j * r.toNat + i else i * c.toNat + j) := by
  by_cases h1 : r < 0
  · exact .inl ⟨by omega, by simp [mView, h1]⟩
  by_cases h2 : c < 0
  · exact .inl ⟨by omega, by simp [mView, h1, h2]⟩
  right
  refine ⟨by omega, s.setMat x (some ⟨.external, false, some b, off, r.toNat, c.toNat, colMajor, colBasis⟩),
    by simp only [mView, h1, h2, if_false], rfl, rfl, ?_, ?_, ⟨_, if_pos rfl, by simp [MObj.Rigid], rfl, rfl⟩, ?_⟩
  · intro y hy; simp [State.setMat, hy]
  · simp only [MNode.dims, State.mobj, State.setMat, if_true, Res.ok_bind, Res.pure_eq, Res.ok.injEq,
      Prod.mk.injEq]
    omega
  · intro i j hi hj
    have hi' : i < r.toNat := by omega
    have hj' : j < c.toNat := by omega
    simp [MNode.get, State.mobj, State.setMat, MObj.get, MObj.index, hi', hj']

/-- C103.  A view of the two-dimensional array `a` of type `E[n1][n2]` (at `off` in block `b`): a row-major
view is the `n1 × n2` matrix with elements `a[i][j]`, a column-major view is the `n2 × n1` matrix with
elements `a[j][i]`.  The same holds for views with compile-time dimensions; these cannot be resized, the others
can. -/
theorem mview_array (colMajor colBasis : Bool) (s : State E) (x b off n1 n2 : Nat) (a : Fin n1 → Fin n2 → E)
    (ha : ∀ (k : Fin n1) (l : Fin n2), s.heap.cell b (off + k * n2 + l) = some (some (a k l))) :
    ∃ s1 s2, mViewArray colMajor colBasis s x b off n1 n2 = .ok s1 ∧
      mViewFixed colMajor colBasis s x b off (if colMajor then n2 else n1) (if colMajor then n1 else n2) = .ok s2 ∧
      (s1.heap = s.heap ∧ s2.heap = s.heap) ∧ (∃ d1 d2 : MObj, s1.mat x = some d1 ∧ s2.mat x = some d2 ∧
        ¬ d1.Rigid ∧ d2.Rigid ∧ (d1.colMajor, d1.colBasis) = (colMajor, colBasis) ∧
        (d2.colMajor, d2.colBasis) = (colMajor, colBasis)) ∧
      MRep s1 (.var x) (if colMajor then ⟨n2, n1, fun i j => a j i⟩ else ⟨n1, n2, a⟩) ∧
      MRep s2 (.var x) (if colMajor then ⟨n2, n1, fun i j => a j i⟩ else ⟨n1, n2, a⟩) := by
  refine ⟨_, _, rfl, rfl, ⟨rfl, rfl⟩, ⟨_, _, if_pos rfl, if_pos rfl, by simp [MObj.Rigid], by simp [MObj.Rigid],
    rfl, rfl⟩, ?_, ?_⟩ <;> cases colMajor
  all_goals
    refine ⟨by simp [MNode.dims, State.mobj, State.setMat], fun i j => ?_⟩
    rw [MNode.var_get]
    refine ⟨_, b, by simp only [State.setMat, if_true]; rfl, rfl, i.2, j.2, ?_⟩
    have hij := ha
    first
      | (have := ha i j; simpa [MObj.index, State.setMat, Nat.add_assoc] using this)
      | (have := ha j i; simpa [MObj.index, State.setMat, Nat.add_assoc] using this)

/-- A 2 × 3 array read row-major and column-major. -/
def exA : State ℤ := demo [[some 1, some 2, some 3, some 4, some 5, some 6]] [] []

example := mview_array true false exA 0 0 0 2 3 (fun k l => 3 * k + l + 1)
  (fun k l => by fin_cases k <;> fin_cases l <;> rfl)
example : ∃ s', mViewArray true false exA 0 0 0 2 3 = .ok s' ∧ (MNode.var 0 : MNode ℤ).dims s' = .ok (3, 2) ∧
    (MNode.var 0 : MNode ℤ).get s' 2 0 = .ok 3 ∧ (MNode.var 0 : MNode ℤ).get s' 0 1 = .ok 4 :=
  ⟨_, rfl, rfl, rfl, rfl⟩
example : ∃ s', mView true false exA 0 0 1 2 2 = .ok s' ∧ (MNode.var 0 : MNode ℤ).get s' 1 0 = .ok 3 :=
  ⟨_, rfl, rfl⟩
example : mView true false exA 0 0 0 2 (-1) = .throw .invalidArgument (exA.setMat 0 none) := rfl

/-! ### C103: assignment writes through -/

/-- C103.  Assigning a matrix of the same dimensions to a view (or to the owner of viewed memory) changes what
every other object over the same memory reads: any matrix element and any vector element located where
element `(i,j)` of the destination is stored becomes element `(i,j)` of the assigned value. -/
theorem mview_assign_through {triv : Bool} {s : State E} {ρ : Env E} (hA : Agree s ρ) {x : Nat}
    {d : MObj} (hx : s.mat x = some d) (e : MExpr E) (hc : e.Regular s)
    (p : Fin d.rows → Fin d.cols → E) (hp : e.den ρ = some ⟨d.rows, d.cols, p⟩)
    (hw : d.flat.Ready triv s.heap)
    (hal : e.Ahead (MAhead s d) (VDisj s d.flat) (MDisj s d.flat)) :
    ∃ s', mstmtAssign triv s x e = .ok s' ∧ s'.mat = s.mat ∧ s'.vec = s.vec ∧
      (∀ z m, s.mat z = some m → m.data = d.data → ∀ (i : Fin d.rows) (j : Fin d.cols) (k l : Nat),
        k < m.rows → l < m.cols →
        m.off + (if m.colMajor then l * m.rows + k else k * m.cols + l)
          = d.off + (if d.colMajor then j * d.rows + i else i * d.cols + j) →
        (MNode.var z : MNode E).get s' k l = .ok (p i j)) ∧
      (∀ z v, s.vec z = some v → v.data = d.data → ∀ (i : Fin d.rows) (j : Fin d.cols) (k : Nat), k < v.size →
        v.off + k = d.off + (if d.colMajor then j * d.rows + i else i * d.cols + j) →
        (VNode.var z : VNode E).get s' k = .ok (p i j)) := by
  obtain ⟨h', e1, e2, -⟩ := massign_elementwise (triv := triv) hA hx e hc p hp hw hal
  refine ⟨_, e1, rfl, rfl, ?_, ?_⟩
  · intro z m hz hd i j k l hk hl he
    have hg := e2.get i j
    rw [MNode.var_get] at hg ⊢
    obtain ⟨d', b, g1, g2, g3, g4, g5⟩ := hg
    have g1 : s.mat x = some d' := g1
    rw [hx] at g1; cases g1
    refine ⟨m, b, hz, by rw [hd, g2], hk, hl, ?_⟩
    rw [← g5]
    congr 1
  · intro z v hz hd i j k hk he
    have hg := e2.get i j
    rw [MNode.var_get] at hg
    rw [VNode.var_get]
    obtain ⟨d', b, g1, g2, g3, g4, g5⟩ := hg
    have g1 : s.mat x = some d' := g1
    rw [hx] at g1; cases g1
    refine ⟨v, b, hz, by rw [hd, g2], hk, ?_⟩
    rw [← g5]
    congr 1

/-- A 2 × 3 owner `m0`, row- and column-major views `m1`, `m2` of its memory (`m2` is 3 × 2), a fixed-size
view `m3` of the first four elements, a 3 × 2 matrix `m4` and a 2 × 2 matrix `m5`. -/
def exW : State ℤ :=
  demo [[some 1, some 2, some 3, some 4, some 5, some 6], [some 10, some 20, some 30, some 40, some 50, some 60],
      [some 7, some 8, some 9, some 10]]
    [⟨.external, false, some 0, 2, 3⟩]
    [⟨.compiled, true, some 0, 0, 2, 3, false, false⟩, ⟨.external, false, some 0, 0, 2, 3, false, false⟩,
      ⟨.external, false, some 0, 0, 3, 2, true, false⟩, ⟨.external, true, some 0, 0, 2, 2, false, false⟩,
      ⟨.compiled, true, some 1, 0, 3, 2, false, false⟩, ⟨.compiled, true, some 2, 0, 2, 2, false, false⟩]

def exWρ : Env ℤ :=
  ⟨fun x => match x with
    | 0 => some ⟨3, ![3, 4, 5]⟩
    | _ => none,
   fun x => match x with
    | 0 => some ⟨2, 3, ![![1, 2, 3], ![4, 5, 6]]⟩
    | 1 => some ⟨2, 3, ![![1, 2, 3], ![4, 5, 6]]⟩
    | 2 => some ⟨3, 2, ![![1, 4], ![2, 5], ![3, 6]]⟩
    | 3 => some ⟨2, 2, ![![1, 2], ![3, 4]]⟩
    | 4 => some ⟨3, 2, ![![10, 20], ![30, 40], ![50, 60]]⟩
    | 5 => some ⟨2, 2, ![![7, 8], ![9, 10]]⟩
    | _ => none⟩

theorem exW_agree : Agree exW exWρ := by
  constructor
  · intro x p h
    match x, h with
    | 0, h =>
      simp only [exWρ, Option.some.injEq] at h
      subst h
      exact ⟨rfl, fun i => by fin_cases i <;> rfl⟩
    | n + 1, h => simp [exWρ] at h
  · intro x p h
    match x, h with
    | 0, h | 1, h | 2, h | 3, h | 4, h | 5, h =>
      simp only [exWρ, Option.some.injEq] at h
      subst h
      exact ⟨rfl, fun i j => by fin_cases i <;> fin_cases j <;> rfl⟩
    | n + 6, h => simp [exWρ] at h

theorem exW_ready : (⟨.external, false, some 0, 0, 3, 2, true, false⟩ : MObj).flat.Ready true exW.heap := by
  intro k hk
  have hk : k < 3 * 2 := hk
  refine ⟨0, rfl, ?_⟩
  interval_cases k <;> exact ⟨_, rfl, .inl rfl⟩

example := mview_assign_through (triv := true) exW_agree (x := 2) rfl (.var 4) trivial _ rfl exW_ready
  (by intro w hw; cases hw; exact .inl (.inl (by simp [MObj.flat])))
/-- The owner sees the transposed value. -/
example : ∃ s', mstmtAssign true exW 2 (.var 4) = .ok s' ∧ (MNode.var 0 : MNode ℤ).get s' 0 2 = .ok 50 ∧
    (VNode.var 0 : VNode ℤ).get s' 1 = .ok 20 := ⟨_, rfl, rfl, rfl⟩

/-! ### C103: resizing, moving and swapping views -/

/-- C103.  `resize(r, c)` of a view: negative dimensions give `std::invalid_argument`, a different number of
elements gives `matrix_size_error` (nothing is changed in either case); otherwise the view gets the new
dimensions, memory is not touched, and the elements keep their places in the storage. -/
theorem mview_resize {s : State E} {x : Nat} {d : MObj} (hx : s.mat x = some d) (r c : Int) :
    (¬ (0 ≤ r ∧ 0 ≤ c) ∧ mReshape s x r c = .throw .invalidArgument s) ∨
      ((0 ≤ r ∧ 0 ≤ c) ∧ r * c ≠ d.rows * d.cols ∧ mReshape s x r c = .throw .matSize s) ∨
      ((0 ≤ r ∧ 0 ≤ c) ∧ r * c = d.rows * d.cols ∧ ∃ s', mReshape s x r c = .ok s' ∧ s'.heap = s.heap ∧
        s'.vec = s.vec ∧ (∀ y, y ≠ x → s'.mat y = s.mat y) ∧ (MNode.var x : MNode E).dims s' = .ok (r, c) ∧
        ∀ q : Fin d.rows → Fin d.cols → E, MRep s (.var x) ⟨d.rows, d.cols, q⟩ →
          ∃ q' : Fin r.toNat → Fin c.toNat → E, SameSequence d.colMajor q q' ∧
            MRep s' (.var x) ⟨r.toNat, c.toNat, q'⟩) := by
  rw [mReshape_eq hx]
  by_cases h : r < 0 ∨ c < 0
  · exact .inl ⟨by omega, if_pos h⟩
  right
  rw [if_neg h]
  obtain ⟨r, rfl⟩ := Int.eq_ofNat_of_zero_le (a := r) (by omega)
  obtain ⟨c, rfl⟩ := Int.eq_ofNat_of_zero_le (a := c) (by omega)
  simp only [Int.toNat_natCast]
  have hcast : ((r : Int) * c = d.rows * d.cols) ↔ r * c = d.rows * d.cols := by norm_cast
  by_cases he : r * c = d.rows * d.cols
  · right
    refine ⟨by omega, hcast.2 he, _, if_pos he, rfl, rfl, ?_, ?_, fun q hq => mrep_withDims hx he hq⟩
    · intro y hy; simp [State.setMat, hy]
    · simp [MNode.dims, State.mobj, State.setMat, MObj.withDims]
  · left
    exact ⟨by omega, fun h => he (hcast.1 h), if_neg he⟩

/-- Two views of the same type: same storage, kind of dimensions (and dimensions, if they are template
parameters), layout and basis. -/
def MObj.SameType (m w : MObj) : Prop :=
  m.storage = w.storage ∧ m.fixed = w.fixed ∧ m.colMajor = w.colMajor ∧ m.colBasis = w.colBasis ∧
    (m.fixed = true → m.rows = w.rows ∧ m.cols = w.cols)

/-- C103.  Moving a view to another one rebinds the destination to the memory of the source and clears the
source; no memory is read or written and no other variable changes.  The same holds for construction by
moving. -/
theorem mview_move {s : State E} {x y : Nat} {m w : MObj} (hxy : x ≠ y) (hx : s.mat x = some m)
    (hy : s.mat y = some w) (ht : m.SameType w) :
    ∃ s', mViewMove s x y = .ok s' ∧ mViewMoveNew s x y = .ok s' ∧ s'.heap = s.heap ∧ s'.vec = s.vec ∧
      s'.mat x = some w ∧ s'.mat y = some w.nulled ∧ ∀ z, z ≠ x → z ≠ y → s'.mat z = s.mat z := by
  obtain ⟨h1, h2, h3, h4, -⟩ := ht
  have e : ({ m with data := w.data, off := w.off, rows := w.rows, cols := w.cols } : MObj) = w := by
    cases m; cases w; simp_all
  refine ⟨(s.setMat x (some w)).setMat y (some w.nulled), ?_, ?_, rfl, rfl, ?_, ?_, ?_⟩
  · simp only [mViewMove, State.mobj, hx, hy, Out.withVal_ok, e]
  · simp only [mViewMoveNew, State.mobj, hy, Out.withVal_ok]
  · simp [State.setMat, hxy]
  · simp [State.setMat]
  · intro z hz hz'; simp [State.setMat, hz, hz']

/-- C103.  A cleared view has no memory: reading any element of it is not defined. -/
theorem mview_nulled {s : State E} {x : Nat} {m : MObj} (hx : s.mat x = some m) :
    ∃ s', mViewReset s x = .ok s' ∧ s'.heap = s.heap ∧ s'.mat x = some m.nulled ∧
      (m.fixed = false → (MNode.var x : MNode E).dims s' = .ok (0, 0)) ∧
      ∀ i j, (MNode.var x : MNode E).get s' i j = .ub .dead := by
  refine ⟨s.setMat x (some m.nulled), by simp [mViewReset, State.mobj, hx], rfl, by simp [State.setMat], ?_, ?_⟩
  · intro hf
    simp [MNode.dims, State.mobj, State.setMat, MObj.nulled, hf]
  · intro i j
    simp [MNode.get, State.mobj, State.setMat, MObj.nulled, MObj.get]

/-- C103, a consequence worth knowing: moving a view to itself loses it. -/
theorem mview_self_move {s : State E} {x : Nat} {m : MObj} (hx : s.mat x = some m) :
    ∃ s', mViewMove s x x = .ok s' ∧ s'.heap = s.heap ∧ s'.mat x = some m.nulled := by
  refine ⟨(s.setMat x (some m)).setMat x (some m.nulled), by simp [mViewMove, State.mobj, hx], rfl,
    by simp [State.setMat]⟩

/-- C103.  `std::swap` exchanges the memory the two views refer to; memory itself is not touched. -/
theorem mview_swap {s : State E} {x y t : Nat} {m w : MObj} (hxy : x ≠ y) (hxt : x ≠ t) (hyt : y ≠ t)
    (hx : s.mat x = some m) (hy : s.mat y = some w) (hu : s.mat t = none) (ht : m.SameType w) :
    ∃ s', mViewSwap s x y t = .ok s' ∧ s'.heap = s.heap ∧ s'.vec = s.vec ∧ s'.mat x = some w ∧
      s'.mat y = some m ∧ ∀ z, z ≠ x → z ≠ y → s'.mat z = s.mat z := by
  obtain ⟨h1, h2, h3, h4, -⟩ := ht
  have e1 : ({ m.nulled with data := w.data, off := w.off, rows := w.rows, cols := w.cols } : MObj) = w := by
    cases m; cases w; simp_all [MObj.nulled]
  have e2 : ({ w.nulled with data := m.data, off := m.off, rows := m.rows, cols := m.cols } : MObj) = m := by
    cases m; cases w; simp_all [MObj.nulled]
  have hyx := Ne.symm hxy
  have htx := Ne.symm hxt
  have hty := Ne.symm hyt
  simp only [mViewSwap, mViewMoveNew, mViewMove, State.mobj, State.setMat, hx, hy, Out.withVal_ok,
    Out.ok_andThen, if_true, if_false, hxt, hyt, hyx, htx, hty, e1, e2]
  refine ⟨_, rfl, rfl, rfl, ?_, ?_, ?_⟩
  · simp [hxy, hxt]
  · simp [hyt]
  · intro z hz hz'
    by_cases hzt : z = t
    · subst hzt; simp [hu]
    · simp [hz, hz', hzt]

example : ∃ s', mReshape exW 1 3 2 = .ok s' ∧ (MNode.var 1 : MNode ℤ).get s' 1 0 = .ok 3 := ⟨_, rfl, rfl⟩
example : mReshape exW 1 2 2 = .throw .matSize exW := rfl
example := mview_resize (s := exW) (x := 1) rfl 3 2
/-- Two 2 × 2 views of consecutive memory. -/
def exV : State ℤ :=
  demo [[some 1, some 2, some 3, some 4, some 5, some 6, some 7, some 8]] []
    [⟨.external, false, some 0, 0, 2, 2, false, false⟩, ⟨.external, false, some 0, 4, 2, 2, false, false⟩]
example := mview_move (s := exV) (x := 0) (y := 1) (by decide) rfl rfl ⟨rfl, rfl, rfl, rfl, by simp⟩
example := mview_swap (s := exV) (x := 0) (y := 1) (t := 2) (by decide) (by decide) (by decide) rfl rfl rfl
  ⟨rfl, rfl, rfl, rfl, by simp⟩
example : ∃ s', mViewSwap exV 0 1 2 = .ok s' ∧ (MNode.var 0 : MNode ℤ).get s' 0 1 = .ok 6 := ⟨_, rfl, rfl⟩
example := mview_self_move (s := exV) (x := 0) rfl
example := mview_nulled (s := exV) (x := 0) rfl

/-! ### C103: assigning to views whose dimensions are not template parameters -/

/-- C103.  `x = e` for such a view: if the number of elements differs, `matrix_size_error` is thrown and
nothing changes; otherwise the view silently takes the dimensions of `e` (whatever its own were), its
elements become those of `e` and no memory outside of the view changes — provided that, if the dimensions
differ, nothing read lazily uses the view or its memory. -/
theorem mview_assign {triv : Bool} {s : State E} {ρ : Env E} (hA : Agree s ρ) {x : Nat} {d : MObj}
    (hx : s.mat x = some d) (hst : d.storage = .external) (hf : d.fixed = false) (e : MExpr E)
    (hc : e.Regular s) (p : MVal E) (hp : e.den ρ = some p) (hw : d.flat.Ready triv s.heap)
    (hl : e.Leaves (VDisj s d.flat) (fun y => y ≠ x ∧ MDisj s d.flat y)) :
    (p.r * p.c ≠ d.rows * d.cols ∧ mstmtAssign triv s x e = .throw .matSize s ∧
        ∀ o, mstmtOpAssign triv o s x e = .throw .matSize s) ∨
      (p.r * p.c = d.rows * d.cols ∧ ∃ s', mstmtAssign triv s x e = .ok s' ∧ MRep s' (.var x) p ∧
        s'.vec = s.vec ∧ (∀ y, y ≠ x → s'.mat y = s.mat y) ∧ SameOutside d.flat s.heap s'.heap) := by
  obtain ⟨n, h1, h2, f, h3⟩ := MExpr.build_ok hA e (MExpr.supported_of_regular e hc) p hp
  have hcr := mCheckOrResize_view (triv := triv) (n := n) hx hst hf h2.dims
  by_cases he : p.r * p.c = d.rows * d.cols
  · right
    rw [if_pos he] at hcr
    obtain ⟨h', e1, e2, e3⟩ := mAssign_relabel_ok hx hcr he h2 hw (MExpr.build_leaves e n h1 hl)
    refine ⟨he, _, by simp only [mstmtAssign, h1, Out.withVal_ok]; exact e1, e2, rfl, ?_, e3⟩
    intro y hy; simp [State.setMat, hy]
  · left
    rw [if_neg he] at hcr
    refine ⟨he, ?_, fun o => ?_⟩
    · simp only [mstmtAssign, h1, Out.withVal_ok, mAssign, hcr]; rfl
    · simp only [mstmtOpAssign, h1, Out.withVal_ok, mOpAssign, hcr]; rfl

example := mview_assign (triv := true) exW_agree (x := 2) rfl rfl rfl (.var 4) trivial _ rfl exW_ready
  ⟨by decide, by intro w hw; cases hw; exact .inl (by simp [MObj.flat])⟩
/-- The 2 × 3 view `m1` takes the dimensions of the 3 × 2 matrix `m4`; the 2 × 2 matrix `m5` is rejected. -/
example : ∃ s', mstmtAssign true exW 1 (.var 4) = .ok s' ∧ (MNode.var 1 : MNode ℤ).dims s' = .ok (3, 2) ∧
    (MNode.var 0 : MNode ℤ).get s' 1 0 = .ok 40 := ⟨_, rfl, rfl, rfl⟩
example : mstmtAssign true exW 1 (.var 5) = .throw .matSize exW := rfl

/-! ### C104: compound assignment of different dimensions -/

/-- C104 for matrices that cannot be resized: a size error exactly if the dimensions differ (nothing is
changed then), element-wise addition or subtraction otherwise. -/
theorem mopAssign_checked {triv : Bool} {o : BinOp} {s : State E} {ρ : Env E} (hA : Agree s ρ) {x : Nat}
    {d : MObj} (hx : s.mat x = some d) (hst : d.Rigid) (e : MExpr E) (hc : e.Regular s)
    (p : MVal E) (q : Fin d.rows → Fin d.cols → E) (hp : e.den ρ = some p)
    (hq : ρ.m x = some ⟨d.rows, d.cols, q⟩)
    (hal : e.Ahead (MAhead s d) (VDisj s d.flat) (MDisj s d.flat)) :
    (¬(p.r = d.rows ∧ p.c = d.cols) ∧ ∃ er, (er = .matIncompatible ∨ er = .staticAssert) ∧
        mstmtOpAssign triv o s x e = .throw er s) ∨
      (∃ (hr : p.r = d.rows) (hc : p.c = d.cols) (h' : Heap E),
        mstmtOpAssign triv o s x e = .ok { s with heap := h' } ∧
        MRep { s with heap := h' } (.var x)
          ⟨d.rows, d.cols, fun i j => o.den (q i j) (p.f (i.cast hr.symm) (j.cast hc.symm))⟩ ∧
        SameOutside d.flat s.heap h') := by
  by_cases hsz : p.r = d.rows ∧ p.c = d.cols
  · obtain ⟨r, c, f⟩ := p
    obtain ⟨h1, h2⟩ := hsz
    simp only at h1 h2
    subst h1 h2
    exact Or.inr ⟨rfl, rfl, mopAssign_elementwise hA hx e hc f q hp hq hal⟩
  · left
    obtain ⟨n, h1, h2, f, h3⟩ := MExpr.build_ok hA e (MExpr.supported_of_regular e hc) p hp
    refine ⟨hsz, if d.fixed && f then .staticAssert else .matIncompatible, ?_, ?_⟩
    · split <;> simp
    · have h6 : ¬ (((d.rows : Int), (d.cols : Int)) = ((p.r : Int), (p.c : Int))) := by
        simp only [Prod.mk.injEq]; omega
      simp only [mstmtOpAssign, h1, Out.withVal_ok, mOpAssign, mCheckOrResize, State.mobj, hx]
      rcases hst with hd | ⟨hd, hfx⟩
      · simp only [hd, checkSameDims_eq (typed_mat hx) h3 (MNode.var_dims hx) h2.dims, if_neg h6]
        rfl
      · simp only [hd, hfx, if_true, checkSameDims_eq (typed_mat hx) h3 (MNode.var_dims hx) h2.dims,
          if_neg h6]
        rfl

/-- C104, what happens for dynamic matrices and views of dynamic dimensions if the dimensions differ but the
number of elements is the same: no error; the destination silently takes the dimensions of the operand and
the elements are combined by their place in the storage. -/
theorem mopAssign_relabels {triv : Bool} {o : BinOp} {s : State E} {ρ : Env E} (hA : Agree s ρ) {x : Nat}
    {d : MObj} (hx : s.mat x = some d)
    (hst : d.storage = .allocated ∨ d.storage = .external ∧ d.fixed = false) (e : MExpr E)
    (hc : e.Regular s) (p : MVal E) (q : Fin d.rows → Fin d.cols → E) (hp : e.den ρ = some p)
    (hq : ρ.m x = some ⟨d.rows, d.cols, q⟩) (he : p.r * p.c = d.rows * d.cols)
    (hl : e.Leaves (VDisj s d.flat) (fun y => y ≠ x ∧ MDisj s d.flat y)) :
    ∃ (s' : State E) (q' : Fin p.r → Fin p.c → E), SameSequence d.colMajor q q' ∧
      mstmtOpAssign triv o s x e = .ok s' ∧
      MRep s' (.var x) ⟨p.r, p.c, fun i j => o.den (q' i j) (p.f i j)⟩ := by
  obtain ⟨n, h1, h2, f, h3⟩ := MExpr.build_ok hA e (MExpr.supported_of_regular e hc) p hp
  have hcr : mCheckOrResize triv s x n = .ok (s.setMat x (some (d.withDims p.r p.c))) := by
    rcases hst with hd | ⟨hd, hf⟩
    · exact mCheckOrResize_relabel hx hd h2.dims he
    · rw [mCheckOrResize_view hx hd hf h2.dims, if_pos he]
  obtain ⟨h', q', e0, e1, e2, -⟩ := mOpAssign_relabel_ok (o := o) hx hcr he h2 (hA.m x _ hq)
    (MExpr.build_leaves e n h1 hl)
  exact ⟨_, q', e0, by simp only [mstmtOpAssign, h1, Out.withVal_ok]; exact e1, e2⟩

/-- C104, what happens for a dynamic matrix with more elements than the operand: no error; it silently takes
the dimensions of the operand and loses the surplus elements. -/
theorem mopAssign_truncates {o : BinOp} {s : State E} {ρ : Env E} (hA : Agree s ρ) {x : Nat} {d : MObj}
    (hx : s.mat x = some d) (hst : d.storage = .allocated) (hoff : d.off = 0) (ho : d.Owned s.heap)
    (hal : s.heap.fail s.heap.tick = false) (hfr : s.heap.blk s.heap.next = none) (e : MExpr E)
    (hc : e.Regular s) (p : MVal E) (q : Fin d.rows → Fin d.cols → E) (hp : e.den ρ = some p)
    (hq : ρ.m x = some ⟨d.rows, d.cols, q⟩) (hlt : p.r * p.c < d.rows * d.cols)
    (hl : e.Leaves (fun y => ∀ w, s.vec y = some w → w.data = none ∨ w.data ≠ d.data)
      (fun y => y ≠ x ∧ ∀ w, s.mat y = some w → w.data = none ∨ w.data ≠ d.data)) :
    ∃ (s' : State E) (q' : Fin p.r → Fin p.c → E), SameSequence d.colMajor q q' ∧
      mstmtOpAssign true o s x e = .ok s' ∧
      MRep s' (.var x) ⟨p.r, p.c, fun i j => o.den (q' i j) (p.f i j)⟩ := by
  obtain ⟨n, h1, h2, f, h3⟩ := MExpr.build_ok hA e (MExpr.supported_of_regular e hc) p hp
  obtain ⟨s', q', e0, e1, e2⟩ := mOpAssign_shrink (o := o) hx hst hoff ho hal hfr h2 (hA.m x _ hq) hlt
    (MExpr.build_leaves e n h1 hl)
  exact ⟨s', q', e0, by simp only [mstmtOpAssign, h1, Out.withVal_ok]; exact e1, e2⟩

/-- C104, what happens for a dynamic matrix with fewer elements than the operand: an uninitialised element is
read. -/
theorem mopAssign_larger_ub {o : BinOp} {s : State E} {ρ : Env E} (hA : Agree s ρ) {x : Nat} {d : MObj}
    (hx : s.mat x = some d) (hst : d.storage = .allocated) (hoff : d.off = 0) (ho : d.Owned s.heap)
    (hal : s.heap.fail s.heap.tick = false) (hfr : s.heap.blk s.heap.next = none) (e : MExpr E)
    (hc : e.Regular s) (p : MVal E) (q : Fin d.rows → Fin d.cols → E) (hp : e.den ρ = some p)
    (hq : ρ.m x = some ⟨d.rows, d.cols, q⟩) (hlt : d.rows * d.cols < p.r * p.c)
    (hl : e.Leaves (fun y => ∀ w, s.vec y = some w → w.data = none ∨ w.data ≠ d.data)
      (fun y => y ≠ x ∧ ∀ w, s.mat y = some w → w.data = none ∨ w.data ≠ d.data)) :
    mstmtOpAssign true o s x e = .ub .uninit := by
  obtain ⟨n, h1, h2, f, h3⟩ := MExpr.build_ok hA e (MExpr.supported_of_regular e hc) p hp
  simp only [mstmtOpAssign, h1, Out.withVal_ok]
  exact mOpAssign_grow hx hst hoff ho hal hfr h2 (hA.m x _ hq) hlt (MExpr.build_leaves e n h1 hl)

/-- C104 is false: `M += N` can succeed although the dimensions differ, and it can be undefined behaviour. -/
theorem mopAssign_dims_false :
    ¬ (∀ (s : State ℤ) (ρ : Env ℤ) (x : Nat) (e : MExpr ℤ) (p q : MVal ℤ), Agree s ρ → e.Regular s →
      e.den ρ = some p → ρ.m x = some q → ¬ (p.r = q.r ∧ p.c = q.c) →
      ∃ er, mstmtOpAssign true .plus s x e = .throw er s) ∧
    ¬ (∀ (s : State ℤ) (ρ : Env ℤ) (x : Nat) (e : MExpr ℤ) (p : MVal ℤ), Agree s ρ → e.Regular s →
      e.den ρ = some p → ∀ u, mstmtOpAssign true .plus s x e ≠ .ub u) := by
  constructor
  · intro h
    obtain ⟨er, h⟩ := h exW exWρ 1 (.var 4) _ _ exW_agree trivial rfl rfl (by simp)
    cases h
  · intro h
    -- a dynamic 1 × 1 matrix and a 2 × 1 matrix
    refine h (demo [[some 1], [some 2, some 3]] [] [⟨.allocated, false, some 0, 0, 1, 1, false, false⟩,
      ⟨.compiled, true, some 1, 0, 2, 1, false, false⟩])
      ⟨fun _ => none, fun x => match x with
        | 0 => some ⟨1, 1, ![![1]]⟩
        | 1 => some ⟨2, 1, ![![2], ![3]]⟩
        | _ => none⟩ 0 (.var 1) _ ⟨fun x p h => by simp at h, fun x p h => ?_⟩ trivial rfl .uninit rfl
    match x, h with
    | 0, h | 1, h =>
      simp only [Option.some.injEq] at h
      subst h
      exact ⟨rfl, fun i j => by fin_cases i <;> fin_cases j <;> rfl⟩
    | n + 2, h => simp at h

/-- C104, the part that is true for every matrix: operands of the same dimensions are added or subtracted
element-wise.  Missing: different dimensions are reported only for matrices that cannot be resized
(`mopAssign_checked`) and for views of a different number of elements (`mview_assign`); otherwise see
`mopAssign_relabels`, `mopAssign_truncates`, `mopAssign_larger_ub`. -/
theorem mopAssign_dims_partial {triv : Bool} {o : BinOp} {s : State E} {ρ : Env E} (hA : Agree s ρ)
    {x : Nat} {d : MObj} (hx : s.mat x = some d) (e : MExpr E) (hc : e.Regular s)
    (p q : Fin d.rows → Fin d.cols → E) (hp : e.den ρ = some ⟨d.rows, d.cols, p⟩)
    (hq : ρ.m x = some ⟨d.rows, d.cols, q⟩)
    (hal : e.Ahead (MAhead s d) (VDisj s d.flat) (MDisj s d.flat)) :
    ∃ h', mstmtOpAssign triv o s x e = .ok { s with heap := h' } ∧
      MRep { s with heap := h' } (.var x) ⟨d.rows, d.cols, fun i j => o.den (q i j) (p i j)⟩ ∧
      SameOutside d.flat s.heap h' :=
  mopAssign_elementwise hA hx e hc p q hp hq hal

section Examples

example := mopAssign_checked (triv := true) (o := .plus) exW_agree (x := 3) rfl (.inr ⟨rfl, rfl⟩) (.var 5)
  trivial _ _ rfl rfl (by intro w hw; cases hw; exact .inl (.inl (by simp [MObj.flat])))
example := mopAssign_checked (triv := true) (o := .minus) exW_agree (x := 5) rfl (.inl rfl) (.var 4)
  trivial _ _ rfl rfl (by intro w hw; cases hw; exact .inl (.inl (by simp [MObj.flat])))
example : mstmtOpAssign true .plus exW 5 (.var 4) = .throw .staticAssert exW := rfl

example := mopAssign_relabels (triv := true) (o := .plus) exW_agree (x := 1) rfl (.inr ⟨rfl, rfl⟩) (.var 4)
  trivial _ _ rfl rfl rfl ⟨by decide, by intro w hw; cases hw; exact .inl (by simp [MObj.flat])⟩
example : ∃ s', mstmtOpAssign true .plus exW 1 (.var 4) = .ok s' ∧
    (MNode.var 1 : MNode ℤ).dims s' = .ok (3, 2) ∧ (MNode.var 1 : MNode ℤ).get s' 2 0 = .ok 55 :=
  ⟨_, rfl, rfl, rfl⟩
example := mopAssign_dims_partial (triv := true) (o := .plus) exW_agree (x := 2) rfl (.var 4)
  trivial _ _ rfl rfl (by intro w hw; cases hw; exact .inl (.inl (by simp [MObj.flat])))

/-- Dynamic 2 × 2 and 1 × 3 matrices. -/
def exD : State ℤ :=
  demo [[some 1, some 2, some 3, some 4], [some 10, some 20, some 30]] []
    [⟨.allocated, false, some 0, 0, 2, 2, true, false⟩, ⟨.allocated, false, some 1, 0, 1, 3, false, false⟩]

def exDρ : Env ℤ :=
  ⟨fun _ => none, fun x => match x with
    | 0 => some ⟨2, 2, ![![1, 3], ![2, 4]]⟩
    | 1 => some ⟨1, 3, ![![10, 20, 30]]⟩
    | _ => none⟩

theorem exD_agree : Agree exD exDρ := by
  refine ⟨fun x p h => by simp [exDρ] at h, fun x p h => ?_⟩
  match x, h with
  | 0, h | 1, h =>
    simp only [exDρ, Option.some.injEq] at h
    subst h
    exact ⟨rfl, fun i j => by fin_cases i <;> fin_cases j <;> rfl⟩
  | n + 2, h => simp [exDρ] at h

example := mopAssign_truncates (o := .plus) exD_agree (x := 0) rfl rfl rfl (.inr ⟨0, _, rfl, rfl, rfl⟩) rfl rfl
  (.var 1) trivial _ _ rfl rfl (by decide) ⟨by decide, by intro w hw; cases hw; exact .inr (by simp)⟩
example : ∃ s', mstmtOpAssign true .plus exD 0 (.var 1) = .ok s' ∧
    (MNode.var 0 : MNode ℤ).dims s' = .ok (1, 3) ∧ (MNode.var 0 : MNode ℤ).get s' 0 1 = .ok 22 :=
  ⟨_, rfl, rfl, rfl⟩
example := mopAssign_larger_ub (o := .plus) exD_agree (x := 1) rfl rfl rfl (.inr ⟨1, _, rfl, rfl, rfl⟩) rfl rfl
  (.var 0) trivial _ _ rfl rfl (by decide) ⟨by decide, by intro w hw; cases hw; exact .inr (by simp)⟩

end Examples

end CML

#print axioms CML.mview_ctor
#print axioms CML.mview_array
#print axioms CML.mview_assign_through
#print axioms CML.mview_resize
#print axioms CML.mview_move
#print axioms CML.mview_nulled
#print axioms CML.mview_self_move
#print axioms CML.mview_swap
#print axioms CML.mview_assign
#print axioms CML.mopAssign_checked
#print axioms CML.mopAssign_relabels
#print axioms CML.mopAssign_truncates
#print axioms CML.mopAssign_larger_ub
#print axioms CML.mopAssign_dims_false
#print axioms CML.mopAssign_dims_partial
