import Verif.Lemmas.MatMove
import Verif.Lemmas.Stable
import Verif.Lemmas.Demo

/-!
C116: move assignment of objects that hold their elements themselves.  For vectors and for row-major or square
matrices it copies all elements.  For other column-major matrices it does not: the nested array is subscripted
as if it were row-major.
-/

namespace CML

section Move
variable {E : Type} [Add E] [Sub E] [Mul E] [Div E] [Neg E]

/-- Reading a matrix variable of the same type that is disjoint from the destination, or is the destination. -/
private theorem source_var {s : State E} {x y : Nat} {d w : MObj} (hx : s.mat x = some d)
    (hy : s.mat y = some w) (hcm : w.colMajor = d.colMajor) {p : Fin d.rows → Fin d.cols → E}
    (hp : MRep s (.var y) ⟨d.rows, d.cols, p⟩) (hal : y = x ∨ MDisj s d.flat y) :
    Source s d (fun s k => w.rawGet s.heap k) p := by
  intro s' i j hm hcell
  obtain ⟨hr, hc⟩ := mrep_dims hy hp
  simp only at hr hc
  have hidx : ∀ a b, w.index a b = d.index a b := MObj.index_congr hcm hr.symm hc.symm
  have hg := hp.get i j
  rw [MNode.var_get_eq hy] at hg
  have hlt := MObj.get_lt hg
  cases hb : w.data with
  | none => simp [MObj.get, hb] at hg
  | some bw =>
    rw [MObj.get_eq_ok hb hlt.1 hlt.2, hidx] at hg
    simp only [MObj.rawGet, hb]
    rw [Heap.read_eq_ok]
    rcases hcell bw (w.off + d.index i j) with h | ⟨h1, i', j', h2, h3⟩
    · rw [h, hg]
    · rcases hal with rfl | hal
      · rw [hx] at hy; cases hy
        rw [h3]
        have he := MObj.index_inj i'.2 j'.2 i.2 j.2 (by omega)
        have e1 : i' = i := Fin.ext he.1
        have e2 : j' = j := Fin.ext he.2
        rw [e1, e2]
      · exfalso
        have hl := MObj.index_lt (m := d) i.2 j.2
        have hl' := MObj.index_lt (m := d) i'.2 j'.2
        rcases hal w hy with h | h | h
        · exact h (hb.trans h1.symm)
        · have e : d.flat.off = d.off := rfl
          rw [e, ← hr, ← hc] at h
          omega
        · have e : d.flat.off + d.flat.size = d.off + d.rows * d.cols := rfl
          omega

/-- C116, matrices.  `x = std::move(y)` for two fixed-size matrices of the same type: if the type is row-major or
square, all elements of `y` arrive in `x` and no other memory changes, under both readings of array subscripts;
`y` may be `x` itself.  Missing: column-major matrices that are not square, where the code is wrong (see the
theorems below). -/
theorem mmove_fixed_partial (m : Subscript) {triv : Bool} {s : State E} {x y : Nat} {d w : MObj}
    (hx : s.mat x = some d) (hy : s.mat y = some w) (hcm : w.colMajor = d.colMajor)
    {p : Fin d.rows → Fin d.cols → E} (hp : MRep s (.var y) ⟨d.rows, d.cols, p⟩)
    (hw : d.flat.Ready triv s.heap) (hal : y = x ∨ MDisj s d.flat y)
    (hgood : d.colMajor = false ∨ d.rows = d.cols) :
    ∃ h', mMoveFixed m triv s x y = .ok { s with heap := h' } ∧
      MRep { s with heap := h' } (.var x) ⟨d.rows, d.cols, p⟩ ∧ SameOutside d.flat s.heap h' := by
  obtain ⟨h', e1, e2, e3⟩ := mMoveFrom_ok (m := m) hx (source_var hx hy hcm hp hal) hw hgood
  refine ⟨h', by simp [mMoveFixed, State.mobj, hy, e1], ?_, e3⟩
  exact (mrep_var (s := { s with heap := h' }) (x := x) hx).2 e2

/-- C116.  By the rules of the language, move assignment of a column-major matrix that is not square is always
undefined behaviour: a subscript of the nested array is out of bounds. -/
theorem mmove_fixed_strict_oob {triv : Bool} {s : State E} {x y : Nat} {d w : MObj}
    (hx : s.mat x = some d) (hy : s.mat y = some w) (hcm : w.colMajor = d.colMajor)
    {p : Fin d.rows → Fin d.cols → E} (hp : MRep s (.var y) ⟨d.rows, d.cols, p⟩)
    (hw : d.flat.Ready triv s.heap) (hal : y = x ∨ MDisj s d.flat y)
    (hr : 0 < d.rows) (hc : 0 < d.cols) (hcol : d.colMajor = true) (hne : d.rows ≠ d.cols) :
    mMoveFixed .strict triv s x y = .ub .oob := by
  have hsrc := source_var hx hy hcm hp hal
  simp only [mMoveFixed, State.mobj, hy, Out.withVal_ok]
  rcases Nat.lt_or_gt_of_ne hne with h | h
  · refine mMoveFrom_oob hx hsrc hw (i := 0) (j := d.rows) hr h ?_
    simp [MObj.rawAt, Subscript.at, hcol]
  · refine mMoveFrom_oob hx hsrc hw (i := d.cols) (j := 0) h hc ?_
    simp [MObj.rawAt, Subscript.at, hcol]

/-- C116.  Even if the array is accessed as one contiguous piece of memory, move assignment of a column-major
matrix with more rows than columns reads and writes behind the end of the object. -/
theorem mmove_fixed_tall_oob {triv : Bool} {s : State E} {x y : Nat} {d w : MObj}
    (hx : s.mat x = some d) (hy : s.mat y = some w) (hcm : w.colMajor = d.colMajor)
    {p : Fin d.rows → Fin d.cols → E} (hp : MRep s (.var y) ⟨d.rows, d.cols, p⟩)
    (hw : d.flat.Ready triv s.heap) (hal : y = x ∨ MDisj s d.flat y)
    (hc : 0 < d.cols) (hcol : d.colMajor = true) (htall : d.cols < d.rows) :
    mMoveFixed .flat triv s x y = .ub .oob := by
  simp only [mMoveFixed, State.mobj, hy, Out.withVal_ok]
  refine mMoveFrom_oob hx (source_var hx hy hcm hp hal) hw (i := d.cols) (j := 0) htall hc ?_
  simp [MObj.rawAt, Subscript.at, hcol]

/-- C116.  If the array is accessed as one contiguous piece of memory, move assignment of a column-major matrix
with fewer rows than columns copies exactly the elements whose place in the storage is below `R * (R - 1) + C`;
all other elements keep their old value. -/
theorem mmove_fixed_wide {triv : Bool} {s : State E} {x y : Nat} {d w : MObj}
    (hx : s.mat x = some d) (hy : s.mat y = some w) (hcm : w.colMajor = d.colMajor)
    {p q : Fin d.rows → Fin d.cols → E} (hp : MRep s (.var y) ⟨d.rows, d.cols, p⟩)
    (hq : MRep s (.var x) ⟨d.rows, d.cols, q⟩)
    (hw : d.flat.Ready triv s.heap) (hal : y = x ∨ MDisj s d.flat y)
    (hr : 0 < d.rows) (hcol : d.colMajor = true) (hwide : d.rows < d.cols) :
    ∃ h', mMoveFixed .flat triv s x y = .ok { s with heap := h' } ∧
      MRep { s with heap := h' } (.var x) ⟨d.rows, d.cols, fun i j =>
        if (j : Nat) * d.rows + i < d.rows * (d.rows - 1) + d.cols then p i j else q i j⟩ ∧
      SameOutside d.flat s.heap h' := by
  obtain ⟨h', e1, e2, e3⟩ := mMoveFrom_stale (triv := triv) hx (source_var hx hy hcm hp hal) hw
    ((mrep_var hx).1 hq) hcol hr hwide
  refine ⟨h', by simp [mMoveFixed, State.mobj, hy, e1], ?_, e3⟩
  exact (mrep_var (s := { s with heap := h' }) (x := x) hx).2 e2

/-- C116.  In particular, with at least two rows and more columns than rows the last element is never
copied. -/
theorem mmove_fixed_last_stale {triv : Bool} {s : State E} {x y : Nat} {d w : MObj}
    (hx : s.mat x = some d) (hy : s.mat y = some w) (hcm : w.colMajor = d.colMajor)
    {p q : Fin d.rows → Fin d.cols → E} (hp : MRep s (.var y) ⟨d.rows, d.cols, p⟩)
    (hq : MRep s (.var x) ⟨d.rows, d.cols, q⟩)
    (hw : d.flat.Ready triv s.heap) (hal : y = x ∨ MDisj s d.flat y)
    (hr : 2 ≤ d.rows) (hcol : d.colMajor = true) (hwide : d.rows < d.cols) :
    ∃ s', mMoveFixed .flat triv s x y = .ok s' ∧
      (MNode.var x : MNode E).get s' (d.rows - 1) (d.cols - 1)
        = .ok (q ⟨d.rows - 1, by omega⟩ ⟨d.cols - 1, by omega⟩) := by
  obtain ⟨h', e1, e2, -⟩ := mmove_fixed_wide (triv := triv) hx hy hcm hp hq hw hal (by omega) hcol hwide
  refine ⟨_, e1, ?_⟩
  have := e2.get (⟨d.rows - 1, by omega⟩ : Fin d.rows) (⟨d.cols - 1, by omega⟩ : Fin d.cols)
  simp only at this
  rw [this, if_neg]
  obtain ⟨a, ha⟩ : ∃ a, d.rows = a + 2 := ⟨d.rows - 2, by omega⟩
  obtain ⟨c, hc⟩ : ∃ c, d.cols = a + 3 + c := ⟨d.cols - (a + 3), by omega⟩
  have e1 : d.rows - 1 = a + 1 := by omega
  have e2 : d.cols - 1 = a + 2 + c := by omega
  rw [e1, e2, ha, hc]
  nlinarith [Nat.zero_le (a * c)]

/-- C116.  `x = a * b` where the type of the product is the type of the fixed-size matrix `x`, so that the move
assignment is used: `x` gets the product that the operands had before the statement, if `x` is row-major or
square.  Missing: column-major matrices that are not square (false, see below). -/
theorem massign_product_move_partial (m : Subscript) {triv : Bool} {s : State E} {ρ : Env E}
    (hA : Agree s ρ) {x : Nat} {d : MObj} (hx : s.mat x = some d) (a b : MExpr E)
    (ha : a.Regular s) (hb : b.Regular s) (ha' : a.Upright s) (hb' : b.Upright s)
    (p : Fin d.rows → Fin d.cols → E) (hp : (MExpr.mul a b).den ρ = some ⟨d.rows, d.cols, p⟩)
    (hw : d.flat.Ready triv s.heap) (hgood : d.colMajor = false ∨ d.rows = d.cols) :
    ∃ h', mAssignMove m triv s x a b = .ok { s with heap := h' } ∧
      MRep { s with heap := h' } (.var x) ⟨d.rows, d.cols, p⟩ ∧ SameOutside d.flat s.heap h' := by
  obtain ⟨n, h1, h2, f, h3⟩ := MExpr.build_ok hA (.mul a b)
    (MExpr.supported_of_regular (.mul a b) ⟨ha, hb, ha', hb'⟩) _ hp
  have h1' := h1
  simp only [MExpr.build] at h1'
  obtain ⟨na, hna, h1'⟩ := Res.bind_ok h1'
  obtain ⟨nb, hnb, h1'⟩ := Res.bind_ok h1'
  obtain ⟨t, ht, h1'⟩ := Res.bind_ok h1'
  simp only [Res.pure_eq, Res.ok.injEq] at h1'
  subst h1'
  have hdims := h2.dims
  simp only [MNode.dims, Res.pure_eq, Res.ok.injEq, Prod.mk.injEq] at hdims
  have hr : t.rows = d.rows := by omega
  have hc : t.cols = d.cols := by omega
  have hsrc : Source s d (fun _ k => t.rawGet d k) p := by
    intro s' i j _ _
    have hg := h2.get i j
    simp only [MNode.get] at hg
    have hu := MObj.unindex_index (m := d) i.2 j.2
    simp only [MTemp.rawGet, hr, hc]
    simp only [MObj.unindex] at hu
    split at hu
    · next hcol =>
      simp only [Prod.mk.injEq] at hu
      rw [if_pos hcol, hu.1, hu.2, hg]
    · next hcol =>
      simp only [Prod.mk.injEq] at hu
      rw [if_neg hcol, hu.1, hu.2, hg]
  obtain ⟨h', e1, e2, e3⟩ := mMoveFrom_ok (m := m) hx hsrc hw hgood
  refine ⟨h', ?_, ?_, e3⟩
  · simp only [mAssignMove, State.mobj, hx, Out.withVal_ok, h1]
    exact e1
  · exact (mrep_var (s := { s with heap := h' }) (x := x) hx).2 e2

/-- C116, vectors.  `x = std::move(y)` for two fixed-size vectors of the same size copies all elements and
changes nothing else. -/
theorem vmove_fixed {triv : Bool} {s : State E} {x y : Nat} {d : VObj} (hx : s.vec x = some d)
    {p : Fin d.size → E} (hp : VRep s (.var y) ⟨d.size, p⟩) (hw : d.Ready triv s.heap)
    (hal : y = x ∨ VDisj s d y) :
    ∃ h', vMoveFixed triv s x y = .ok { s with heap := h' } ∧
      VRep { s with heap := h' } (.var x) ⟨d.size, p⟩ ∧ SameOutside d s.heap h' := by
  have hd := hp.size
  cases hy : s.vec y with
  | none => simp [VNode.size, State.vobj, hy] at hd
  | some w =>
    have hah : VAhead s d y := by
      intro w' hw'
      rcases hal with rfl | hal
      · rw [hx] at hw'; cases hw'
        exact Or.inr ⟨rfl, le_refl _⟩
      · exact Or.inl (hal w' hw')
    obtain ⟨h', e1, e2, e3, -⟩ := storeLoop_fin (triv := triv) hx hw rfl p (f := fun s i => w.get s.heap i)
      (fun b k s' g hb hv hm hst => by
        have := var_get_ahead hv hb (by omega) hst hah (le_refl _) (hp.get k)
        simpa [VNode.get, State.vobj, hv, hy] using this)
    refine ⟨h', ?_, ⟨?_, ?_⟩, e3⟩
    · simp only [vMoveFixed, State.vobj, hx, hy, Out.withVal_ok]
      simp only [storeLoop, State.vobj, hx, Out.withVal_ok] at e1
      exact e1
    · simp [VNode.size, State.vobj, hx]
    · intro i
      have := e2 i
      simpa [VNode.get, State.vobj, hx] using this

end Move

section Examples

/-- Fixed-size matrices: `m0`, `m1` 2×3 column-major, `m2`, `m3` 3×2 column-major, `m4`, `m5` 2×3 row-major;
`m6`, `m7` 2×2 and 2×3 column-major (factors of a product); fixed vectors `v0`, `v1`. -/
private def exMove : State ℤ :=
  demo [[some 0, some 0, some 0, some 0, some 0, some 0], [some 1, some 4, some 2, some 5, some 3, some 6],
      [some 0, some 0, some 0, some 0, some 0, some 0], [some 1, some 3, some 5, some 2, some 4, some 6],
      [some 0, some 0, some 0, some 0, some 0, some 0], [some 1, some 2, some 3, some 4, some 5, some 6],
      [some 1, some 0, some 0, some 1], [some 7, some 8], [some 9, some 10]]
    [⟨.compiled, true, some 7, 0, 2⟩, ⟨.compiled, true, some 8, 0, 2⟩]
    [⟨.compiled, true, some 0, 0, 2, 3, true, true⟩, ⟨.compiled, true, some 1, 0, 2, 3, true, true⟩,
      ⟨.compiled, true, some 2, 0, 3, 2, true, true⟩, ⟨.compiled, true, some 3, 0, 3, 2, true, true⟩,
      ⟨.compiled, true, some 4, 0, 2, 3, false, true⟩, ⟨.compiled, true, some 5, 0, 2, 3, false, true⟩,
      ⟨.compiled, true, some 6, 0, 2, 2, true, true⟩]

/-- The matrix object at block `b` of `exMove`. -/
private def exMoveObj (b r c : Nat) (cm : Bool) : MObj := ⟨.compiled, true, some b, 0, r, c, cm, true⟩

private def exMoveP : Fin 2 → Fin 3 → ℤ := ![![1, 2, 3], ![4, 5, 6]]

private theorem exMove_rep {x : Nat} (h : x = 1 ∨ x = 5) : MRep exMove (.var x) ⟨2, 3, exMoveP⟩ := by
  rcases h with rfl | rfl <;> exact ⟨rfl, fun i j => by fin_cases i <;> fin_cases j <;> rfl⟩

private theorem exMove_ready {x : Nat} {d : MObj} (hx : exMove.mat x = some d) (h : x = 0 ∨ x = 4) :
    d.flat.Ready true exMove.heap := by
  rcases h with rfl | rfl <;> cases hx <;>
  · intro i hi
    have hi' : i < 6 := hi
    refine ⟨_, rfl, ?_⟩
    match i, hi' with
    | 0, _ => exact ⟨_, rfl, Or.inl rfl⟩
    | 1, _ => exact ⟨_, rfl, Or.inl rfl⟩
    | 2, _ => exact ⟨_, rfl, Or.inl rfl⟩
    | 3, _ => exact ⟨_, rfl, Or.inl rfl⟩
    | 4, _ => exact ⟨_, rfl, Or.inl rfl⟩
    | 5, _ => exact ⟨_, rfl, Or.inl rfl⟩

-- row-major: everything arrives
example (m : Subscript) : ∃ h', mMoveFixed m true exMove 4 5 = .ok { exMove with heap := h' } ∧
    MRep { exMove with heap := h' } (.var 4) ⟨2, 3, exMoveP⟩ ∧ SameOutside (exMoveObj 4 2 3 false).flat exMove.heap h' :=
  mmove_fixed_partial m (x := 4) (y := 5) (d := exMoveObj 4 2 3 false) (w := exMoveObj 5 2 3 false) rfl rfl rfl (exMove_rep (Or.inr rfl))
    (exMove_ready rfl (Or.inr rfl)) (Or.inr (by intro w hw; cases hw; exact Or.inl (by decide))) (Or.inl rfl)

-- column-major 2×3: undefined by the rules of the language …
example : mMoveFixed .strict true exMove 0 1 = .ub .oob :=
  mmove_fixed_strict_oob (x := 0) (y := 1) (d := exMoveObj 0 2 3 true) (w := exMoveObj 1 2 3 true) rfl rfl rfl (exMove_rep (Or.inl rfl))
    (exMove_ready rfl (Or.inl rfl)) (Or.inr (by intro w hw; cases hw; exact Or.inl (by decide)))
    (by decide) (by decide) rfl (by decide)
-- … and the last element is not copied if the array is treated as one piece
example : ∃ s', mMoveFixed .flat true exMove 0 1 = .ok s' ∧
    (MNode.var 0 : MNode ℤ).get s' 1 1 = .ok 5 ∧ (MNode.var 0 : MNode ℤ).get s' 0 2 = .ok 3 ∧
    (MNode.var 0 : MNode ℤ).get s' 1 2 = .ok 0 := ⟨_, rfl, rfl, rfl, rfl⟩
example : ∃ s', mMoveFixed .flat true exMove 0 1 = .ok s' ∧
    (MNode.var 0 : MNode ℤ).get s' 1 2 = .ok 0 :=
  mmove_fixed_last_stale (x := 0) (y := 1) (d := exMoveObj 0 2 3 true) (w := exMoveObj 1 2 3 true) (p := exMoveP) (q := fun _ _ => (0 : ℤ)) rfl rfl rfl
    (exMove_rep (Or.inl rfl)) ⟨rfl, fun i j => by fin_cases i <;> fin_cases j <;> rfl⟩
    (exMove_ready rfl (Or.inl rfl)) (Or.inr (by intro w hw; cases hw; exact Or.inl (by decide)))
    (by decide) rfl (by decide)
-- column-major 3×2: memory behind the object
example : mMoveFixed .flat true exMove 2 3 = .ub .oob := rfl

-- fixed vectors
example : ∃ s', vMoveFixed true exMove 0 1 = .ok s' ∧ (VNode.var 0 : VNode ℤ).get s' 0 = .ok 9 ∧
    (VNode.var 0 : VNode ℤ).get s' 1 = .ok 10 := ⟨_, rfl, rfl, rfl⟩
example : VRep exMove (.var 1) ⟨2, ![9, 10]⟩ := ⟨rfl, fun i => by fin_cases i <;> rfl⟩

-- a product assigned by move: square or row-major is right
example : ∃ s', mAssignMove .flat true exMove 6 (.var 6) (.var 6) = .ok s' ∧
    (MNode.var 6 : MNode ℤ).get s' 1 1 = .ok 1 := ⟨_, rfl, rfl⟩

/-- C116 fails in general: `x = std::move(y)` and `x = a * b` for column-major fixed-size matrices that are not
square.  There is a state in which `y` holds `[1 2 3; 4 5 6]`, `x` is a ready matrix of the same type, and by
the rules of the language both statements are undefined; with the array treated as one piece both finish with a
wrong element `(1,2)` in `x`. -/
theorem mmove_fixed_false :
    ∃ (s : State ℤ) (d w : MObj) (p : Fin d.rows → Fin d.cols → ℤ), s.mat 0 = some d ∧ s.mat 1 = some w ∧
      w = { d with data := w.data } ∧ MDisj s d.flat 1 ∧ d.flat.Ready true s.heap ∧
      MRep s (.var 1) ⟨d.rows, d.cols, p⟩ ∧
      mMoveFixed .strict true s 0 1 = .ub .oob ∧
      (∃ s', mMoveFixed .flat true s 0 1 = .ok s' ∧ ¬ MRep s' (.var 0) ⟨d.rows, d.cols, p⟩) ∧
      (∃ a b, (MNode.var 1 : MNode ℤ).get s 1 2 = .ok 6 ∧ (MExpr.mul a b).build s = .ok (.temp ⟨true, 2, 3,
          [1, 2, 3, 4, 5, 6]⟩) ∧
        mAssignMove .strict true s 0 a b = .ub .oob ∧
        ∃ s', mAssignMove .flat true s 0 a b = .ok s' ∧ (MNode.var 0 : MNode ℤ).get s' 1 2 = .ok 0) := by
  refine ⟨exMove, _, _, exMoveP, rfl, rfl, rfl, ?_, exMove_ready rfl (Or.inl rfl), exMove_rep (Or.inl rfl),
    rfl, ⟨_, rfl, ?_⟩, .var 6, .var 1, rfl, rfl, rfl, _, rfl, rfl⟩
  · intro w hw
    cases hw
    exact Or.inl (by decide)
  · intro h
    have h1 := h.get (1 : Fin 2) (2 : Fin 3)
    have h2 : (Res.ok (0 : ℤ)) = .ok 6 := h1
    cases h2

end Examples

#print axioms mmove_fixed_partial
#print axioms mmove_fixed_strict_oob
#print axioms mmove_fixed_tall_oob
#print axioms mmove_fixed_wide
#print axioms mmove_fixed_last_stale
#print axioms massign_product_move_partial
#print axioms vmove_fixed
#print axioms mmove_fixed_false

end CML
