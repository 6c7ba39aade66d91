import Verif.Lemmas.HistorySafe
import Verif.Props.MatAccess

/-!
C19 – C23, C78, C82: memory of dynamic vectors and matrices under arbitrary histories, `resize`, moves,
copies and views.
-/

namespace CML

set_option linter.unusedSectionVars false

section
variable {E : Type} [Add E] [Sub E] [Mul E] [Div E] [Neg E]

/-! ### C19: histories -/

/-- C19: in every state a program can reach, every vector has no array (and is empty) or its own live array
of exactly its size. -/
theorem vhistory_owned {triv : Bool} {fail : Nat → Bool} {s : State E} (h : Reach triv fail s) {x : Nat}
    {v : VObj} (hx : s.vec x = some v) :
    (v.data = none ∧ v.size = 0) ∨
      ∃ b l, v.data = some b ∧ s.heap.blk b = some l ∧ l.length = v.size ∧
        (∀ y w, s.vec y = some w → w.data = some b → y = x) ∧ (∀ y w, s.mat y = some w → w.data ≠ some b) := by
  have I := h.inv
  rcases (I.vec_alloc hx).2.2.2 with h | ⟨b, l, h1, h2, h3⟩
  · exact Or.inl h
  · refine Or.inr ⟨b, l, h1, h2, h3, fun y w hy hb => ?_, fun y w hy hb => ?_⟩
    · have := I.excl (.inl y) (.inl x) w v b hy hx hb h1
      simpa using this
    · have := I.excl (.inr y) (.inl x) w.flat v b (by simp [State.owner, hy]) hx hb h1
      cases this

/-- C19: every live array belongs to exactly one variable: nothing leaks. -/
theorem history_no_leak {triv : Bool} {fail : Nat → Bool} {s : State E} (h : Reach triv fail s) {b : Nat}
    {l : List (Option E)} (hb : s.heap.blk b = some l) :
    ∃! k, ∃ v, s.owner k = some v ∧ v.data = some b ∧ v.size = l.length := by
  have I := h.inv
  obtain ⟨k, v, hv, hd⟩ := I.noLeak b l hb
  refine ⟨k, ⟨v, hv, hd, ?_⟩, ?_⟩
  · rcases (I.own k v hv).2.2.2 with ⟨e, -⟩ | ⟨b', l', h1, h2, h3⟩
    · rw [hd] at e; cases e
    · rw [hd] at h1; cases h1
      rw [hb] at h2; cases h2
      exact h3.symm
  · rintro k' ⟨v', hv', hd', -⟩
    exact I.excl k' k v' v b hv' hv hd' hd

/-- C19: when all variables are gone, so is all memory. -/
theorem history_released {triv : Bool} {fail : Nat → Bool} {s : State E} (h : Reach triv fail s)
    (hv : ∀ x, s.vec x = none) (hm : ∀ x, s.mat x = none) (b : Nat) : s.heap.blk b = none := by
  cases hb : s.heap.blk b with
  | none => rfl
  | some l =>
    obtain ⟨k, v, hk, -⟩ := h.inv.noLeak b l hb
    cases k with
    | inl x => simp [State.owner, hv] at hk
    | inr x => simp [State.owner, hm] at hk

/-- C19 (elements of trivial type): a storage statement used as documented never has undefined behaviour —
in particular it never frees twice, frees with a wrong size or touches freed memory.  It succeeds or throws
`std::invalid_argument` or `std::bad_alloc`; after an exception all variables and all memory are as
before. -/
theorem history_no_ub {fail : Nat → Bool} {s : State E} (h : Reach true fail s) (o : Op E) (ho : o.Proper s) :
    (∃ s', o.run true s = .ok s') ∨
      ∃ e s', o.run true s = .throw e s' ∧ (e = .invalidArgument ∨ e = .badAlloc) ∧ s'.vec = s.vec ∧
        s'.mat = s.mat ∧ s'.heap.blk = s.heap.blk := by
  have hf : o.NameFree s := by
    cases o <;> first | exact ho | exact ho.1 | trivial
  have h1 := Op.run_fine h.inv o ho
  have h2 := Op.run_post (triv := true) h.inv o hf
  cases hr : o.run true s with
  | ok s' => exact Or.inl ⟨s', rfl⟩
  | throw e s' =>
    rw [hr] at h1 h2
    have h2 : Untouched s s' := h2
    exact Or.inr ⟨e, s', rfl, h1, h2.vec, h2.mat, h2.blk⟩
  | ub u => rw [hr] at h1; exact h1.elim

/-- C19: a statement that throws — whatever the statement, expression and element type — leaves all
variables and all memory as they were (element operations themselves do not throw in the model). -/
theorem history_strong_exception {triv : Bool} {fail : Nat → Bool} {s s' : State E} (h : Reach triv fail s)
    (o : Op E) (hf : o.NameFree s) {e : Err} (hr : o.run triv s = .throw e s') :
    s'.vec = s.vec ∧ s'.mat = s.mat ∧ s'.heap.blk = s.heap.blk := by
  have h2 := Op.run_post (triv := triv) h.inv o hf
  rw [hr] at h2
  have h2 : Untouched s s' := h2
  exact ⟨h2.vec, h2.mat, h2.blk⟩

/-- C19: element access with an index in range is never out of bounds: a write succeeds, a read succeeds
or finds an element that was never given a value. -/
theorem vhistory_access {fail : Nat → Bool} {s : State E} (h : Reach true fail s) {x i : Nat} {v : VObj}
    (hx : s.vec x = some v) (hi : i < v.size) (e : E) :
    (∃ h', vPut true s x i e = .ok { s with heap := h' } ∧ v.get h' i = .ok e) ∧
      ((∃ a, (VNode.var x : VNode E).get s i = .ok a) ∨ (VNode.var x : VNode E).get s i = .ub .uninit) := by
  have I := h.inv
  obtain ⟨-, -, a3, a4⟩ := I.vec_alloc hx
  rcases a4 with ⟨-, hz⟩ | ⟨b, l, h1, h2, h3⟩
  · omega
  · have hil : i < l.length := by omega
    constructor
    · refine ⟨s.heap.setBlk b (some (l.set i (some e))), ?_, ?_⟩
      · simp [vPut, State.vobj, hx, VObj.put, h1, hi, Heap.write, h2, a3, h3]
      · simp [VObj.get, h1, hi, Heap.read, Heap.setBlk, a3, hil]
    · cases hc : l[i] with
      | none => right; simp [VNode.get, State.vobj, hx, VObj.get, h1, hi, Heap.read, h2, a3, hil, hc]
      | some a => left; exact ⟨a, by simp [VNode.get, State.vobj, hx, VObj.get, h1, hi, Heap.read, h2, a3, hil, hc]⟩

/-! ### C20, C21: resize -/

/-- C20 (elements of trivial type): `resize(n)` sets the size and keeps the first `min` elements (as they
were, including elements without a value); other variables and their memory are unchanged. -/
theorem vresize_prefix {fail : Nat → Bool} {s : State E} (h : Reach true fail s) {x : Nat} {d : VObj}
    (hx : s.vec x = some d) (n : Nat) (hal : n ≠ d.size → s.heap.fail s.heap.tick = false) :
    ∃ s' d', vResize true s x n = .ok s' ∧ s'.vec x = some d' ∧ d'.size = n ∧
      (∀ i, i < n → i < d.size → d'.get s'.heap i = d.get s.heap i) ∧
      (∀ i, i < n → d.size ≤ i → d'.get s'.heap i = .ub .uninit) ∧
      (n = d.size → s' = s) ∧
      (∀ y w, y ≠ x → s.vec y = some w → s'.vec y = some w ∧ ∀ i, w.get s'.heap i = w.get s.heap i) ∧
      s'.mat = s.mat := by
  have I := h.inv
  obtain ⟨a1, a2, a3, a4⟩ := I.vec_alloc hx
  have h0 : ¬ ((n : Int) < 0) := by omega
  by_cases hne : n = d.size
  · refine ⟨s, d, ?_, hx, hne.symm, fun _ _ _ => rfl, fun i h1 h2 => by omega, fun _ => rfl,
      fun y w _ hy => ⟨hy, fun _ => rfl⟩, rfl⟩
    simp only [vResize, vResizeWith, State.vobj, hx, Out.withVal_ok, if_neg h0, Int.toNat_natCast, if_pos hne]
  · obtain ⟨h', l', e, e1, e2, e3, e4, e5, -⟩ := vResizeWith_ok (copy := true) (triv := true)
      (n := (n : Int)) hx (by omega) (by simpa using hne) (hal hne) (I.fresh _ (le_refl _)) a4
      (fun _ => Or.inl rfl)
    rw [Int.toNat_natCast] at e e2 e3
    refine ⟨_, { d with data := some s.heap.next, size := n }, e, by simp [State.setVec], rfl, ?_, ?_,
      fun h => absurd h hne, ?_, rfl⟩
    · intro i hi hid
      rcases a4 with ⟨-, hz⟩ | ⟨b, l, h1, h2, h3⟩
      · omega
      · have hil : i < l.length := by omega
        have := e3 i hi
        simp only [hid, and_self, if_true, h1, Option.bind_some, Heap.cell, h2, hil,
          List.getElem?_eq_getElem, Option.getD_some] at this
        simp only [VObj.get, h1, hi, hid, if_true, State.setVec_heap, a3, Nat.zero_add, Heap.read, e1, this, h2,
          hil, List.getElem?_eq_getElem]
    · intro i hi hid
      have := e3 i hi
      rw [if_neg (by omega)] at this
      simp only [VObj.get, hi, if_true, State.setVec_heap, a3, Nat.zero_add, Heap.read, e1, this]
    · intro y w hyx hy
      refine ⟨by simp [State.setVec, hyx, hy], fun i => ?_⟩
      unfold VObj.get
      cases hd : w.data with
      | none => rfl
      | some b =>
        have hb := e4 b (I.ne_next (k := .inl y) hy hd)
          (I.ne_data (k := .inl y) (k' := .inl x) (by simpa using hyx) hy (show s.owner (.inl x) = some d from hx) hd)
        simp only [State.setVec_heap, Heap.read, hb]

/-- C20: a negative size throws `std::invalid_argument`, a failed allocation throws `std::bad_alloc`; in
both cases vector, variables and memory are unchanged. -/
theorem vresize_errors {triv copy : Bool} {s : State E} {x : Nat} {d : VObj} (hx : s.vec x = some d) (n : Int) :
    (n < 0 → vResizeWith copy triv s x n = .throw .invalidArgument s) ∧
    (0 ≤ n → n ≠ d.size → s.heap.fail s.heap.tick = true → ∃ s', vResizeWith copy triv s x n = .throw .badAlloc s' ∧
      s'.vec = s.vec ∧ s'.mat = s.mat ∧ s'.heap.blk = s.heap.blk) := by
  constructor
  · intro hn; simp [vResizeWith, State.vobj, hx, hn]
  · intro hn hne hal
    refine ⟨s.tickd, ?_, rfl, rfl, rfl⟩
    have hne' : n.toNat ≠ d.size := by omega
    simp only [vResizeWith, State.vobj, hx, Out.withVal_ok, if_neg (not_lt.mpr hn), if_neg hne', Heap.alloc, hal]
    rfl

/-- C21 is false: for *every* element type with a destructor and every reallocating `resize` that keeps at
least one element, `resize` copies from an element that it has just destroyed — undefined behaviour. -/
theorem resize_reads_destroyed_false {fail : Nat → Bool} {s : State E} (h : Reach false fail s) {x : Nat}
    {d : VObj} (hx : s.vec x = some d) (n : Nat) (hne : n ≠ d.size) (hn : 0 < n) (hd : 0 < d.size)
    (hal : s.heap.fail s.heap.tick = false) : vResize false s x n = .ub .raw := by
  have I := h.inv
  rcases (I.vec_alloc hx).2.2.2 with ⟨-, hz⟩ | ⟨b, l, h1, h2, h3⟩
  · omega
  · exact vResizeWith_raw hx h1 h2 h3 (by omega) (by simpa using hne) hal (I.fresh _ (le_refl _))
      (by simp; omega)

/-- C21 for matrices: likewise. -/
theorem mresize_reads_destroyed_false {fail : Nat → Bool} {s : State E} (h : Reach false fail s) {x : Nat}
    {d : MObj} (hx : s.mat x = some d) (r c : Nat) (hne : r * c ≠ d.rows * d.cols) (hn : 0 < r * c)
    (hd : 0 < d.rows * d.cols) (hal : s.heap.fail s.heap.tick = false) : mResize false s x r c = .ub .raw := by
  have I := h.inv
  rcases (I.mat_alloc hx).2.2.2 with ⟨-, hz⟩ | ⟨b, l, h1, h2, h3⟩
  · have hz : d.rows * d.cols = 0 := hz
    omega
  · exact mResizeWith_raw hx h1 h2 h3 hne hal (I.fresh _ (le_refl _)) (by omega)

/-- C21, what holds: for trivial element types `resize` has no undefined behaviour, and for every element
type neither has a `resize` that keeps no element, nor `resize_fast`.  (Missing: every other `resize` of
elements with destructors, which is undefined, see `resize_reads_destroyed_false`; throwing element copies
are not modelled.) -/
theorem resize_reads_destroyed_partial {triv : Bool} {fail : Nat → Bool} {s : State E} (h : Reach triv fail s)
    {x : Nat} {d : VObj} (hx : s.vec x = some d) (n : Int) (copy : Bool)
    (ht : triv = true ∨ copy = false ∨ d.size = 0 ∨ n = 0) (u : UB) :
    vResizeWith copy triv s x n ≠ .ub u := by
  have I := h.inv
  obtain ⟨-, -, -, a4⟩ := I.vec_alloc hx
  by_cases hn : n < 0
  · simp [vResizeWith, State.vobj, hx, hn]
  by_cases hne : n.toNat = d.size
  · simp [vResizeWith, State.vobj, hx, hn, hne]
  cases hal : s.heap.fail s.heap.tick with
  | true => simp [vResizeWith, State.vobj, hx, hn, hne, Heap.alloc, hal]
  | false =>
    obtain ⟨h', l', e, -⟩ := vResizeWith_ok (copy := copy) (triv := triv) hx (by omega) hne hal
      (I.fresh _ (le_refl _)) a4 (fun hc => by
        rcases ht with h | h | h | h
        · exact Or.inl h
        · rw [hc] at h; cases h
        · right; right; rw [h]; exact Nat.zero_min _
        · right; right; rw [h]; exact Nat.min_zero _)
    rw [e]; simp

/-! ### C22: moves -/

/-- C22: move assignment of dynamic vectors exchanges contents; memory is not touched at all (no allocation,
no element copy). -/
theorem vmove_swaps {triv : Bool} {fail : Nat → Bool} {s : State E} (h : Reach triv fail s) {x y : Nat}
    {v w : VObj} (hx : s.vec x = some v) (hy : s.vec y = some w) :
    ∃ s', vMoveAssign s x y = .ok s' ∧ s'.vec x = some w ∧ s'.vec y = some v ∧ s'.heap = s.heap ∧
      s'.mat = s.mat ∧ ∀ z, z ≠ x → z ≠ y → s'.vec z = s.vec z := by
  obtain ⟨a1, a2, a3, -⟩ := h.inv.vec_alloc hx
  obtain ⟨b1, b2, b3, -⟩ := h.inv.vec_alloc hy
  have e1 : ({ v with data := w.data, size := w.size } : VObj) = w := by cases v; cases w; simp_all
  have e2 : ({ w with data := v.data, size := v.size } : VObj) = v := by cases v; cases w; simp_all
  refine ⟨(s.setVec x (some w)).setVec y (some v), by simp [vMoveAssign, State.vobj, hx, hy, e1, e2], ?_, by simp [State.setVec], rfl, rfl, ?_⟩
  · by_cases hxy : x = y
    · subst hxy
      rw [hx] at hy; cases hy
      simp [State.setVec]
    · simp [State.setVec, hxy]
  · intro z h1 h2; simp [State.setVec, h1, h2]

/-- C22: the contents follow: whatever `y` denoted, `x` denotes after `x = std::move(y)`, and conversely. -/
theorem vmove_values {triv : Bool} {fail : Nat → Bool} {s : State E} (h : Reach triv fail s) {x y : Nat}
    {p q : VVal E} (hp : VRep s (.var x) p) (hq : VRep s (.var y) q) :
    ∃ s', vMoveAssign s x y = .ok s' ∧ VRep s' (.var x) q ∧ VRep s' (.var y) p ∧ s'.heap = s.heap := by
  have hv : ∀ z r, VRep s (.var z) r → ∃ v, s.vec z = some v := by
    intro z r hr
    have := hr.size
    cases hz : s.vec z with
    | none => simp [VNode.size, State.vobj, hz] at this
    | some v => exact ⟨v, rfl⟩
  obtain ⟨v, hx⟩ := hv x p hp
  obtain ⟨w, hy⟩ := hv y q hq
  obtain ⟨s', e, e1, e2, e3, -⟩ := vmove_swaps h hx hy
  refine ⟨s', e, ⟨?_, fun i => ?_⟩, ⟨?_, fun i => ?_⟩, e3⟩
  · have := hq.size; simpa [VNode.size, State.vobj, e1, hy] using this
  · have := hq.get i; simpa [VNode.get, State.vobj, e1, hy, e3] using this
  · have := hp.size; simpa [VNode.size, State.vobj, e2, hx] using this
  · have := hp.get i; simpa [VNode.get, State.vobj, e2, hx, e3] using this

/-- C22: self-move leaves the program state as it is. -/
theorem vmove_self {s : State E} {x : Nat} {v : VObj} (hx : s.vec x = some v) :
    vMoveAssign s x x = .ok s := by
  simp only [vMoveAssign, State.vobj, hx, Out.withVal_ok]
  congr 1
  unfold State.setVec
  congr 1
  funext y
  by_cases h : y = x
  · subst h; simp [hx]
  · simp [h]

/-- C22: move construction takes the array over and leaves the source empty; memory is not touched. -/
theorem vmove_new {triv : Bool} {fail : Nat → Bool} {s : State E} (h : Reach triv fail s) {x y : Nat}
    {w : VObj} (hx : s.vec x = none) (hy : s.vec y = some w) :
    ∃ s', vMoveNew s x y = .ok s' ∧ s'.vec x = some w ∧
      (∃ w', s'.vec y = some w' ∧ w'.size = 0 ∧ w'.data = none) ∧ s'.heap = s.heap ∧ s'.mat = s.mat := by
  obtain ⟨b1, b2, b3, -⟩ := h.inv.vec_alloc hy
  have hyx : y ≠ x := by rintro rfl; rw [hx] at hy; cases hy
  have e1 : (⟨.allocated, false, w.data, 0, w.size⟩ : VObj) = w := by cases w; simp_all
  refine ⟨((vDefault s x).setVec x (some w)).setVec y (some { w with data := none, size := 0 }),
    by simp [vMoveNew, vMoveAssign, vDefault, State.vobj, State.setVec, hyx, hy, ctor, e1], ?_, ?_, rfl, rfl⟩
  · simp [State.setVec, Ne.symm hyx]
  · exact ⟨{ w with data := none, size := 0 }, by simp [State.setVec], rfl, rfl⟩

/-- C22: move assignment of dynamic matrices of the same type (layout, basis). -/
theorem mmove_swaps {triv : Bool} {fail : Nat → Bool} {s : State E} (h : Reach triv fail s) {x y : Nat}
    {v w : MObj} (hx : s.mat x = some v) (hy : s.mat y = some w) (ht : v.colMajor = w.colMajor)
    (hb : v.colBasis = w.colBasis) :
    ∃ s', mMoveAssign s x y = .ok s' ∧ s'.mat x = some w ∧ s'.mat y = some v ∧ s'.heap = s.heap ∧
      s'.vec = s.vec ∧ ∀ z, z ≠ x → z ≠ y → s'.mat z = s.mat z := by
  obtain ⟨a1, a2, a3, -⟩ := h.inv.mat_alloc hx
  obtain ⟨b1, b2, b3, -⟩ := h.inv.mat_alloc hy
  have e1 : ({ v with data := w.data, rows := w.rows, cols := w.cols } : MObj) = w := by
    cases v; cases w; simp_all
  have e2 : ({ w with data := v.data, rows := v.rows, cols := v.cols } : MObj) = v := by
    cases v; cases w; simp_all
  refine ⟨(s.setMat x (some w)).setMat y (some v), by simp [mMoveAssign, State.mobj, hx, hy, e1, e2], ?_, by simp [State.setMat], rfl, rfl, ?_⟩
  · by_cases hxy : x = y
    · subst hxy
      rw [hx] at hy; cases hy
      simp [State.setMat]
    · simp [State.setMat, hxy]
  · intro z h1 h2; simp [State.setMat, h1, h2]

/-- C22: self-move of a matrix leaves the program state as it is. -/
theorem mmove_self {s : State E} {x : Nat} {v : MObj} (hx : s.mat x = some v) :
    mMoveAssign s x x = .ok s := by
  simp only [mMoveAssign, State.mobj, hx, Out.withVal_ok]
  congr 1
  unfold State.setMat
  congr 1
  funext y
  by_cases h : y = x
  · subst h; simp [hx]
  · simp [h]

/-- C22: move construction of a matrix takes the array over and leaves the source empty. -/
theorem mmove_new {triv : Bool} {fail : Nat → Bool} {s : State E} (h : Reach triv fail s) {x y : Nat}
    {w : MObj} (hx : s.mat x = none) (hy : s.mat y = some w) :
    ∃ s', mMoveNew s x y = .ok s' ∧ s'.mat x = some w ∧
      (∃ w', s'.mat y = some w' ∧ w'.rows = 0 ∧ w'.cols = 0 ∧ w'.data = none) ∧ s'.heap = s.heap ∧
      s'.vec = s.vec := by
  obtain ⟨b1, b2, b3, -⟩ := h.inv.mat_alloc hy
  have hyx : y ≠ x := by rintro rfl; rw [hx] at hy; cases hy
  have e1 : (⟨.allocated, false, w.data, 0, w.rows, w.cols, w.colMajor, w.colBasis⟩ : MObj) = w := by
    cases w; simp_all
  refine ⟨((mDefault w.colMajor w.colBasis s x).setMat x (some w)).setMat y
      (some { w with data := none, rows := 0, cols := 0 }),
    by simp [mMoveNew, mMoveAssign, mDefault, State.mobj, State.setMat, hyx, hy, mctor, e1], ?_, ?_, rfl, rfl⟩
  · simp [State.setMat, Ne.symm hyx]
  · exact ⟨{ w with data := none, rows := 0, cols := 0 }, by simp [State.setMat], rfl, rfl, rfl⟩

/-! ### C23: copies and views -/

/-- C23: a variable keeps its value through any further statements that do not name it as a target. -/
theorem later_keeps {triv : Bool} {fail : Nat → Bool} {s s' : State E} (h : Reach triv fail s) {k : Nat ⊕ Nat}
    (hl : Later triv k s s') : Reach triv fail s' ∧
      (∀ y p, k = .inl y → VRep s (.var y) p → VRep s' (.var y) p) ∧
      (∀ y p, k = .inr y → MRep s (.var y) p → MRep s' (.var y) p) := by
  have key : Reach triv fail s' ∧ Keeps k s s' := by
    induction hl with
    | refl => exact ⟨h, .refl k s⟩
    | ok o _ hf hk hr ih =>
      have := Op.run_keeps (triv := triv) ih.1.inv o hf hk
      rw [hr] at this
      exact ⟨ih.1.ok o hf hr, ih.2.trans this.2⟩
    | thrown o e _ hf hk hr ih =>
      have := Op.run_post (triv := triv) ih.1.inv o hf
      rw [hr] at this
      exact ⟨ih.1.thrown o e hf hr, ih.2.trans (Untouched.keeps this k)⟩
  refine ⟨key.1, fun y p hk hr => ⟨?_, fun i => ?_⟩, fun y p hk hr => ⟨?_, fun i j => ?_⟩⟩
  · have := hr.size; simpa [VNode.size, State.vobj, key.2.vec y hk] using this
  · have hg := hr.get i
    rw [VNode.var_get] at hg ⊢
    obtain ⟨w, b, h1, h2, h3, h4⟩ := hg
    refine ⟨w, b, by rw [key.2.vec y hk, h1], h2, h3, ?_⟩
    rw [← h4]
    unfold Heap.cell
    rw [key.2.blk w b (by rw [hk]; exact h1) h2]
  · have := hr.dims; simpa [MNode.dims, State.mobj, key.2.mat y hk] using this
  · have hg := hr.get i j
    rw [MNode.var_get] at hg ⊢
    obtain ⟨w, b, h1, h2, h3, h3', h4⟩ := hg
    refine ⟨w, b, by rw [key.2.mat y hk, h1], h2, h3, h3', ?_⟩
    rw [← h4]
    unfold Heap.cell
    rw [key.2.blk w.flat b (by rw [hk]; simp [State.owner, h1]) h2]

/-- C23 for dynamic vectors: after the copy assignment `x = y` both have the elements of `y`, and each of
them keeps them through any further statements that do not name it as a target — whatever these statements
do to the other. -/
theorem vcopy_independent {fail : Nat → Bool} {s : State E} (h : Reach true fail s) {x y : Nat} {d : VObj}
    (hx : s.vec x = some d) {p : VVal E} (hy : VRep s (.var y) p)
    (hal : p.n ≠ d.size → s.heap.fail s.heap.tick = false) :
    ∃ s', (Op.vAssign x (.var y)).run true s = .ok s' ∧ VRep s' (.var x) p ∧ VRep s' (.var y) p ∧
      (∀ s'', Later true (.inl x) s' s'' → VRep s'' (.var x) p) ∧
      (∀ s'', Later true (.inl y) s' s'' → VRep s'' (.var y) p) := by
  rcases vAssign_var h.inv hx hy with ⟨s', e, e1, e2⟩ | ⟨h1, h2, -⟩
  · have hrun : (Op.vAssign x (.var y)).run true s = .ok s' := e
    have hr : Reach true fail s' := h.ok (.vAssign x (.var y)) trivial hrun
    exact ⟨s', hrun, e1, e2, fun s'' hl => (later_keeps hr hl).2.1 x p rfl e1,
      fun s'' hl => (later_keeps hr hl).2.1 y p rfl e2⟩
  · rw [hal h2] at h1; cases h1

/-- C23 for dynamic vectors: copy construction. -/
theorem vcopy_new_independent {fail : Nat → Bool} {s : State E} (h : Reach true fail s) {x y : Nat}
    (hx : s.vec x = none) {p : VVal E} (hy : VRep s (.var y) p)
    (hal : p.n ≠ 0 → s.heap.fail s.heap.tick = false) :
    ∃ s', (Op.vCopyNew x (.var y)).run true s = .ok s' ∧ VRep s' (.var x) p ∧ VRep s' (.var y) p ∧
      (∀ s'', Later true (.inl x) s' s'' → VRep s'' (.var x) p) ∧
      (∀ s'', Later true (.inl y) s' s'' → VRep s'' (.var y) p) := by
  have hd : Reach true fail (vDefault s x) := h.ok (.vDefault x) hx rfl
  have hyx : y ≠ x := by
    rintro rfl
    have := hy.size
    simp [VNode.size, State.vobj, hx] at this
  have hy' : VRep (vDefault s x) (.var y) p :=
    (later_keeps h (k := .inl y) (.ok (.vDefault x) .refl hx (by simpa [Op.Targets] using hyx) rfl)).2.1 y p rfl hy
  rcases vAssign_var hd.inv (vDefault_vec s x) hy' with ⟨s', e, e1, e2⟩ | ⟨h1, h2, -⟩
  · have hrun : (Op.vCopyNew x (.var y)).run true s = .ok s' := by
      show ctor x (vAssign true (vDefault s x) x (.var y)) = _
      rw [e]; rfl
    have hr : Reach true fail s' := h.ok (.vCopyNew x (.var y)) hx hrun
    exact ⟨s', hrun, e1, e2, fun s'' hl => (later_keeps hr hl).2.1 x p rfl e1,
      fun s'' hl => (later_keeps hr hl).2.1 y p rfl e2⟩
  · have := hal h2
    have h1 : s.heap.fail s.heap.tick = true := h1
    rw [this] at h1; cases h1

/-- Any number of element writes to vector `x`. -/
def putAll (triv : Bool) (x : Nat) : List (Nat × E) → State E → Out (State E)
  | [], s => .ok s
  | (i, e) :: l, s => (vPut triv s x i e).andThen (putAll triv x l)

/-- C23 for owning fixed-size vectors (and all others without overlap): element writes to `x` do not affect
a vector `y` whose memory is disjoint. -/
theorem writes_elsewhere {triv : Bool} {x y : Nat} (l : List (Nat × E)) {s s' : State E} {d : VObj}
    (hx : s.vec x = some d) (hd : VDisj s d y) {p : VVal E} (hy : VRep s (.var y) p)
    (hr : putAll triv x l s = .ok s') : VRep s' (.var y) p ∧ s'.vec = s.vec := by
  induction l generalizing s with
  | nil =>
    simp only [putAll, Out.ok.injEq] at hr
    subst hr; exact ⟨hy, rfl⟩
  | cons a l ih =>
    obtain ⟨i, e⟩ := a
    simp only [putAll] at hr
    cases hp : vPut triv s x i e with
    | throw e s => rw [hp] at hr; simp at hr
    | ub u => rw [hp] at hr; simp at hr
    | ok s1 =>
      rw [hp, Out.ok_andThen] at hr
      -- the write
      obtain ⟨b, h', hb, hi, hw, rfl⟩ : ∃ b h', d.data = some b ∧ i < d.size ∧
          s.heap.write triv b (d.off + i) e = .ok h' ∧ s1 = { s with heap := h' } := by
        unfold vPut at hp
        simp only [State.vobj, hx, Out.withVal_ok] at hp
        unfold VObj.put at hp
        cases hb : d.data with
        | none => simp [hb] at hp
        | some b =>
          simp only [hb] at hp
          by_cases hi : i < d.size
          · simp only [hi, if_true] at hp
            cases hw : s.heap.write triv b (d.off + i) e with
            | ok h' =>
              rw [hw] at hp
              simp only [Out.withVal_ok, Out.ok.injEq] at hp
              exact ⟨b, h', rfl, hi, hw, hp.symm⟩
            | throw e => rw [hw] at hp; simp at hp
            | ub u => rw [hw] at hp; simp at hp
          · simp [hi] at hp
      have hcell : ∀ b' o', (b', o') ≠ (b, d.off + i) → h'.cell b' o' = s.heap.cell b' o' := by
        intro b' o' hne
        unfold Heap.write at hw
        cases hl : s.heap.blk b with
        | none => simp [hl] at hw
        | some l =>
          simp only [hl] at hw
          cases hc : l[d.off + i]? with
          | none => simp [hc] at hw
          | some c =>
            simp only [hc] at hw
            split at hw
            · simp only [Res.ok.injEq] at hw
              subst hw
              unfold Heap.cell Heap.setBlk
              by_cases hbb : b' = b
              · subst hbb
                have ho : o' ≠ d.off + i := fun h => hne (by rw [h])
                simp [hl, List.getElem?_set_ne (Ne.symm ho)]
              · simp [hbb]
            · cases hw
      have hy' : VRep { s with heap := h' } (.var y) p := by
        refine ⟨hy.size, fun j => ?_⟩
        have hg := hy.get j
        rw [VNode.var_get] at hg ⊢
        obtain ⟨w, b', h1, h2, h3, h4⟩ := hg
        refine ⟨w, b', h1, h2, h3, ?_⟩
        rw [← h4]
        apply hcell
        intro he
        simp only [Prod.mk.injEq] at he
        obtain ⟨rfl, he⟩ := he
        rcases hd w h1 with h | h | h
        · exact h (by rw [h2, hb])
        · omega
        · omega
      exact ih (s := { s with heap := h' }) hx hd hy' hr

/-- C23 for owning fixed-size vectors: after `x = y` both have the elements of `y`, and element writes to
either do not affect the other. -/
theorem vcopy_fixed_independent {triv : Bool} {s : State E} {x y : Nat} {d w : VObj} (hx : s.vec x = some d)
    (hy : s.vec y = some w) {p : VVal E} (hp : VRep s (.var y) p) (hsz : p.n = d.size) (hdis : w.Disjoint d)
    (hready : d.Ready triv s.heap) :
    ∃ s', vAssign triv s x (.var y) = .ok s' ∧ s'.vec = s.vec ∧ VRep s' (.var x) p ∧ VRep s' (.var y) p ∧
      (∀ l s'', putAll triv x l s' = .ok s'' → VRep s'' (.var y) p) ∧
      (∀ l s'', putAll triv y l s' = .ok s'' → VRep s'' (.var x) p) := by
  have hvd : VDisj s d y := fun w' h' => by rw [hy] at h'; cases h'; exact hdis
  obtain ⟨h', e1, e2, e3⟩ := vAssign_ok (triv := triv) hx hp (f := w.fixed)
    (by
      have := hp.size
      simp only [VNode.size, State.vobj, hy, Res.ok_bind, Res.pure_eq, Res.ok.injEq] at this
      rw [← this]
      exact typed_vec hy) hsz hready
    (show VAhead s d y from fun w' h' => Or.inl (hvd w' h'))
  have hrx : VRep { s with heap := h' } (.var x) p :=
    ⟨by simp [VNode.size, State.vobj, hx, hsz], fun i => by simpa [VNode.get, State.vobj, hx] using e2 i⟩
  have hry := vrep_frame e3 hvd hp
  refine ⟨_, e1, rfl, hrx, hry, fun l s'' hl => ?_, fun l s'' hl => ?_⟩
  · exact (writes_elsewhere l (s := { s with heap := h' }) hx hvd hry hl).1
  · refine (writes_elsewhere l (s := { s with heap := h' }) hy ?_ hrx hl).1
    intro d' hd'
    have hd' : s.vec x = some d' := hd'
    rw [hx] at hd'; cases hd'
    rcases hdis with h | h | h
    · exact Or.inl (Ne.symm h)
    · exact Or.inr (Or.inr h)
    · exact Or.inr (Or.inl h)

/-- C23: the copy of an external vector shares its memory: in every state in which both objects still are
what they were, all their elements are the same. -/
theorem view_copy_shares {s : State E} {x y : Nat} {w : VObj} (hy : s.vec y = some w) :
    ∃ s', vViewCopy s x y = .ok s' ∧ s'.heap = s.heap ∧ s'.vec x = some w ∧
      (∀ s'' : State E, s''.vec x = s'.vec x → s''.vec y = s'.vec y → ∀ i,
        (VNode.var x : VNode E).get s'' i = (VNode.var y : VNode E).get s'' i) := by
  refine ⟨s.setVec x (some w), by simp [vViewCopy, State.vobj, hy], rfl, by simp [State.setVec], ?_⟩
  intro s'' h1 h2 i
  have e1 : s''.vec x = some w := by rw [h1]; simp [State.setVec]
  have e2 : s''.vec y = some w := by
    rw [h2]
    by_cases hxy : y = x
    · simp [State.setVec, hxy]
    · simp [State.setVec, hxy, hy]
  simp [VNode.get, State.vobj, e1, e2]

/-- C23: assigning to an external vector writes through: the elements of any vector `z` whose memory it
views become the assigned values; the view stays bound to the same memory. -/
theorem view_assign_through {triv : Bool} {s : State E} {x y z : Nat} {d w c : VObj} (hx : s.vec x = some d)
    (hy : s.vec y = some w) (hz : s.vec z = some c) {p : VVal E} (hp : VRep s (.var y) p) (hsz : p.n = d.size)
    (hdis : w.Disjoint d) (hready : d.Ready triv s.heap) (hdata : c.data = d.data) (hoff : c.off ≤ d.off) :
    ∃ s', vAssign triv s x (.var y) = .ok s' ∧ s'.vec = s.vec ∧
      ∀ i : Fin p.n, d.off - c.off + i < c.size →
        (VNode.var z : VNode E).get s' (d.off - c.off + i) = .ok (p.f i) := by
  obtain ⟨s', e1, e2, e3, -⟩ := vcopy_fixed_independent (triv := triv) hx hy hp hsz hdis hready
  refine ⟨s', e1, e2, fun i hi => ?_⟩
  have := e3.get i
  rw [VNode.var_get] at this ⊢
  obtain ⟨d', b, h1, h2, h3, h4⟩ := this
  rw [e2, hx] at h1; cases h1
  refine ⟨c, b, by rw [e2, hz], by rw [hdata, h2], hi, ?_⟩
  rw [← h4]
  congr 1
  omega

/-- C23: moving an external vector rebinds the destination to the memory of the source and clears the
source; no memory is read or written. -/
theorem view_move_rebinds {s : State E} {x y : Nat} {v w : VObj} (hxy : x ≠ y) (hx : s.vec x = some v)
    (hy : s.vec y = some w) (hs : v.storage = w.storage) (hf : v.fixed = w.fixed) :
    ∃ s', vViewMove s x y = .ok s' ∧ s'.heap = s.heap ∧ s'.vec x = some w ∧
      s'.vec y = some { w with data := none, off := 0, size := if w.fixed then w.size else 0 } := by
  have e : ({ v with data := w.data, off := w.off, size := w.size } : VObj) = w := by cases v; cases w; simp_all
  refine ⟨(s.setVec x (some w)).setVec y (some { w with data := none, off := 0, size := if w.fixed then w.size else 0 }),
    by simp [vViewMove, State.vobj, hx, hy, e], rfl, ?_, ?_⟩
  · simp [State.setVec, hxy]
  · simp [State.setVec]

/-- C23, a consequence worth knowing: self-move of an external vector loses the view. -/
theorem view_self_move {s : State E} {x : Nat} {v : VObj} (hx : s.vec x = some v) :
    ∃ s', vViewMove s x x = .ok s' ∧ s'.heap = s.heap ∧
      s'.vec x = some { v with data := none, off := 0, size := if v.fixed then v.size else 0 } := by
  refine ⟨(s.setVec x (some v)).setVec x (some { v with data := none, off := 0, size := if v.fixed then v.size else 0 }),
    by simp [vViewMove, State.vobj, hx], rfl, by simp [State.setVec]⟩

/-! ### C78: matrices -/

/-- C78: in every reachable state, every dynamic matrix has no array (and no elements) or its own live array
of exactly `rows * cols` elements. -/
theorem mhistory_owned {triv : Bool} {fail : Nat → Bool} {s : State E} (h : Reach triv fail s) {x : Nat}
    {m : MObj} (hx : s.mat x = some m) :
    (m.data = none ∧ m.rows * m.cols = 0) ∨
      ∃ b l, m.data = some b ∧ s.heap.blk b = some l ∧ l.length = m.rows * m.cols ∧
        (∀ y w, s.mat y = some w → w.data = some b → y = x) ∧ (∀ y w, s.vec y = some w → w.data ≠ some b) := by
  have I := h.inv
  have hown : s.owner (.inr x) = some m.flat := by simp [State.owner, hx]
  rcases (I.mat_alloc hx).2.2.2 with h | ⟨b, l, h1, h2, h3⟩
  · exact Or.inl h
  · refine Or.inr ⟨b, l, h1, h2, h3, fun y w hy hb => ?_, fun y w hy hb => ?_⟩
    · have := I.excl (.inr y) (.inr x) w.flat m.flat b (by simp [State.owner, hy]) hown hb h1
      simpa using this
    · have := I.excl (.inl y) (.inr x) w m.flat b hy hown hb h1
      cases this

/-- C78: element access with indices in range is never out of bounds. -/
theorem mhistory_access {fail : Nat → Bool} {s : State E} (h : Reach true fail s) {x i j : Nat} {m : MObj}
    (hx : s.mat x = some m) (hi : i < m.rows) (hj : j < m.cols) (e : E) :
    (∃ h', mPut true s x i j e = .ok { s with heap := h' } ∧ m.get h' i j = .ok e) ∧
      ((∃ a, (MNode.var x : MNode E).get s i j = .ok a) ∨ (MNode.var x : MNode E).get s i j = .ub .uninit) := by
  have I := h.inv
  obtain ⟨-, -, a3, a4⟩ := I.mat_alloc hx
  have hlt := MObj.index_lt hi hj
  rcases a4 with ⟨-, hz⟩ | ⟨b, l, h1, h2, h3⟩
  · have hz : m.rows * m.cols = 0 := hz
    omega
  · have h1 : m.data = some b := h1
    have h3 : l.length = m.rows * m.cols := h3
    have hil : m.index i j < l.length := by omega
    constructor
    · refine ⟨s.heap.setBlk b (some (l.set (m.index i j) (some e))), ?_, ?_⟩
      · simp [mPut, State.mobj, hx, MObj.put, h1, hi, hj, Heap.write, h2, a3, hil]
      · simp [MObj.get, h1, hi, hj, Heap.read, Heap.setBlk, a3, hil]
    · cases hc : l[m.index i j] with
      | none =>
        right; simp [MNode.get, State.mobj, hx, MObj.get, h1, hi, hj, Heap.read, h2, a3, hil, hc]
      | some a =>
        left; exact ⟨a, by simp [MNode.get, State.mobj, hx, MObj.get, h1, hi, hj, Heap.read, h2, a3, hil, hc]⟩

/-- C78, C23 for dynamic matrices: copy assignment gives equal elements, and each matrix keeps them through
any further statements that do not name it as a target. -/
theorem mcopy_independent {fail : Nat → Bool} {s : State E} (h : Reach true fail s) {x y : Nat} {d w : MObj}
    (hx : s.mat x = some d) (hw : s.mat y = some w) {f : Fin w.rows → Fin w.cols → E}
    (hy : MRep s (.var y) ⟨w.rows, w.cols, f⟩)
    (hal : w.rows * w.cols ≠ d.rows * d.cols → s.heap.fail s.heap.tick = false) :
    ∃ s', (Op.mAssign x (.var y)).run true s = .ok s' ∧ MRep s' (.var x) ⟨w.rows, w.cols, f⟩ ∧
      MRep s' (.var y) ⟨w.rows, w.cols, f⟩ ∧
      (∀ s'', Later true (.inr x) s' s'' → MRep s'' (.var x) ⟨w.rows, w.cols, f⟩) ∧
      (∀ s'', Later true (.inr y) s' s'' → MRep s'' (.var y) ⟨w.rows, w.cols, f⟩) := by
  rcases mAssign_var h.inv hx hw hy with ⟨s', e, e1, e2⟩ | ⟨h1, h2, -⟩
  · have hrun : (Op.mAssign x (.var y)).run true s = .ok s' := e
    have hr : Reach true fail s' := h.ok (.mAssign x (.var y)) trivial hrun
    exact ⟨s', hrun, e1, e2, fun s'' hl => (later_keeps hr hl).2.2 x _ rfl e1,
      fun s'' hl => (later_keeps hr hl).2.2 y _ rfl e2⟩
  · rw [hal h2] at h1; cases h1

/-! ### C82: constructors that throw -/

/-- C82 is false: `matrix(rows, cols, array)` with an array of the wrong length throws and leaks the array it
had already allocated — in every state and for all dimensions with `rows * cols ≠ 0`. -/
theorem mnew_array_leaks_false {triv colMajor colBasis : Bool} {fail : Nat → Bool} {s : State E} (h : Reach triv fail s)
    {x r c : Nat} (hx : s.mat x = none) (xs : List E) (hlen : xs.length ≠ r * c) (hrc : r * c ≠ 0)
    (hal : s.heap.fail s.heap.tick = false) :
    ∃ s' b l, mNewArray triv colMajor colBasis s x r c xs = .throw .matIncompatible s' ∧
      s'.heap.blk b = some l ∧ l.length = r * c ∧ ∀ k v, s'.owner k = some v → v.data ≠ some b := by
  have I := h.inv
  have hx0 := mDefault_mat colMajor colBasis s x
  have I0 := mDefault_inv (cm := colMajor) (cb := colBasis) I hx
  obtain ⟨h', l', e, e1, e2, -⟩ := mResizeWith_ok (copy := false) (triv := triv) hx0 (r := r) (c := c)
    (by simpa using hrc) hal (I0.fresh _ (le_refl _)) (I0.mat_alloc hx0).2.2.2 (fun h => by cases h)
  refine ⟨({ (mDefault colMajor colBasis s x) with heap := h' }.setMat x
      (some ⟨.allocated, false, some s.heap.next, 0, r, c, colMajor, colBasis⟩)).setMat x none, s.heap.next, l',
    ?_, e1, by simpa using e2, ?_⟩
  · unfold mNewArray mResizeFast
    rw [e, Out.ok_andThen]
    unfold mAssignList
    have : (r * c == xs.length) = false := by
      rw [beq_eq_false_iff_ne]; exact fun h => hlen h.symm
    simp only [State.mobj, State.setMat, if_true, Out.withVal_ok, this, Res.require, ListKind.err, Bool.false_eq_true, if_false]
    rfl
  · intro k v hk hd
    have hk' : s.owner k = some v := by
      cases k with
      | inl y => exact hk
      | inr y =>
        by_cases hy : y = x
        · subst hy; simp [State.owner, State.setMat] at hk
        · simpa [State.owner, State.setMat, hy, mDefault] using hk
    exact I.ne_next hk' hd rfl

/-- C82, what holds: every other constructor of a history (default, size, copy, move, from an expression)
that throws leaves all memory as it was, and the array constructor does if the length fits — it then
succeeds and its matrix owns the array.  (Missing: the array constructor with a wrong length.) -/
theorem ctor_throw_partial {triv : Bool} {fail : Nat → Bool} {s : State E} (h : Reach triv fail s) (x : Nat) :
    (∀ n e s', s.vec x = none → vNew triv s x n = .throw e s' → s'.heap.blk = s.heap.blk) ∧
    (∀ n e s', s.vec x = none → vCopyNew triv s x n = .throw e s' → s'.heap.blk = s.heap.blk) ∧
    (∀ cm cb r c e s', s.mat x = none → mNew triv cm cb s x r c = .throw e s' → s'.heap.blk = s.heap.blk) ∧
    (∀ cm cb n e s', s.mat x = none → mCopyNew triv cm cb s x n = .throw e s' → s'.heap.blk = s.heap.blk) ∧
    (∀ cm cb (r c : Nat) xs e s', s.mat x = none → xs.length = r * c →
      mNewArray triv cm cb s x r c xs = .throw e s' → s'.heap.blk = s.heap.blk) := by
  have I := h.inv
  refine ⟨?_, ?_, ?_, ?_, ?_⟩
  · intro n e s' hx hr
    have := ctor_post hx (vResizeWith_post (copy := false) (triv := triv) (vDefault_inv I hx) x n)
    rw [show ctor x (vResizeWith false triv (vDefault s x) x n) = _ from hr] at this
    exact Untouched.blk this
  · intro n e s' hx hr
    have := ctor_post hx (vAssign_post (triv := triv) (vDefault_inv I hx) x n)
    rw [show ctor x _ = _ from hr] at this
    exact Untouched.blk this
  · intro cm cb r c e s' hx hr
    have := mctor_post hx (mResizeWith_post (copy := false) (triv := triv) (mDefault_inv (cm := cm) (cb := cb) I hx) x r c)
    rw [show mctor x (mResizeWith false triv (mDefault cm cb s x) x r c) = _ from hr] at this
    exact Untouched.blk this
  · intro cm cb n e s' hx hr
    have := mctor_post hx (mAssign_post (triv := triv) (mDefault_inv (cm := cm) (cb := cb) I hx) x n)
    rw [show mctor x _ = _ from hr] at this
    exact Untouched.blk this
  · intro cm cb r c xs e s' hx hlen hr
    have I0 := mDefault_inv (cm := cm) (cb := cb) I hx
    have key : ((mResizeFast triv (mDefault cm cb s x) x r c).andThen fun s => mAssignList triv .array s x xs).Post
        (fun s' => Inv s') (Untouched (mDefault cm cb s x)) := by
      have hx0 := mDefault_mat cm cb s x
      have hp := mResizeWith_post (copy := false) (triv := triv) I0 x r c
      unfold mResizeFast
      cases hres : mResizeWith false triv (mDefault cm cb s x) x r c with
      | ub u => trivial
      | throw e s1 => rw [hres] at hp; exact hp
      | ok s1 =>
        rw [hres] at hp
        rw [Out.ok_andThen]
        unfold mAssignList
        refine .withVal (fun m hm => .withVal (fun _ _ => Out.Quiet.inv hp ?_) fun e he => ?_)
          fun e he => absurd he (s1.mobj_noThrow x e)
        · exact .loop (fun k s'' h'' => .withVal (fun a _ => mPut_quiet triv s1 s'' h'' x _ _ a) fun e he =>
            VNode.get_noThrow s'' (.temp true xs) k e he) (.refl s1)
        · -- the size check cannot fail
          exfalso
          have hdim : m.rows * m.cols = r * c := by
            have hm := mobj_ok hm
            have h2 : ¬ (r : Int) < 0 := by omega
            have h3 : ¬ (c : Int) < 0 := by omega
            by_cases hne : r * c = 0
            · have := mResizeWith_relabel (copy := false) (triv := triv) hx0 (r := r) (c := c) (by simpa using hne)
              rw [this] at hres
              simp only [Out.ok.injEq] at hres
              subst hres
              simp only [State.setMat, if_true, Option.some.injEq] at hm
              subst hm; rfl
            · cases hal : s.heap.fail s.heap.tick with
              | true =>
                have : (mDefault cm cb s x).heap.fail (mDefault cm cb s x).heap.tick = true := hal
                simp only [mResizeWith, State.mobj, hx0, Out.withVal_ok, if_neg h2, if_neg h3, Int.toNat_natCast,
                  Nat.mul_zero, if_neg hne, Heap.alloc, this] at hres
                simp at hres
              | false =>
                obtain ⟨h', l', e, -⟩ := mResizeWith_ok (copy := false) (triv := triv) hx0 (r := r) (c := c)
                  (by simpa using hne) hal (I0.fresh _ (le_refl _)) (I0.mat_alloc hx0).2.2.2 (fun h => by cases h)
                rw [e] at hres
                simp only [Out.ok.injEq] at hres
                subst hres
                simp only [State.setMat, if_true, Option.some.injEq] at hm
                subst hm; rfl
          rw [hdim, hlen] at he
          simp [Res.require] at he
    have := mctor_post hx key
    rw [show mctor x _ = _ from hr] at this
    exact Untouched.blk this

end

/-! ### Examples -/

section Examples

/-- No allocation fails. -/
private def never : Nat → Bool := fun _ => false

/-- `vector v0(3); v0.fill(7); vector v1(v0); v1.put(0, 5); v1.resize(2); matrix m0(2, 2);` is a history: a
reachable state with two vectors and a matrix. -/
private theorem exReach : ∃ s : State ℤ, Reach true never s ∧
    s.vec 0 = some ⟨.allocated, false, some 0, 0, 3⟩ ∧ s.vec 1 = some ⟨.allocated, false, some 2, 0, 2⟩ ∧
    s.vec 2 = none ∧ s.mat 0 = some ⟨.allocated, false, some 3, 0, 2, 2, true, false⟩ ∧
    s.heap.blk 0 = some [some 7, some 7, some 7] ∧ s.heap.blk 2 = some [some 5, some 7] ∧
    s.heap.blk 3 = some [none, none, none, none] ∧ s.heap.fail = never :=
  ⟨_, .ok (.mNew true false 0 2 2) (.ok (.vResize false 1 2) (.ok (.vPut 1 0 5) (.ok (.vCopyNew 1 (.var 0))
    (.ok (.vFill 0 (.val 7)) (.ok (.vNew 0 3) .start rfl rfl) trivial rfl) rfl rfl) trivial rfl) trivial rfl) rfl rfl,
    rfl, rfl, rfl, rfl, rfl, rfl, rfl, rfl⟩

/-- C19, C20, C22, C23, C78: the hypotheses are met by `exReach`. -/
example : ∃ s : State ℤ, Reach true never s ∧
    -- documented statements
    (Op.vDestroy 0 : Op ℤ).Proper s ∧ (Op.vCopyNew 2 (.var 0) : Op ℤ).Proper s ∧
    (Op.vResize false 0 (-1) : Op ℤ).Proper s ∧
    -- the destination of a copy, and its source with values
    (∃ d, s.vec 1 = some d) ∧ (∃ p : VVal ℤ, p.n = 3 ∧ VRep s (.var 0) p) ∧
    -- later statements that change `v1`, not `v0`
    (∃ s', Later true (.inl 0) s s' ∧ ∃ v, s'.vec 1 = some v ∧ v.get s'.heap 1 = .ok 9) := by
  obtain ⟨s, h, h0, h1, h2, h3, h4, h5, -, -⟩ := exReach
  have hi : ∀ i, i < 3 → (⟨.allocated, false, some 0, 0, 3⟩ : VObj).get s.heap i = .ok 7 := by
    intro i hi
    have : i = 0 ∨ i = 1 ∨ i = 2 := by omega
    rcases this with rfl | rfl | rfl <;> simp [VObj.get, Heap.read, h4]
  refine ⟨s, h, by simp [Op.Proper, h0], ⟨h2, 0, rfl, _, h0, fun i hi' => ⟨7, hi i hi'⟩⟩, by simp [Op.Proper, h0],
    ⟨_, h1⟩, ⟨⟨3, fun _ => 7⟩, rfl, ?_, fun i => ?_⟩, ?_⟩
  · simp [VNode.size, State.vobj, h0]
  · simpa [VNode.get, State.vobj, h0] using hi i i.2
  · obtain ⟨⟨h', e1, e2⟩, -⟩ := vhistory_access h h1 (i := 1) (by decide) (9 : ℤ)
    exact ⟨_, .ok (.vPut 1 1 9) .refl trivial (by simp [Op.Targets]) e1, _, h1, e2⟩

/-- C21: a reachable state of a program with `std::string`-like elements in which `resize` is undefined. -/
example : ∃ s : State ℤ, Reach false never s ∧ vResize false s 0 4 = .ub .raw := by
  have h : Reach false never _ := .ok (.vNew 0 3 : Op ℤ) .start rfl rfl
  exact ⟨_, h, resize_reads_destroyed_false h rfl 4 (by decide) (by decide) (by decide) rfl⟩

example : ∃ s : State ℤ, Reach false never s ∧ mResize false s 0 2 3 = .ub .raw := by
  have h : Reach false never _ := .ok (.mNew false false 0 2 2 : Op ℤ) .start rfl rfl
  exact ⟨_, h, mresize_reads_destroyed_false h rfl 2 3 (by decide) (by decide) (by decide) rfl⟩

/-- C21, the partial statement: shrinking to nothing. -/
example : ∃ s : State ℤ, Reach false never s ∧ ∀ u, vResizeWith true false s 0 0 ≠ .ub u := by
  have h : Reach false never _ := .ok (.vNew 0 3 : Op ℤ) .start rfl rfl
  exact ⟨_, h, fun u => resize_reads_destroyed_partial h rfl 0 true (by simp) u⟩

/-- C20: a failing allocation and a negative size. -/
example : ∃ s : State ℤ, Reach true (fun k => k == 1) s ∧
    vResize true s 0 (-1) = .throw .invalidArgument s ∧ ∃ s', vResize true s 0 5 = .throw .badAlloc s' := by
  have h : Reach true (fun k => k == 1) _ := .ok (.vNew 0 3 : Op ℤ) .start rfl rfl
  refine ⟨_, h, (vresize_errors rfl (-1)).1 (by decide), ?_⟩
  exact ⟨_, rfl⟩

/-- `v0` owning fixed-size with elements 1, 2, 3; `v1` fixed-size with 4, 5, 6; `v2` views the last two
elements of `v0`, `v3` a fixed-size vector with 7, 8. -/
private def exW : State ℤ :=
  demo [[some 1, some 2, some 3], [some 4, some 5, some 6], [some 7, some 8]]
    [⟨.compiled, true, some 0, 0, 3⟩, ⟨.compiled, true, some 1, 0, 3⟩, ⟨.external, false, some 0, 1, 2⟩,
      ⟨.compiled, true, some 2, 0, 2⟩] []

/-- C23: the hypotheses of `vcopy_fixed_independent`. -/
example : ∃ s', vAssign true exW 0 (.var 1) = .ok s' ∧ VRep s' (.var 0) ⟨3, ![4, 5, 6]⟩ := by
  obtain ⟨s', e, -, e2, -⟩ := vcopy_fixed_independent (triv := true) (s := exW) (x := 0) (y := 1) rfl rfl
    (p := ⟨3, ![4, 5, 6]⟩) ⟨rfl, fun i => by fin_cases i <;> rfl⟩ rfl (Or.inl (by decide))
    (fun i hi => match i, hi with
      | 0, _ => ⟨0, rfl, some 1, rfl, Or.inl rfl⟩
      | 1, _ => ⟨0, rfl, some 2, rfl, Or.inl rfl⟩
      | 2, _ => ⟨0, rfl, some 3, rfl, Or.inl rfl⟩
      | i + 3, h => absurd h (by simp))
  exact ⟨s', e, e2⟩

/-- C23: the hypotheses of `view_assign_through`: `v2 = v3` changes `v0[2]`. -/
example : ∃ s', vAssign true exW 2 (.var 3) = .ok s' ∧ (VNode.var 0 : VNode ℤ).get s' 2 = .ok 8 := by
  obtain ⟨s', e, -, e2⟩ := view_assign_through (triv := true) (s := exW) (x := 2) (y := 3) (z := 0) rfl rfl rfl
    (p := ⟨2, ![7, 8]⟩) ⟨rfl, fun i => by fin_cases i <;> rfl⟩ rfl (Or.inl (by decide))
    (fun i hi => match i, hi with
      | 0, _ => ⟨0, rfl, some 2, rfl, Or.inl rfl⟩
      | 1, _ => ⟨0, rfl, some 3, rfl, Or.inl rfl⟩
      | i + 2, h => absurd h (by simp)) rfl (by decide)
  exact ⟨s', e, e2 (1 : Fin 2) (by decide)⟩

/-- C82: `matrix<int, dynamic<>> m(2, 2, {1, 2, 3})` (array of length 3). -/
example : ∃ s : State ℤ, Reach true never s ∧ ∃ s' b l,
    mNewArray true false false s 0 2 2 [1, 2, 3] = .throw .matIncompatible s' ∧ s'.heap.blk b = some l ∧
      l.length = 4 ∧ ∀ k v, s'.owner k = some v → v.data ≠ some b :=
  ⟨_, .start, mnew_array_leaks_false .start rfl [1, 2, 3] (by decide) (by decide) rfl⟩

end Examples

#print axioms vhistory_owned
#print axioms history_no_leak
#print axioms history_released
#print axioms history_no_ub
#print axioms history_strong_exception
#print axioms vhistory_access
#print axioms vresize_prefix
#print axioms vresize_errors
#print axioms resize_reads_destroyed_false
#print axioms mresize_reads_destroyed_false
#print axioms resize_reads_destroyed_partial
#print axioms vmove_swaps
#print axioms vmove_values
#print axioms vmove_self
#print axioms vmove_new
#print axioms mmove_swaps
#print axioms mmove_self
#print axioms mmove_new
#print axioms later_keeps
#print axioms vcopy_independent
#print axioms vcopy_new_independent
#print axioms writes_elsewhere
#print axioms vcopy_fixed_independent
#print axioms view_copy_shares
#print axioms view_assign_through
#print axioms view_move_rebinds
#print axioms view_self_move
#print axioms mhistory_owned
#print axioms mhistory_access
#print axioms mcopy_independent
#print axioms mnew_array_leaks_false
#print axioms ctor_throw_partial

end CML
