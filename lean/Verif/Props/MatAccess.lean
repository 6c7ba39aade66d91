import Verif.Lemmas.MatAccess
import Verif.Props.MatAssign

/-!
C26 (element lists), C27 (in-place transpose), C28 (resize), C31 (rows, columns, basis vectors), C42
(equality), C81 (compile-time size of basis nodes).
-/

set_option linter.unusedSectionVars false

namespace CML

variable {E : Type} [Add E] [Sub E] [Mul E] [Div E] [Neg E]

/-! ### C26: assignment from flat sequences -/

/-- C26.  Assigning a flat sequence of the right length (element list, one-dimensional array or
initializer list) stores value `i * cols + j` in element `(i,j)`, in either layout, and changes no other
memory. -/
theorem massign_list {triv : Bool} {kind : ListKind} {s : State E} {x : Nat} {d : MObj}
    (hx : s.mat x = some d) (hw : d.flat.Ready triv s.heap) (xs : List E)
    (hlen : xs.length = d.rows * d.cols) :
    ∃ h', mAssignList triv kind s x xs = .ok { s with heap := h' } ∧
      MRep { s with heap := h' } (.var x) ⟨d.rows, d.cols, fun i j =>
        xs[(i : Nat) * d.cols + j]'(hlen ▸ rowMajor_lt i.2 j.2)⟩ ∧
      SameOutside d.flat s.heap h' := by
  obtain ⟨h', e1, e2, e3⟩ := mListLoop_ok (triv := triv) hx hw xs hlen.ge
  refine ⟨h', ?_, e2, e3⟩
  unfold mAssignList
  simp only [State.mobj, hx, Out.withVal_ok, hlen, beq_self_eq_true, Res.require, if_true]
  exact e1

/-- C26.  A sequence of a different length is rejected and nothing is changed. -/
theorem massign_list_length {triv : Bool} {kind : ListKind} {s : State E} {x : Nat} {d : MObj}
    (hx : s.mat x = some d) (xs : List E) (hlen : xs.length ≠ d.rows * d.cols) :
    ∃ er, (er = .matSize ∨ er = .matIncompatible ∨ er = .staticAssert) ∧
      mAssignList triv kind s x xs = .throw er s := by
  refine ⟨kind.err d.fixed, ?_, ?_⟩
  · cases kind <;> cases d.fixed <;> simp [ListKind.err]
  · unfold mAssignList
    have : (d.rows * d.cols == xs.length) = false := by
      rw [beq_eq_false_iff_ne]; exact fun h => hlen h.symm
    simp only [State.mobj, hx, Out.withVal_ok, this, Res.require]
    rfl

/-- C26 for pointers (no length known): the first `rows * cols` values are used, in the same order. -/
theorem massign_ptr {triv : Bool} {s : State E} {x : Nat} {d : MObj}
    (hx : s.mat x = some d) (hw : d.flat.Ready triv s.heap) (xs : List E)
    (hlen : d.rows * d.cols ≤ xs.length) :
    ∃ h', mAssignPtr triv s x xs = .ok { s with heap := h' } ∧
      MRep { s with heap := h' } (.var x) ⟨d.rows, d.cols, fun i j =>
        xs[(i : Nat) * d.cols + j]'(lt_of_lt_of_le (rowMajor_lt i.2 j.2) hlen)⟩ ∧
      SameOutside d.flat s.heap h' := by
  obtain ⟨h', e1, e2, e3⟩ := mListLoop_ok (triv := triv) hx hw xs hlen
  refine ⟨h', ?_, e2, e3⟩
  unfold mAssignPtr
  simp only [State.mobj, hx, Out.withVal_ok]
  exact e1

/-- C26 for the constructor `matrix(rows, cols, array)` of a dynamic matrix (trivial element type, new
variable `x`, successful allocation): right dimensions and elements in either layout; an array of the wrong
length makes the constructor throw. -/
theorem mnew_array {colMajor colBasis : Bool} {s : State E} {x r c : Nat} (xs : List E)
    (hal : s.heap.fail s.heap.tick = false) (hfr : s.heap.blk s.heap.next = none) :
    (∀ hlen : xs.length = r * c, ∃ s', mNewArray true colMajor colBasis s x r c xs = .ok s' ∧
      MRep s' (.var x) ⟨r, c, fun i j => xs[(i : Nat) * c + j]'(hlen ▸ rowMajor_lt i.2 j.2)⟩) ∧
    (xs.length ≠ r * c → ∃ s', mNewArray true colMajor colBasis s x r c xs = .throw .matIncompatible s' ∧
      s'.mat x = none) := by
  -- the state after allocating
  obtain ⟨s1, d1, r1, r2, r3, r4⟩ : ∃ s1 d1, mResizeFast true (mDefault colMajor colBasis s x) x r c
      = .ok s1 ∧ s1.mat x = some d1 ∧ (d1.rows = r ∧ d1.cols = c ∧ d1.fixed = false) ∧
      d1.flat.Ready true s1.heap := by
    have hx0 : (mDefault colMajor colBasis s x).mat x
        = some ⟨.allocated, false, none, 0, 0, 0, colMajor, colBasis⟩ := by
      simp [mDefault, State.setMat]
    by_cases he : r * c = 0
    · refine ⟨_, _, mResizeWith_relabel hx0 (by simpa using he), by simp [State.setMat]; rfl,
        ⟨rfl, rfl, rfl⟩, ?_⟩
      intro k hk
      simp only [MObj.flat] at hk
      omega
    · obtain ⟨h1, l1, q1, q2, q3, q4, -⟩ :=
        mResizeWith_ok (copy := false) (triv := true) hx0 (by simpa using he) hal hfr
          (Or.inl ⟨rfl, by simp [MObj.flat]⟩) (fun h => by cases h)
      refine ⟨_, _, q1, by simp [State.setMat]; rfl, ⟨rfl, rfl, rfl⟩, ?_⟩
      intro k hk
      have hk' : k < l1.length := by rw [q3]; exact hk
      refine ⟨_, rfl, l1[k], ?_, Or.inl rfl⟩
      have q2' : h1.blk s.heap.next = some l1 := q2
      simp only [Heap.cell, MObj.flat, State.setMat, mDefault, q2', Nat.zero_add, Option.bind_some]
      exact List.getElem?_eq_getElem hk'
  obtain ⟨rfl, rfl, r3⟩ := r3
  constructor
  · intro hlen
    obtain ⟨h', e1, e2, -⟩ := massign_list (kind := .array) r2 r4 xs hlen
    refine ⟨_, ?_, e2⟩
    unfold mNewArray
    rw [r1, Out.ok_andThen, e1]
    rfl
  · intro hlen
    have hb : (d1.rows * d1.cols == xs.length) = false := by
      rw [beq_eq_false_iff_ne]; exact fun h => hlen h.symm
    have e2 : mAssignList true .array s1 x xs = .throw .matIncompatible s1 := by
      unfold mAssignList
      simp only [State.mobj, r2, Out.withVal_ok, hb, Res.require, ListKind.err, r3]
      rfl
    refine ⟨s1.setMat x none, ?_, by simp [State.setMat]⟩
    unfold mNewArray
    rw [r1, Out.ok_andThen, e2]
    rfl

example : ∃ s', mAssignList true .initList exM 2 [1, 2, 3, 4, 5, 7] = .ok s' ∧
    (MNode.var 2 : MNode ℤ).get s' 0 1 = .ok 2 ∧ (MNode.var 2 : MNode ℤ).get s' 1 2 = .ok 7 :=
  ⟨_, rfl, rfl, rfl⟩
example : mAssignList true .elements exM 0 [1, 2, 3] = .throw .staticAssert exM := rfl
example : ∃ s', mNewArray true true false exM 7 2 2 [1, 2, 3, 4] = .ok s' ∧
    (MNode.var 7 : MNode ℤ).get s' 0 1 = .ok 2 := ⟨_, rfl, rfl⟩

/-! ### C27: in-place transpose -/

/-- The swaps done before row `i`, column `j` of the loop nest. -/
private def swapped {n : Nat} (i j : Nat) (p : Fin n → Fin n → E) (a b : Fin n) : E :=
  if max (a : Nat) b < i ∨ (max (a : Nat) b = i ∧ min (a : Nat) b < j) then p b a else p a b

/-- C27 for fixed-size square matrices: the pairwise swaps transpose the matrix and touch nothing else. -/
theorem mtranspose_fixed {triv : Bool} {s : State E} {x n : Nat} {d : MObj} (hx : s.mat x = some d)
    (p : Fin n → Fin n → E) (hp : MRep s (.var x) ⟨n, n, p⟩) :
    ∃ h', mTransposeFixed triv s x = .ok { s with heap := h' } ∧
      MRep { s with heap := h' } (.var x) ⟨n, n, fun i j => p j i⟩ ∧ SameOutside d.flat s.heap h' := by
  obtain ⟨hr, hc⟩ := mrep_dims hx hp
  simp only at hr hc
  have inner : ∀ (i : Nat) (s1 : State E), 1 ≤ i → i < n → s1.mat = s.mat → s1.vec = s.vec →
      SameOutside d.flat s.heap s1.heap →
      MRep s1 (.var x) ⟨n, n, swapped i 0 p⟩ →
      ∃ s2, Out.loop (fun j s => mSwap triv s x i j) 0 i s1 = .ok s2 ∧ s2.mat = s.mat ∧ s2.vec = s.vec ∧
        SameOutside d.flat s.heap s2.heap ∧ MRep s2 (.var x) ⟨n, n, swapped (i + 1) 0 p⟩ := by
    intro i s1 hi1 hin hm hv hout hrep
    obtain ⟨s2, e1, e2, e3, e4, e5⟩ := Out.loop_inv (lo := 0) (n := i) (s := s1)
      (body := fun j s => mSwap triv s x i j)
      (fun j s2 => s2.mat = s.mat ∧ s2.vec = s.vec ∧ SameOutside d.flat s.heap s2.heap ∧
        MRep s2 (.var x) ⟨n, n, swapped i j p⟩)
      ⟨hm, hv, hout, hrep⟩
      (by
        rintro j s2 - hj ⟨m2, v2, o2, p2⟩
        have hjn : j < n := by omega
        have hij : (⟨i, hin⟩ : Fin n) ≠ ⟨j, hjn⟩ := by
          simp only [ne_eq, Fin.mk.injEq]; omega
        obtain ⟨h', w1, w2, w3⟩ := mSwap_ok (triv := triv) (d := d) (by rw [m2, hx]) p2 ⟨i, hin⟩ ⟨j, hjn⟩
          hij
        refine ⟨{ s2 with heap := h' }, w1, m2, v2, SameOutside.trans o2 w3, ?_⟩
        convert w2 using 2
        funext a b
        simp only [swapped, Fin.ext_iff]
        by_cases h1 : ((a : Nat) = i ∧ (b : Nat) = j) ∨ ((a : Nat) = j ∧ (b : Nat) = i)
        · rw [if_pos h1, if_pos (by omega), if_neg (by omega)]
        · rw [if_neg h1]
          by_cases h2 : max (a : Nat) b < i ∨ (max (a : Nat) b = i ∧ min (a : Nat) b < j)
          · rw [if_pos h2, if_pos (by omega)]
          · rw [if_neg h2, if_neg (by omega)])
    rw [Nat.zero_add] at e5
    refine ⟨s2, e1, e2, e3, e4, ?_⟩
    convert e5 using 2
    funext a b
    simp only [swapped]
    by_cases h2 : max (a : Nat) b < i ∨ (max (a : Nat) b = i ∧ min (a : Nat) b < i)
    · rw [if_pos h2, if_pos (by omega)]
    · rw [if_neg h2]
      by_cases h3 : max (a : Nat) b < i + 1 ∨ (max (a : Nat) b = i + 1 ∧ min (a : Nat) b < 0)
      · rw [if_pos h3]
        have : a = b := Fin.ext (by omega)
        rw [this]
      · rw [if_neg h3]
  have hp0 : MRep s (.var x) ⟨n, n, swapped 1 0 p⟩ := by
    convert hp using 2
    funext a b
    simp only [swapped]
    by_cases h3 : max (a : Nat) b < 1 ∨ (max (a : Nat) b = 1 ∧ min (a : Nat) b < 0)
    · rw [if_pos h3]
      have : a = b := Fin.ext (by omega)
      rw [this]
    · rw [if_neg h3]
  obtain ⟨s2, e1, e2, e3, e4, e5⟩ := Out.loop_inv (lo := 1) (n := n - 1) (s := s)
    (body := fun i s => Out.loop (fun j s => mSwap triv s x i j) 0 i s)
    (fun i s2 => s2.mat = s.mat ∧ s2.vec = s.vec ∧ SameOutside d.flat s.heap s2.heap ∧
      MRep s2 (.var x) ⟨n, n, swapped i 0 p⟩)
    ⟨rfl, rfl, fun _ _ _ => rfl, hp0⟩
    (by
      rintro i s1 hi hin ⟨m1, v1, o1, p1⟩
      exact inner i s1 hi (by omega) m1 v1 o1 p1)
  refine ⟨s2.heap, ?_, ?_, e4⟩
  · unfold mTransposeFixed
    simp only [State.mobj, hx, Out.withVal_ok, ← hr, ← hc, beq_self_eq_true, Res.require, if_true]
    rw [e1]
    cases s2
    simp only at e2 e3
    subst e2 e3
    rfl
  · have hs2 : ({ s with heap := s2.heap } : State E) = s2 := by
      cases s2
      simp only at e2 e3
      subst e2 e3
      rfl
    rw [hs2]
    convert e5 using 2
    funext a b
    simp only [swapped]
    rw [if_pos]
    have := a.2
    have := b.2
    left
    omega

/-- C27: transposing a fixed-size square matrix twice restores every element. -/
theorem mtranspose_fixed_twice {triv : Bool} {s : State E} {x n : Nat} {d : MObj}
    (hx : s.mat x = some d) (p : Fin n → Fin n → E) (hp : MRep s (.var x) ⟨n, n, p⟩) :
    ∃ h1 h2, mTransposeFixed triv s x = .ok { s with heap := h1 } ∧
      mTransposeFixed triv { s with heap := h1 } x = .ok { s with heap := h2 } ∧
      MRep { s with heap := h2 } (.var x) ⟨n, n, p⟩ := by
  obtain ⟨h1, e1, e2, -⟩ := mtranspose_fixed (triv := triv) hx p hp
  obtain ⟨h2, f1, f2, -⟩ := mtranspose_fixed (triv := triv) (s := { s with heap := h1 }) hx _ e2
  exact ⟨h1, h2, e1, f1, f2⟩

/-- C27: a fixed-size matrix that is not square cannot be transposed in place (compile-time error). -/
theorem mtranspose_fixed_rect {triv : Bool} {s : State E} {x : Nat} {d : MObj} (hx : s.mat x = some d)
    (hne : d.rows ≠ d.cols) : mTransposeFixed triv s x = .throw .staticAssert s := by
  unfold mTransposeFixed
  have : (d.rows == d.cols) = false := by rw [beq_eq_false_iff_ne]; exact hne
  simp only [State.mobj, hx, Out.withVal_ok, this, Res.require]
  rfl

/-- Circumstances under which a dynamic matrix `x` is transposed using the unused variable `t`. -/
structure DynMat (s : State E) (x t : Nat) (d : MObj) : Prop where
  live : s.mat x = some d
  storage : d.storage = .allocated
  off : d.off = 0
  owned : d.Owned s.heap
  unused : s.mat t = none
  fresh : ∀ b, s.heap.next ≤ b → s.heap.blk b = none

/-- C27 for resizable matrices of any shape (trivial element type): the result is the transpose; every
other variable and all memory outside of the matrix' own array are unchanged. -/
theorem mtranspose_dyn {s : State E} {x t r c : Nat} {d : MObj} (hd : DynMat s x t d)
    (p : Fin r → Fin c → E) (hp : MRep s (.var x) ⟨r, c, p⟩)
    (hal : r * c ≠ 0 → s.heap.fail s.heap.tick = false) :
    ∃ s' d', mTransposeDyn true s x t = .ok s' ∧
      MRep s' (.var x) ⟨c, r, fun i j => p j i⟩ ∧ s'.vec = s.vec ∧
      (∀ y, y ≠ x → s'.mat y = s.mat y) ∧
      (∀ b o, some b ≠ d.data → s'.heap.cell b o = s.heap.cell b o) ∧
      DynMat s' x t d' ∧
      s'.heap.tick = s.heap.tick + (if r * c = 0 then 0 else 1) ∧ s'.heap.fail = s.heap.fail := by
  obtain ⟨hx, hst, hoff, ho, hun, hfresh⟩ := hd
  obtain ⟨hr, hc⟩ := mrep_dims hx hp
  simp only at hr hc
  have hxt : x ≠ t := by rintro rfl; rw [hun] at hx; cases hx
  -- the temporary
  set d0 : MObj := ⟨.allocated, false, none, 0, 0, 0, d.colMajor, d.colBasis⟩ with hd0
  set s0 : State E := mDefault d.colMajor d.colBasis s t with hs0
  have hx0 : s0.mat t = some d0 := by simp [hs0, mDefault, State.setMat, hd0]
  have hxx0 : s0.mat x = some d := by simp [hs0, mDefault, State.setMat, hxt, hx]
  have hh0 : s0.heap = s.heap := rfl
  have hrep0 : MRep s0 (.var x) ⟨r, c, p⟩ := by
    refine ⟨by rw [MNode.var_dims hxx0, ← hr, ← hc], fun i j => ?_⟩
    have := hp.get i j
    rw [MNode.var_get_eq hx] at this
    rw [MNode.var_get_eq hxx0, hh0, this]
  have hne0 : ∀ b, some b = d.data → b ≠ s.heap.next := by
    rintro b hb rfl
    rcases ho with ⟨h, -⟩ | ⟨b', l, h1, h2, -⟩
    · have h' : d.data = none := h
      rw [h'] at hb; cases hb
    · have h' : d.data = some b' := h1
      rw [h'] at hb; cases hb
      rw [hfresh _ le_rfl] at h2; cases h2
  have hz : d0.rows * d0.cols = 0 := rfl
  obtain ⟨h1, dt, a1, ⟨a2, a3, -, -, -, a4⟩, a5, a6, a7, -, a9, a10, a11, a12, a13⟩ :=
    mAssign_resize_ok (n := .var x) hx0 rfl rfl (Or.inl ⟨rfl, rfl⟩)
      (by rw [hz]; exact hal) (by rw [hh0]; exact hfresh _ le_rfl) hrep0
      (show _ from ⟨hxt, fun w hw => by
        rw [hd0]
        cases hwd : w.data with
        | none => exact Or.inl rfl
        | some b => exact Or.inr (by simp)⟩)
  simp only [hz, hh0] at a5 a7 a9 a10 a11 a12 a13
  rw [hd0] at a7 a10
  set s1 : State E := { s0 with heap := h1 }.setMat t (some dt) with hs1
  have hx1 : s1.mat x = some d := by
    simp [hs1, State.setMat, hxt, hxx0]
  have hh1 : s1.heap = h1 := rfl
  have ho1 : d.Owned s1.heap := by
    rcases ho with h | ⟨b, l, q1, q2, q3⟩
    · exact Or.inl h
    · have := a10 b (hne0 b q1.symm) (by simp)
      rw [q2] at this
      simp only [Option.map_some, Option.map_eq_some_iff] at this
      obtain ⟨l', b1, b2⟩ := this
      exact Or.inr ⟨b, l', q1, b1, by rw [b2]; exact q3⟩
  have hfresh1 : ∀ b, h1.next ≤ b → h1.blk b = none := by
    intro b hb
    by_cases he : r * c = 0
    · rw [a11, if_pos he, Nat.add_zero] at hb
      by_cases hbn : b = s.heap.next
      · rw [hbn]; exact a9 he
      · have := a10 b hbn (by simp)
        rw [hfresh b hb] at this
        simpa using this
    · rw [a11, if_neg he] at hb
      have := a10 b (by omega) (by simp)
      rw [hfresh b (by omega)] at this
      simpa using this
  have hrept : MRep s1 (.transpose (.var t)) ⟨c, r, fun i j => p j i⟩ :=
    ⟨by rw [MNode.dims, a6.dims]; rfl, fun i j => by rw [MNode.get]; exact a6.get j i⟩
  have hlin : c * r = d.rows * d.cols := by rw [← hr, ← hc, Nat.mul_comm]
  have hdtd : dt.data = none ∨ dt.data ≠ d.data := by
    rw [a5]
    split
    · exact Or.inl rfl
    · right
      intro h
      exact hne0 _ h rfl
  obtain ⟨h2, dx, c1, ⟨c2, c3, -, -, -, c4⟩, c5, c6, c7, -, c9, c10, c11, c12, c13⟩ :=
    mAssign_resize_ok (n := .transpose (.var t)) (s := s1) hx1 hst hoff ho1
      (fun h => absurd hlin h) (by rw [hh1]; exact hfresh1 _ le_rfl) hrept
      (show _ from ⟨Ne.symm hxt, fun w hw => by
        have : w = dt := by
          have h : s1.mat t = some dt := by simp [hs1, State.setMat]
          rw [h] at hw; cases hw; rfl
        rw [this]; exact hdtd⟩)
  simp only [hh1, hlin, if_true, Nat.add_zero] at c5 c7 c9 c10 c11 c12 c13
  set s2 : State E := { s1 with heap := h2 }.setMat x (some dx) with hs2
  have hx2 : s2.mat t = some dt := by simp [hs2, hs1, State.setMat, Ne.symm hxt]
  -- releasing the temporary
  obtain ⟨h3, f1, f2, f3, f4⟩ : ∃ h3, (h2.destruct true dt.data).free dt.data (dt.rows * dt.cols) = .ok h3 ∧
      (∀ b, some b ≠ dt.data → h3.blk b = h2.blk b) ∧ (∀ b, some b = dt.data → h3.blk b = none) ∧
      h3.next = h2.next ∧ h3.tick = h2.tick ∧ h3.fail = h2.fail := by
    have hdes : h2.destruct true dt.data = h2 := by simp [Heap.destruct]
    rw [hdes]
    rcases a4 with ⟨q, -⟩ | ⟨b, l, q1, q2, q3⟩
    · have q' : dt.data = none := q
      refine ⟨h2, by simp [q', Heap.free], fun _ _ => rfl, ?_, rfl, rfl, rfl⟩
      intro b hb
      rw [q'] at hb; cases hb
    · have q' : dt.data = some b := q1
      have hbd : some b ≠ d.data := by
        rcases hdtd with h | h
        · rw [q'] at h; cases h
        · rw [← q']; exact h
      have hbn : b ≠ h1.next := by
        rintro rfl
        rw [hfresh1 _ le_rfl] at q2; cases q2
      have := c10 b hbn hbd
      rw [q2] at this
      simp only [Option.map_some, Option.map_eq_some_iff] at this
      obtain ⟨l', b1, b2⟩ := this
      refine ⟨h2.setBlk b none, ?_, ?_, ?_, rfl, rfl, rfl⟩
      · simp only [q', Heap.free, b1, b2, q3]
        rw [if_pos]
        simp [MObj.flat]
      · intro b' hb'
        have : b' ≠ b := by rintro rfl; exact hb' q'.symm
        simp [Heap.setBlk, this]
      · intro b' hb'
        rw [q'] at hb'; cases hb'
        simp [Heap.setBlk]
  refine ⟨{ s2 with heap := h3 }.setMat t none, dx, ?_, ?_, rfl, ?_, ?_, ⟨?_, c2, c3, ?_, ?_, ?_⟩, ?_, ?_⟩
  · unfold mTransposeDyn
    simp only [State.mobj, hx, Out.withVal_ok]
    have e1 : mCopyNew true d.colMajor d.colBasis s t (.var x) = .ok s1 := by
      unfold mCopyNew
      rw [a1]
      rfl
    rw [e1, Out.ok_andThen, c1, Out.ok_andThen]
    unfold mDestroy
    simp only [State.mobj, hx2, Out.withVal_ok]
    have e2 : s2.heap = h2 := rfl
    rw [e2, f1, Out.withVal_ok]
  · have hx3 : ({ s2 with heap := h3 }.setMat t none : State E).mat x = some dx := by
      simp [State.setMat, hxt, hs2]
    have hx2' : s2.mat x = some dx := by simp [hs2, State.setMat]
    refine ⟨?_, fun i j => ?_⟩
    · have := c6.dims
      rw [MNode.var_dims hx2'] at this
      rw [MNode.var_dims hx3, this]
    · have := c6.get i j
      rw [MNode.var_get] at this ⊢
      obtain ⟨w, b, q1, q2, q3, q4, q5⟩ := this
      rw [hx2'] at q1; cases q1
      refine ⟨dx, b, hx3, q2, q3, q4, ?_⟩
      have hbt : some b ≠ dt.data := by
        rw [← q2, c5]
        intro h
        rcases hdtd with h' | h'
        · rw [h'] at h; rw [c5, h] at q2; cases q2
        · exact h' h.symm
      have e3 : ({ s2 with heap := h3 }.setMat t none : State E).heap = h3 := rfl
      rw [e3]
      unfold Heap.cell
      rw [f2 b hbt]
      exact q5
  · intro y hy
    by_cases hyt : y = t
    · subst hyt; simp [State.setMat, hun]
    · simp [State.setMat, hs2, hs1, hs0, mDefault, hy, hyt]
  · intro b o hbd
    have e3 : ({ s2 with heap := h3 }.setMat t none : State E).heap = h3 := rfl
    rw [e3]
    by_cases hbt : some b = dt.data
    · -- the block of the temporary: it did not exist before
      unfold Heap.cell
      rw [f3 b hbt]
      rw [a5] at hbt
      split at hbt
      · cases hbt
      · cases hbt; rw [hfresh _ le_rfl]
    · have h4 : h3.cell b o = h2.cell b o := by unfold Heap.cell; rw [f2 b hbt]
      rw [h4]
      by_cases hbn : b = h1.next
      · subst hbn
        unfold Heap.cell
        rw [c9, hfresh _ (by rw [a11]; omega)]
        trivial
      · rw [c7 b o hbn hbd]
        by_cases hbs : b = s.heap.next
        · subst hbs
          have he : r * c = 0 := by
            by_contra he
            apply hbt
            rw [a5, if_neg he]
          unfold Heap.cell
          rw [a9 he, hfresh _ le_rfl]
        · exact a7 b o hbs (by simp)
  · simp [State.setMat, hxt, hs2]
  · rcases c4 with h | ⟨b, l, q1, q2, q3⟩
    · exact Or.inl h
    · refine Or.inr ⟨b, l, q1, ?_, q3⟩
      have e3 : ({ s2 with heap := h3 }.setMat t none : State E).heap = h3 := rfl
      rw [e3, f2 b, q2]
      have q1' : dx.data = some b := q1
      rw [← q1', c5]
      intro h
      rcases hdtd with h' | h'
      · rw [h'] at h; rw [c5, h] at q1'; cases q1'
      · exact h' h.symm
  · simp [State.setMat]
  · intro b hb
    have e3 : ({ s2 with heap := h3 }.setMat t none : State E).heap = h3 := rfl
    rw [e3] at hb ⊢
    by_cases hbt : some b = dt.data
    · exact f3 b hbt
    · rw [f2 b hbt]
      rw [f4.1, c11] at hb
      by_cases hbn : b = h1.next
      · subst hbn; exact c9 trivial
      · have hbd : some b ≠ d.data := by
          intro h
          have := hne0 b h
          rcases ho with ⟨q, -⟩ | ⟨b', l, q1, q2, -⟩
          · have q' : d.data = none := q
            rw [q'] at h; cases h
          · have q' : d.data = some b' := q1
            rw [q'] at h; cases h
            rw [hfresh b (by rw [a11] at hb; omega)] at q2
            cases q2
        have := c10 b hbn hbd
        rw [hfresh1 b hb] at this
        simpa using this
  · have e3 : ({ s2 with heap := h3 }.setMat t none : State E).heap = h3 := rfl
    rw [e3, f4.2.1, c12, a12]
  · have e3 : ({ s2 with heap := h3 }.setMat t none : State E).heap = h3 := rfl
    rw [e3, f4.2.2, c13, a13]

/-- C27: transposing a resizable matrix twice restores dimensions and elements. -/
theorem mtranspose_dyn_twice {s : State E} {x t r c : Nat} {d : MObj} (hd : DynMat s x t d)
    (p : Fin r → Fin c → E) (hp : MRep s (.var x) ⟨r, c, p⟩)
    (hal : ∀ k, s.heap.fail k = false) :
    ∃ s1 s2, mTransposeDyn true s x t = .ok s1 ∧ mTransposeDyn true s1 x t = .ok s2 ∧
      MRep s2 (.var x) ⟨r, c, p⟩ := by
  obtain ⟨s1, d1, e1, e2, -, -, -, e3, -, e5⟩ := mtranspose_dyn hd p hp (fun _ => hal _)
  obtain ⟨s2, d2, f1, f2, -⟩ := mtranspose_dyn e3 _ e2 (fun _ => by rw [e5]; exact hal _)
  exact ⟨s1, s2, e1, f1, f2⟩

/-- C27: if the temporary cannot be allocated, the matrix and all memory are unchanged. -/
theorem mtranspose_dyn_bad_alloc {triv : Bool} {s : State E} {x t : Nat} {d : MObj} (hd : DynMat s x t d)
    (h0 : d.rows * d.cols ≠ 0) (hal : s.heap.fail s.heap.tick = true) :
    ∃ s', mTransposeDyn triv s x t = .throw .badAlloc s' ∧ s'.vec = s.vec ∧ s'.mat = s.mat ∧
      s'.heap.blk = s.heap.blk := by
  obtain ⟨hx, -, -, -, hun, -⟩ := hd
  have hxt : x ≠ t := by rintro rfl; rw [hun] at hx; cases hx
  refine ⟨{ s with heap := { s.heap with tick := s.heap.tick + 1 } }, ?_, rfl, rfl, rfl⟩
  unfold mTransposeDyn
  simp only [State.mobj, hx, Out.withVal_ok]
  have hx0 : (mDefault d.colMajor d.colBasis s t).mat t
      = some ⟨.allocated, false, none, 0, 0, 0, d.colMajor, d.colBasis⟩ := by
    simp [mDefault, State.setMat]
  have hxx : (mDefault d.colMajor d.colBasis s t).mat x = some d := by
    simp [mDefault, State.setMat, hxt, hx]
  have h1 : ¬ (d.rows : Int) < 0 := by omega
  have h2 : ¬ (d.cols : Int) < 0 := by omega
  have hh : (mDefault d.colMajor d.colBasis s t).heap = s.heap := rfl
  have : mCopyNew triv d.colMajor d.colBasis s t (.var x)
      = .throw .badAlloc { s with heap := { s.heap with tick := s.heap.tick + 1 } } := by
    unfold mCopyNew mAssign mCheckOrResize
    simp only [State.mobj, hx0, Out.withVal_ok, MNode.var_dims hxx, mResize, mResizeWith, if_neg h1,
      if_neg h2, Int.toNat_natCast, Nat.mul_zero, if_neg h0, hh, Heap.alloc, hal, if_true]
    show Out.throw _ _ = _
    congr 1
    simp only [State.setMat, mDefault, State.mk.injEq, true_and]
    funext y
    by_cases hy : y = t
    · subst hy; simp [hun]
    · simp [hy]
  rw [this]
  rfl

example : DynMat exM 2 7 ⟨.allocated, false, some 2, 0, 2, 3, true, false⟩ :=
  ⟨rfl, rfl, rfl, Or.inr ⟨2, _, rfl, rfl, rfl⟩, rfl, fun b hb => by
    have : 4 ≤ b := hb
    match b, this with
    | b + 4, _ => rfl⟩
example : ∃ s', mTransposeDyn true exM 2 7 = .ok s' ∧ (MNode.var 2 : MNode ℤ).dims s' = .ok (3, 2) ∧
    (MNode.var 2 : MNode ℤ).get s' 2 0 = .ok 3 := ⟨_, rfl, rfl, rfl⟩
example : ∃ s', mTransposeFixed true exM 0 = .ok s' ∧ (MNode.var 0 : MNode ℤ).get s' 1 0 = .ok 2 :=
  ⟨_, rfl, rfl⟩

/-! ### C28: resizing -/

/-- C28, what `resize(r, c)` really preserves (trivial element type): the elements with the same *linear
storage index*. -/
theorem mresize_linear {s : State E} {x r c : Nat} {d : MObj} (hx : s.mat x = some d) (hoff : d.off = 0)
    (ho : d.Owned s.heap) (hal : r * c ≠ d.rows * d.cols → s.heap.fail s.heap.tick = false)
    (hfr : s.heap.blk s.heap.next = none) :
    ∃ s' d', mResize true s x r c = .ok s' ∧ s'.mat x = some d' ∧ d'.rows = r ∧ d'.cols = c ∧
      d'.colMajor = d.colMajor ∧ d'.Owned s'.heap ∧
      (∀ i j i' j', i < d.rows → j < d.cols → i' < r → j' < c → d.index i j = d'.index i' j' →
        ∀ v, (MNode.var x : MNode E).get s i j = .ok v → (MNode.var x : MNode E).get s' i' j' = .ok v) := by
  by_cases he : r * c = d.rows * d.cols
  · refine ⟨_, { d with rows := r, cols := c }, mResizeWith_relabel hx he, by simp [State.setMat], rfl,
      rfl, rfl, ?_, ?_⟩
    · have hflat : ({ d with rows := r, cols := c } : MObj).flat = d.flat := by simp [MObj.flat, he]
      show ({ d with rows := r, cols := c } : MObj).flat.Owned _
      rw [hflat]; exact ho
    · intro i j i' j' hi hj hi' hj' hidx v h
      rw [MNode.var_get] at h ⊢
      obtain ⟨w, b, q1, q2, q3, q4, q5⟩ := h
      rw [hx] at q1; cases q1
      refine ⟨{ d with rows := r, cols := c }, b, by simp [State.setMat], q2, hi', hj', ?_⟩
      rw [hidx] at q5
      exact q5
  · obtain ⟨h1, l1, q1, q2, q3, q4, -⟩ :=
      mResizeWith_ok (copy := true) (triv := true) hx he (hal he) hfr ho (fun _ => Or.inl rfl)
    refine ⟨_, { d with data := some s.heap.next, rows := r, cols := c }, q1, by simp [State.setMat], rfl,
      rfl, rfl, Or.inr ⟨_, _, rfl, q2, q3⟩, ?_⟩
    intro i j i' j' hi hj hi' hj' hidx v h
    rw [MNode.var_get] at h ⊢
    obtain ⟨w, b, p1, p2, p3, p4, p5⟩ := h
    rw [hx] at p1; cases p1
    refine ⟨{ d with data := some s.heap.next, rows := r, cols := c }, s.heap.next, by simp [State.setMat],
      rfl, hi', hj', ?_⟩
    have hlt := MObj.index_lt (m := { d with data := some s.heap.next, rows := r, cols := c }) hi' hj'
    rw [← hidx] at hlt ⊢
    have := q4 _ hlt
    rw [if_pos ⟨rfl, MObj.index_lt hi hj⟩, p2] at this
    rw [hoff, Nat.zero_add] at p5
    simp only [Option.bind_some, p5, Option.getD_some] at this
    simp only [Heap.cell, State.setMat, q2, hoff, Nat.zero_add, Option.bind_some]
    exact this

/-- C28 restricted to resizes that keep the length of a storage line (columns unchanged for row-major, rows
unchanged for column-major matrices): the common elements survive.  Missing: all other shapes, for which the
claim is false (`mresize_false`). -/
theorem mresize_partial {s : State E} {x r c : Nat} {d : MObj} (hx : s.mat x = some d) (hoff : d.off = 0)
    (ho : d.Owned s.heap) (hal : r * c ≠ d.rows * d.cols → s.heap.fail s.heap.tick = false)
    (hfr : s.heap.blk s.heap.next = none) (hline : if d.colMajor then r = d.rows else c = d.cols) :
    ∃ s', mResize true s x r c = .ok s' ∧
      (MNode.var x : MNode E).dims s' = .ok ((r : Int), (c : Int)) ∧
      ∀ i j, i < d.rows → j < d.cols → i < r → j < c → ∀ v,
        (MNode.var x : MNode E).get s i j = .ok v → (MNode.var x : MNode E).get s' i j = .ok v := by
  obtain ⟨s', d', e1, e2, e3, e4, e5, -, e6⟩ := mresize_linear hx hoff ho hal hfr
  refine ⟨s', e1, by rw [MNode.var_dims e2, e3, e4], fun i j hi hj hi' hj' v h => ?_⟩
  refine e6 i j i j hi hj hi' hj' ?_ v h
  unfold MObj.index
  rw [e5, e3, e4]
  split at hline
  · next h => rw [if_pos h, if_pos h, hline]
  · next h => rw [if_neg h, if_neg h, hline]

/-- C28 is false: resizing a 2×2 row-major matrix to 2×3 changes element `(1,0)`. -/
theorem mresize_false :
    ¬ ∀ (s : State ℤ) (x r c : Nat) (p : MVal ℤ), MRep s (.var x) p →
      ∃ s', mResize true s x r c = .ok s' ∧
        ∀ (i : Fin p.r) (j : Fin p.c), (i : Nat) < r → (j : Nat) < c →
          (MNode.var x : MNode ℤ).get s' i j = .ok (p.f i j) := by
  intro h
  let S : State ℤ := demo [[some 1, some 2, some 3, some 4]] []
    [⟨.allocated, false, some 0, 0, 2, 2, false, false⟩]
  have hS : MRep S (.var 0) ⟨2, 2, ![![1, 2], ![3, 4]]⟩ :=
    ⟨rfl, fun i j => by fin_cases i <;> fin_cases j <;> rfl⟩
  obtain ⟨s', e1, e2⟩ := h S 0 2 3 _ hS
  have e3 : (MNode.var 0 : MNode ℤ).get s' 1 0 = .ok 3 := e2 1 0 (by decide) (by decide)
  obtain ⟨s2, f1, f2⟩ : ∃ s2, mResize true S 0 ((2 : Nat) : Int) ((3 : Nat) : Int) = .ok s2 ∧
      (MNode.var 0 : MNode ℤ).get s2 1 0 = .ok 4 := ⟨_, rfl, rfl⟩
  rw [f1] at e1
  cases e1
  rw [f2] at e3
  simp at e3

/-- C28 is false even without a change of the number of elements: 2×3 to 3×2 only relabels. -/
theorem mresize_relabel_false :
    ∃ (s s' : State ℤ), mResize true s 0 3 2 = .ok s' ∧ (MNode.var 0 : MNode ℤ).get s 1 0 = .ok 4 ∧
      (MNode.var 0 : MNode ℤ).get s' 1 0 = .ok 3 ∧ s'.heap = s.heap :=
  ⟨demo [[some 1, some 2, some 3, some 4, some 5, some 6]] []
    [⟨.allocated, false, some 0, 0, 2, 3, false, false⟩], _, rfl, rfl, rfl, rfl⟩

/-- Errors of `resize`: negative dimensions and failed allocation throw and leave variables and memory
unchanged. -/
theorem mresize_errors {triv copy : Bool} {s : State E} {x : Nat} {d : MObj} {r c : Int}
    (hx : s.mat x = some d) :
    (r < 0 ∨ c < 0 → mResizeWith copy triv s x r c = .throw .invalidArgument s) ∧
    (0 ≤ r → 0 ≤ c → r.toNat * c.toNat ≠ d.rows * d.cols → s.heap.fail s.heap.tick = true →
      ∃ s', mResizeWith copy triv s x r c = .throw .badAlloc s' ∧ s'.vec = s.vec ∧ s'.mat = s.mat ∧
        s'.heap.blk = s.heap.blk) := by
  constructor
  · intro h
    unfold mResizeWith
    simp only [State.mobj, hx, Out.withVal_ok]
    by_cases hr : r < 0
    · rw [if_pos hr]
    · rw [if_neg hr, if_pos (by omega)]
  · intro hr hc hne hal
    refine ⟨{ s with heap := { s.heap with tick := s.heap.tick + 1 } }, ?_, rfl, rfl, rfl⟩
    unfold mResizeWith
    simp only [State.mobj, hx, Out.withVal_ok, if_neg (not_lt.mpr hr), if_neg (not_lt.mpr hc),
      if_neg hne, Heap.alloc, hal, if_true]

example : (⟨.allocated, false, some 2, 0, 2, 3, true, false⟩ : MObj).Owned exM.heap :=
  Or.inr ⟨2, _, rfl, rfl, rfl⟩
example : ∃ s', mResize true exM 2 2 4 = .ok s' ∧ (MNode.var 2 : MNode ℤ).get s' 1 2 = .ok 6 :=
  ⟨_, rfl, rfl⟩

#print axioms massign_list
#print axioms massign_list_length
#print axioms massign_ptr
#print axioms mnew_array
#print axioms mtranspose_fixed
#print axioms mtranspose_fixed_twice
#print axioms mtranspose_fixed_rect
#print axioms mtranspose_dyn
#print axioms mtranspose_dyn_twice
#print axioms mtranspose_dyn_bad_alloc
#print axioms mresize_linear
#print axioms mresize_partial
#print axioms mresize_false
#print axioms mresize_relabel_false
#print axioms mresize_errors

end CML
