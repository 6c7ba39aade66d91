import Verif.Lemmas.MatMem
import Verif.Spec.MatAlg
import Verif.Spec.Stable
import Verif.Props.MatSmall
import Verif.Props.LuSolve
import Verif.Props.InvPivot

/-! C109–C111: inverse, LU decomposition, determinant and `lu_solve` on matrices and vectors in memory. -/

set_option linter.unusedSectionVars false

namespace CML

section
variable {K : Type} [Add K] [Sub K] [Mul K] [Div K] [Neg K]

theorem inMem_of {s : State K} {x : Nat} {d : MObj} {M : Mat K} (hx : s.mat x = some d)
    (h : MRep s (.var x) M.val) : InMem d s.heap s.heap M := by
  obtain ⟨h1, h2⟩ := mrep_dims hx h
  refine InMem.refl h1.symm h2.symm fun i j hi hj => ?_
  have := h.get ⟨i, hi⟩ ⟨j, hj⟩
  rwa [MNode.var_get_eq hx] at this

theorem rep_of {s : State K} {x : Nat} {d : MObj} {h' : Heap K} {M : Mat K} (hx : s.mat x = some d)
    (H : InMem d s.heap h' M) : MRep { s with heap := h' } (.var x) M.val ∧ Touches d.flat s { s with heap := h' } := by
  refine ⟨⟨?_, fun i j => ?_⟩, rfl, rfl, H.out, H.len, H.next, H.tick, H.fail⟩
  · rw [MNode.var_dims (s := { s with heap := h' }) hx, H.rows, H.cols]; rfl
  · rw [MNode.var_get_eq (s := { s with heap := h' }) hx]
    exact H.el i j i.2 j.2

theorem rep_is {s : State K} {x n : Nat} {M : Mat K} {A : Matrix (Fin n) (Fin n) K} (h : M.Is n A) :
    MRep s (.var x) M.val ↔ MRep s (.var x) ⟨n, n, A⟩ := by
  obtain ⟨r, c, e⟩ := M
  obtain ⟨h1, h2, rfl⟩ := h
  simp only at h1 h2
  subst h1; subst h2
  rfl

end

section Inverse
variable {K : Type} [Zero K] [One K] [Add K] [Sub K] [Mul K] [Div K] [Neg K] [LinearOrder K] [Fabs K]

/-- C109: `x.inverse()` on a matrix in memory (in the object, in an owned array or in foreign memory, row or
column major, at any offset) does what the algorithm on matrix values does: it leaves the resulting matrix in
`x` and touches nothing but the elements of `x`; it throws the same exception with nothing changed; a
division by zero is one in both. -/
theorem minverse_mem {triv : Bool} {s : State K} {x : Nat} {d : MObj} (hx : s.mat x = some d) (M : Mat K)
    (h : MRep s (.var x) M.val) :
    (∀ M', inverse d.fixed M = .ok M' →
      ∃ s', mInverse triv s x = .ok s' ∧ MRep s' (.var x) M'.val ∧ Touches d.flat s s') ∧
    (∀ e, inverse d.fixed M = .throw e → mInverse triv s x = .throw e s) ∧
    (inverse d.fixed M = .ub .divZero → mInverse triv s x = .ub .divZero) := by
  have key := (inMem_of hx h).inverse (triv := triv)
  have hm : mInverse triv s x = .withVal (memInverse triv d s.heap) s fun h => .ok { s with heap := h } := by
    simp [mInverse, State.mobj, hx]
  rw [hm]
  refine ⟨fun M' e => ?_, fun e he => ?_, fun e => ?_⟩
  · rw [e] at key
    cases hr : memInverse triv d s.heap <;> rw [hr] at key <;> simp only [Sim] at key
    exact ⟨_, rfl, rep_of hx key⟩
  · rw [he] at key
    cases hr : memInverse triv d s.heap <;> rw [hr] at key <;> simp only [Sim] at key
    rw [key]; rfl
  · rw [e] at key
    cases hr : memInverse triv d s.heap <;> rw [hr] at key <;> simp [Sim] at key
    rw [key]; rfl

end Inverse

section InverseSpec
variable {K : Type} [Field K] [LinearOrder K] [IsStrictOrderedRing K]

/-- C109: a 2×2, 3×3 or 4×4 matrix in memory with nonzero determinant is replaced by its inverse, nothing else
changes; with determinant zero there is a division by zero. -/
theorem minverse_small {triv : Bool} {s : State K} {x n : Nat} {d : MObj} (hx : s.mat x = some d)
    (hn : n = 2 ∨ n = 3 ∨ n = 4) (A : Matrix (Fin n) (Fin n) K) (h : MRep s (.var x) ⟨n, n, A⟩) :
    (A.det ≠ 0 → ∃ s', mInverse triv s x = .ok s' ∧
      MRep s' (.var x) ⟨n, n, (A⁻¹ : Matrix (Fin n) (Fin n) K)⟩ ∧ Touches d.flat s s') ∧
    (A.det = 0 → mInverse triv s x = .ub .divZero) := by
  have hA := Mat.of_is A
  obtain ⟨k1, -, k3⟩ := minverse_mem (triv := triv) hx (Mat.of A) ((rep_is hA).2 h)
  refine ⟨fun h0 => ?_, fun h0 => k3 (inverse_small_singular _ _ n hn A hA h0)⟩
  obtain ⟨M', B, e1, e2, e3, -⟩ := inverse_small d.fixed (Mat.of A) n hn A hA h0
  obtain ⟨s', g1, g2, g3⟩ := k1 M' e1
  refine ⟨s', g1, ?_, g3⟩
  rw [Matrix.inv_eq_left_inv e3]
  exact (rep_is e2).1 g2

/-- C109: a matrix that is not square is rejected, nothing changes. -/
theorem minverse_not_square {triv : Bool} {s : State K} {x : Nat} {d : MObj} (hx : s.mat x = some d)
    (hne : d.rows ≠ d.cols) :
    mInverse triv s x = .throw (if d.fixed then .staticAssert else .nonSquare) s := by
  simp only [mInverse, State.mobj, hx, Out.withVal_ok, memInverse, memCheckSquare, Res.require, hne, decide_false]
  rfl

/-- C109: the free function `inverse(M)` on a 2×2, 3×3 or 4×4 matrix with run-time dimensions: the new matrix is
the inverse; the argument and all other memory are unchanged. -/
theorem minverse_new {s : State K} {x t n : Nat} {d : MObj} (hx : s.mat x = some d) (ht : s.mat t = none)
    (_hf : d.fixed = false) (hfr : s.heap.blk s.heap.next = none) (hal : s.heap.fail s.heap.tick = false)
    (hn : n = 2 ∨ n = 3 ∨ n = 4) (A : Matrix (Fin n) (Fin n) K) (h : MRep s (.var x) ⟨n, n, A⟩)
    (h0 : A.det ≠ 0) :
    ∃ s', mInverseNew true s x t = .ok s' ∧ MRep s' (.var t) ⟨n, n, (A⁻¹ : Matrix (Fin n) (Fin n) K)⟩ ∧ s'.vec = s.vec ∧
      (∀ y, y ≠ t → s'.mat y = s.mat y) ∧ (∀ b o, b ≠ s.heap.next → s'.heap.cell b o = s.heap.cell b o) := by
  obtain ⟨hr, hc⟩ := mrep_dims hx h
  simp only at hr hc
  obtain ⟨h1, dt, a1, a2, a3, a4, a5, -⟩ := mCopyNew_ok hx d.colMajor d.colBasis ht hfr (fun _ => hal) A h
  have ht1 : ({ s with heap := h1 }.setMat t (some dt) : State K).mat t = some dt := by simp [State.setMat]
  obtain ⟨s', g1, g2, g3⟩ := (minverse_small (triv := true) ht1 hn A a4).1 h0
  refine ⟨s', ?_, g2, g3.vec, fun y hy => by rw [g3.mat]; simp [State.setMat, hy], fun b o hb => ?_⟩
  · simp only [mInverseNew, State.mobj, hx, Out.withVal_ok, memCheckSquare, Res.require, ← hr, ← hc, decide_true,
      if_true, a1, Out.ok_andThen, g1]
  · rw [g3.out b o, ← a5 b o hb]
    · rfl
    · rintro ⟨q, -, -⟩
      have q' : dt.data = some b := q
      rw [a3] at q'
      split at q'
      · cases q'
      · cases q'; exact hb rfl

end InverseSpec

section Lu
variable {K : Type} [Field K] [DecidableEq K]

/-- C110: `lu_inplace` on a matrix in memory does what the algorithm on matrix values does. -/
theorem mlu_mem {triv : Bool} {s : State K} {x : Nat} {d : MObj} (hx : s.mat x = some d) (M : Mat K)
    (h : MRep s (.var x) M.val) :
    (∀ M', lu d.fixed M = .ok M' →
      ∃ s', mLuInplace triv s x = .ok s' ∧ MRep s' (.var x) M'.val ∧ Touches d.flat s s') ∧
    (∀ e, lu d.fixed M = .throw e → mLuInplace triv s x = .throw e s) ∧
    (lu d.fixed M = .ub .divZero → mLuInplace triv s x = .ub .divZero) := by
  have H := inMem_of hx h
  have key := H.luInplace (triv := triv)
  have hm : mLuInplace triv s x = .withVal (checkSquare d.fixed M) s fun _ =>
      .withVal (memLuInplace triv d s.heap) s fun h => .ok { s with heap := h } := by
    simp [mLuInplace, State.mobj, hx, memCheckSquare, checkSquare, H.rows, H.cols]
  rw [hm]
  unfold lu
  rcases hc : checkSquare d.fixed M with _ | e' | u
  · simp only [Res.ok_bind, Out.withVal_ok]
    refine ⟨fun M' e => ?_, fun e he => ?_, fun e => ?_⟩
    · rw [e] at key
      cases hr : memLuInplace triv d s.heap <;> rw [hr] at key <;> simp only [Sim] at key
      exact ⟨_, rfl, rep_of hx key⟩
    · rw [he] at key
      cases hr : memLuInplace triv d s.heap <;> rw [hr] at key <;> simp only [Sim] at key
      rw [key]; rfl
    · rw [e] at key
      cases hr : memLuInplace triv d s.heap <;> rw [hr] at key <;> simp [Sim] at key
      rw [key]; rfl
  · refine ⟨fun M' e => ?_, fun e he => ?_, fun e => ?_⟩
    · cases e
    · cases he; rfl
    · cases e
  · unfold checkSquare Res.require at hc
    split at hc <;> cases hc

/-- C110: a square matrix in memory whose leading minors (of order smaller than `n`) are nonzero is replaced by
its packed triangular factors, nothing else changes; otherwise there is a division by zero. -/
theorem mlu_factors {triv : Bool} {s : State K} {x n : Nat} {d : MObj} (hx : s.mat x = some d)
    (A : Matrix (Fin n) (Fin n) K) (h : MRep s (.var x) ⟨n, n, A⟩) :
    ((∀ k (hk : k < n), (leading A k hk.le).det ≠ 0) → ∃ s' B, mLuInplace triv s x = .ok s' ∧
      MRep s' (.var x) ⟨n, n, B⟩ ∧ Touches d.flat s s' ∧ unitLower B * upper B = A) ∧
    ((∃ k, ∃ hk : k < n, (leading A k hk.le).det = 0) → mLuInplace triv s x = .ub .divZero) := by
  have hA := Mat.of_is A
  obtain ⟨k1, -, k3⟩ := mlu_mem (triv := triv) hx (Mat.of A) ((rep_is hA).2 h)
  obtain ⟨i1, i2⟩ := lu_ok_iff d.fixed (Mat.of A) n A hA
  refine ⟨fun h0 => ?_, fun h0 => k3 (i2 h0)⟩
  obtain ⟨M', e1⟩ := i1.2 h0
  obtain ⟨B, e2, e3, -⟩ := lu_factors d.fixed _ M' n A hA e1
  obtain ⟨s', g1, g2, g3⟩ := k1 M' e1
  exact ⟨s', B, g1, (rep_is e2).1 g2, g3, e3⟩

end Lu

section LuPivot
variable {K : Type} [Field K] [LinearOrder K] [IsStrictOrderedRing K]

/-- C110: `lu_pivot` on a decomposition object in memory: order and sign are those of the algorithm on matrix
values, the packed factors are left in memory. -/
theorem mlupivot_mem {triv : Bool} {s : State K} {x : Nat} {d : MObj} (eps : K) (hx : s.mat x = some d) (M : Mat K)
    (h : MRep s (.var x) M.val) :
    (∀ r, luPivot d.fixed eps M = .ok r → ∃ s', mLuPivot triv eps s x = .ok (s', r.order, r.sign) ∧
      MRep s' (.var x) r.lu.val ∧ Touches d.flat s s') ∧
    (∀ e, luPivot d.fixed eps M = .throw e → mLuPivot triv eps s x = .throw e) := by
  have H := inMem_of hx h
  have key := H.luPivotInplace (triv := triv) eps
  have hm : mLuPivot triv eps s x = (do
      checkSquare d.fixed M
      let r ← memLuPivotInplace triv d eps s.heap
      pure ({ s with heap := r.heap }, r.order, r.sign)) := by
    simp [mLuPivot, State.mobj, hx, memCheckSquare, checkSquare, H.rows, H.cols]
  rw [hm]
  unfold luPivot
  rcases hc : checkSquare d.fixed M with _ | e' | u
  · simp only [Res.ok_bind]
    refine ⟨fun r e => ?_, fun e he => ?_⟩
    · rw [e] at key
      cases hr : memLuPivotInplace triv d eps s.heap <;> rw [hr] at key <;> simp only [Sim] at key
      refine ⟨_, ?_, rep_of hx key.lu⟩
      rw [← key.order, ← key.sign]; rfl
    · rw [he] at key
      cases hr : memLuPivotInplace triv d eps s.heap <;> rw [hr] at key <;> simp only [Sim] at key
      rw [key]; rfl
  · refine ⟨fun M' e => ?_, fun e he => ?_⟩
    · cases e
    · cases he; rfl
  · unfold checkSquare Res.require at hc
    split at hc <;> cases hc

/-- C110: with a positive epsilon `lu_pivot` of a square matrix in memory returns and touches only the matrix.
If the sign is not zero, `order` is a permutation with that parity and the factors left in memory multiply to
the rows of the original matrix in that order. -/
theorem mlupivot_factors {triv : Bool} {s : State K} {x n : Nat} {d : MObj} (eps : K) (he : 0 < eps)
    (hx : s.mat x = some d) (A : Matrix (Fin n) (Fin n) K) (h : MRep s (.var x) ⟨n, n, A⟩) :
    ∃ s' o sg B, mLuPivot triv eps s x = .ok (s', o, sg) ∧ MRep s' (.var x) ⟨n, n, B⟩ ∧ Touches d.flat s s' ∧
      (sg ≠ 0 → ∃ σ : Equiv.Perm (Fin n), (∀ i : Fin n, o i = σ i) ∧ sg = Equiv.Perm.sign σ ∧
        unitLower B * upper B = A.submatrix σ id ∧ A.det = (sg : K) * ∏ i, B i i) := by
  have hA := Mat.of_is A
  obtain ⟨k1, -⟩ := mlupivot_mem (triv := triv) eps hx (Mat.of A) ((rep_is hA).2 h)
  obtain ⟨r, hr⟩ := lu_pivot_total d.fixed eps he (Mat.of A) rfl
  obtain ⟨s', g1, g2, g3⟩ := k1 r hr
  have hdim : r.lu.rows = n ∧ r.lu.cols = n := by
    obtain ⟨q1, q2⟩ := mrep_dims hx h
    obtain ⟨q3, q4⟩ := mrep_dims (s := s') (d := d) (by rw [g3.mat]; exact hx) g2
    simp only [Mat.val] at q1 q2 q3 q4
    omega
  have hB : r.lu.Is n (r.lu.toMatrix n n) := ⟨hdim.1, hdim.2, rfl⟩
  refine ⟨s', r.order, r.sign, _, g1, (rep_is hB).1 g2, g3, fun hs => ?_⟩
  obtain ⟨σ, B, e1, e2, e3, e4, -, e6⟩ := lu_pivot_factors d.fixed eps (Mat.of A) n A hA r hr hs
  have : r.lu.toMatrix n n = B := e3.el
  rw [this]
  exact ⟨σ, e1, e2, e4, e6⟩

/-- C110: the determinant of a matrix with run-time dimensions: the value of the algorithm on matrix values (for
`n ≤ 1` and `n > 4` computed on a temporary copy, whose memory is released); afterwards all variables
and all memory are as before. -/
theorem mdeterminant_mem {s : State K} {x t : Nat} {d : MObj} (eps : K) (hx : s.mat x = some d) (ht : s.mat t = none)
    (_hf : d.fixed = false) (hfr : s.heap.blk s.heap.next = none) (hal : s.heap.fail s.heap.tick = false)
    (M : Mat K) (h : MRep s (.var x) M.val) (v : K) (hv : determinant false eps M = .ok v) :
    ∃ s', mDeterminant true eps s x t = .ok (s', v) ∧ s'.vec = s.vec ∧ s'.mat = s.mat ∧
      ∀ b o, s'.heap.cell b o = s.heap.cell b o := by
  have H := inMem_of hx h
  have hsq : M.rows = M.cols := by
    by_contra hne
    simp [determinant, checkSquare, Res.require, hne] at hv
  obtain ⟨n, hn⟩ : ∃ n, n = M.rows := ⟨_, rfl⟩
  have hd : d.rows = n := by rw [H.rows, hn]
  have hd' : d.cols = n := by rw [H.cols, hn, hsq]
  have hv' : (match (generalizing := false) n with
      | 2 => det2 M
      | 3 => det3 M
      | 4 => det4 M
      | _ => detLu eps M) = .ok v := by
    simp only [determinant, checkSquare, Res.require, ← hsq, decide_true, if_true, Res.ok_bind, ← hn] at hv
    exact hv
  have hm : mDeterminant true eps s x t = (match (generalizing := false) n with
      | 2 => do let v ← memDet2 d s.heap; pure (s, v)
      | 3 => do let v ← memDet3 d s.heap; pure (s, v)
      | 4 => do let v ← memDet4 d s.heap; pure (s, v)
      | _ => do
        let s ← (mCopyNew true d.colMajor d.colBasis s t (.var x)).res
        let a ← s.mobj t
        let r ← memDetLu true eps a s.heap
        let s ← (mDestroy true { s with heap := r.1 } t).res
        pure (s, r.2)) := by
    simp only [mDeterminant, State.mobj, hx, Res.ok_bind, memCheckSquare, hd, hd', Res.require, decide_true, if_true]
    rfl
  have small : ∀ {m : Res K} {w : Res K}, Sim Eq m w → w = .ok v →
      ∃ s', (do let v ← m; pure (s, v) : Res (State K × K)) = .ok (s', v) ∧ s'.vec = s.vec ∧ s'.mat = s.mat ∧
      ∀ b o, s'.heap.cell b o = s.heap.cell b o := by
    intro m w hs hw
    rw [hw] at hs
    cases m <;> simp only [Sim] at hs
    subst hs
    exact ⟨s, rfl, rfl, rfl, fun _ _ => rfl⟩
  have big : detLu eps M = .ok v → ∃ s', (do
        let s ← (mCopyNew true d.colMajor d.colBasis s t (.var x)).res
        let a ← s.mobj t
        let r ← memDetLu true eps a s.heap
        let s ← (mDestroy true { s with heap := r.1 } t).res
        pure (s, r.2) : Res (State K × K)) = .ok (s', v) ∧ s'.vec = s.vec ∧ s'.mat = s.mat ∧
      ∀ b o, s'.heap.cell b o = s.heap.cell b o := by
    intro hb
    obtain ⟨h1, dt, a1, a2, a3, a4, a5, a6⟩ := mCopyNew_ok hx d.colMajor d.colBasis ht hfr (fun _ => hal) _ h
    have ht1 : ({ s with heap := h1 }.setMat t (some dt) : State K).mat t = some dt := by simp [State.setMat]
    have H1 := inMem_of (M := M) ht1 a4
    have key := H1.detLu (triv := true) eps
    rw [hb] at key
    have hh : ({ s with heap := h1 }.setMat t (some dt) : State K).heap = h1 := rfl
    rw [hh] at key H1
    cases hr : memDetLu true eps dt h1 with
    | throw e => rw [hr] at key; exact key.elim
    | ub u => rw [hr] at key; exact key.elim
    | ok r =>
      rw [hr] at key
      obtain ⟨rfl, M', HM⟩ := key
      obtain ⟨h2, f1, f2, f3⟩ : ∃ h2, (r.1.destruct true dt.data).free dt.data (dt.rows * dt.cols) = .ok h2 ∧
          (∀ b, some b ≠ dt.data → h2.blk b = r.1.blk b) ∧ (∀ b, some b = dt.data → h2.blk b = none) := by
        have hdes : r.1.destruct true dt.data = r.1 := by simp [Heap.destruct]
        rw [hdes]
        rcases a2.2.2.2 with ⟨q, -⟩ | ⟨b, l, q1, q2, q3⟩
        · have q' : dt.data = none := q
          refine ⟨r.1, by simp [q', Heap.free], fun _ _ => rfl, fun b hb => ?_⟩
          rw [q'] at hb; cases hb
        · have q' : dt.data = some b := q1
          have := HM.len b
          rw [q2] at this
          simp only [Option.map_some, Option.map_eq_some_iff] at this
          obtain ⟨l', b1, b2⟩ := this
          refine ⟨r.1.setBlk b none, ?_, ?_, ?_⟩
          · simp only [q', Heap.free, b1, b2, q3]
            rw [if_pos]
            simp [MObj.flat]
          · intro b' hb'
            have : b' ≠ b := by rintro rfl; exact hb' q'.symm
            simp [Heap.setBlk, this]
          · intro b' hb'
            rw [q'] at hb'; cases hb'
            simp [Heap.setBlk]
      refine ⟨({ s with heap := h2 } : State K), ?_, rfl, rfl, ?_⟩
      · have hdst : (mDestroy true { ({ s with heap := h1 }.setMat t (some dt) : State K) with heap := r.1 } t)
            = .ok { s with heap := h2 } := by
          simp only [mDestroy, State.mobj, State.setMat, if_true, Out.withVal_ok, f1]
          congr 2
          funext y
          by_cases hy : y = t
          · simp [hy, ht]
          · simp [hy]
        simp only [a1, Out.res, Res.ok_bind, State.mobj, ht1, hh, hr, hdst, Res.pure_eq]
      · intro b o
        show h2.cell b o = s.heap.cell b o
        by_cases hbn : b = s.heap.next
        · have h0 : h2.blk b = none := by
            by_cases he : M.rows * M.cols = 0
            · rw [if_pos he] at a3
              rw [f2 b (by rw [a3]; simp)]
              have := HM.len b
              rw [hbn, a6 he] at this
              rw [hbn]
              simpa using this
            · rw [if_neg he] at a3
              exact f3 b (by rw [a3, hbn])
          unfold Heap.cell
          rw [h0, hbn, hfr]
        · have hne : some b ≠ dt.data := by
            rw [a3]
            split
            · simp
            · simpa using hbn
          have e1 : h2.cell b o = r.1.cell b o := by unfold Heap.cell; rw [f2 b hne]
          rw [e1, HM.out b o (fun hc => hne hc.1.symm), a5 b o hbn]
  rw [hm]
  match n, hv' with
  | 2, hv' => exact small H.det2 hv'
  | 3, hv' => exact small H.det3 hv'
  | 4, hv' => exact small H.det4 hv'
  | 0, hv' => exact big hv'
  | 1, hv' => exact big hv'
  | n + 5, hv' => exact big hv'

/-- C110: the determinant of a matrix that is not square is rejected. -/
theorem mdeterminant_not_square {triv : Bool} {s : State K} {x t : Nat} {d : MObj} (eps : K) (hx : s.mat x = some d)
    (hne : d.rows ≠ d.cols) :
    mDeterminant triv eps s x t = .throw (if d.fixed then .staticAssert else .nonSquare) := by
  simp [mDeterminant, State.mobj, hx, memCheckSquare, Res.require, hne]

/-- C110: the determinant of a 2×2, 3×3 or 4×4 matrix with run-time dimensions. -/
theorem mdeterminant_small {s : State K} {x t n : Nat} {d : MObj} (eps : K) (hx : s.mat x = some d)
    (ht : s.mat t = none) (hf : d.fixed = false) (hfr : s.heap.blk s.heap.next = none)
    (hal : s.heap.fail s.heap.tick = false) (hn : n = 2 ∨ n = 3 ∨ n = 4) (A : Matrix (Fin n) (Fin n) K)
    (h : MRep s (.var x) ⟨n, n, A⟩) :
    ∃ s', mDeterminant true eps s x t = .ok (s', A.det) ∧ s'.vec = s.vec ∧ s'.mat = s.mat ∧
      ∀ b o, s'.heap.cell b o = s.heap.cell b o :=
  mdeterminant_mem eps hx ht hf hfr hal (Mat.of A) ((rep_is (Mat.of_is A)).2 h) A.det
    (determinant_small false eps _ n hn A (Mat.of_is A))

end LuPivot

section Solve
variable {K : Type} [Field K] [DecidableEq K]

/-- The contents of the vectors `x` (perhaps without values) and `b` as values of the algorithm. -/
theorem solve_values {triv : Bool} {s : State K} {x b n : Nat} {vx vb : VObj} (hx : s.vec x = some vx)
    (hb : s.vec b = some vb) (p : Fin n → K) (hp : VRep s (.var b) ⟨n, p⟩) (hs : vx.size = n)
    (hr : vx.Ready triv s.heap) :
    ∃ bv xv : Vec K, vb.size = n ∧ bv.Is n p ∧ xv.size = n ∧ (∀ i, Sim Eq (vb.get s.heap i) (bv.get i)) ∧
      VInMem triv vx s.heap s.heap xv := by
  have hbs : vb.size = n := by
    have := hp.size
    simp only [VNode.size, State.vobj, hb, Res.ok_bind, Res.pure_eq, Res.ok.injEq] at this
    exact_mod_cast this
  have hbg : ∀ i : Fin n, vb.get s.heap i = .ok (p i) := by
    intro i
    have := hp.get i
    simpa [VNode.get, State.vobj, hb] using this
  -- the values of the two vectors
  set bv : Vec K := ⟨n, fun i => if hi : i < n then some (p ⟨i, hi⟩) else none⟩ with hbv
  have hbv' : bv.Is n p := ⟨rfl, fun i => by simp [hbv]⟩
  have hbsim : ∀ i, Sim Eq (vb.get s.heap i) (bv.get i) := by
    intro i
    by_cases hi : i < n
    · rw [show vb.get s.heap i = _ from hbg ⟨i, hi⟩]
      simp [Vec.get, hbv, hi, Sim]
    · unfold Vec.get
      rw [if_neg hi]
      unfold VObj.get
      split
      · exact .inl rfl
      · rw [if_neg (by omega)]; exact .inl rfl
  have hcell : ∀ i, i < n → (∃ e, vx.get s.heap i = .ok e) ∨ vx.get s.heap i = .ub .uninit := by
    intro i hi
    obtain ⟨b', e1, c, e2, -⟩ := hr i (by omega)
    unfold Heap.cell at e2
    unfold VObj.get Heap.read
    simp only [e1, show i < vx.size by omega, if_true]
    cases hk : s.heap.blk b' with
    | none => rw [hk] at e2; cases e2
    | some l =>
      rw [hk] at e2
      simp only [Option.bind_some] at e2
      simp only [e2]
      cases c with
      | none => exact .inr rfl
      | some e => exact .inl ⟨e, rfl⟩
  set xv : Vec K := ⟨n, fun i => match vx.get s.heap i with | .ok e => some e | _ => none⟩ with hxv
  have HX : VInMem triv vx s.heap s.heap xv := by
    refine ⟨hs, hr, ?_, ?_, fun _ _ _ => rfl, fun _ => rfl, rfl, rfl, rfl⟩
    · intro i e hi he
      simp only [hxv] at hi he
      rcases hcell i hi with ⟨e', h1⟩ | h1
      · rw [h1] at he ⊢; simp only [Option.some.injEq] at he; rw [he]
      · rw [h1] at he; cases he
    · intro i hi he
      simp only [hxv] at hi he
      rcases hcell i hi with ⟨e', h1⟩ | h1
      · rw [h1] at he; cases he
      · exact h1
  exact ⟨bv, xv, hbs, hbv', rfl, hbsim, HX⟩

/-- C111: `lu_solve(LU, x, b)` with all operands in memory.  `x` and `b` may be the same vector or overlap in any
way; `LU` must not overlap `x`.  With a nonzero diagonal `x` receives the unique solution of `L U x = b` and
nothing but the elements of `x` changes (so `LU` still holds the decomposition); with a zero on the diagonal
there is a division by zero. -/
theorem mlusolve_spec {triv : Bool} {s : State K} {m x b n : Nat} {d : MObj} {vx vb : VObj}
    (hm : s.mat m = some d) (hx : s.vec x = some vx) (hb : s.vec b = some vb)
    (B : Matrix (Fin n) (Fin n) K) (hB : MRep s (.var m) ⟨n, n, B⟩)
    (p : Fin n → K) (hp : VRep s (.var b) ⟨n, p⟩) (hs : vx.size = n) (hr : vx.Ready triv s.heap)
    (hd : d.DisjointV vx) :
    ((∀ i, B i i ≠ 0) → ∃ s' q, mLuSolve triv s m x b = .ok s' ∧ VRep s' (.var x) ⟨n, q⟩ ∧
      MRep s' (.var m) ⟨n, n, B⟩ ∧ Touches vx s s' ∧
      (unitLower B * upper B).mulVec q = p ∧ ∀ q', (unitLower B * upper B).mulVec q' = p → q' = q) ∧
    ((∃ i, B i i = 0) → mLuSolve triv s m x b = .ub .divZero) := by
  have hA := Mat.of_is B
  have H := inMem_of hm ((rep_is hA).2 hB)
  obtain ⟨bv, xv, hbs, hbv', hxs, hbsim, HX⟩ := solve_values hx hb p hp hs hr
  obtain ⟨l1, l2⟩ := lu_solve_spec d.fixed (d.fixed && vx.fixed) (d.fixed && vb.fixed) (Mat.of B) n B hA xv bv p hbv' hxs
  have hsim : Sim (VInMem triv vx s.heap) (do
          memCheckSquare d
          Res.require (decide (d.cols = vx.size)) (if d.fixed && vx.fixed then .staticAssert else .matIncompatible)
          Res.require (decide (d.cols = vb.size)) (if d.fixed && vb.fixed then .staticAssert else .matIncompatible)
          let y ← memForward d (fun i => i) vb s.heap
          memBackward triv d vx y vb.size s.heap)
      (luSolve d.fixed (d.fixed && vx.fixed) (d.fixed && vb.fixed) (Mat.of B) xv bv) := by
    unfold luSolve
    rw [show memCheckSquare d = checkSquare d.fixed (Mat.of B) by
      unfold memCheckSquare checkSquare; rw [H.rows, H.cols], H.cols, hs, hbs, hxs, hbv'.size]
    refine Sim.bindEq (Sim.refl _) fun _ => Sim.bindEq (Sim.refl _) fun _ => Sim.bindEq (Sim.refl _) fun _ => ?_
    refine Sim.bindEq (H.forward _ (hbs.trans hbv'.size.symm) hbsim) fun y => ?_
    exact HX.backward H hd y n
  have hst : mLuSolve triv s m x b = .withVal (do
          memCheckSquare d
          Res.require (decide (d.cols = vx.size)) (if d.fixed && vx.fixed then .staticAssert else .matIncompatible)
          Res.require (decide (d.cols = vb.size)) (if d.fixed && vb.fixed then .staticAssert else .matIncompatible)
          let y ← memForward d (fun i => i) vb s.heap
          memBackward triv d vx y vb.size s.heap) s fun h => .ok { s with heap := h } := by
    simp only [mLuSolve, State.mobj, State.vobj, hm, hx, hb, Out.withVal_ok]
  rw [hst]
  constructor
  · intro hdg
    obtain ⟨x', q, g1, g2, g3, g4⟩ := l1 hdg
    rw [g1] at hsim
    revert hsim
    generalize (do
          memCheckSquare d
          Res.require (decide (d.cols = vx.size)) (if d.fixed && vx.fixed then .staticAssert else .matIncompatible)
          Res.require (decide (d.cols = vb.size)) (if d.fixed && vb.fixed then .staticAssert else .matIncompatible)
          let y ← memForward d (fun i => i) vb s.heap
          memBackward triv d vx y vb.size s.heap : Res (Heap K)) = R
    intro hsim
    cases R <;> simp only [Sim] at hsim
    rename_i h'
    refine ⟨_, q, rfl, ⟨?_, fun i => ?_⟩, ?_,
      ⟨rfl, rfl, hsim.out, hsim.len, hsim.next, hsim.tick, hsim.fail⟩, g3, g4⟩
    · simp [VNode.size, State.vobj, hx, hs]
    · have := hsim.some i (q i) (by rw [g2.size]; exact i.2) (g2.el i)
      simpa [VNode.get, State.vobj, hx] using this
    · have HM := hsim.frame H hd
      have hm' : ({ s with heap := h' } : State K).mat m = some d := hm
      have := (rep_of (s := { s with heap := h' }) hm' HM).1
      exact (rep_is hA).1 this
  · intro h0
    rw [l2 h0] at hsim
    revert hsim
    generalize (do
          memCheckSquare d
          Res.require (decide (d.cols = vx.size)) (if d.fixed && vx.fixed then .staticAssert else .matIncompatible)
          Res.require (decide (d.cols = vb.size)) (if d.fixed && vb.fixed then .staticAssert else .matIncompatible)
          let y ← memForward d (fun i => i) vb s.heap
          memBackward triv d vx y vb.size s.heap : Res (Heap K)) = R
    intro hsim
    cases R <;> simp [Sim] at hsim
    rw [hsim]; rfl

/-- C111: operands whose sizes do not fit are rejected and nothing changes. -/
theorem mlusolve_size_error {triv : Bool} {s : State K} {m x b : Nat} {d : MObj} {vx vb : VObj}
    (hm : s.mat m = some d) (hx : s.vec x = some vx) (hb : s.vec b = some vb) :
    (d.rows ≠ d.cols → mLuSolve triv s m x b = .throw (if d.fixed then .staticAssert else .nonSquare) s) ∧
    (d.rows = d.cols → d.cols ≠ vx.size →
      mLuSolve triv s m x b = .throw (if d.fixed && vx.fixed then .staticAssert else .matIncompatible) s) ∧
    (d.rows = d.cols → d.cols = vx.size → d.cols ≠ vb.size →
      mLuSolve triv s m x b = .throw (if d.fixed && vb.fixed then .staticAssert else .matIncompatible) s) := by
  have hst : ∀ R : Res (Heap K), ∀ e, R = .throw e → Out.withVal R s (fun h => .ok { s with heap := h }) = .throw e s := by
    rintro R e rfl; rfl
  refine ⟨fun h1 => ?_, fun h1 h2 => ?_, fun h1 h2 h3 => ?_⟩ <;>
    simp only [mLuSolve, State.mobj, State.vobj, hm, hx, hb, Out.withVal_ok] <;> apply hst
  · simp [memCheckSquare, Res.require, h1]
  · simp [memCheckSquare, Res.require, h1, h2]
  · have h3' : vx.size ≠ vb.size := by rw [← h2]; exact h3
    simp [memCheckSquare, Res.require, h1, h2, h3']

end Solve

/-- A 3×3 column-major matrix viewed at offset 1 in foreign memory of 11 cells, and a dynamic row-major 2×2
matrix; variable 2 is unused. -/
def exAlg : State ℚ :=
  demo [[some 7, some 2, some 0, some 1, some 1, some 3, some 0, some 0, some 1, some 1, some 8],
      [some 1, some 2, some 3, some 4], [some 5, some 3], [none, none]]
    [⟨.allocated, false, some 2, 0, 2⟩, ⟨.allocated, false, some 3, 0, 2⟩]
    [⟨.external, true, some 0, 1, 3, 3, true, false⟩, ⟨.allocated, false, some 1, 0, 2, 2, false, false⟩]

/-- The values of the two matrices. -/
def exAlgA : Matrix (Fin 3) (Fin 3) ℚ := !![2, 1, 0; 0, 3, 1; 1, 0, 1]

@[inherit_doc exAlgA]
def exAlgB : Matrix (Fin 2) (Fin 2) ℚ := !![1, 2; 3, 4]

private theorem exAlg_A : MRep exAlg (.var 0) ⟨3, 3, exAlgA⟩ :=
  ⟨rfl, fun i j => by fin_cases i <;> fin_cases j <;> rfl⟩

private theorem exAlg_B : MRep exAlg (.var 1) ⟨2, 2, exAlgB⟩ :=
  ⟨rfl, fun i j => by fin_cases i <;> fin_cases j <;> rfl⟩

/-- Example for C109: the view is inverted in place (the determinant is 7). -/
example : ∃ s', mInverse true exAlg 0 = .ok s' ∧ MRep s' (.var 0) ⟨3, 3, (exAlgA⁻¹ : Matrix (Fin 3) (Fin 3) ℚ)⟩ ∧
    Touches (⟨.external, true, some 0, 1, 9⟩ : VObj) exAlg s' :=
  (minverse_small (d := ⟨.external, true, some 0, 1, 3, 3, true, false⟩) rfl (.inr (.inl rfl)) exAlgA exAlg_A).1
    (by rw [Matrix.det_fin_three]; simp [exAlgA]; norm_num)

/-- Example for C109: a copy of the dynamic matrix is inverted (the determinant is -2). -/
example : ∃ s', mInverseNew true exAlg 1 2 = .ok s' ∧
    MRep s' (.var 2) ⟨2, 2, (exAlgB⁻¹ : Matrix (Fin 2) (Fin 2) ℚ)⟩ ∧ s'.vec = exAlg.vec ∧
    (∀ y, y ≠ 2 → s'.mat y = exAlg.mat y) ∧ (∀ b o, b ≠ 4 → s'.heap.cell b o = exAlg.heap.cell b o) :=
  minverse_new (d := ⟨.allocated, false, some 1, 0, 2, 2, false, false⟩) rfl rfl rfl rfl rfl (.inl rfl) exAlgB exAlg_B
    (by rw [Matrix.det_fin_two]; simp [exAlgB]; norm_num)

/-- Example for C110: decomposition of the view in place (leading minors 1 and 2). -/
example : ∃ s' B, mLuInplace true exAlg 0 = .ok s' ∧ MRep s' (.var 0) ⟨3, 3, B⟩ ∧
    Touches (⟨.external, true, some 0, 1, 9⟩ : VObj) exAlg s' ∧ unitLower B * upper B = exAlgA := by
  refine (mlu_factors (d := ⟨.external, true, some 0, 1, 3, 3, true, false⟩) rfl exAlgA exAlg_A).1 ?_
  intro k hk
  match k, hk with
  | 0, _ => simp
  | 1, _ => simp [leading, exAlgA]
  | 2, _ => rw [Matrix.det_fin_two]; simp [leading, exAlgA]

/-- Example for C110: pivoted decomposition of the dynamic matrix. -/
example : ∃ s' o sg B, mLuPivot true (1 / 1000) exAlg 1 = .ok (s', o, sg) ∧ MRep s' (.var 1) ⟨2, 2, B⟩ ∧
    Touches (⟨.allocated, false, some 1, 0, 4⟩ : VObj) exAlg s' ∧
    (sg ≠ 0 → ∃ σ : Equiv.Perm (Fin 2), (∀ i : Fin 2, o i = σ i) ∧ sg = Equiv.Perm.sign σ ∧
      unitLower B * upper B = exAlgB.submatrix σ id ∧ exAlgB.det = (sg : ℚ) * ∏ i, B i i) :=
  mlupivot_factors (d := ⟨.allocated, false, some 1, 0, 2, 2, false, false⟩) (1 / 1000) (by norm_num) rfl exAlgB exAlg_B

/-- Example for C110: the sign is in fact -1, since the rows are exchanged. -/
example : (match mLuPivot true (1 / 1000) exAlg 1 with | .ok r => some r.2.2 | _ => none) = some (-1) := by
  decide +kernel

/-- Example for C110: determinant of the dynamic matrix; no memory is left behind. -/
example : ∃ s', mDeterminant true (1 / 1000) exAlg 1 2 = .ok (s', exAlgB.det) ∧ s'.vec = exAlg.vec ∧
    s'.mat = exAlg.mat ∧ ∀ b o, s'.heap.cell b o = exAlg.heap.cell b o :=
  mdeterminant_small (d := ⟨.allocated, false, some 1, 0, 2, 2, false, false⟩) (1 / 1000) rfl rfl rfl rfl rfl (.inl rfl)
    exAlgB exAlg_B

/-- Example for C111: solving with the dynamic matrix as packed factors (diagonal 1, 4) into a vector that holds
no values yet. -/
example : ∃ s' q, mLuSolve true exAlg 1 1 0 = .ok s' ∧ VRep s' (.var 1) ⟨2, q⟩ ∧ MRep s' (.var 1) ⟨2, 2, exAlgB⟩ ∧
    Touches ⟨.allocated, false, some 3, 0, 2⟩ exAlg s' ∧
    (unitLower exAlgB * upper exAlgB).mulVec q = ![5, 3] ∧
    ∀ q', (unitLower exAlgB * upper exAlgB).mulVec q' = ![5, 3] → q' = q := by
  refine (mlusolve_spec (d := ⟨.allocated, false, some 1, 0, 2, 2, false, false⟩)
    (vx := ⟨.allocated, false, some 3, 0, 2⟩) (vb := ⟨.allocated, false, some 2, 0, 2⟩) rfl rfl rfl exAlgB exAlg_B
    ![5, 3] ⟨rfl, fun i => by fin_cases i <;> rfl⟩ rfl ?_ (.inl (by simp))).1 ?_
  · intro i hi
    refine ⟨3, rfl, none, ?_, .inl rfl⟩
    have : i = 0 ∨ i = 1 := by simp only at hi; omega
    rcases this with rfl | rfl <;> rfl
  · intro i
    fin_cases i <;> simp [exAlgB]

/-- A 2×2 matrix of packed factors and a vector that is a view of its first row. -/
def exOver : State ℚ :=
  demo [[some 1, some 1, some 0, some 1], [some 5, some 3]]
    [⟨.external, false, some 0, 0, 2⟩, ⟨.allocated, false, some 1, 0, 2⟩]
    [⟨.allocated, false, some 0, 0, 2, 2, false, false⟩]

/-- C111, why `LU` and `x` must not overlap: if `x` is a view of the first row of `LU`, the backward substitution
overwrites coefficients that it reads later; the call returns normally with a wrong answer. -/
theorem mlusolve_overlap_false : ∃ (s : State ℚ) (m x b : Nat) (d : MObj) (vx : VObj)
    (B : Matrix (Fin 2) (Fin 2) ℚ) (p : Fin 2 → ℚ), s.mat m = some d ∧ s.vec x = some vx ∧
    MRep s (.var m) ⟨2, 2, B⟩ ∧ VRep s (.var b) ⟨2, p⟩ ∧ vx.size = 2 ∧ vx.Ready true s.heap ∧ (∀ i, B i i ≠ 0) ∧
    ∃ s' q, mLuSolve true s m x b = .ok s' ∧ VRep s' (.var x) ⟨2, q⟩ ∧ (unitLower B * upper B).mulVec q ≠ p := by
  refine ⟨exOver, 0, 0, 1, ⟨.allocated, false, some 0, 0, 2, 2, false, false⟩, ⟨.external, false, some 0, 0, 2⟩,
    !![1, 1; 0, 1], ![5, 3], rfl, rfl, ⟨rfl, fun i j => by fin_cases i <;> fin_cases j <;> rfl⟩,
    ⟨rfl, fun i => by fin_cases i <;> rfl⟩, rfl, ?_, ?_, ?_⟩
  · intro i hi
    refine ⟨0, rfl, some 1, ?_, .inl rfl⟩
    have : i = 0 ∨ i = 1 := by simp only at hi; omega
    rcases this with rfl | rfl <;> rfl
  · intro i
    fin_cases i <;> simp
  · have key : (match mLuSolve true exOver 0 0 1 with
        | .ok s' => some ((VNode.var 0 : VNode ℚ).size s', (VNode.var 0 : VNode ℚ).get s' 0,
            (VNode.var 0 : VNode ℚ).get s' 1)
        | _ => none) = some (Res.ok 2, Res.ok (-4), Res.ok 3) := by decide +kernel
    cases hr : mLuSolve true exOver 0 0 1 with
    | throw e s => rw [hr] at key; cases key
    | ub u => rw [hr] at key; cases key
    | ok s' =>
      rw [hr] at key
      simp only [Option.some.injEq, Prod.mk.injEq] at key
      refine ⟨s', ![-4, 3], rfl, ⟨key.1, fun i => ?_⟩, ?_⟩
      · fin_cases i
        · exact key.2.1
        · exact key.2.2
      · intro h
        have := congrFun h 0
        simp [Matrix.mulVec, dotProduct, Matrix.mul_apply, unitLower, upper, Fin.sum_univ_two] at this
        norm_num at this

end CML

#print axioms CML.minverse_mem
#print axioms CML.minverse_small
#print axioms CML.minverse_not_square
#print axioms CML.minverse_new
#print axioms CML.mlu_mem
#print axioms CML.mlu_factors
#print axioms CML.mlupivot_mem
#print axioms CML.mlupivot_factors
#print axioms CML.mdeterminant_mem
#print axioms CML.mdeterminant_not_square
#print axioms CML.mdeterminant_small
#print axioms CML.mlusolve_spec
#print axioms CML.mlusolve_size_error
#print axioms CML.mlusolve_overlap_false
