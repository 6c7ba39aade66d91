import Verif.Model.LinStmt
import Verif.Props.MatMem
import Verif.Lemmas.LinProgram

/-!
# `lu_solve` with a pivoted decomposition in memory

C111 for the second overload of `lu_solve`.
-/

namespace CML

set_option linter.unusedSectionVars false

section
variable {K : Type} [Field K] [LinearOrder K] [IsStrictOrderedRing K]

/-- C111: `lu_solve(lup, x, b)` with the decomposition that `lu_pivot` computes from `A`, all operands in memory.
`x` and `b` may be the same vector or overlap in any way; `lup.lu` must not overlap `x`.  If `A` is
invertible, `x` receives the unique solution of `A x = b` and nothing but the elements of `x` changes (so that
`lup.lu` still holds the decomposition and can be used again); if it is not, there is a division by zero. -/
theorem mlupivotsolve_spec {triv : Bool} {s : State K} {m x b n : Nat} {d : MObj} {vx vb : VObj}
    (hm : s.mat m = some d) (hx : s.vec x = some vx) (hb : s.vec b = some vb)
    {eps : K} (A : Matrix (Fin n) (Fin n) K) {fixed : Bool} {r : LuPivot K} (hr : luPivot fixed eps (Mat.of A) = .ok r)
    (h0 : r.sign ≠ 0) (hB : MRep s (.var m) r.lu.val)
    (p : Fin n → K) (hp : VRep s (.var b) ⟨n, p⟩) (hs : vx.size = n) (hrd : vx.Ready triv s.heap)
    (hd : d.DisjointV vx) :
    (A.det ≠ 0 → ∃ s' q, mLuPivotSolve triv s m r.order r.sign x b = .ok s' ∧ VRep s' (.var x) ⟨n, q⟩ ∧
      MRep s' (.var m) r.lu.val ∧ Touches vx s s' ∧
      A.mulVec q = p ∧ ∀ q', A.mulVec q' = p → q' = q) ∧
    (A.det = 0 → mLuPivotSolve triv s m r.order r.sign x b = .ub .divZero) := by
  have H := inMem_of hm hB
  obtain ⟨bv, xv, hbs, hbv', hxs, hbsim, HX⟩ := solve_values hx hb p hp hs hrd
  obtain ⟨l1, l2⟩ := lu_pivot_solve_spec fixed (d.fixed && vx.fixed) (d.fixed && vb.fixed) eps (Mat.of A) n A
    (Mat.of_is A) r hr h0 xv bv p hbv' hxs
  obtain ⟨R, hR⟩ : ∃ R : Res (Heap K), R = (do
          Res.require (decide (d.cols = vx.size)) (if d.fixed && vx.fixed then .staticAssert else .matIncompatible)
          Res.require (decide (d.cols = vb.size)) (if d.fixed && vb.fixed then .staticAssert else .matIncompatible)
          Res.require (decide (r.sign ≠ 0)) .invalidArgument
          let y ← memForward d r.order vb s.heap
          memBackward triv d vx y vb.size s.heap) := ⟨_, rfl⟩
  have hsim : Sim (VInMem triv vx s.heap) R (luPivotSolve (d.fixed && vx.fixed) (d.fixed && vb.fixed) r xv bv) := by
    rw [hR]
    unfold luPivotSolve
    rw [H.cols, hs, hbs, hxs, hbv'.size]
    refine Sim.bindEq (Sim.refl _) fun _ => Sim.bindEq (Sim.refl _) fun _ => Sim.bindEq (Sim.refl _) fun _ => ?_
    refine Sim.bindEq (H.forward _ (hbs.trans hbv'.size.symm) hbsim) fun y => ?_
    exact HX.backward H hd y n
  have hst : mLuPivotSolve triv s m r.order r.sign x b = .withVal R s fun h => .ok { s with heap := h } := by
    simp only [mLuPivotSolve, State.mobj, State.vobj, hm, hx, hb, Out.withVal_ok, hR]
  rw [hst]
  clear hR hst
  constructor
  · intro hdet
    obtain ⟨x', q, g1, g2, g3, g4⟩ := l1 hdet
    rw [g1] at hsim
    cases R <;> simp only [Sim] at hsim
    rename_i h'
    refine ⟨_, q, rfl, ⟨?_, fun i => ?_⟩, ?_,
      ⟨rfl, rfl, hsim.out, hsim.len, hsim.next, hsim.tick, hsim.fail⟩, g3, g4⟩
    · simp [VNode.size, State.vobj, hx, hs]
    · have := hsim.some i (q i) (by rw [g2.size]; exact i.2) (g2.el i)
      simpa [VNode.get, State.vobj, hx] using this
    · have HM := hsim.frame H hd
      have hm' : ({ s with heap := h' } : State K).mat m = some d := hm
      exact (rep_of (s := { s with heap := h' }) hm' HM).1
  · intro h0
    rw [l2 h0] at hsim
    cases R <;> simp [Sim] at hsim
    rw [hsim]; rfl

/-- C111: operands whose sizes do not fit, or a decomposition that has not been found (sign 0), are rejected and
nothing changes. -/
theorem mlupivotsolve_error {triv : Bool} {s : State K} {m x b : Nat} {d : MObj} {vx vb : VObj}
    (hm : s.mat m = some d) (hx : s.vec x = some vx) (hb : s.vec b = some vb) (order : Nat → Nat) (sign : Int) :
    (d.cols ≠ vx.size → mLuPivotSolve triv s m order sign x b =
      .throw (if d.fixed && vx.fixed then .staticAssert else .matIncompatible) s) ∧
    (d.cols = vx.size → d.cols ≠ vb.size → mLuPivotSolve triv s m order sign x b =
      .throw (if d.fixed && vb.fixed then .staticAssert else .matIncompatible) s) ∧
    (d.cols = vx.size → d.cols = vb.size → sign = 0 →
      mLuPivotSolve triv s m order sign x b = .throw .invalidArgument s) := by
  have hst : ∀ R : Res (Heap K), ∀ e, R = .throw e → Out.withVal R s (fun h => .ok { s with heap := h }) = .throw e s := by
    rintro R e rfl; rfl
  refine ⟨fun h1 => ?_, fun h1 h2 => ?_, fun h1 h2 h3 => ?_⟩ <;>
    simp only [mLuPivotSolve, State.mobj, State.vobj, hm, hx, hb, Out.withVal_ok] <;> apply hst
  · simp [Res.require, h1]
  · have h3' : vx.size ≠ vb.size := by rw [← h1]; exact h2
    simp [Res.require, h1, h3']
  · simp [Res.require, ← h1, ← h2, h3]

/-! ### Examples -/

/-- A matrix that needs a row exchange, its pivoted decomposition in memory, and a right-hand side. -/
def exPivA : Matrix (Fin 2) (Fin 2) ℚ := !![0, 1; 2, 0]

@[inherit_doc exPivA]
def exPiv : State ℚ :=
  demo [[some 0, some 1, some 2, some 0], [some 5, some 3], [none, none]]
    [⟨.allocated, false, some 1, 0, 2⟩, ⟨.allocated, false, some 2, 0, 2⟩]
    [⟨.allocated, false, some 0, 0, 2, 2, false, false⟩]

private theorem exPiv_ok : ∃ r, luPivot false (1 / 1000) (Mat.of exPivA) = .ok r ∧ r.sign ≠ 0 := by
  have h : (luPivot false (1 / 1000) (Mat.of exPivA)).bind (fun r => .ok r.sign) = .ok (-1) := by decide +kernel
  revert h
  cases luPivot false (1 / 1000) (Mat.of exPivA) <;> simp [Res.bind]
  rintro h; omega

/-- Example for C111: the matrix is decomposed in place, then the system is solved with the factors. -/
example : ∃ s1 o sg s2 q, mLuPivot true (1 / 1000) exPiv 0 = .ok (s1, o, sg) ∧
    mLuPivotSolve true s1 0 o sg 1 0 = .ok s2 ∧ VRep s2 (.var 1) ⟨2, q⟩ ∧ exPivA.mulVec q = ![5, 3] := by
  obtain ⟨r, hr, h0⟩ := exPiv_ok
  have hA : MRep exPiv (.var 0) ⟨2, 2, exPivA⟩ := ⟨rfl, fun i j => by fin_cases i <;> fin_cases j <;> rfl⟩
  obtain ⟨s1, e1, e2, T⟩ := (mlupivot_mem (triv := true) (d := ⟨.allocated, false, some 0, 0, 2, 2, false, false⟩)
    (1 / 1000) rfl (Mat.of exPivA) ((rep_is (Mat.of_is _)).2 hA)).1 r hr
  have hv0 : s1.vec 0 = some ⟨.allocated, false, some 1, 0, 2⟩ := by rw [T.vec]; rfl
  have hv1 : s1.vec 1 = some ⟨.allocated, false, some 2, 0, 2⟩ := by rw [T.vec]; rfl
  have hb : VRep s1 (.var 0) ⟨2, ![5, 3]⟩ := by
    refine ⟨by simp [VNode.size, State.vobj, hv0], fun i => ?_⟩
    simp only [VNode.get, State.vobj, hv0, Res.ok_bind]
    refine T.vget (w := ⟨.allocated, false, some 1, 0, 2⟩) (.inl (by simp [MObj.flat])) ?_
    fin_cases i <;> rfl
  have hready : VObj.Ready true s1.heap ⟨.allocated, false, some 2, 0, 2⟩ := by
    have hl := T.len 2
    have h2 : exPiv.heap.blk 2 = some [none, none] := rfl
    rw [h2] at hl
    simp only [Option.map_some, Option.map_eq_some_iff] at hl
    obtain ⟨l, l1, l2⟩ := hl
    exact Owned.ready (.inr ⟨2, l, rfl, l1, l2⟩) rfl
  obtain ⟨s2, q, f1, f2, -, -, f3, -⟩ := (mlupivotsolve_spec (d := ⟨.allocated, false, some 0, 0, 2, 2, false, false⟩)
    (by rw [T.mat]; rfl) hv1 hv0 exPivA hr h0 e2 ![5, 3] hb rfl hready (.inl (by decide))).1
    (by rw [Matrix.det_fin_two]; simp [exPivA])
  exact ⟨s1, r.order, r.sign, s2, q, e1, f1, f2, f3⟩

end

#print axioms mlupivotsolve_spec
#print axioms mlupivotsolve_error

end CML
