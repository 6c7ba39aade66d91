import Verif.Lemmas.Stable
import Verif.Props.MatAssign

/-!
C93 (transposes of fixed-size matrices in sums and products), C94 (outer products of a fixed-size and a
dynamic vector), and the negation of C80: expressions whose type has the wrong compile-time dimensions.
-/

set_option linter.unusedSectionVars false

namespace CML

variable {E : Type} [Add E] [Sub E] [Mul E] [Div E] [Neg E]

/-- A loop whose first iterations succeed and the next one is undefined behaviour. -/
private theorem loop_ub {σ : Type} {body : Nat → σ → Res σ} {u : UB} : ∀ (k n lo : Nat) (s : σ), k < n →
    (∀ i s, lo ≤ i → i < lo + k → ∃ s', body i s = .ok s') → (∀ s, body (lo + k) s = .ub u) →
    Res.loop body lo n s = .ub u
  | k, n + 1, lo, s, hk, h1, h2 => by
    cases k with
    | zero =>
      have := h2 s
      simp only [Nat.add_zero] at this
      simp only [Res.loop, this]
      rfl
    | succ k =>
      obtain ⟨s', hs⟩ := h1 lo s (le_refl _) (by omega)
      simp only [Res.loop, hs]
      exact loop_ub k n (lo + 1) s' (by omega) (fun i s hi hi' => h1 i s (by omega) (by omega))
        (fun s => by rw [show lo + 1 + k = lo + (k + 1) by omega]; exact h2 s)

private theorem append_ok {body : Nat → Res E} {n : Nat} (h : ∀ j, j < n → ∃ v, body j = .ok v) (acc : List E) :
    ∃ l, Res.loop (fun j acc => do let m ← body j; pure (acc ++ [m])) 0 n acc = .ok l := by
  obtain ⟨l, hl, -⟩ := Res.loop_inv (lo := 0) (n := n) (s := acc)
    (body := fun j acc => do let m ← body j; pure (acc ++ [m])) (fun _ _ => True) trivial
    (fun k s _ hk _ => by
      obtain ⟨v, hv⟩ := h k (by omega)
      exact ⟨s ++ [v], by rw [hv]; rfl, trivial⟩)
  exact ⟨l, hl⟩

/-! ### C93: products with a transposed fixed-size matrix -/

section Product
variable {s : State E} {x y : Nat} {d e : MObj}

private theorem transpose_dims (hx : s.mat x = some d) :
    (MNode.transpose (.var x) : MNode E).dims s = .ok ((d.cols : Int), (d.rows : Int)) ∧
      (MNode.transpose (.var x) : MNode E).sdims s
        = .ok (if d.fixed then ((d.rows : Int), (d.cols : Int)) else (-1, -1)) := by
  simp [MNode.dims, MNode.sdims, State.mobj, hx]

/-- C93 is false: `transpose(A)*B` for fixed-size `A` with fewer rows than columns has only as many rows as
`A` (not as many as `transpose(A)`); the other rows of the product are missing. -/
theorem transpose_product_truncates (hx : s.mat x = some d) (hy : s.mat y = some e)
    (hf : d.fixed = true) (hg : e.fixed = true) (hr : 0 < d.rows) (hlt : d.rows < d.cols)
    (hin : d.rows = e.rows) (hc : 0 < e.cols) {p : Fin d.rows → Fin d.cols → E}
    {q : Fin e.rows → Fin e.cols → E} (hp : MRep s (.var x) ⟨d.rows, d.cols, p⟩)
    (hq : MRep s (.var y) ⟨e.rows, e.cols, q⟩) :
    ∃ t, matMul s (.transpose (.var x)) (.var y) = .ok t ∧ t.rows = d.rows ∧ t.cols = e.cols ∧
      (MNode.transpose (.var x) : MNode E).dims s = .ok ((d.cols : Int), (d.rows : Int)) ∧
      ∀ (i : Fin d.rows) (j : Fin e.cols), t.get i j
        = .ok (dotLeft d.rows hr (fun k => p k (i.castLE hlt.le)) (fun k => q (k.cast hin) j)) := by
  obtain ⟨l, e1, e2, e3⟩ := loop_collect2 (r := d.rows) (c := e.cols)
    (body := fun i j => innerLoop (fun k => (MNode.transpose (.var x) : MNode E).get s i k)
      (fun k => (MNode.var y : MNode E).get s k j) d.rows)
    (fun i j => dotLeft d.rows hr (fun k => p k (i.castLE hlt.le)) (fun k => q (k.cast hin) j))
    (fun i j => innerLoop_eq hr _ _ (fun k => by rw [MNode.get]; exact hp.get k (i.castLE hlt.le))
      (fun k => hq.get (k.cast hin) j))
  have r0 : 0 < (d.rows : Int) := by omega
  have c0 : 0 < (e.cols : Int) := by omega
  refine ⟨⟨true, d.rows, e.cols, l⟩, ?_, rfl, rfl, (transpose_dims hx).1, fun i j => ?_⟩
  · unfold matMul
    simp only [MNode.fixed, MNode.chkDims, MNode.cdims, MNode.sdims, MNode.dims, State.mobj, hx, hy, hf, hg,
      Res.ok_bind, Res.pure_eq, if_true, Bool.and_self, checkInner, hin, beq_self_eq_true, Res.require,
      productDims, Int.toNat_natCast]
    simp only [Res.pure_eq] at e1
    rw [hin] at r0 e1
    rw [if_pos ⟨r0, c0⟩, Res.ok_bind]
    simp only [Int.toNat_natCast]
    rw [e1]
    rfl
  · exact MTemp.get_eq (t := ⟨true, d.rows, e.cols, l⟩) i.2 j.2 (e3 i j)

/-- C93 is false: `transpose(A)*B` for fixed-size `A` with more rows than columns reads behind the end of
`A`. -/
theorem transpose_product_overruns (hx : s.mat x = some d) (hy : s.mat y = some e)
    (hf : d.fixed = true) (hg : e.fixed = true) (hr : 0 < d.rows) (hlt : d.cols < d.rows)
    (hin : d.rows = e.rows) (hc : 0 < e.cols) {p : Fin d.rows → Fin d.cols → E}
    {q : Fin e.rows → Fin e.cols → E} (hp : MRep s (.var x) ⟨d.rows, d.cols, p⟩)
    (hq : MRep s (.var y) ⟨e.rows, e.cols, q⟩) :
    ∃ u, matMul s (.transpose (.var x)) (.var y) = .ub u := by
  have hgt : ∃ u, ∀ k, d.get s.heap k d.cols = .ub u := by
    unfold MObj.get
    cases d.data with
    | none => exact ⟨_, fun _ => rfl⟩
    | some b => exact ⟨_, fun k => if_neg (by omega)⟩
  obtain ⟨u, hu⟩ := hgt
  refine ⟨u, ?_⟩
  have r0 : 0 < (d.rows : Int) := by omega
  have c0 : 0 < (e.cols : Int) := by omega
  have body : ∀ i j, i < d.cols → j < e.cols → ∃ v,
      innerLoop (fun k => (MNode.transpose (.var x) : MNode E).get s i k)
        (fun k => (MNode.var y : MNode E).get s k j) d.rows = .ok v := fun i j hi hj =>
    ⟨_, innerLoop_eq hr (fun k => p k ⟨i, hi⟩) (fun k => q (k.cast hin) ⟨j, hj⟩)
      (fun k => by rw [MNode.get]; exact hp.get k ⟨i, hi⟩) (fun k => hq.get (k.cast hin) ⟨j, hj⟩)⟩
  have bad : ∀ j, innerLoop (fun k => (MNode.transpose (.var x) : MNode E).get s d.cols k)
      (fun k => (MNode.var y : MNode E).get s k j) d.rows = .ub u := by
    intro j
    simp [innerLoop, MNode.get, State.mobj, hx, hu]
  have key : Res.loop (fun i acc => Res.loop (fun j acc => do
      let m ← innerLoop (fun k => (MNode.transpose (.var x) : MNode E).get s i k)
        (fun k => (MNode.var y : MNode E).get s k j) d.rows
      pure (acc ++ [m])) 0 e.cols acc) 0 d.rows ([] : List E) = .ub u := by
    refine loop_ub d.cols d.rows 0 [] hlt (fun i acc _ hi => ?_) (fun acc => ?_)
    · exact append_ok (fun j hj => body i j (by omega) hj) acc
    · refine loop_ub 0 e.cols 0 acc hc (fun i s _ hi => by omega) (fun acc => ?_)
      simp only [Nat.zero_add, bad]
      rfl
  unfold matMul
  simp only [MNode.fixed, MNode.chkDims, MNode.cdims, MNode.sdims, MNode.dims, State.mobj, hx, hy, hf, hg,
    Res.ok_bind, Res.pure_eq, if_true, Bool.and_self, checkInner, hin, beq_self_eq_true, Res.require,
    productDims, Int.toNat_natCast]
  simp only [Res.pure_eq] at key
  rw [hin] at r0 key
  rw [if_pos ⟨r0, c0⟩, Res.ok_bind]
  simp only [Int.toNat_natCast]
  rw [key]
  rfl

/-- C93 is false: `transpose(A)*v` for fixed-size `A` that is not square writes behind the end of the result
or leaves elements of the result uninitialised, and so does `v*transpose(A)`. -/
theorem transpose_vector_ub (hx : s.mat x = some d) (hf : d.fixed = true)
    (hr : 0 < d.rows) (hc : 0 < d.cols) (hne : d.rows ≠ d.cols) {v w : VNode E} {g h : Bool}
    (hv : v.Typed s g d.rows) (hv' : v.size s = .ok (d.rows : Int))
    (hw : w.Typed s h d.cols) (hw' : w.size s = .ok (d.cols : Int)) :
    matVec s (.transpose (.var x)) v = .ub (if d.rows < d.cols then .oob else .uninit) ∧
      vecMat s w (.transpose (.var x)) = .ub (if d.cols < d.rows then .oob else .uninit) := by
  have r0 : 0 < (d.rows : Int) := by omega
  have c0 : 0 < (d.cols : Int) := by omega
  have ht := (typed_mat hx).transpose
  obtain ⟨vc, hvc, -⟩ := hv.compiled
  obtain ⟨wc, hwc, -⟩ := hw.compiled
  have k1 := ht.chk (transpose_dims hx).1 (b := d.fixed && g) (by simp +contextual)
  have k2 := hv.chk hv' (b := d.fixed && g) (by simp +contextual)
  have k3 := ht.chk (transpose_dims hx).1 (b := h && d.fixed) (by simp +contextual)
  have k4 := hw.chk hw' (b := h && d.fixed) (by simp +contextual)
  rw [hf] at k1 k2 k3 k4
  have hfx := ht.fixed
  rw [hf] at hfx
  constructor
  · unfold matVec
    simp only [hfx, hv.fixed, k1, k2, Res.ok_bind, checkInner, beq_self_eq_true, Res.require, if_true,
      (transpose_dims hx).1, hv', hvc, (transpose_dims hx).2, hf, productSize, if_pos r0, productRoom,
      Int.ofNat_lt]
    by_cases hlt : d.rows < d.cols
    · simp [hlt]
    · have : d.cols < d.rows := by omega
      simp [hlt, this]
  · unfold vecMat
    simp only [hfx, hw.fixed, k3, k4, Res.ok_bind, checkInner, beq_self_eq_true, Res.require, if_true,
      (transpose_dims hx).1, hw', hwc, (transpose_dims hx).2, hf, productSize, if_pos c0, productRoom,
      Int.ofNat_lt]
    by_cases hlt : d.cols < d.rows
    · simp [hlt]
    · have : d.rows < d.cols := by omega
      simp [hlt, this]

end Product

/-! ### C93: sums with a transposed fixed-size matrix -/

section Sum
variable {s : State E} {x y z : Nat} {d e c : MObj}

/-- C93 is false: the sum `transpose(A)+B` of fixed-size matrices can be built if the dimensions agree, but
its compile-time dimensions are the maxima of the dimensions of `A` and `B`: it cannot be assigned to a
fixed-size matrix of its own dimensions unless they are square. -/
theorem transpose_sum_rejected {triv : Bool} (o : BinOp) (hx : s.mat x = some d) (hy : s.mat y = some e)
    (hz : s.mat z = some c) (hf : d.fixed = true) (hg : e.fixed = true) (hh : c.fixed = true)
    (hst : c.storage ≠ .allocated) (h1 : e.rows = d.cols ∧ e.cols = d.rows)
    (h2 : c.rows = d.cols ∧ c.cols = d.rows) (hne : d.rows ≠ d.cols) :
    (MExpr.bin o (.transpose (.var x)) (.var y) : MExpr E).build s
        = .ok (.bin o (.transpose (.var x)) (.var y)) ∧
      (MNode.bin o (.transpose (.var x)) (.var y) : MNode E).dims s
        = .ok ((d.cols : Int), (d.rows : Int)) ∧
      (MNode.bin o (.transpose (.var x)) (.var y) : MNode E).cdims s
        = .ok (((max d.rows d.cols : Nat) : Int), ((max d.rows d.cols : Nat) : Int)) ∧
      mstmtAssign triv s z (.bin o (.transpose (.var x)) (.var y)) = .throw .staticAssert s := by
  have hb : (MExpr.bin o (.transpose (.var x)) (.var y) : MExpr E).build s
      = .ok (.bin o (.transpose (.var x)) (.var y)) := by
    simp [MExpr.build, checkSameDims, MNode.fixed, MNode.chkDims, MNode.cdims, State.mobj, hx, hy, hf, hg,
      Res.require, h1.1, h1.2]
  have hcd : (MNode.bin o (.transpose (.var x)) (.var y) : MNode E).cdims s
      = .ok (((max d.rows d.cols : Nat) : Int), ((max d.rows d.cols : Nat) : Int)) := by
    simp only [MNode.cdims, MNode.sdims, State.mobj, hx, hy, hf, hg, Res.ok_bind, Res.pure_eq, if_true,
      h1.1, h1.2, Res.ok.injEq, Prod.mk.injEq]
    constructor <;> split <;> omega
  refine ⟨hb, by simp [MNode.dims, State.mobj, hx], hcd, ?_⟩
  have hchk : checkSameDims s (.var z) (MNode.bin o (.transpose (.var x)) (.var y) : MNode E)
      = .throw .staticAssert := by
    unfold checkSameDims
    have e1 : (MNode.var z : MNode E).cdims s = .ok ((d.cols : Int), (d.rows : Int)) := by
      simp [MNode.cdims, State.mobj, hz, hh, h2.1, h2.2]
    have e2 : (MNode.var z : MNode E).fixed s = .ok true := by simp [MNode.fixed, State.mobj, hz, hh]
    have e3 : (MNode.bin o (.transpose (.var x)) (.var y) : MNode E).fixed s = .ok true := by
      simp [MNode.fixed, State.mobj, hx, hy, hf, hg]
    have e4 : (((d.cols : Int), (d.rows : Int))
        == (((max d.rows d.cols : Nat) : Int), ((max d.rows d.cols : Nat) : Int))) = false := by
      rw [beq_eq_false_iff_ne]
      simp only [ne_eq, Prod.mk.injEq]
      omega
    simp only [e2, e3, Res.ok_bind, MNode.chkDims, Bool.and_self, if_true, e1, hcd, e4, Res.require]
    rfl
  simp only [mstmtAssign, hb, Out.withVal_ok, mAssign, mCheckOrResize, State.mobj, hz]
  cases hs : c.storage with
  | allocated => exact absurd hs hst
  | compiled => simp only [hchk]; rfl
  | external => simp only [hh, if_true, hchk]; rfl

/-- C93 for a dynamic destination (of a trivial element type): `C = transpose(A) + B` has the right value
also for fixed-size `A` and `B`.  Missing: fixed-size destinations (rejected, `transpose_sum_rejected`) and
products (`transpose_product_truncates`, `transpose_product_overruns`, `transpose_vector_ub`); square and
dynamic matrices are covered by C25 and C29. -/
theorem transpose_sum_dynamic_partial (o : BinOp) (hx : s.mat x = some d) (hy : s.mat y = some e)
    (hz : s.mat z = some c) (hst : c.storage = .allocated) (hoff : c.off = 0) (ho : c.Owned s.heap)
    (h1 : e.rows = d.cols ∧ e.cols = d.rows) {p q : Fin d.rows → Fin d.cols → E}
    (hp : MRep s (.var x) ⟨d.rows, d.cols, p⟩) (hq : MRep s (.var y) ⟨d.cols, d.rows, fun i j => q j i⟩)
    (hal : d.cols * d.rows ≠ c.rows * c.cols → s.heap.fail s.heap.tick = false)
    (hfr : s.heap.blk s.heap.next = none) (hxz : x ≠ z) (hyz : y ≠ z)
    (hdx : d.data = none ∨ d.data ≠ c.data) (hdy : e.data = none ∨ e.data ≠ c.data) :
    ∃ s', mstmtAssign true s z (.bin o (.transpose (.var x)) (.var y)) = .ok s' ∧
      MRep s' (.var z) ⟨d.cols, d.rows, fun i j => o.den (p j i) (q j i)⟩ := by
  have hb : (MExpr.bin o (.transpose (.var x)) (.var y) : MExpr E).build s
      = .ok (.bin o (.transpose (.var x)) (.var y)) := by
    have h2 : (MNode.var y : MNode E).dims s = .ok ((d.cols : Int), (d.rows : Int)) := hq.dims
    have h3 := checkSameDims_eq (typed_mat hx).transpose (typed_mat hy) (transpose_dims hx).1
      (MNode.var_dims hy)
    rw [if_pos (by rw [h1.1, h1.2])] at h3
    simp [MExpr.build, h3]
  have hr : MRep s (.bin o (.transpose (.var x)) (.var y))
      ⟨d.cols, d.rows, fun i j => o.den (p j i) (q j i)⟩ := by
    refine ⟨by rw [MNode.dims]; exact (transpose_dims hx).1, fun i j => ?_⟩
    have g1 := hp.get j i
    have g2 := hq.get i j
    simp only at g1 g2
    have g3 : (MNode.transpose (.var x) : MNode E).get s i j = .ok (p j i) := by
      rw [MNode.get]; exact g1
    rw [MNode.get, g3, g2]
    cases o <;> rfl
  obtain ⟨h', d', e1, e2, e3, e4, -⟩ := mAssign_resize_ok hz hst hoff ho hal hfr hr (by
    refine ⟨⟨hxz, fun w hw => ?_⟩, ⟨hyz, fun w hw => ?_⟩⟩
    · rw [hx] at hw; cases hw; exact hdx
    · rw [hy] at hw; cases hw; exact hdy)
  exact ⟨_, by simp only [mstmtAssign, hb, Out.withVal_ok]; exact e1, e4⟩

end Sum

section Examples

/-- Fixed-size matrices `m0` 2×3, `m1` 3×2, `m2` 2×2, `m3` 3×2, `m4` 3×3, `m5` 3×3, and a dynamic one `m6`;
vectors `v0` of size 2 and `v1` of size 3, `v2` dynamic of size 3, `v3` of size 1. -/
def exT : State ℤ :=
  demo [[some 1, some 2, some 3, some 4, some 5, some 6], [some 1, some 2, some 3, some 4, some 5, some 6],
      [some 1, some 1, some 0, some 1], [some 0, some 0, some 0, some 0, some 0, some 0],
      [some 0, some 0, some 0, some 0, some 0, some 0, some 0, some 0, some 0],
      [some 1, some 0, some 0, some 0, some 1, some 0, some 0, some 0, some 1],
      [some 7, some 8], [some 7, some 8, some 9], [some 1, some 2, some 3], [some 5]]
    [⟨.compiled, true, some 6, 0, 2⟩, ⟨.compiled, true, some 7, 0, 3⟩, ⟨.allocated, false, some 8, 0, 3⟩,
      ⟨.compiled, true, some 9, 0, 1⟩]
    [⟨.compiled, true, some 0, 0, 2, 3, false, false⟩, ⟨.compiled, true, some 1, 0, 3, 2, false, false⟩,
      ⟨.compiled, true, some 2, 0, 2, 2, false, false⟩, ⟨.compiled, true, some 3, 0, 3, 2, false, false⟩,
      ⟨.compiled, true, some 4, 0, 3, 3, false, false⟩, ⟨.compiled, true, some 5, 0, 3, 3, false, false⟩,
      ⟨.allocated, false, none, 0, 0, 0, false, false⟩]

theorem exT_m0 : MRep exT (.var 0) ⟨2, 3, ![![1, 2, 3], ![4, 5, 6]]⟩ :=
  ⟨rfl, fun i j => by fin_cases i <;> fin_cases j <;> rfl⟩
theorem exT_m1 : MRep exT (.var 1) ⟨3, 2, ![![1, 2], ![3, 4], ![5, 6]]⟩ :=
  ⟨rfl, fun i j => by fin_cases i <;> fin_cases j <;> rfl⟩
theorem exT_m2 : MRep exT (.var 2) ⟨2, 2, ![![1, 1], ![0, 1]]⟩ :=
  ⟨rfl, fun i j => by fin_cases i <;> fin_cases j <;> rfl⟩
theorem exT_m5 : MRep exT (.var 5) ⟨3, 3, ![![1, 0, 0], ![0, 1, 0], ![0, 0, 1]]⟩ :=
  ⟨rfl, fun i j => by fin_cases i <;> fin_cases j <;> rfl⟩

/-- `transpose(m0)*m2` should be 3×2 but is 2×2; the last row is missing. -/
example := transpose_product_truncates (s := exT) (x := 0) (y := 2) (d := ⟨.compiled, true, some 0, 0, 2, 3, false, false⟩)
  (e := ⟨.compiled, true, some 2, 0, 2, 2, false, false⟩) rfl rfl rfl rfl (by decide) (by decide) rfl (by decide)
  exT_m0 exT_m2
example : ∃ t, matMul exT (.transpose (.var 0)) (.var 2) = .ok t ∧ t.rows = 2 ∧ t.cols = 2 ∧
    t.elems = [1, 5, 2, 7] := ⟨_, rfl, rfl, rfl, rfl⟩

/-- `transpose(m1)*m5` reads element (0,2) of the 3×2 matrix `m1`. -/
example := transpose_product_overruns (s := exT) (x := 1) (y := 5) (d := ⟨.compiled, true, some 1, 0, 3, 2, false, false⟩)
  (e := ⟨.compiled, true, some 5, 0, 3, 3, false, false⟩) rfl rfl rfl rfl (by decide) (by decide) rfl (by decide)
  exT_m1 exT_m5

example := transpose_vector_ub (s := exT) (x := 0) (d := ⟨.compiled, true, some 0, 0, 2, 3, false, false⟩)
  (v := .var 0) (w := .var 1) rfl rfl (by decide) (by decide) (by decide)
  (typed_vec (d := ⟨.compiled, true, some 6, 0, 2⟩) rfl) rfl
  (typed_vec (d := ⟨.compiled, true, some 7, 0, 3⟩) rfl) rfl

example := transpose_sum_rejected (s := exT) (x := 0) (y := 1) (z := 3) (triv := true) .plus
  (d := ⟨.compiled, true, some 0, 0, 2, 3, false, false⟩) (e := ⟨.compiled, true, some 1, 0, 3, 2, false, false⟩)
  (c := ⟨.compiled, true, some 3, 0, 3, 2, false, false⟩) rfl rfl rfl rfl rfl rfl (by decide) ⟨rfl, rfl⟩
  ⟨rfl, rfl⟩ (by decide)

/-- C93 is false: `m4 = transpose(m0) + m1` (3×3 from 3×2) is accepted and reads behind the end of `m0`. -/
theorem transpose_sum_overruns :
    mstmtAssign true exT 4 (.bin .plus (.transpose (.var 0)) (.var 1)) = .ub .oob := rfl

example : ∃ s', mstmtAssign true exT 6 (.bin .plus (.transpose (.var 0)) (.var 1)) = .ok s' ∧
    (MNode.var 6 : MNode ℤ).get s' 2 0 = .ok 8 := ⟨_, rfl, rfl⟩
example := transpose_sum_dynamic_partial (s := exT) (x := 0) (y := 1) (z := 6) .plus
  (d := ⟨.compiled, true, some 0, 0, 2, 3, false, false⟩) (e := ⟨.compiled, true, some 1, 0, 3, 2, false, false⟩)
  (c := ⟨.allocated, false, none, 0, 0, 0, false, false⟩) (q := ![![1, 3, 5], ![2, 4, 6]]) rfl rfl rfl rfl rfl
  (by exact Or.inl ⟨rfl, rfl⟩) ⟨rfl, rfl⟩ exT_m0
  ⟨rfl, fun i j => by fin_cases i <;> fin_cases j <;> rfl⟩ (fun _ => rfl) rfl (by decide) (by decide)
  (by decide) (by decide)

end Examples

/-- C93: negation of the unrestricted claim about products. -/
theorem transpose_product_false :
    ¬ ∀ (s : State ℤ) (ρ : Env ℤ) (x y : Nat) (p : MVal ℤ), Agree s ρ →
      (MExpr.mul (.transpose (.var x)) (.var y) : MExpr ℤ).den ρ = some p →
      ∃ n, (MExpr.mul (.transpose (.var x)) (.var y) : MExpr ℤ).build s = .ok n ∧ MRep s n p := by
  intro h
  let ρ : Env ℤ := ⟨fun _ => none, fun x => match x with
    | 0 => some ⟨2, 3, ![![1, 2, 3], ![4, 5, 6]]⟩
    | 2 => some ⟨2, 2, ![![1, 1], ![0, 1]]⟩
    | _ => none⟩
  have hA : Agree exT ρ := by
    refine ⟨fun x p h => by simp [ρ] at h, fun x p h => ?_⟩
    match x, h with
    | 0, h => simp only [ρ, Option.some.injEq] at h; subst h; exact exT_m0
    | 1, h => simp [ρ] at h
    | 2, h => simp only [ρ, Option.some.injEq] at h; subst h; exact exT_m2
    | n + 3, h => simp [ρ] at h
  obtain ⟨n, h1, h2⟩ := h exT ρ 0 2 _ hA rfl
  have hn : n = .temp ⟨true, 2, 2, [1, 5, 2, 7]⟩ := by
    have : (MExpr.mul (.transpose (.var 0)) (.var 2) : MExpr ℤ).build exT
        = .ok (.temp ⟨true, 2, 2, [1, 5, 2, 7]⟩) := rfl
    rw [this] at h1
    cases h1
    rfl
  subst hn
  have := h2.dims
  simp [MNode.dims] at this

/-! ### C94: outer products of a fixed-size and a dynamic vector -/

section Outer
variable {s : State E} {x y z : Nat} {a b : VObj} {c : MObj}

/-- C94 is false: the outer product of a fixed-size and a dynamic vector has the fixed-size tag but the
constant -1 as one dimension; it cannot be assigned to a fixed-size matrix of its dimensions. -/
theorem outer_mixed_rejected {triv : Bool} (hx : s.vec x = some a) (hy : s.vec y = some b)
    (hz : s.mat z = some c) (hab : a.fixed ≠ b.fixed) (hc : c.fixed = true) (hst : c.storage ≠ .allocated) :
    (MNode.outer (.var x) (.var y) : MNode E).fixed s = .ok true ∧
      (MNode.outer (.var x) (.var y) : MNode E).dims s = .ok ((a.size : Int), (b.size : Int)) ∧
      (MNode.outer (.var x) (.var y) : MNode E).cdims s
        = .ok (if a.fixed then ((a.size : Int), -1) else (-1, (b.size : Int))) ∧
      mstmtAssign triv s z (.outer (.var x) (.var y)) = .throw .staticAssert s := by
  have e3 : (MNode.outer (.var x) (.var y) : MNode E).fixed s = .ok true := by
    simp only [MNode.fixed, VNode.fixed, State.vobj, hx, hy, Res.ok_bind, Res.pure_eq]
    cases h1 : a.fixed <;> cases h2 : b.fixed <;> simp_all
  have hcd : (MNode.outer (.var x) (.var y) : MNode E).cdims s
        = .ok (if a.fixed then ((a.size : Int), -1) else (-1, (b.size : Int))) := by
    simp only [MNode.cdims, VNode.csize, State.vobj, hx, hy, Res.ok_bind, Res.pure_eq]
    cases h1 : a.fixed <;> cases h2 : b.fixed <;> simp_all
  refine ⟨e3, by simp [MNode.dims, VNode.size, State.vobj, hx, hy], hcd, ?_⟩
  have hchk : checkSameDims s (.var z) (MNode.outer (.var x) (.var y) : MNode E)
      = .throw .staticAssert := by
    unfold checkSameDims
    have e1 : (MNode.var z : MNode E).cdims s = .ok ((c.rows : Int), (c.cols : Int)) := by
      simp [MNode.cdims, State.mobj, hz, hc]
    have e2 : (MNode.var z : MNode E).fixed s = .ok true := by simp [MNode.fixed, State.mobj, hz, hc]
    have e4 : (((c.rows : Int), (c.cols : Int))
        == (if a.fixed then ((a.size : Int), -1) else (-1, (b.size : Int)))) = false := by
      rw [beq_eq_false_iff_ne]
      split <;> simp only [ne_eq, Prod.mk.injEq] <;> omega
    simp only [e2, e3, Res.ok_bind, MNode.chkDims, Bool.and_self, if_true, e1, hcd, e4, Res.require]
    rfl
  simp only [mstmtAssign, MExpr.build, VExpr.build, Res.pure_eq, Res.ok_bind, Out.withVal_ok, mAssign,
    mCheckOrResize, State.mobj, hz]
  cases hs : c.storage with
  | allocated => exact absurd hs hst
  | compiled => simp only [hchk]; rfl
  | external => simp only [hc, if_true, hchk]; rfl

/-- C94: what is true is that the outer product of any two named vectors is stored correctly in a dynamic
matrix.  Missing: fixed-size destinations for mixed operands (`outer_mixed_rejected`); operands of the same
kind are covered by C25. -/
theorem outer_mixed_dynamic_partial (hz : s.mat z = some c) (hst : c.storage = .allocated) (hoff : c.off = 0)
    (ho : c.Owned s.heap) {p q : VVal E} (hp : VRep s (.var x) p) (hq : VRep s (.var y) q)
    (hal : p.n * q.n ≠ c.rows * c.cols → s.heap.fail s.heap.tick = false)
    (hfr : s.heap.blk s.heap.next = none)
    (hd : ∀ w, s.vec x = some w ∨ s.vec y = some w → w.data = none ∨ w.data ≠ c.data) :
    ∃ s', mstmtAssign true s z (.outer (.var x) (.var y)) = .ok s' ∧
      MRep s' (.var z) ⟨p.n, q.n, fun i j => p.f i * q.f j⟩ := by
  have hr : MRep s (.outer (.var x) (.var y)) ⟨p.n, q.n, fun i j => p.f i * q.f j⟩ := by
    refine ⟨by rw [MNode.dims, hp.size, hq.size]; rfl, fun i j => ?_⟩
    rw [MNode.get, hp.get i, hq.get j]
    rfl
  obtain ⟨h', d', e1, e2, e3, e4, -⟩ := mAssign_resize_ok hz hst hoff ho hal hfr hr
    ⟨fun w hw => hd w (.inl hw), fun w hw => hd w (.inr hw)⟩
  exact ⟨_, by simp only [mstmtAssign, MExpr.build, VExpr.build, Res.pure_eq, Res.ok_bind,
    Out.withVal_ok]; exact e1, e4⟩

example := outer_mixed_rejected (s := exT) (x := 1) (y := 2) (z := 4) (triv := true)
  (a := ⟨.compiled, true, some 7, 0, 3⟩) (b := ⟨.allocated, false, some 8, 0, 3⟩)
  (c := ⟨.compiled, true, some 4, 0, 3, 3, false, false⟩) rfl rfl rfl (by decide) rfl (by decide)
example : ∃ s', mstmtAssign true exT 6 (.outer (.var 1) (.var 2)) = .ok s' ∧
    (MNode.var 6 : MNode ℤ).get s' 2 1 = .ok 18 := ⟨_, rfl, rfl⟩
example := outer_mixed_dynamic_partial (s := exT) (x := 1) (y := 2) (z := 6)
  (c := ⟨.allocated, false, none, 0, 0, 0, false, false⟩) (p := ⟨3, ![7, 8, 9]⟩) (q := ⟨3, ![1, 2, 3]⟩) rfl rfl rfl
  (by exact Or.inl ⟨rfl, rfl⟩) ⟨rfl, fun i => by fin_cases i <;> rfl⟩ ⟨rfl, fun i => by fin_cases i <;> rfl⟩
  (fun _ => rfl) rfl (by rintro w (⟨⟨⟩⟩ | ⟨⟨⟩⟩) <;> simp)

end Outer

/-! ### C80: the exceptions -/

/-- C80 is false: the subvector of a vector with compiled storage of size 1 has the fixed-size tag, but its
constant is -1 while its size is 0. -/
theorem subvector_size_one {s : State E} {x : Nat} {d : VObj} (hx : s.vec x = some d)
    (hst : d.storage = .compiled) (hf : d.fixed = true) (h1 : d.size = 1) (k : Int) :
    (VExpr.sub (.var x) k : VExpr E).build s = .ok (.sub (.var x) k) ∧
      (VNode.sub (.var x) k : VNode E).fixed s = .ok true ∧
      (VNode.sub (.var x) k : VNode E).size s = .ok 0 ∧
      (VNode.sub (.var x) k : VNode E).csize s = .ok (-1) := by
  simp [VExpr.build, VNode.fixed, VNode.compiled, VNode.csize, VNode.size, State.vobj, hx, hst, hf, h1]

example := subvector_size_one (s := exT) (x := 3) (d := ⟨.compiled, true, some 9, 0, 1⟩) rfl rfl rfl rfl 0

/-- C80: negation of the unrestricted claims for vectors and for matrices. -/
theorem static_size_false :
    (¬ ∀ (s : State ℤ) (e : VExpr ℤ) (x : VNode ℤ) (f : Bool) (n : Int), e.build s = .ok x →
      x.fixed s = .ok f → x.size s = .ok n → x.csize s = .ok (if f then n else -1)) ∧
    (¬ ∀ (s : State ℤ) (e : MExpr ℤ) (x : MNode ℤ) (f : Bool) (d : Int × Int), e.build s = .ok x →
      x.fixed s = .ok f → x.dims s = .ok d → x.cdims s = .ok (if f then d else (-1, -1))) := by
  constructor
  · intro h
    have := h exT (.sub (.var 3) 0) _ true 0 rfl rfl rfl
    rw [(subvector_size_one (s := exT) (x := 3) (d := ⟨.compiled, true, some 9, 0, 1⟩) rfl rfl rfl rfl 0).2.2.2]
      at this
    simp at this
  · intro h
    have := h exT (.outer (.var 1) (.var 2)) _ true (3, 3) rfl rfl rfl
    rw [(outer_mixed_rejected (s := exT) (x := 1) (y := 2) (z := 4) (triv := true)
      (a := ⟨.compiled, true, some 7, 0, 3⟩) (b := ⟨.allocated, false, some 8, 0, 3⟩)
      (c := ⟨.compiled, true, some 4, 0, 3, 3, false, false⟩) rfl rfl rfl (by decide) rfl (by decide)).2.2.1] at this
    simp at this

#print axioms transpose_product_truncates
#print axioms transpose_product_overruns
#print axioms transpose_vector_ub
#print axioms transpose_sum_rejected
#print axioms transpose_sum_dynamic_partial
#print axioms transpose_sum_overruns
#print axioms transpose_product_false
#print axioms outer_mixed_rejected
#print axioms outer_mixed_dynamic_partial
#print axioms subvector_size_one
#print axioms static_size_false

end CML
