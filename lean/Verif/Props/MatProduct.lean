import Mathlib.Data.Matrix.Mul
import Mathlib.LinearAlgebra.Matrix.Trace
import Verif.Lemmas.VecRead
import Verif.Lemmas.ExprBuild
import Verif.Spec.Value
import Verif.Props.MatAssign

/-!
C29 (products), C30 (inner dimension zero), C32 (trace).
-/

set_option linter.unusedSectionVars false

namespace CML

/-! ### C29: products are the algebraic products -/

section Product
variable {E : Type} [CommSemiring E] [Sub E] [Div E] [Neg E] {s : State E}

/-- The matrix object has the dimensions and elements of the mathematical matrix `A`; its compile-time
dimensions, if it has them, are those of `A`. -/
structure MMat {E : Type} [Add E] [Sub E] [Mul E] [Div E] [Neg E] (s : State E) (a : MNode E) {r c : Nat}
    (A : Matrix (Fin r) (Fin c) E) : Prop where
  rep : MRep s a ⟨r, c, fun i j => A i j⟩
  known : ∃ f, a.Typed s f ((r : Int), (c : Int))

/-- C29: the product of matrix expressions is a temporary holding the algebraic product.  (The storage types
of the operands have to have the right dimensions, see C93 for transposes for which they have not.) -/
theorem matMul_product {a b : MNode E} {l m n : Nat} (hm : 0 < m) {A : Matrix (Fin l) (Fin m) E}
    {B : Matrix (Fin m) (Fin n) E} (ha : MMat s a A) (hb : MMat s b B) (sa : a.Straight s)
    (sb : b.Straight s) :
    ∃ t, matMul s a b = .ok t ∧ MMat s (.temp t) (A * B) ∧ (MNode.temp t).Straight s := by
  obtain ⟨f, hf⟩ := ha.known
  obtain ⟨g, hg⟩ := hb.known
  obtain ⟨e, e1, -, e3⟩ := matMul_ok ha.rep hb.rep hf hg sa sb ⟨rfl, hm⟩
  refine ⟨_, e1, ⟨⟨rfl, fun i j => ?_⟩, _, MNode.Typed.temp⟩, fun h => ?_⟩
  · have := MTemp.get_eq (t := ⟨f && g, l, n, e⟩) i.2 j.2 (e3 i j)
    rw [MNode.get, this, dotLeft_eq_sum]
    show _ = Res.ok ((A * B) i j)
    rw [Matrix.mul_apply]
    rfl
  · have h' : f = true ∧ g = true := by simpa [MNode.fixed] using h
    obtain ⟨rfl, rfl⟩ := h'
    exact ⟨_, rfl, rfl, ((hf.straight ha.rep.dims sa).2 rfl).1, ((hg.straight hb.rep.dims sb).2 rfl).2⟩

/-- C29: matrix times (column) vector. -/
theorem matVec_product {a : MNode E} {v : VNode E} {l m : Nat} (hm : 0 < m)
    {A : Matrix (Fin l) (Fin m) E} {p : Fin m → E} (ha : MMat s a A) (hv : VIs s v m p)
    (sa : a.Straight s) :
    ∃ f, matVec s a v = .ok (f, List.ofFn (A.mulVec p)) := by
  obtain ⟨f, hf⟩ := ha.known
  obtain ⟨g, hg⟩ := hv.known
  refine ⟨f, ?_⟩
  rw [matVec_ok ha.rep hv.rep hf hg sa ⟨rfl, hm⟩]
  congr 3
  funext i
  rw [dotLeft_eq_sum]
  rfl

/-- C29: (row) vector times matrix. -/
theorem vecMat_product {v : VNode E} {b : MNode E} {m n : Nat} (hm : 0 < m)
    {p : Fin m → E} {B : Matrix (Fin m) (Fin n) E} (hv : VIs s v m p) (hb : MMat s b B)
    (sb : b.Straight s) :
    ∃ f, vecMat s v b = .ok (f, List.ofFn (Matrix.vecMul p B)) := by
  obtain ⟨f, hf⟩ := hv.known
  obtain ⟨g, hg⟩ := hb.known
  refine ⟨g, ?_⟩
  rw [vecMat_ok hv.rep hb.rep hf hg sb ⟨rfl, hm⟩]
  congr 3
  funext i
  rw [dotLeft_eq_sum]
  rfl

/-- C29: for operands with a positive inner dimension, products are defined exactly when the inner sizes
agree; otherwise they throw the size error (or do not compile) and nothing else happens. -/
theorem product_size_error {a b : MNode E} {v : VNode E} {l m m' n k : Nat}
    {A : Matrix (Fin l) (Fin m) E} {B : Matrix (Fin m') (Fin n) E} {p : Fin k → E}
    (ha : MMat s a A) (hb : MMat s b B) (hv : VIs s v k p) :
    (m ≠ m' → matMul s a b = .throw .staticAssert ∨ matMul s a b = .throw .matIncompatible) ∧
    (m ≠ k → matVec s a v = .throw .staticAssert ∨ matVec s a v = .throw .matIncompatible) ∧
    (k ≠ m' → vecMat s v b = .throw .staticAssert ∨ vecMat s v b = .throw .matIncompatible) := by
  obtain ⟨f, hf⟩ := ha.known
  obtain ⟨g, hg⟩ := hb.known
  obtain ⟨e, he⟩ := hv.known
  refine ⟨fun h => ?_, fun h => ?_, fun h => ?_⟩
  · rw [matMul_throw ha.rep hb.rep hf hg h]; cases f && g <;> simp
  · rw [matVec_throw ha.rep hv.rep hf he h]; cases f && e <;> simp
  · rw [vecMat_throw hv.rep hb.rep he hg h]; cases e && g <;> simp

/-- Two matrix objects have the same dimensions and elements. -/
def MSame (s : State E) (a b : MNode E) : Prop :=
  ∃ (r c : Nat) (A : Matrix (Fin r) (Fin c) E), MMat s a A ∧ MMat s b A

private theorem mis_bin {a b : MNode E} {r c : Nat} {A B : Matrix (Fin r) (Fin c) E}
    (ha : MMat s a A) (hb : MMat s b B) (sa : a.Straight s) (sb : b.Straight s) :
    MMat s (.bin .plus a b) (A + B) ∧ (MNode.bin .plus a b).Straight s := by
  obtain ⟨f, hf⟩ := ha.known
  obtain ⟨g, hg⟩ := hb.known
  obtain ⟨da, pa⟩ := hf.straight ha.rep.dims sa
  obtain ⟨db, pb⟩ := hg.straight hb.rep.dims sb
  obtain ⟨h1, h2⟩ := hf.bin .plus hg da db (fun _ => by omega)
  have hd : (MNode.bin .plus a b).dims s = .ok ((r : Int), (c : Int)) := by
    rw [MNode.dims]; exact ha.rep.dims
  refine ⟨⟨⟨hd, fun i j => ?_⟩, f || g, h1⟩, fun h => ?_⟩
  · rw [MNode.get, ha.rep.get, hb.rep.get]; rfl
  · rw [h1.fixed, Res.ok.injEq] at h
    refine ⟨_, hd, by rw [h2, h]; rfl, ?_⟩
    rcases Bool.or_eq_true _ _ |>.mp h with h | h
    · exact pa h
    · exact pb h

private theorem mis_transpose {a : MNode E} {r c : Nat} {A : Matrix (Fin r) (Fin c) E}
    (ha : MMat s a A) : MMat s (.transpose a) A.transpose := by
  obtain ⟨f, hf⟩ := ha.known
  refine ⟨⟨?_, fun i j => ?_⟩, f, hf.transpose⟩
  · rw [MNode.dims, ha.rep.dims]; rfl
  · rw [MNode.get]; exact ha.rep.get j i

private theorem mis_scal {a : MNode E} {r c : Nat} {A : Matrix (Fin r) (Fin c) E}
    (ha : MMat s a A) (k : E) : MMat s (.scal .mul a k) (A * Matrix.diagonal fun _ => k) := by
  obtain ⟨f, hf⟩ := ha.known
  refine ⟨⟨?_, fun i j => ?_⟩, f, hf.scal _ _⟩
  · rw [MNode.dims]; exact ha.rep.dims
  · rw [MNode.get, ha.rep.get]
    show Res.ok (A i j * k) = Res.ok ((A * (Matrix.diagonal fun _ => k : Matrix (Fin c) (Fin c) E)) i j)
    rw [Matrix.mul_diagonal]

/-- C29: `(A*B)*C` and `A*(B*C)` have the same elements. -/
theorem product_assoc {a b c : MNode E} {k l m n : Nat} (hl : 0 < l) (hm : 0 < m)
    {A : Matrix (Fin k) (Fin l) E} {B : Matrix (Fin l) (Fin m) E} {C : Matrix (Fin m) (Fin n) E}
    (ha : MMat s a A) (hb : MMat s b B) (hc : MMat s c C) (sa : a.Straight s) (sb : b.Straight s)
    (sc : c.Straight s) :
    ∃ ab bc x y, matMul s a b = .ok ab ∧ matMul s (.temp ab) c = .ok x ∧ matMul s b c = .ok bc ∧
      matMul s a (.temp bc) = .ok y ∧ MSame s (.temp x) (.temp y) := by
  obtain ⟨ab, e1, h1, s1⟩ := matMul_product hl ha hb sa sb
  obtain ⟨x, e2, h2, -⟩ := matMul_product hm h1 hc s1 sc
  obtain ⟨bc, e3, h3, s3⟩ := matMul_product hm hb hc sb sc
  obtain ⟨y, e4, h4, -⟩ := matMul_product hl ha h3 sa s3
  exact ⟨ab, bc, x, y, e1, e2, e3, e4, _, _, _, h2, by rw [Matrix.mul_assoc]; exact h4⟩

/-- C29: `A*(B+C) = A*B + A*C` and `(B+C)*D = B*D + C*D`. -/
theorem product_distrib {a b c d : MNode E} {k l m n : Nat} (hl : 0 < l) (hm : 0 < m)
    {A : Matrix (Fin k) (Fin l) E} {B C : Matrix (Fin l) (Fin m) E} {D : Matrix (Fin m) (Fin n) E}
    (ha : MMat s a A) (hb : MMat s b B) (hc : MMat s c C) (hd : MMat s d D)
    (sa : a.Straight s) (sb : b.Straight s) (sc : c.Straight s) (sd : d.Straight s) :
    (∃ x y z, matMul s a (.bin .plus b c) = .ok x ∧ matMul s a b = .ok y ∧ matMul s a c = .ok z ∧
      MSame s (.temp x) (.bin .plus (.temp y) (.temp z))) ∧
    (∃ x y z, matMul s (.bin .plus b c) d = .ok x ∧ matMul s b d = .ok y ∧ matMul s c d = .ok z ∧
      MSame s (.temp x) (.bin .plus (.temp y) (.temp z))) := by
  obtain ⟨hbc, sbc⟩ := mis_bin hb hc sb sc
  constructor
  · obtain ⟨x, e1, h1, -⟩ := matMul_product hl ha hbc sa sbc
    obtain ⟨y, e2, h2, s2⟩ := matMul_product hl ha hb sa sb
    obtain ⟨z, e3, h3, s3⟩ := matMul_product hl ha hc sa sc
    exact ⟨x, y, z, e1, e2, e3, _, _, _, h1, by rw [Matrix.mul_add]; exact (mis_bin h2 h3 s2 s3).1⟩
  · obtain ⟨x, e1, h1, -⟩ := matMul_product hm hbc hd sbc sd
    obtain ⟨y, e2, h2, s2⟩ := matMul_product hm hb hd sb sd
    obtain ⟨z, e3, h3, s3⟩ := matMul_product hm hc hd sc sd
    exact ⟨x, y, z, e1, e2, e3, _, _, _, h1, by rw [Matrix.add_mul]; exact (mis_bin h2 h3 s2 s3).1⟩

/-- C29: multiplying by a matrix whose elements are those `identity()` stores changes nothing. -/
theorem product_identity {a e e' : MNode E} {m n : Nat} (hm : 0 < m) (hn : 0 < n)
    {A : Matrix (Fin m) (Fin n) E} (ha : MMat s a A)
    (he : MMat s e (Matrix.of fun (i j : Fin m) => if i = j then 1 else 0))
    (he' : MMat s e' (Matrix.of fun (i j : Fin n) => if i = j then 1 else 0))
    (sa : a.Straight s) (se : e.Straight s) (se' : e'.Straight s) :
    (∃ x, matMul s e a = .ok x ∧ MSame s (.temp x) a) ∧
    (∃ x, matMul s a e' = .ok x ∧ MSame s (.temp x) a) := by
  have h1 : ∀ k, (Matrix.of fun (i j : Fin k) => if i = j then 1 else 0 : Matrix (Fin k) (Fin k) E) = 1 := by
    intro k; ext i j; rw [Matrix.one_apply]; rfl
  rw [h1] at he he'
  constructor
  · obtain ⟨x, e1, q, -⟩ := matMul_product hm he ha se sa
    rw [Matrix.one_mul] at q
    exact ⟨x, e1, _, _, _, q, ha⟩
  · obtain ⟨x, e1, q, -⟩ := matMul_product hn ha he' sa se'
    rw [Matrix.mul_one] at q
    exact ⟨x, e1, _, _, _, q, ha⟩

/-- C29: `transpose(A*B)` and `transpose(B)*transpose(A)` have the same elements, if the storage types of
the transposes have the right dimensions (square or dynamic operands). -/
theorem product_transpose {a b : MNode E} {l m n : Nat} (hm : 0 < m) {A : Matrix (Fin l) (Fin m) E}
    {B : Matrix (Fin m) (Fin n) E} (ha : MMat s a A) (hb : MMat s b B)
    (sa : a.Straight s) (sb : b.Straight s) (ta : (MNode.transpose a).Straight s)
    (tb : (MNode.transpose b).Straight s) :
    ∃ x y, matMul s a b = .ok x ∧ matMul s (.transpose b) (.transpose a) = .ok y ∧
      MSame s (.transpose (.temp x)) (.temp y) := by
  obtain ⟨x, e1, h1, -⟩ := matMul_product hm ha hb sa sb
  obtain ⟨y, e2, h2, -⟩ := matMul_product hm (mis_transpose hb) (mis_transpose ha) tb ta
  exact ⟨x, y, e1, e2, _, _, _, mis_transpose h1, by rw [Matrix.transpose_mul]; exact h2⟩

/-- C29: matrix-vector products are compatible with products: `(A*B)*v = A*(B*v)` and
`v*(A*B) = (v*A)*B`. -/
theorem product_vector {a b : MNode E} {v w : VNode E} {l m n : Nat} (hl : 0 < l) (hm : 0 < m) (hn : 0 < n)
    {A : Matrix (Fin l) (Fin m) E} {B : Matrix (Fin m) (Fin n) E} {p : Fin n → E} {q : Fin l → E}
    (ha : MMat s a A) (hb : MMat s b B) (hv : VIs s v n p) (hw : VIs s w l q)
    (sa : a.Straight s) (sb : b.Straight s) :
    ∃ ab f1 f2 f3 f4 f5 f6 bv abv wa wab, matMul s a b = .ok ab ∧
      matVec s b v = .ok (f1, bv) ∧ matVec s a (.temp f1 bv) = .ok (f2, abv) ∧
      matVec s (.temp ab) v = .ok (f3, abv) ∧
      vecMat s w a = .ok (f4, wa) ∧ vecMat s (.temp f4 wa) b = .ok (f5, wab) ∧
      vecMat s w (.temp ab) = .ok (f6, wab) := by
  have temp : ∀ (f : Bool) (k : Nat) (r : Fin k → E), VIs s (.temp f (List.ofFn r)) k r := by
    intro f k r
    refine ⟨⟨?_, fun i => ?_⟩, f, VNode.Typed.temp (by simp)⟩
    · rw [VNode.size]; simp
    · rw [VNode.get]; simp
  obtain ⟨ab, e1, h1, s1⟩ := matMul_product hm ha hb sa sb
  obtain ⟨f1, e2⟩ := matVec_product hn hb hv sb
  obtain ⟨f2, e3⟩ := matVec_product hm ha (temp f1 _ (B.mulVec p)) sa
  obtain ⟨f3, e4⟩ := matVec_product hn h1 hv s1
  obtain ⟨f4, e5⟩ := vecMat_product hl hw ha sa
  obtain ⟨f5, e6⟩ := vecMat_product hm (temp f4 _ (Matrix.vecMul q A)) hb sb
  obtain ⟨f6, e7⟩ := vecMat_product hl hw h1 s1
  refine ⟨ab, f1, f2, f3, f4, f5, f6, _, _, _, _, e1, e2, e3, ?_, e5, e6, ?_⟩
  · rw [e4, Matrix.mulVec_mulVec]
  · rw [e7, Matrix.vecMul_vecMul]

/-- C29: `v*A` and `transpose(A)*v` have the same elements, and so have `A*v` and `v*transpose(A)`, if the
storage type of the transpose has the right dimensions (square or dynamic `A`). -/
theorem product_vector_transpose {a : MNode E} {v w : VNode E} {l m : Nat} (hl : 0 < l) (hm : 0 < m)
    {A : Matrix (Fin l) (Fin m) E} {p : Fin m → E} {q : Fin l → E}
    (ha : MMat s a A) (hv : VIs s v m p) (hw : VIs s w l q)
    (sa : a.Straight s) (ta : (MNode.transpose a).Straight s) :
    ∃ f g f' g' wa av, vecMat s w a = .ok (f, wa) ∧ matVec s (.transpose a) w = .ok (g, wa) ∧
      matVec s a v = .ok (f', av) ∧ vecMat s v (.transpose a) = .ok (g', av) := by
  obtain ⟨f, e1⟩ := vecMat_product hl hw ha sa
  obtain ⟨g, e2⟩ := matVec_product hl (mis_transpose ha) hw ta
  obtain ⟨f', e3⟩ := matVec_product hm ha hv sa
  obtain ⟨g', e4⟩ := vecMat_product hm hv (mis_transpose ha) ta
  refine ⟨f, g, f', g', _, _, e1, ?_, e3, ?_⟩
  · rw [e2, Matrix.mulVec_transpose]
  · rw [e4, Matrix.vecMul_transpose]

/-- C29: assigning the product to its left operand is safe: `M = M * N` for square `N` leaves the algebraic
product in `M`. -/
theorem product_self_assign {triv : Bool} {s : State E} {ρ : Env E} (hA : Agree s ρ) {x y : Nat}
    {d : MObj} (hx : s.mat x = some d) (hc : 0 < d.cols)
    (A : Matrix (Fin d.rows) (Fin d.cols) E) (B : Matrix (Fin d.cols) (Fin d.cols) E)
    (ha : ρ.m x = some ⟨d.rows, d.cols, fun i j => A i j⟩) (hb : ρ.m y = some ⟨d.cols, d.cols, fun i j => B i j⟩)
    (hw : d.flat.Ready triv s.heap) (hr : 0 < d.rows) :
    ∃ h', mstmtAssign triv s x (.mul (.var x) (.var y)) = .ok { s with heap := h' } ∧
      MRep { s with heap := h' } (.var x) ⟨d.rows, d.cols, fun i j => (A * B) i j⟩ ∧ SameOutside d.flat s.heap h' := by
  refine massign_product hA hx (.var x) (.var y) (by simp [MExpr.Regular]) (by simp [MExpr.Regular])
    (fun m h _ => ?_) (fun m h _ => ?_) _ ?_ hw
  · rw [hx, Option.some.injEq] at h
    subst h
    exact ⟨hr, hc⟩
  · have := (mrep_dims h (hA.m y _ hb))
    simp only at this
    omega
  simp only [MExpr.den, ha, hb]
  rw [dif_pos ⟨trivial, hc⟩]
  congr 2
  funext i j
  rw [dotLeft_eq_sum, Matrix.mul_apply]
  rfl

end Product

example : MIs exM (.var 0) 2 2 ![![1, 2], ![3, 4]] := ⟨exM_agree.m 0 _ rfl, typed_var_m rfl⟩
example : (MNode.var 0 : MNode ℤ).Straight exM ∧ (MNode.transpose (.var 0) : MNode ℤ).Straight exM ∧
    (MNode.transpose (.var 2) : MNode ℤ).Straight exM :=
  ⟨fun _ => ⟨(2, 2), rfl, rfl, by decide⟩, fun _ => ⟨(2, 2), rfl, rfl, by decide⟩, by rintro ⟨⟩⟩
example : ∃ t, matMul exM (.var 0) (.var 2) = .ok t ∧ t.elems = [9, 12, 15, 19, 26, 33] := ⟨_, rfl, rfl⟩
example : ∃ s', mstmtAssign true exM 0 (.mul (.var 0) (.var 1)) = .ok s' ∧
    (MNode.var 0 : MNode ℤ).get s' 1 0 = .ok 43 := ⟨_, rfl, rfl⟩

/-! ### C30: inner dimension zero -/

section Inner
variable {E : Type} [Add E] [Sub E] [Mul E] [Div E] [Neg E]

/-- C30, what really happens for named matrices `m × 0` and `0 × n`: if the result has elements, reading
element `(0,0)` of the operands is undefined behaviour. -/
theorem product_inner_zero_ub {s : State E} {x y : Nat} {d e : MObj} (hx : s.mat x = some d)
    (hy : s.mat y = some e) (hd : d.cols = 0) (he : e.rows = 0) (hr : 0 < d.rows) (hc : 0 < e.cols) :
    ∃ u, matMul s (.var x) (.var y) = .ub u := by
  have hg : ∃ u, ∀ i j, d.get s.heap i j = .ub u := by
    unfold MObj.get
    cases d.data with
    | none => exact ⟨_, fun _ _ => rfl⟩
    | some b => exact ⟨_, fun i j => if_neg (by omega)⟩
  obtain ⟨u, hu⟩ := hg
  refine ⟨u, ?_⟩
  unfold matMul
  obtain ⟨r, hr⟩ : ∃ r, d.rows = r + 1 := ⟨d.rows - 1, by omega⟩
  obtain ⟨c, hc⟩ : ∃ c, e.cols = c + 1 := ⟨e.cols - 1, by omega⟩
  have h0 : ((0 : Int) == (0 : Int)) = true := rfl
  have p1 : 0 < (r : Int) + 1 := by omega
  have p2 : 0 < (c : Int) + 1 := by omega
  cases hf : d.fixed <;> cases hg : e.fixed <;>
    simp [MNode.fixed, MNode.chkDims, MNode.cdims, MNode.sdims, MNode.dims, State.mobj, hx, hy, checkInner,
      hd, he, Res.require, hr, hc, hf, hg, productDims, Res.loop, innerLoop, MNode.get, hu, p1, p2] <;>
    rfl

/-- C30 when the result has no elements (`m = 0` or `n = 0`).  Missing: results with elements, which are
undefined behaviour (`product_inner_zero_ub`).  (One operand is dynamic: fixed-size matrices cannot have
the dimension 0.) -/
theorem product_inner_zero_partial {s : State E} {a b : MNode E} {m n : Nat} (hmn : m = 0 ∨ n = 0)
    {A : Fin m → Fin 0 → E} {B : Fin 0 → Fin n → E} (ha : MIs s a m 0 A) (hb : MIs s b 0 n B)
    (hd : a.fixed s = .ok false ∨ b.fixed s = .ok false) :
    ∃ t, matMul s a b = .ok t ∧ t.rows = m ∧ t.cols = n ∧ t.elems = [] := by
  obtain ⟨f, hf⟩ := ha.known
  obtain ⟨g, hg⟩ := hb.known
  refine ⟨⟨f && g, m, n, []⟩, ?_, rfl, rfl, rfl⟩
  unfold matMul
  have key : ∀ (body : Nat → Nat → Res E), Res.loop (fun i acc =>
      Res.loop (fun j acc => do let x ← body i j; pure (acc ++ [x])) 0 n acc) 0 m ([] : List E) = .ok [] := by
    intro body
    rcases hmn with rfl | rfl
    · rfl
    · have : ∀ k lo, Res.loop (fun i acc => Res.loop (fun j acc => do let x ← body i j; pure (acc ++ [x]))
          0 0 acc) lo k ([] : List E) = .ok [] := by
        intro k
        induction k with
        | zero => intro lo; rfl
        | succ m ih => intro lo; exact ih (lo + 1)
      exact this m 0
  have h0 : (((0 : Nat) : Int) == ((0 : Nat) : Int)) = true := rfl
  have hfg : (f && g) = false := by
    rcases hd with h | h
    · rw [hf.fixed, Res.ok.injEq] at h; simp [h]
    · rw [hg.fixed, Res.ok.injEq] at h; simp [h]
  obtain ⟨k, hk, hk'⟩ := hf.sdims
  obtain ⟨k2, hk2, hk2'⟩ := hg.sdims
  have hneg : ¬ (0 < k.1 ∧ 0 < k2.2) := by
    cases f with
    | false => rw [hk' rfl]; simp
    | true =>
      cases g with
      | false => rw [hk2' rfl]; simp
      | true => cases hfg
  simp only [hf.fixed, hg.fixed, hfg, MNode.chkDims, Bool.false_eq_true, if_false, ha.rep.dims, hb.rep.dims,
    Res.ok_bind, checkInner, h0, Res.require, if_true, hk, hk2, productDims, if_neg hneg, Int.toNat_natCast]
  rw [key]
  rfl

/-- C30 is false: the product of a 1×0 and a 0×1 matrix is not defined. -/
theorem product_inner_zero_false :
    ¬ ∀ (s : State ℤ) (x y : Nat) (d e : MObj), s.mat x = some d → s.mat y = some e → d.cols = 0 →
      e.rows = 0 → ∃ t, matMul s (.var x) (.var y) = .ok t ∧
        ∀ (i : Fin d.rows) (j : Fin e.cols), t.get i j = .ok 0 := by
  intro h
  let S : State ℤ := demo [] [] [⟨.allocated, false, none, 0, 1, 0, false, false⟩,
    ⟨.allocated, false, none, 0, 0, 1, false, false⟩]
  obtain ⟨t, e1, -⟩ := h S 0 1 _ _ rfl rfl rfl rfl
  obtain ⟨u, e2⟩ := product_inner_zero_ub (s := S) (x := 0) (y := 1) rfl rfl rfl rfl (by decide) (by decide)
  rw [e2] at e1
  cases e1

end Inner

/-! ### C32: trace -/

section Trace
variable {E : Type} [CommSemiring E] [Sub E] [Div E] [Neg E] {s : State E}

/-- C32: `trace()` of a square matrix expression with at least one row. -/
theorem trace_sum {a : MNode E} {n : Nat} (hn : 0 < n) {A : Matrix (Fin n) (Fin n) E}
    (ha : MMat s a A) : mTrace s a = .ok A.trace := by
  obtain ⟨f, hf⟩ := ha.known
  obtain ⟨k, rfl⟩ : ∃ k, n = k + 1 := ⟨n - 1, by omega⟩
  have h0 : (((k + 1 : Nat) : Int) == ((k + 1 : Nat) : Int)) = true := by simp
  have key := Res.loop_inv (lo := 1) (n := k) (s := A 0 0)
    (body := fun i acc => do let y ← a.get s i i; pure (acc + y))
    (fun m x => ∀ hm : m ≤ k + 1, x = ∑ i : Fin m, A (i.castLE hm) (i.castLE hm))
    (by intro hm; simp)
    (by
      intro m x h1 h2 hx
      have hm : m < k + 1 := by omega
      have hg : a.get s m m = .ok (A ⟨m, hm⟩ ⟨m, hm⟩) := ha.rep.get ⟨m, hm⟩ ⟨m, hm⟩
      refine ⟨_, by rw [hg, Res.ok_bind]; rfl, fun hm' => ?_⟩
      rw [Fin.sum_univ_castSucc, hx (by omega)]
      rfl)
  obtain ⟨x, e1, e2⟩ := key
  have g0 := ha.rep.get 0 0
  unfold mTrace
  simp only [hf.fixed, hf.chk ha.rep.dims id, ha.rep.dims, Res.ok_bind, h0, Res.require, if_true,
    Int.toNat_natCast]
  have g1 : a.get s 0 0 = .ok (A 0 0) := g0
  rw [g1, Res.ok_bind, Nat.add_sub_cancel, e1]
  have h1 : 1 + k = k + 1 := by omega
  have := e2 (by omega)
  congr 1
  rw [this]
  refine Fintype.sum_equiv (finCongr h1) _ _ fun i => rfl

/-- C32: a matrix that is not square has no trace. -/
theorem trace_square {a : MNode E} {r c : Nat} (h : r ≠ c) {A : Matrix (Fin r) (Fin c) E} (ha : MMat s a A) :
    mTrace s a = .throw .staticAssert ∨ mTrace s a = .throw .nonSquare := by
  obtain ⟨f, hf⟩ := ha.known
  have h0 : ((r : Int) == (c : Int)) = false := by rw [beq_eq_false_iff_ne]; omega
  unfold mTrace
  simp only [hf.fixed, hf.chk ha.rep.dims id, Res.ok_bind, h0, Res.require]
  cases f <;> simp

/-- C32: `trace(A+B) = trace(A) + trace(B)`, `trace(A*k) = trace(A)*k`, `trace(transpose(A)) = trace(A)`,
computed by the library's own trace of the lazily evaluated expressions. -/
theorem trace_linear {a b : MNode E} {n : Nat} (hn : 0 < n) {A B : Matrix (Fin n) (Fin n) E}
    (ha : MMat s a A) (hb : MMat s b B) (sa : a.Straight s) (sb : b.Straight s) (k : E) :
    ∃ x y, mTrace s a = .ok x ∧ mTrace s b = .ok y ∧ mTrace s (.bin .plus a b) = .ok (x + y) ∧
      mTrace s (.scal .mul a k) = .ok (x * k) ∧ mTrace s (.transpose a) = .ok x := by
  refine ⟨_, _, trace_sum hn ha, trace_sum hn hb, ?_, ?_, ?_⟩
  · rw [trace_sum hn (mis_bin ha hb sa sb).1, Matrix.trace_add]
  · rw [trace_sum hn (mis_scal ha k)]
    simp [Matrix.trace, Finset.sum_mul]
  · rw [trace_sum hn (mis_transpose ha), Matrix.trace_transpose]

/-- C32: `trace(A*B) = trace(B*A)` for `A` of size `m × n` and `B` of size `n × m`. -/
theorem trace_cyclic {a b : MNode E} {m n : Nat} (hm : 0 < m) (hn : 0 < n) {A : Matrix (Fin m) (Fin n) E}
    {B : Matrix (Fin n) (Fin m) E} (ha : MMat s a A) (hb : MMat s b B)
    (sa : a.Straight s) (sb : b.Straight s) :
    ∃ ab ba x, matMul s a b = .ok ab ∧ matMul s b a = .ok ba ∧ mTrace s (.temp ab) = .ok x ∧
      mTrace s (.temp ba) = .ok x := by
  obtain ⟨ab, e1, h1, -⟩ := matMul_product hn ha hb sa sb
  obtain ⟨ba, e2, h2, -⟩ := matMul_product hm hb ha sb sa
  exact ⟨ab, ba, _, e1, e2, trace_sum hm h1, by rw [trace_sum hn h2, Matrix.trace_mul_comm]⟩

/-- `trace_2x2` and `trace_3x3` are the sums of the first two or three diagonal elements; for a 2×2 or 3×3
matrix they agree with `trace`. -/
theorem trace_small {a : MNode E} {r c : Nat} {A : Matrix (Fin r) (Fin c) E} (ha : MMat s a A) :
    (∀ (h : 2 ≤ r ∧ 2 ≤ c), mTrace2 s a
      = .ok (A ⟨0, by omega⟩ ⟨0, by omega⟩ + A ⟨1, by omega⟩ ⟨1, by omega⟩)) ∧
    (∀ (h : 3 ≤ r ∧ 3 ≤ c), mTrace3 s a
      = .ok (A ⟨0, by omega⟩ ⟨0, by omega⟩ + A ⟨1, by omega⟩ ⟨1, by omega⟩
        + A ⟨2, by omega⟩ ⟨2, by omega⟩)) ∧
    (r = 2 → c = 2 → mTrace2 s a = mTrace s a) ∧ (r = 3 → c = 3 → mTrace3 s a = mTrace s a) := by
  obtain ⟨f, hf⟩ := ha.known
  have k2 : ∀ (h : 2 ≤ r ∧ 2 ≤ c), mTrace2 s a
      = .ok (A ⟨0, by omega⟩ ⟨0, by omega⟩ + A ⟨1, by omega⟩ ⟨1, by omega⟩) := by
    intro h
    have h1 : (decide ((2 : Int) ≤ (r : Int)) && decide ((2 : Int) ≤ (c : Int))) = true := by
      simp only [Bool.and_eq_true, decide_eq_true_eq]; omega
    have g0 : a.get s 0 0 = .ok _ := ha.rep.get ⟨0, by show 0 < r; omega⟩ ⟨0, by show 0 < c; omega⟩
    have g1 : a.get s 1 1 = .ok _ := ha.rep.get ⟨1, by show 1 < r; omega⟩ ⟨1, by show 1 < c; omega⟩
    unfold mTrace2
    simp only [hf.fixed, hf.chk ha.rep.dims id, Res.ok_bind, h1, Res.require, if_true, g0, g1, Res.pure_eq]
  have k3 : ∀ (h : 3 ≤ r ∧ 3 ≤ c), mTrace3 s a
      = .ok (A ⟨0, by omega⟩ ⟨0, by omega⟩ + A ⟨1, by omega⟩ ⟨1, by omega⟩
        + A ⟨2, by omega⟩ ⟨2, by omega⟩) := by
    intro h
    have h1 : (decide ((3 : Int) ≤ (r : Int)) && decide ((3 : Int) ≤ (c : Int))) = true := by
      simp only [Bool.and_eq_true, decide_eq_true_eq]; omega
    have g0 : a.get s 0 0 = .ok _ := ha.rep.get ⟨0, by show 0 < r; omega⟩ ⟨0, by show 0 < c; omega⟩
    have g1 : a.get s 1 1 = .ok _ := ha.rep.get ⟨1, by show 1 < r; omega⟩ ⟨1, by show 1 < c; omega⟩
    have g2 : a.get s 2 2 = .ok _ := ha.rep.get ⟨2, by show 2 < r; omega⟩ ⟨2, by show 2 < c; omega⟩
    unfold mTrace3
    simp only [hf.fixed, hf.chk ha.rep.dims id, Res.ok_bind, h1, Res.require, if_true, g0, g1, g2, Res.pure_eq]
  refine ⟨k2, k3, ?_, ?_⟩
  · rintro rfl rfl
    rw [k2 (by omega), trace_sum (by omega) ha, Matrix.trace_fin_two]
    rfl
  · rintro rfl rfl
    rw [k3 (by omega), trace_sum (by omega) ha, Matrix.trace_fin_three]
    rfl

/-- `trace()` of an empty (0×0) named matrix is undefined behaviour: element `(0,0)` is read. -/
theorem trace_empty_ub {x : Nat} {d : MObj} (hx : s.mat x = some d) (h : d.rows = 0 ∧ d.cols = 0) :
    ∃ u, mTrace s (.var x) = .ub u := by
  have hg : ∃ u, ∀ i j, d.get s.heap i j = .ub u := by
    unfold MObj.get
    cases d.data with
    | none => exact ⟨_, fun _ _ => rfl⟩
    | some b => exact ⟨_, fun i j => if_neg (by omega)⟩
  obtain ⟨u, hu⟩ := hg
  refine ⟨u, ?_⟩
  have h0 : (((0 : Nat) : Int) == ((0 : Nat) : Int)) = true := rfl
  unfold mTrace
  cases hf : d.fixed <;>
    simp [MNode.fixed, MNode.chkDims, MNode.cdims, MNode.dims, State.mobj, hx, h.1, h.2, Res.require,
      MNode.get, hu, hf]

end Trace

example : mTrace exM (.var 0) = .ok 5 := rfl
example : mTrace exM (.var 2) = .throw .nonSquare := rfl

#print axioms matMul_product
#print axioms matVec_product
#print axioms vecMat_product
#print axioms product_size_error
#print axioms product_assoc
#print axioms product_distrib
#print axioms product_identity
#print axioms product_transpose
#print axioms product_vector
#print axioms product_vector_transpose
#print axioms product_self_assign
#print axioms product_inner_zero_ub
#print axioms product_inner_zero_partial
#print axioms product_inner_zero_false
#print axioms trace_sum
#print axioms trace_square
#print axioms trace_linear
#print axioms trace_cyclic
#print axioms trace_small
#print axioms trace_empty_ub

end CML
