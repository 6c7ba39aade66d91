import Verif.Lemmas.Stable
import Verif.Lemmas.Demo

/-!
C07, C41, C79, C80, C14: vector and matrix expressions.
-/

set_option linter.unusedSectionVars false

namespace CML

variable {E : Type} [Add E] [Sub E] [Mul E] [Div E] [Neg E]

/-! ### C07, C41: expressions refine their mathematical value -/

/-- C07.  A vector expression whose unchecked usage rules are respected either has a mathematical
value, and then building it succeeds, the size is right and every in-range element read is defined and
yields the element of that value; or it is mis-sized, and then building it throws a size error
(or `std::invalid_argument` for a row or column with a negative index).  (Operands of
`cross` must be named or have a compile-time size, see C79.) -/
theorem vexpr_refines {s : State E} {ρ : Env E} (hA : Agree s ρ) (e : VExpr E)
    (hc : e.Regular s) (hp : e.Pre ρ) :
    (∀ p, e.den ρ = some p → ∃ x, e.build s = .ok x ∧ VRep s x p) ∧
      (e.den ρ = none → ∃ er, e.build s = .throw er ∧
        (er.IsSize ∨ er = .invalidArgument ∧ e.NegLine)) := by
  have hs := VExpr.supported_of_regular e hc
  refine ⟨fun p h => ?_, VExpr.build_throw hA e hs hp⟩
  obtain ⟨x, h1, h2, -⟩ := VExpr.build_ok hA e hs p h
  exact ⟨x, h1, h2⟩

/-- C07: building succeeds exactly for well-sized expressions, and never is undefined behaviour. -/
theorem vexpr_build_iff {s : State E} {ρ : Env E} (hA : Agree s ρ) (e : VExpr E)
    (hc : e.Regular s) (hp : e.Pre ρ) :
    ((∃ x, e.build s = .ok x) ↔ (e.den ρ).isSome) ∧ ∀ u, e.build s ≠ .ub u := by
  obtain ⟨h1, h2⟩ := vexpr_refines hA e hc hp
  cases hd : e.den ρ with
  | none =>
    obtain ⟨er, he, -⟩ := h2 hd
    simp [he]
  | some p =>
    obtain ⟨x, hx, -⟩ := h1 p hd
    simp [hx]

/-- C41.  The same for matrix expressions, including products, transposes, outer products. -/
theorem mexpr_refines {s : State E} {ρ : Env E} (hA : Agree s ρ) (e : MExpr E)
    (hc : e.Regular s) (hp : e.Pre ρ) :
    (∀ p, e.den ρ = some p → ∃ x, e.build s = .ok x ∧ MRep s x p) ∧
      (e.den ρ = none → ∃ er, e.build s = .throw er ∧
        (er.IsSize ∨ er = .invalidArgument ∧ e.NegLine)) := by
  have hs := MExpr.supported_of_regular e hc
  refine ⟨fun p h => ?_, MExpr.build_throw hA e hs hp⟩
  obtain ⟨x, h1, h2, -⟩ := MExpr.build_ok hA e hs p h
  exact ⟨x, h1, h2⟩

/-- C41: building succeeds exactly for well-sized expressions, and never is undefined behaviour. -/
theorem mexpr_build_iff {s : State E} {ρ : Env E} (hA : Agree s ρ) (e : MExpr E)
    (hc : e.Regular s) (hp : e.Pre ρ) :
    ((∃ x, e.build s = .ok x) ↔ (e.den ρ).isSome) ∧ ∀ u, e.build s ≠ .ub u := by
  obtain ⟨h1, h2⟩ := mexpr_refines hA e hc hp
  cases hd : e.den ρ with
  | none =>
    obtain ⟨er, he, -⟩ := h2 hd
    simp [he]
  | some p =>
    obtain ⟨x, hx, -⟩ := h1 p hd
    simp [hx]

section Examples

/-- `(v0 + v1) * 2 - cross(v0, v1)`: hypotheses of `vexpr_refines` and the value. -/
private def exE : VExpr ℤ :=
  .bin .minus (.scal .mul (.bin .plus (.var 0) (.var 1)) 2) (.cross (.var 0) (.var 1))

example : exE.Regular exS ∧ exE.Pre exρ ∧
    exE.den exρ = some ⟨3, ![13, 8, 21]⟩ := by
  refine ⟨?_, ?_, ?_⟩
  · simp [exE, VExpr.Regular, VExpr.Stable]
  · simp [exE, VExpr.Pre, exρ]
  · simp only [exE, VExpr.den, exρ]
    simp only [dif_pos, Option.some.injEq, VVal.mk.injEq, heq_eq_eq, true_and]
    funext i
    fin_cases i <;> rfl

/-- A mis-sized one: `v0 + v2`. -/
example : (VExpr.bin .plus (.var 0) (.var 2) : VExpr ℤ).den exρ = none ∧
    (VExpr.bin .plus (.var 0) (.var 2) : VExpr ℤ).build exS = .throw .vecIncompatible :=
  ⟨rfl, rfl⟩

/-- A matrix expression: `m0 * transpose(m0) + outer(v1, v1)`. -/
private def exM : MExpr ℤ :=
  .bin .plus (.mul (.var 0) (.transpose (.var 0))) (.outer (.var 1) (.var 1))

example : exM.Regular exS ∧ exM.Pre exρ ∧
    exM.den exρ = some ⟨3, 3, ![![30, 52, 74], ![52, 102, 152], ![74, 152, 230]]⟩ := by
  refine ⟨?_, ?_, ?_⟩
  · simp only [exM, MExpr.Regular, VExpr.Regular, MExpr.Upright, true_and, and_true]
    refine ⟨⟨?_, ?_, ?_⟩, ?_, ?_⟩
    · rintro m h -
      cases h
      decide
    · rintro m h -
      cases h
      decide
    · rintro x h
      cases h
      exact .inr ⟨3, rfl⟩
    · intro x y h1 h2
      cases h1
      cases h2
      rfl
    · constructor <;>
      · intro x n h1 h2
        cases h1
        cases h2
        decide
  · simp [exM, MExpr.Pre, VExpr.Pre, exρ, MExpr.den]
  · simp only [exM, MExpr.den, VExpr.den, exρ]
    simp
    funext i j
    fin_cases i <;> fin_cases j <;> rfl

end Examples

/-! ### C79: cross products of temporaries -/

/-- C79 is false: `cross(a, b)` rejects a dynamically sized temporary as first operand, whatever its
size (also size 3), because the size is checked after the operand has been moved from. -/
theorem cross_dynamic_temporary_throws (s : State E) (xs : List E) (b : VExpr E) (y : VNode E)
    (hb : b.build s = .ok y) :
    (VExpr.cross (.temp false xs) b).build s = .throw .vecSize := by
  simp [VExpr.build, hb, VNode.fixed, VNode.ctorSize, VNode.movedSize, checkSizeC, Res.require]

/-- C79: in particular the result of a product with a dynamically sized matrix is rejected. -/
theorem cross_dynamic_product_throws (s : State E) (m : MExpr E) (v b : VExpr E) (x : MNode E)
    (z : VNode E) (y : VNode E) (t : Bool × List E) (hm : m.build s = .ok x) (hv : v.build s = .ok z)
    (hd : x.fixed s = .ok false) (hc : m.Supported s) (ht : matVec s x z = .ok t)
    (hb : b.build s = .ok y) :
    (VExpr.cross (.mulMV m v) b).build s = .throw .vecSize := by
  have h1 : t.1 = false := by
    obtain ⟨d, hd', ht', -⟩ := MExpr.typed m hc x hm false hd
    exact matVec_dynamic ht ht'
  simp [VExpr.build, hb, hm, hv, ht, VNode.fixed, VNode.ctorSize, VNode.movedSize, checkSizeC,
    Res.require, h1]

/-- C79: negation of the unrestricted claim, by a concrete witness. -/
theorem cross_total_false :
    ¬ ∀ (s : State ℤ) (ρ : Env ℤ) (a b : VExpr ℤ) (p : VVal ℤ), Agree s ρ →
      (VExpr.cross a b).Pre ρ → (VExpr.cross a b).den ρ = some p →
      ∃ x, (VExpr.cross a b).build s = .ok x := by
  intro h
  obtain ⟨x, hx⟩ := h exS exρ (.temp false [1, 2, 3]) (.var 0) _ exS_agree
    (by simp [VExpr.Pre, exρ]) rfl
  rw [cross_dynamic_temporary_throws exS [1, 2, 3] (.var 0) (.var 0) rfl] at hx
  cases hx

/-- C79 restricted: for operands that are named or have a compile-time size, `cross` of two vectors of
size 3 succeeds and computes the cross product.  Missing: dynamically sized temporaries. -/
theorem cross_operands_partial {s : State E} {ρ : Env E} (hA : Agree s ρ) (a b : VExpr E)
    (ha : a.Regular s) (hb : b.Regular s) (hsa : a.IsFixed s ∨ a.Stable s)
    (hsb : b.IsFixed s ∨ b.Stable s) (p q : Fin 3 → E) (hda : a.den ρ = some ⟨3, p⟩)
    (hdb : b.den ρ = some ⟨3, q⟩) :
    ∃ x, (VExpr.cross a b).build s = .ok x ∧ VRep s x
      ⟨3, ![p 1 * q 2 - p 2 * q 1, p 2 * q 0 - p 0 * q 2, p 0 * q 1 - p 1 * q 0]⟩ := by
  obtain ⟨x, h1, h2, -⟩ := VExpr.build_ok hA (.cross a b)
    (VExpr.supported_of_regular _ ⟨ha, hb, hsa, hsb⟩) _ (by simp [VExpr.den, hda, hdb]; rfl)
  exact ⟨x, h1, h2⟩

example : (VExpr.cross (.temp true [1, 0, 0]) (.var 1) : VExpr ℤ).build exS
    = .ok (.cross (.temp true [1, 0, 0]) (.var 1)) := rfl

/-! ### C80: compile-time sizes -/

/-- C80.  Whenever a supported expression could be built, its compile-time size constant is the run-time
size if the size is a compile-time constant, and -1 otherwise.  Missing: the unsupported expressions, for
which the claim is false (`static_size_false` in `Props/StaticType`). -/
theorem vexpr_static_size_partial {s : State E} (e : VExpr E) (hc : e.Supported s) (x : VNode E)
    (hb : e.build s = .ok x) (f : Bool) (n : Int) (hf : x.fixed s = .ok f) (hn : x.size s = .ok n) :
    x.csize s = .ok (if f then n else -1) := by
  obtain ⟨k, h1, h2, -⟩ := VExpr.typed e hc x hb f hf
  rw [hn, Res.ok.injEq] at h1
  subst h1
  exact h2.csize

/-- C80 for matrix expressions. -/
theorem mexpr_static_size_partial {s : State E} (e : MExpr E) (hc : e.Supported s) (x : MNode E)
    (hb : e.build s = .ok x) (f : Bool) (d : Int × Int) (hf : x.fixed s = .ok f)
    (hd : x.dims s = .ok d) : x.cdims s = .ok (if f then d else (-1, -1)) := by
  obtain ⟨k, h1, h2, -⟩ := MExpr.typed e hc x hb f hf
  rw [hd, Res.ok.injEq] at h1
  subst h1
  exact h2.cdims

/-- A mixed fixed/dynamic sum has the fixed size at compile time. -/
example : (VExpr.bin .plus (.var 1) (.var 0) : VExpr ℤ).build exS
      = .ok (.bin .plus (.var 1) (.var 0)) ∧
    (VNode.bin .plus (.var 1) (.var 0) : VNode ℤ).fixed exS = .ok true ∧
    (VNode.bin .plus (.var 1) (.var 0) : VNode ℤ).size exS = .ok 3 ∧
    (VNode.bin .plus (.var 1) (.var 0) : VNode ℤ).csize exS = .ok 3 := ⟨rfl, rfl, rfl, rfl⟩

/-! ### C14: subvector -/

/-- C14.  `subvector(k)` of a vector of size `n + 1` has size `n`; its elements are those of the vector
with the `k`-th one removed, in order.  (`Regular` excludes vectors of compiled size 1, see
`subvector_size_one`.) -/
theorem subvector_erases {s : State E} {ρ : Env E} (hA : Agree s ρ) (e : VExpr E)
    (k : Nat) (hc : (VExpr.sub e k).Regular s) (p : VVal E) (hp : e.den ρ = some p)
    (hk : k < p.n) :
    ∃ x, (VExpr.sub e k).build s = .ok x ∧ x.size s = .ok ((p.n : Int) - 1) ∧
      ∀ i (hi : i < ((List.ofFn p.f).eraseIdx k).length),
        x.get s i = .ok ((List.ofFn p.f).eraseIdx k)[i] := by
  obtain ⟨n, f⟩ := p
  simp only at hk
  obtain ⟨m, rfl⟩ : ∃ m, n = m + 1 := ⟨n - 1, by omega⟩
  have hd : (VExpr.sub e k).den ρ
      = some ⟨m, fun i => f ((⟨(k : Int).toNat, by omega⟩ : Fin (m + 1)).succAbove i)⟩ := by
    simp only [VExpr.den, hp]
    rw [dif_pos ⟨by omega, by omega⟩]
  obtain ⟨x, h1, h2, -⟩ := VExpr.build_ok hA (.sub e k) (VExpr.supported_of_regular _ hc) _ hd
  refine ⟨x, h1, ?_, ?_⟩
  · rw [h2.size]; push_cast; simp
  · intro i hi
    have hi' : i < m := by
      have := hi
      rw [List.length_eraseIdx] at this
      simp [List.length_ofFn, hk] at this
      exact this
    rw [h2.get ⟨i, hi'⟩]
    congr 1
    rw [List.getElem_eraseIdx]
    by_cases hik : i < k
    · rw [dif_pos hik]
      simp only [List.getElem_ofFn]
      rw [Fin.succAbove_of_castSucc_lt _ _ (by simpa [Fin.lt_def] using hik)]
      rfl
    · rw [dif_neg hik]
      simp only [List.getElem_ofFn]
      rw [Fin.succAbove_of_le_castSucc _ _ (by simp [Fin.le_def]; omega)]
      rfl

/-- C14: appending the last element to the vector without it gives the vector back. -/
theorem subvector_append_last {s : State E} {ρ : Env E} (hA : Agree s ρ) (e : VExpr E)
    (n : Nat) (hc : (VExpr.sub e n).Regular s) (f : Fin (n + 1) → E) (hp : e.den ρ = some ⟨n + 1, f⟩) :
    ∃ x, (VExpr.sub e n).build s = .ok x ∧
      ∃ l : List E, l.length = n ∧ (∀ i (hi : i < l.length), x.get s i = .ok l[i]) ∧
        l ++ [f (Fin.last n)] = List.ofFn f := by
  obtain ⟨x, h1, -, h3⟩ := subvector_erases hA e n hc _ hp (by simp)
  refine ⟨x, h1, _, ?_, h3, ?_⟩
  · rw [List.length_eraseIdx]; simp
  · apply List.ext_getElem
    · rw [List.length_append, List.length_eraseIdx]; simp
    · intro i hi hi'
      rw [List.getElem_append]
      split
      next h =>
        rw [List.getElem_eraseIdx]
        rw [List.length_eraseIdx] at h
        simp at h
        rw [dif_pos h]
      next h =>
        rw [List.length_eraseIdx] at h
        simp at h hi'
        have : i = n := by omega
        subst this
        rw [List.getElem_ofFn]
        simp [Fin.last]

/-- C14: an index that is too large is not diagnosed; the last element is dropped instead. -/
theorem subvector_unchecked {s : State E} (x : VNode E) (p : VVal E) (hx : VRep s x p) (k : Int)
    (hk : (p.n : Int) ≤ k) (i : Nat) (hi : i + 1 < p.n) :
    (VNode.sub x k).get s i = .ok (p.f ⟨i, by omega⟩) := by
  simp only [VNode.get]
  rw [if_pos (by omega)]
  exact hx.get ⟨i, by omega⟩

example : ∃ x, (VExpr.sub (.bin .plus (.var 0) (.var 1)) 1 : VExpr ℤ).build exS = .ok x ∧
    x.get exS 0 = .ok 5 ∧ x.get exS 1 = .ok 9 ∧ x.get exS 2 = .ub .oob := ⟨_, rfl, rfl, rfl, rfl⟩

#print axioms vexpr_refines
#print axioms vexpr_build_iff
#print axioms mexpr_refines
#print axioms mexpr_build_iff
#print axioms cross_dynamic_temporary_throws
#print axioms cross_dynamic_product_throws
#print axioms cross_total_false
#print axioms cross_operands_partial
#print axioms vexpr_static_size_partial
#print axioms mexpr_static_size_partial
#print axioms subvector_erases
#print axioms subvector_append_last
#print axioms subvector_unchecked

end CML
