import Verif.Lemmas.OutArg
import Verif.Lemmas.Rotation
import Mathlib.Tactic.IntervalCases

/-!
Lemmas for the second part of C124: several writes in a row.
-/

namespace CML

theorem Cells.stores102 {σ : Cells} {a b c : Nat} (hab : a ≠ b) (hac : a ≠ c) (hbc : b ≠ c) (x y z : ℝ) :
    σ.Stores (((σ.wr b y).wr a x).wr c z) [(a, x), (b, y), (c, z)] := by
  constructor
  · simp [Cells.wr, hab.symm, hac, hbc]
  · intro d hd
    simp only [List.mem_cons, List.not_mem_nil, or_false, forall_eq_or_imp, forall_eq] at hd
    simp [Cells.wr, Ne.symm hd.1, Ne.symm hd.2.1, Ne.symm hd.2.2]

theorem Cells.stores_neg {σ τ : Cells} {a b c : Nat} (hab : a ≠ b) (hac : a ≠ c) (hbc : b ≠ c) {x y z : ℝ}
    (h : σ.Stores τ [(a, x), (b, y), (c, z)]) :
    let σ1 := τ.wr a (-τ a)
    let σ2 := σ1.wr b (-σ1 b)
    σ.Stores (σ2.wr c (-σ2 c)) [(a, -x), (b, -y), (c, -z)] := by
  obtain ⟨h1, h2⟩ := h
  simp only [List.mem_cons, List.not_mem_nil, or_false, forall_eq_or_imp, forall_eq] at h1
  obtain ⟨e1, e2, e3⟩ := h1
  constructor
  · simp [Cells.wr, hab, hab.symm, hac, hac.symm, hbc, hbc.symm, e1, e2, e3]
  · intro d hd
    simp only [List.mem_cons, List.not_mem_nil, or_false, forall_eq_or_imp, forall_eq] at hd
    simp only [Cells.wr, if_neg (Ne.symm hd.1), if_neg (Ne.symm hd.2.1), if_neg (Ne.symm hd.2.2)]
    exact h2 d (by simpa using hd)

/-- Three elements and one more cell. -/
theorem Cells.stores31 {σ τ : Cells} {v : VAt} (hd : v.Distinct) {a : Nat} (h0 : v.addr 0 ≠ a) (h1 : v.addr 1 ≠ a)
    (h2 : v.addr 2 ≠ a) {x y z w : ℝ} (hτ : σ.Stores τ (v.holding x y z)) :
    σ.Stores (τ.wr a w) (v.holding x y z ++ [(a, w)]) := by
  obtain ⟨g1, g2⟩ := hτ
  obtain ⟨d1, d2, d3⟩ := hd
  simp only [VAt.holding, List.mem_cons, List.not_mem_nil, or_false, forall_eq_or_imp, forall_eq] at g1 g2
  constructor
  · simp [VAt.holding, Cells.wr, h0, h1, h2, g1]
  · intro d hd
    simp only [VAt.holding, List.cons_append, List.nil_append, List.mem_cons, List.not_mem_nil, or_false,
      forall_eq_or_imp, forall_eq] at hd
    simp only [Cells.wr, if_neg (Ne.symm hd.2.2.2)]
    exact g2 d ⟨hd.1, hd.2.1, hd.2.2.1⟩

theorem Cells.wr3_0 (σ : Cells) {v : VAt} (hd : v.Distinct) (x y z : ℝ) : σ.wr3 v x y z (v.addr 0) = x := by
  simp [Cells.wr3, Cells.wr, hd.1, hd.2.1]

theorem Cells.wr3_1 (σ : Cells) {v : VAt} (hd : v.Distinct) (x y z : ℝ) : σ.wr3 v x y z (v.addr 1) = y := by
  simp [Cells.wr3, Cells.wr, hd.2.2]

theorem Cells.wr3_2 (σ : Cells) (v : VAt) (x y z : ℝ) : σ.wr3 v x y z (v.addr 2) = z := by
  simp [Cells.wr3, Cells.wr]

theorem Cells.wr3_ne (σ : Cells) (v : VAt) (x y z : ℝ) {b : Nat} (h0 : v.addr 0 ≠ b) (h1 : v.addr 1 ≠ b)
    (h2 : v.addr 2 ≠ b) : σ.wr3 v x y z b = σ b := by
  simp [Cells.wr3, Cells.wr, h0.symm, h1.symm, h2.symm]

/-- Whatever is stored in the three elements, only they change. -/
theorem Cells.stores_wr3 {σ τ : Cells} {v : VAt} (hd : v.Distinct)
    (h : ∀ b, v.addr 0 ≠ b → v.addr 1 ≠ b → v.addr 2 ≠ b → τ b = σ b) (x y z : ℝ) :
    σ.Stores (τ.wr3 v x y z) (v.holding x y z) := by
  constructor
  · simp [VAt.holding, Cells.wr3_0 _ hd, Cells.wr3_1 _ hd, Cells.wr3_2]
  · intro d hd
    simp only [VAt.holding, List.mem_cons, List.not_mem_nil, or_false, forall_eq_or_imp, forall_eq] at hd
    rw [Cells.wr3_ne _ _ _ _ _ hd.1 hd.2.1 hd.2.2]
    exact h d hd.1 hd.2.1 hd.2.2

theorem Cells.div3_run (σ : Cells) {v : VAt} (hd : v.Distinct) {l : ℝ} (hl : l ≠ 0) :
    σ.div3 v l = .ok (σ.wr3 v (σ (v.addr 0) / l) (σ (v.addr 1) / l) (σ (v.addr 2) / l)) := by
  obtain ⟨d1, d2, d3⟩ := hd
  simp [Cells.div3, divR, hl, Cells.wr3, Cells.wr, d1.symm, d2.symm, d3.symm]

theorem Cells.div3_zero (σ : Cells) (v : VAt) : σ.div3 v 0 = .ub .divZero := by
  simp [Cells.div3, divR]

theorem MAt.trace_load {σ : Cells} {m : MAt} (hr : 3 ≤ m.rows) (hc : 3 ≤ m.cols) :
    trace3 (m.load σ) = .ok (σ (m.cell 0 0) + σ (m.cell 1 1) + σ (m.cell 2 2)) := by
  have h : ∀ i, i < 3 → (m.load σ).toMat.get i i = .ok (σ (m.cell i i)) := by
    intro i hi
    have e : m.cell i i = m.addr i i := by
      unfold MAt.cell
      rcases m.basis with _ | _ <;> rfl
    rw [e]
    exact if_pos ⟨by simp only [MAt.load]; omega, by simp only [MAt.load]; omega⟩
  have hl : (m.load σ).HasLin 3 := ⟨hr, hc⟩
  simp only [trace3, BMat.checkLinear3D_ok hl, h 0 (by omega), h 1 (by omega), h 2 (by omega), Res.ok_bind, Res.pure_eq]

/-! ### A vector being written -/

/-- The memory `τ` is `σ` but for the elements of `v`, which are those of `w`. -/
structure Cells.Agree (σ τ : Cells) (v : VAt) (w : AVec ℝ) : Prop where
  size : w.size = 3
  el : ∀ p < 3, τ (v.addr p) = w.el p
  off : ∀ b, (∀ p < 3, v.addr p ≠ b) → τ b = σ b

theorem VAt.Distinct.inj {v : VAt} (hd : v.Distinct) {i j : Nat} (hi : i < 3) (hj : j < 3) (h : i ≠ j) :
    v.addr i ≠ v.addr j := by
  obtain ⟨h1, h2, h3⟩ := hd
  interval_cases i <;> interval_cases j <;> first | (exact absurd rfl h) | assumption | (apply Ne.symm; assumption)

theorem Cells.agree_wr3 {σ τ : Cells} {v : VAt} {w : AVec ℝ} (hd : v.Distinct)
    (h : ∀ b, (∀ p < 3, v.addr p ≠ b) → τ b = σ b) (hw : w.size = 3) :
    σ.Agree (τ.wr3 v (w.el 0) (w.el 1) (w.el 2)) v w := by
  refine ⟨hw, fun p hp => ?_, fun b hb => ?_⟩
  · interval_cases p
    · exact Cells.wr3_0 _ hd _ _ _
    · exact Cells.wr3_1 _ hd _ _ _
    · exact Cells.wr3_2 _ _ _ _ _
  · rw [Cells.wr3_ne _ _ _ _ _ (hb 0 (by omega)) (hb 1 (by omega)) (hb 2 (by omega))]
    exact h b hb

theorem Cells.Agree.put {σ τ : Cells} {v : VAt} {w : AVec ℝ} (hd : v.Distinct) (h : σ.Agree τ v w) {i : Nat}
    (hi : i < 3) (x : ℝ) : ∃ w', w.put i x = .ok w' ∧ σ.Agree (τ.wr (v.addr i) x) v w' ∧ w'.el i = x := by
  have hs := h.size
  refine ⟨_, if_pos (by omega), ⟨hs, fun p hp => ?_, fun b hb => ?_⟩, if_pos rfl⟩
  · by_cases e : p = i
    · subst e
      simp [Cells.wr]
    · rw [Cells.wr_ne _ _ (hd.inj hp hi e), h.el p hp]
      simp [e]
  · rw [Cells.wr_ne _ _ (hb i hi).symm]
    exact h.off b hb

theorem Cells.Agree.length {σ τ : Cells} {v : VAt} {w : AVec ℝ} (h : σ.Agree τ v w) (hv : v.size = 3) :
    (v.load τ).length = w.length := by
  rw [AVec.length, AVec.length, AVec.lengthSquared_ok (a := v.load τ) hv (by norm_num),
    AVec.lengthSquared_ok h.size (by norm_num)]
  congr 2
  refine Finset.sum_congr rfl fun i _ => ?_
  simp only [VAt.load, h.el i i.isLt]

theorem Cells.Agree.div {σ τ : Cells} {v : VAt} {w : AVec ℝ} (hd : v.Distinct) (h : σ.Agree τ v w) (l : ℝ) :
    (∃ τ' w', w.sdiv l = .ok w' ∧ τ.div3 v l = .ok τ' ∧ σ.Agree τ' v w') ∨
      (w.sdiv l = .ub .divZero ∧ τ.div3 v l = .ub .divZero) := by
  by_cases hl : l = 0
  · subst hl
    right
    exact ⟨by simp [AVec.sdiv, h.size], Cells.div3_zero _ _⟩
  · left
    refine ⟨_, _, if_neg hl, Cells.div3_run τ hd hl, ?_⟩
    have := Cells.agree_wr3 (w := { w with el := fun i => w.el i / l }) hd h.off h.size
    simpa only [h.el 0 (by omega), h.el 1 (by omega), h.el 2 (by omega)] using this

theorem Cells.Agree.stores {σ τ : Cells} {v : VAt} {w : AVec ℝ} (h : σ.Agree τ v w) {a : Nat}
    (ha : ∀ p < 3, v.addr p ≠ a) (x : ℝ) :
    σ.Stores (τ.wr a x) (v.holding (w.el 0) (w.el 1) (w.el 2) ++ [(a, x)]) := by
  constructor
  · simp [VAt.holding, Cells.wr, ha 0 (by omega), ha 1 (by omega), ha 2 (by omega), h.el 0 (by omega),
      h.el 1 (by omega), h.el 2 (by omega)]
  · intro d hd
    simp only [VAt.holding, List.cons_append, List.nil_append, List.mem_cons, List.not_mem_nil, or_false,
      forall_eq_or_imp, forall_eq] at hd
    rw [Cells.wr_ne _ _ (Ne.symm hd.2.2.2)]
    refine h.off d fun p hp => ?_
    interval_cases p
    · exact hd.1
    · exact hd.2.1
    · exact hd.2.2.1

theorem indexOfMax3_lt (a b c : ℝ) : indexOfMax3 a b c < 3 := by
  unfold indexOfMax3
  split_ifs <;> omega

theorem unpackEuler_lt (o : EulerOrder) : (unpackEulerOrder o.code).i < 3 ∧ (unpackEulerOrder o.code).j < 3 ∧
    (unpackEulerOrder o.code).k < 3 := by
  cases o <;> decide

end CML
