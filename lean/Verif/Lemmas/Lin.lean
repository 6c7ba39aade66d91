import Verif.Spec.Lin
import Mathlib.Tactic.FinCases
import Mathlib.Tactic.IntervalCases
import Mathlib.Data.Fin.VecNotation
import Mathlib.Tactic.Ring
import Mathlib.Algebra.BigOperators.Fin

/-! Lemmas about matrices in basis form. -/

namespace CML
variable {K : Type}

namespace BMat

/-- Basis element `(i, j)` (no check). -/
def bel (m : BMat K) (i j : Nat) : K :=
  match m.basis with
  | .row => m.el i j
  | .col => m.el j i

/-- The matrix with one basis element replaced. -/
def bset (m : BMat K) (i j : Nat) (v : K) : BMat K :=
  match m.basis with
  | .row => { m with toMat := m.toMat.set i j v }
  | .col => { m with toMat := m.toMat.set j i v }

/-- The number of basis vectors. -/
def bcount (m : BMat K) : Nat :=
  match m.basis with
  | .row => m.rows
  | .col => m.cols

/-- The number of elements of a basis vector. -/
def bsize (m : BMat K) : Nat :=
  match m.basis with
  | .row => m.cols
  | .col => m.rows

theorem bget_eq (m : BMat K) (i j : Nat) :
    m.bget i j = if i < m.bcount ∧ j < m.bsize then .ok (m.bel i j) else .ub .oob := by
  unfold bget bcount bsize bel Mat.get
  cases m.basis <;> simp [and_comm]

theorem bget_ok {m : BMat K} {i j : Nat} (hi : i < m.bcount) (hj : j < m.bsize) :
    m.bget i j = .ok (m.bel i j) := by
  rw [bget_eq, if_pos ⟨hi, hj⟩]

theorem bput_ok {m : BMat K} {i j : Nat} (hi : i < m.bcount) (hj : j < m.bsize) (v : K) :
    m.bput i j v = .ok (m.bset i j v) := by
  obtain ⟨⟨r, c, e⟩, b, f⟩ := m
  cases b <;> simp [bput, bset, bcount, bsize, Mat.put] at *
  · rw [if_pos ⟨hi, hj⟩]; rfl
  · rw [if_pos ⟨hj, hi⟩]; rfl

@[simp] theorem rows_bset (m : BMat K) (i j : Nat) (v : K) : (m.bset i j v).rows = m.rows := by
  unfold bset; cases m.basis <;> rfl
@[simp] theorem cols_bset (m : BMat K) (i j : Nat) (v : K) : (m.bset i j v).cols = m.cols := by
  unfold bset; cases m.basis <;> rfl
@[simp] theorem basis_bset (m : BMat K) (i j : Nat) (v : K) : (m.bset i j v).basis = m.basis := by
  unfold bset; cases h : m.basis <;> rfl
@[simp] theorem fixed_bset (m : BMat K) (i j : Nat) (v : K) : (m.bset i j v).fixed = m.fixed := by
  unfold bset; cases h : m.basis <;> rfl
@[simp] theorem bcount_bset (m : BMat K) (i j : Nat) (v : K) : (m.bset i j v).bcount = m.bcount := by
  simp [bcount]
@[simp] theorem bsize_bset (m : BMat K) (i j : Nat) (v : K) : (m.bset i j v).bsize = m.bsize := by
  simp [bsize]

theorem bel_bset (m : BMat K) (i j : Nat) (v : K) (a b : Nat) :
    (m.bset i j v).bel a b = if a = i ∧ b = j then v else m.bel a b := by
  obtain ⟨⟨r, c, e⟩, bb, f⟩ := m
  cases bb <;> simp [bel, bset, Mat.set, and_comm]

@[simp] theorem rows_identity [Zero K] [One K] (m : BMat K) : m.identity.rows = m.rows := rfl
@[simp] theorem cols_identity [Zero K] [One K] (m : BMat K) : m.identity.cols = m.cols := rfl
@[simp] theorem basis_identity [Zero K] [One K] (m : BMat K) : m.identity.basis = m.basis := rfl
@[simp] theorem fixed_identity [Zero K] [One K] (m : BMat K) : m.identity.fixed = m.fixed := rfl
@[simp] theorem bcount_identity [Zero K] [One K] (m : BMat K) : m.identity.bcount = m.bcount := rfl
@[simp] theorem bsize_identity [Zero K] [One K] (m : BMat K) : m.identity.bsize = m.bsize := rfl
@[simp] theorem rows_zero [Zero K] (m : BMat K) : m.zero.rows = m.rows := rfl
@[simp] theorem cols_zero [Zero K] (m : BMat K) : m.zero.cols = m.cols := rfl
@[simp] theorem basis_zero [Zero K] (m : BMat K) : m.zero.basis = m.basis := rfl
@[simp] theorem fixed_zero [Zero K] (m : BMat K) : m.zero.fixed = m.fixed := rfl
@[simp] theorem bcount_zero [Zero K] (m : BMat K) : m.zero.bcount = m.bcount := rfl
@[simp] theorem bsize_zero [Zero K] (m : BMat K) : m.zero.bsize = m.bsize := rfl

theorem bel_identity [Zero K] [One K] (m : BMat K) (a b : Nat) :
    m.identity.bel a b = if a = b then 1 else 0 := by
  obtain ⟨⟨r, c, e⟩, bb, f⟩ := m
  cases bb <;> simp [bel, identity, eq_comm]

theorem bel_zero [Zero K] (m : BMat K) (a b : Nat) : m.zero.bel a b = 0 := by
  obtain ⟨⟨r, c, e⟩, bb, f⟩ := m
  cases bb <;> rfl

theorem SameShape.refl (m : BMat K) : m.SameShape m := ⟨rfl, rfl, rfl, rfl⟩
theorem SameShape.trans {m m' m'' : BMat K} (h : m.SameShape m') (h' : m'.SameShape m'') :
    m.SameShape m'' :=
  ⟨h'.rows.trans h.rows, h'.cols.trans h.cols, h'.basis.trans h.basis, h'.fixed.trans h.fixed⟩

theorem SameShape.symm {m m' : BMat K} (h : m.SameShape m') : m'.SameShape m :=
  ⟨h.rows.symm, h.cols.symm, h.basis.symm, h.fixed.symm⟩

theorem SameShape.bcount {m m' : BMat K} (h : m.SameShape m') : m'.bcount = m.bcount := by
  simp only [BMat.bcount, h.basis, h.rows, h.cols]

theorem SameShape.bsize {m m' : BMat K} (h : m.SameShape m') : m'.bsize = m.bsize := by
  simp only [BMat.bsize, h.basis, h.rows, h.cols]

theorem SameShape.bset (m : BMat K) (i j : Nat) (v : K) : m.SameShape (m.bset i j v) := by
  constructor <;> simp

theorem SameShape.identity [Zero K] [One K] (m : BMat K) : m.SameShape m.identity :=
  ⟨rfl, rfl, rfl, rfl⟩

theorem hasLin_iff (m : BMat K) (n : Nat) : m.HasLin n ↔ n ≤ m.bcount ∧ n ≤ m.bsize := by
  unfold HasLin bcount bsize
  cases m.basis <;> simp [and_comm]

theorem hasAff_iff (m : BMat K) (n : Nat) : m.HasAff n ↔ n + 1 ≤ m.bcount ∧ n ≤ m.bsize := by
  unfold HasAff bcount bsize
  cases m.basis <;> simp [and_comm]

theorem HasAff.hasLin {m : BMat K} {n : Nat} (h : m.HasAff n) : m.HasLin n := by
  rw [hasAff_iff] at h; rw [hasLin_iff]; omega

theorem SameShape.hasLin {m m' : BMat K} (h : m.SameShape m') {n : Nat} (hl : m.HasLin n) : m'.HasLin n := by
  rw [hasLin_iff] at *; rw [h.bcount, h.bsize]; exact hl

theorem SameShape.hasAff {m m' : BMat K} (h : m.SameShape m') {n : Nat} (hl : m.HasAff n) : m'.HasAff n := by
  rw [hasAff_iff] at *; rw [h.bcount, h.bsize]; exact hl

theorem idOutside_iff [Zero K] [One K] (m : BMat K) (n : Nat) : m.IdOutside n ↔
    ∀ i j, i < m.bcount → j < m.bsize → ¬(i < n ∧ j < n) → m.bel i j = if i = j then 1 else 0 := by
  unfold IdOutside bcount bsize bel
  cases m.basis
  · rfl
  · constructor
    · intro h i j hi hj hn
      simpa [eq_comm] using h j i hj hi (by tauto)
    · intro h i j hi hj hn
      simpa [eq_comm] using h j i hj hi (by tauto)

theorem idOutsideAff_iff [Zero K] [One K] (m : BMat K) (n : Nat) : m.IdOutsideAff n ↔
    ∀ i j, i < m.bcount → j < m.bsize → ¬(i < n ∧ j < n) → ¬(i = n ∧ j < n) →
      m.bel i j = if i = j then 1 else 0 := by
  unfold IdOutsideAff TransPos bcount bsize bel
  cases m.basis
  · rfl
  · constructor
    · intro h i j hi hj hn hn'
      simpa [eq_comm] using h j i hj hi (by tauto) (by simpa using hn')
    · intro h i j hi hj hn hn'
      simpa [eq_comm] using h j i hj hi (by tauto) (by simpa using hn')

theorem homogeneous_iff [Zero K] [One K] (m : BMat K) (n : Nat) : m.Homogeneous n ↔
    m.bcount = n + 1 ∧ m.bsize = n + 1 ∧ (∀ i, i < n → m.bel i n = 0) ∧ m.bel n n = 1 := by
  obtain ⟨⟨r, c, e⟩, bb, f⟩ := m
  cases bb
  · exact ⟨fun h => ⟨h.rows, h.cols, h.zero, h.one⟩, fun h => ⟨h.1, h.2.1, h.2.2.1, h.2.2.2⟩⟩
  · exact ⟨fun h => ⟨h.cols, h.rows, h.zero, h.one⟩, fun h => ⟨h.2.1, h.1, h.2.2.1, h.2.2.2⟩⟩

theorem checkLinear2D_ok {m : BMat K} (h : m.HasLin 2) : m.checkLinear2D = .ok () := by
  simp only [HasLin] at h
  simp [checkLinear2D, checkMinimumSize, Res.require, h]

theorem checkLinear3D_ok {m : BMat K} (h : m.HasLin 3) : m.checkLinear3D = .ok () := by
  simp only [HasLin] at h
  simp [checkLinear3D, checkMinimumSize, Res.require, h]

theorem checkMin22_ok {m : BMat K} (h : m.HasLin 2) : m.checkMinimumSize 2 2 = .ok () :=
  checkLinear2D_ok h

theorem checkMin33_ok {m : BMat K} (h : m.HasLin 3) : m.checkMinimumSize 3 3 = .ok () :=
  checkLinear3D_ok h

theorem checkMin44_ok {m : BMat K} (h : m.HasLin 4) : m.checkMinimumSize 4 4 = .ok () := by
  simp only [HasLin] at h
  simp [checkMinimumSize, Res.require, h]

theorem checkAffine2D_ok {m : BMat K} (h : m.HasAff 2) : m.checkAffine2D = .ok () := by
  unfold HasAff at h
  unfold checkAffine2D
  cases hb : m.basis <;> simp only [hb] at h <;> simp [checkMinimumSize, Res.require, h]

theorem checkAffine3D_ok {m : BMat K} (h : m.HasAff 3) : m.checkAffine3D = .ok () := by
  unfold HasAff at h
  unfold checkAffine3D
  cases hb : m.basis <;> simp only [hb] at h <;> simp [checkMinimumSize, Res.require, h]

/-- The error of a failed minimum size check. -/
def minErr (m : BMat K) : Err := if m.fixed then .staticAssert else .matMinimum

theorem checkLinear2D_throw {m : BMat K} (h : ¬m.HasLin 2) : m.checkLinear2D = .throw m.minErr := by
  simp only [HasLin] at h
  simp [checkLinear2D, checkMinimumSize, Res.require, h, minErr]

theorem checkLinear3D_throw {m : BMat K} (h : ¬m.HasLin 3) : m.checkLinear3D = .throw m.minErr := by
  simp only [HasLin] at h
  simp [checkLinear3D, checkMinimumSize, Res.require, h, minErr]

theorem checkMin44_throw {m : BMat K} (h : ¬m.HasLin 4) : m.checkMinimumSize 4 4 = .throw m.minErr := by
  simp only [HasLin] at h
  simp [checkMinimumSize, Res.require, h, minErr]

theorem checkAffine2D_throw {m : BMat K} (h : ¬m.HasAff 2) : m.checkAffine2D = .throw m.minErr := by
  unfold HasAff at h
  unfold checkAffine2D
  cases hb : m.basis <;> simp only [hb] at h <;> simp [checkMinimumSize, Res.require, h, minErr]

theorem checkAffine3D_throw {m : BMat K} (h : ¬m.HasAff 3) : m.checkAffine3D = .throw m.minErr := by
  unfold HasAff at h
  unfold checkAffine3D
  cases hb : m.basis <;> simp only [hb] at h <;> simp [checkMinimumSize, Res.require, h, minErr]

end BMat

open BMat

theorem linOf_apply (m : BMat K) (n : Nat) (r c : Fin n) : linOf m n r c = m.bel c r := by
  unfold linOf bel
  cases m.basis <;> rfl

theorem transOf_apply (m : BMat K) (n : Nat) (j : Fin n) : transOf m n j = m.bel n j := by
  unfold transOf bel
  cases m.basis <;> rfl

theorem linOf_eq_of (m m' : BMat K) (n : Nat) (h : ∀ i j, i < n → j < n → m.bel i j = m'.bel i j) :
    linOf m n = linOf m' n := by
  ext r c
  rw [linOf_apply, linOf_apply]
  exact h _ _ c.2 r.2

theorem Res.loop_congr {σ : Type} {f g : Nat → σ → Res σ} {lo n : Nat} {s : σ}
    (h : ∀ k, lo ≤ k → k < lo + n → ∀ s, f k s = g k s) : Res.loop f lo n s = Res.loop g lo n s := by
  induction n generalizing lo s with
  | zero => rfl
  | succ n ih =>
    simp only [Res.loop, h lo (Nat.le_refl _) (by omega)]
    congr 1
    funext s'
    exact ih (fun k h1 h2 => h k (by omega) (by omega))

namespace AVec

theorem get_ok {v : AVec K} {i : Nat} (h : i < v.size) : v.get i = .ok (v.el i) := by
  simp [get, h]

theorem checkSize_ok {v : AVec K} {n : Nat} (h : v.size = n) : v.checkSize n = .ok () := by
  simp [checkSize, Res.require, h]

/-- The error of a failed size check. -/
def sizeErr (v : AVec K) : Err := if v.fixed then .staticAssert else .vecSize

theorem checkSize_throw {v : AVec K} {n : Nat} (h : v.size ≠ n) : v.checkSize n = .throw v.sizeErr := by
  simp [checkSize, Res.require, h, sizeErr]

theorem checkMin_ok {v : AVec K} {n : Nat} (h : n ≤ v.size) : v.checkMinimumSize n = .ok () := by
  simp [checkMinimumSize, Res.require, h]

theorem checkSame_ok {a b : AVec K} (h : a.size = b.size) : checkSameSize a b = .ok () := by
  simp [checkSameSize, Res.require, h]

theorem mk2_is (f : Bool) (a b : K) : (mk2 f a b).Is 2 ![a, b] := by
  refine ⟨rfl, ?_⟩
  funext i
  fin_cases i <;> simp [vec, mk2]

theorem mk3_is (f : Bool) (a b c : K) : (mk3 f a b c).Is 3 ![a, b, c] := by
  refine ⟨rfl, ?_⟩
  funext i
  fin_cases i <;> simp [vec, mk3]

theorem loop_sum [AddCommMonoid K] (f : Nat → K) (n : Nat) (hn : 0 < n) :
    Res.loop (fun i acc => Res.ok (acc + f i)) 1 (n - 1) (f 0) = .ok (∑ i : Fin n, f i) := by
  have := Res.loop_inv (body := fun i acc => Res.ok (acc + f i)) (lo := 1) (n := n - 1) (s := f 0)
    (fun k acc => acc = ∑ i : Fin k, f i) (by simp)
    (by
      intro k s h1 h2 h
      exact ⟨_, rfl, by rw [h, Fin.sum_univ_castSucc]; simp⟩)
  obtain ⟨s, h, hs⟩ := this
  rw [h, hs]
  have : 1 + (n - 1) = n := by omega
  rw [this]

end AVec

/-- The accumulation loop of the products. -/
theorem inner_ok [CommSemiring K] {a b : Nat → Res K} {f g : Nat → K} {n : Nat} (hn : 0 < n)
    (ha : ∀ k, k < n → a k = .ok (f k)) (hb : ∀ k, k < n → b k = .ok (g k)) :
    (Res.loop (fun k e => do
      let x ← a k
      let y ← b k
      pure (e + x * y)) 1 (n - 1) (f 0 * g 0)) = .ok (∑ k : Fin n, f k * g k) := by
  rw [← AVec.loop_sum (fun k => f k * g k) n hn]
  refine Res.loop_congr (fun k hk hk' s => ?_)
  rw [ha k (by omega), hb k (by omega)]
  rfl

theorem AVec.putLoop_ok {F : Nat → Res K} {g : Nat → K} {n : Nat} (v : AVec K) (hv : v.size = n)
    (hF : ∀ i, i < n → F i = .ok (g i)) :
    ∃ w, Res.loop (fun i (r : AVec K) => do let e ← F i; r.put i e) 0 n v = .ok w ∧
      w.fixed = v.fixed ∧ w.size = n ∧ ∀ i, i < n → w.el i = g i := by
  have := Res.loop_inv (body := fun i (r : AVec K) => do let e ← F i; r.put i e) (lo := 0) (n := n)
    (s := v) (fun k w => w.fixed = v.fixed ∧ w.size = n ∧ ∀ i, i < k → w.el i = g i)
    ⟨rfl, hv, by simp⟩
    (by
      rintro k w - hk ⟨h1, h2, h3⟩
      rw [Nat.zero_add] at hk
      refine ⟨{ w with el := fun j => if j = k then g k else w.el j }, ?_, h1, h2, ?_⟩
      · simp [hF k hk, AVec.put, h2, hk]
      · intro i hi
        by_cases e : i = k
        · simp [e]
        · simpa [e] using h3 i (by omega))
  simpa using this

end CML


namespace CML
open BMat
variable {K : Type}

theorem get_ok' {M : Mat K} {i j : Nat} (hi : i < M.rows) (hj : j < M.cols) :
    M.get i j = .ok (M.el i j) := by simp [Mat.get, hi, hj]

theorem bMatVec_ok [CommSemiring K] {m : BMat K} {v : AVec K} (h : m.cols = v.size)
    (h0 : 0 < v.size) :
    ∃ w, bMatVec m v = .ok w ∧ w.fixed = (m.fixed && v.fixed) ∧ w.size = m.rows ∧
      ∀ i, i < m.rows → w.el i = ∑ k : Fin v.size, m.el i k * v.el k := by
  have hq : Res.require (decide (m.cols = v.size))
      (if m.fixed && v.fixed then Err.staticAssert else .matIncompatible) = .ok () := by
    simp [Res.require, h]
  unfold bMatVec
  rw [hq, Res.ok_bind]
  have key : ∀ i, i < m.rows → (do
      let x ← m.toMat.get i 0
      let y ← v.get 0
      Res.loop (fun k e => do
        let x ← m.toMat.get i k
        let y ← v.get k
        pure (e + x * y)) 1 (v.size - 1) (x * y)) =
      .ok (∑ k : Fin v.size, m.el i k * v.el k) := by
    intro i hi
    rw [get_ok' hi (by omega), Res.ok_bind, AVec.get_ok h0, Res.ok_bind]
    exact inner_ok (f := fun k => m.el i k) (g := fun k => v.el k) h0
      (fun k hk => get_ok' hi (by omega)) (fun k hk => AVec.get_ok hk)
  obtain ⟨w, h1, h2, h3, h4⟩ := AVec.putLoop_ok (n := m.rows)
    ⟨m.fixed && v.fixed, m.rows, fun _ => 0⟩ rfl key
  refine ⟨w, ?_, h2, h3, h4⟩
  rw [← h1]
  refine Res.loop_congr (fun i _ hi s => ?_)
  rw [get_ok' (by omega) (by omega)]
  simp only [Res.ok_bind, AVec.get_ok h0]

theorem bVecMat_ok [CommSemiring K] {m : BMat K} {v : AVec K} (h : v.size = m.rows)
    (h0 : 0 < v.size) :
    ∃ w, bVecMat v m = .ok w ∧ w.fixed = (m.fixed && v.fixed) ∧ w.size = m.cols ∧
      ∀ j, j < m.cols → w.el j = ∑ k : Fin v.size, v.el k * m.el k j := by
  have hq : Res.require (decide (v.size = m.rows))
      (if m.fixed && v.fixed then Err.staticAssert else .matIncompatible) = .ok () := by
    simp [Res.require, h]
  unfold bVecMat
  rw [hq, Res.ok_bind]
  have key : ∀ j, j < m.cols → (do
      let x ← v.get 0
      let y ← m.toMat.get 0 j
      Res.loop (fun k e => do
        let x ← v.get k
        let y ← m.toMat.get k j
        pure (e + x * y)) 1 (v.size - 1) (x * y)) =
      .ok (∑ k : Fin v.size, v.el k * m.el k j) := by
    intro j hj
    rw [AVec.get_ok h0, Res.ok_bind, get_ok' (by omega) hj, Res.ok_bind]
    exact inner_ok (f := fun k => v.el k) (g := fun k => m.el k j) h0
      (fun k hk => AVec.get_ok hk) (fun k hk => get_ok' (by omega) hj)
  obtain ⟨w, h1, h2, h3, h4⟩ := AVec.putLoop_ok (n := m.cols)
    ⟨m.fixed && v.fixed, m.cols, fun _ => 0⟩ rfl key
  refine ⟨w, ?_, h2, h3, h4⟩
  rw [← h1]
  refine Res.loop_congr (fun i _ hi s => ?_)
  rw [AVec.get_ok h0]
  simp only [Res.ok_bind, get_ok' (show 0 < m.rows by omega) (show i < m.cols by omega)]

theorem AVec.dot_ok [CommSemiring K] {a b : AVec K} {n : Nat} (ha : a.size = n) (hb : b.size = n)
    (hn : 0 < n) : a.dot b = .ok (∑ i : Fin n, a.el i * b.el i) := by
  simp only [AVec.dot, AVec.checkMin_ok (show 1 ≤ a.size by omega),
    AVec.checkMin_ok (show 1 ≤ b.size by omega), AVec.checkSame_ok (ha.trans hb.symm), Res.ok_bind,
    AVec.get_ok (show 0 < a.size by omega), AVec.get_ok (show 0 < b.size by omega)]
  rw [ha]
  exact inner_ok (f := a.el) (g := b.el) hn (fun k hk => AVec.get_ok (by omega))
    (fun k hk => AVec.get_ok (by omega))

theorem AVec.lengthSquared_ok [CommSemiring K] {a : AVec K} {n : Nat} (ha : a.size = n)
    (hn : 0 < n) : a.lengthSquared = .ok (∑ i : Fin n, a.el i * a.el i) := by
  simp only [AVec.lengthSquared, AVec.checkMin_ok (show 1 ≤ a.size by omega), Res.ok_bind,
    AVec.get_ok (show 0 < a.size by omega)]
  rw [ha, ← AVec.loop_sum (fun k => a.el k * a.el k) n hn]
  refine Res.loop_congr (fun k hk hk' s => ?_)
  rw [AVec.get_ok (by omega)]
  rfl

theorem AVec.dot3_ok [CommSemiring K] {a b : AVec K} (ha : a.size = 3) (hb : b.size = 3) :
    a.dot b = .ok (a.el 0 * b.el 0 + a.el 1 * b.el 1 + a.el 2 * b.el 2) := by
  rw [AVec.dot_ok ha hb (by decide), Fin.sum_univ_three]
  rfl

theorem AVec.dot2_ok [CommSemiring K] {a b : AVec K} (ha : a.size = 2) (hb : b.size = 2) :
    a.dot b = .ok (a.el 0 * b.el 0 + a.el 1 * b.el 1) := by
  rw [AVec.dot_ok ha hb (by decide), Fin.sum_univ_two]
  rfl

/-- The matrix product loop. -/
theorem bMatMul_ok [CommSemiring K] {a b : BMat K} (basis : Basis) (h : a.cols = b.rows)
    (h0 : 0 < a.cols) :
    ∃ m, bMatMul basis a b = .ok m ∧ m.rows = a.rows ∧ m.cols = b.cols ∧ m.basis = basis ∧
      m.fixed = (a.fixed && b.fixed) ∧
      ∀ i j, i < a.rows → j < b.cols → m.el i j = ∑ k : Fin a.cols, a.el i k * b.el k j := by
  have hq : Res.require (decide (a.cols = b.rows))
      (if a.fixed && b.fixed then Err.staticAssert else .matIncompatible) = .ok () := by
    simp [Res.require, h]
  unfold bMatMul
  rw [hq, Res.ok_bind]
  let S : Nat → Nat → K := fun i j => ∑ k : Fin a.cols, a.el i k * b.el k j
  have key : ∀ i j, i < a.rows → j < b.cols → ∀ M : BMat K, (do
      let x ← a.toMat.get i 0
      let y ← b.toMat.get 0 j
      let e ← Res.loop (fun k e => do
        let x ← a.toMat.get i k
        let y ← b.toMat.get k j
        pure (e + x * y)) 1 (a.cols - 1) (x * y)
      let N ← M.toMat.put i j e
      pure { M with toMat := N }) = (do
        let N ← M.toMat.put i j (S i j)
        pure { M with toMat := N }) := by
    intro i j hi hj M
    rw [get_ok' hi h0, Res.ok_bind, get_ok' (by omega) hj, Res.ok_bind]
    rw [inner_ok (f := fun k => a.el i k) (g := fun k => b.el k j) h0
      (fun k hk => get_ok' hi hk) (fun k hk => get_ok' (by omega) hj)]
    rfl
  let T : BMat K → Prop := fun M => M.rows = a.rows ∧ M.cols = b.cols ∧ M.basis = basis ∧
    M.fixed = (a.fixed && b.fixed)
  obtain ⟨m, h1, h2, h3⟩ := Res.loop_inv (lo := 0) (n := a.rows)
    (s := (⟨⟨a.rows, b.cols, fun _ _ => 0⟩, basis, a.fixed && b.fixed⟩ : BMat K))
    (body := fun i M => Res.loop (fun j (M : BMat K) => do
        let x ← a.toMat.get i 0
        let y ← b.toMat.get 0 j
        let e ← Res.loop (fun k e => do
          let x ← a.toMat.get i k
          let y ← b.toMat.get k j
          pure (e + x * y)) 1 (a.cols - 1) (x * y)
        let N ← M.toMat.put i j e
        pure { M with toMat := N }) 0 b.cols M)
    (fun i M => T M ∧ ∀ p q, p < i → q < b.cols → M.el p q = S p q)
    ⟨⟨rfl, rfl, rfl, rfl⟩, by simp⟩
    (by
      rintro i M - hi ⟨hT, hM⟩
      rw [Nat.zero_add] at hi
      obtain ⟨M', g1, g2, g3, g4⟩ := Res.loop_inv (lo := 0) (n := b.cols) (s := M)
        (body := fun j (M : BMat K) => do
          let x ← a.toMat.get i 0
          let y ← b.toMat.get 0 j
          let e ← Res.loop (fun k e => do
            let x ← a.toMat.get i k
            let y ← b.toMat.get k j
            pure (e + x * y)) 1 (a.cols - 1) (x * y)
          let N ← M.toMat.put i j e
          pure { M with toMat := N })
        (fun j M => T M ∧ (∀ p q, p < i → q < b.cols → M.el p q = S p q) ∧
          ∀ q, q < j → M.el i q = S i q)
        ⟨hT, hM, by simp⟩
        (by
          rintro j M - hj ⟨⟨t1, t2, t3, t4⟩, hM, hr⟩
          rw [Nat.zero_add] at hj
          rw [key i j hi hj]
          refine ⟨{ M with toMat := M.toMat.set i j (S i j) }, ?_, ⟨t1, t2, t3, t4⟩, ?_, ?_⟩
          · simp [Mat.put, t1, t2, hi, hj]
          · intro p q hp hq
            simpa [Mat.set, show p ≠ i by omega] using hM p q hp hq
          · intro q hq
            by_cases e : q = j
            · simp [Mat.set, e]
            · simpa [Mat.set, e] using hr q (by omega))
      refine ⟨M', g1, g2, ?_⟩
      intro p q hp hq
      by_cases e : p = i
      · rw [e]; exact g4 q (by simpa using hq)
      · exact g3 p q (by omega) hq)
  refine ⟨m, h1, h2.1, h2.2.1, h2.2.2.1, h2.2.2.2, ?_⟩
  intro i j hi hj
  exact h3 i j (by simpa using hi) hj

end CML

/-- Side conditions "the element is inside of the matrix". -/
macro "bnd" : tactic => `(tactic| first | omega | (simp; omega))

/-- Run a builder whose size checks succeed. -/
macro "lin_run" "[" ts:Lean.Parser.Tactic.simpLemma,* "]" : tactic =>
  `(tactic| simp (disch := bnd) only [$ts,*, CML.BMat.bget_ok, CML.BMat.bput_ok, CML.AVec.get_ok,
    CML.Res.ok_bind, CML.Res.pure_eq, CML.Res.ok.injEq, exists_eq_left'])
