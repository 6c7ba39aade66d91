import Verif.Lemmas.IntQuat
import Verif.Props.Quat

/-!
C131: quaternions of integers, `quaternion<int, …>`.  The product, the conjugate and the norm are exact
(C43, C44 are proved over every commutative ring); the inverse, the length and `normalize` truncate.
-/

set_option linter.unusedSectionVars false

namespace CML
open Quaternion

variable {s : QState CInt} {a : QNode CInt} {v : QVar} {h : ℍ[CInt]}

/-! ### Inverse -/

/-- C131: a quaternion of integers has norm one exactly if it is one of ±1, ±i, ±j, ±k. -/
theorem quat_int_unit (h : ℍ[CInt]) : normSq h = 1 ↔
    h = qOf 1 0 0 0 ∨ h = qOf (-1) 0 0 0 ∨ h = qOf 0 1 0 0 ∨ h = qOf 0 (-1) 0 0 ∨
    h = qOf 0 0 1 0 ∨ h = qOf 0 0 (-1) 0 ∨ h = qOf 0 0 0 1 ∨ h = qOf 0 0 0 (-1) := by
  constructor
  · intro h1
    obtain ⟨a, b, c, d⟩ := cnormSq_le h
    have h2 := cnormSq_def h
    rw [h1] at a b c d h2
    have z : ∀ x : CInt, x * x ≤ 1 → x = 0 ∨ x = 1 ∨ x = -1 := by
      intro x hx
      have : ∀ x : ℤ, x * x ≤ 1 → x = 0 ∨ x = 1 ∨ x = -1 := by
        intro x hx
        have h1 : x ≤ 1 := by nlinarith
        have h2 : -1 ≤ x := by nlinarith
        omega
      exact this x hx
    rw [qOf_eta h]
    rcases z _ a with a | a | a <;> rcases z _ b with b | b | b <;>
      rcases z _ c with c | c | c <;> rcases z _ d with d | d | d <;>
      rw [a, b, c, d] at h2 ⊢ <;>
      first
        | exact absurd h2 (by decide)
        | simp
  · rintro (rfl | rfl | rfl | rfl | rfl | rfl | rfl | rfl) <;>
      rw [cnormSq_def] <;> decide

/-- C131: `inverse(q)` of a quaternion of integers: zero divides by zero, a quaternion of norm one gives its
conjugate, every other one gives the zero quaternion. -/
theorem qinv_int (ha : QReads s a h) :
    (h = 0 → qInv s a = .ub .divZero) ∧
    (normSq h = 1 → ∃ b, qInv s a = .ok b ∧ QReads s b (star h)) ∧
    (1 < normSq h → ∃ b, qInv s a = .ok b ∧ QReads s b 0) := by
  refine ⟨?_, ?_, ?_⟩
  · rintro rfl
    simp [qInv, qNorm, qLengthSquared_eq ha, divR]
  · intro h1
    refine ⟨.inv a 1, ?_, by simpa using qinv_node ha 1⟩
    simp [qInv, qNorm, qLengthSquared_eq ha, divR, h1, cdiv_one]
  · intro h1
    have h0 : normSq h ≠ 0 := (lt_trans one_pos h1).ne'
    refine ⟨.inv a 0, ?_, by simpa using qinv_node ha 0⟩
    have : (1 : CInt) / normSq h = 0 := cdiv_small (by rwa [abs_one])
    simp [qInv, qNorm, qLengthSquared_eq ha, divR, h0, this]

/-- C131: the same for the in-place `q.inverse()`; no other quaternion changes. -/
theorem qinverse_int (hv : QIs s v h) :
    (h = 0 → qInverse s v = .ub .divZero) ∧
    (normSq h = 1 → ∃ s', qInverse s v = .ok s' ∧ QIs s' v (star h) ∧ ∀ y, y ≠ v.id → s' y = s y) ∧
    (1 < normSq h → ∃ s', qInverse s v = .ok s' ∧ QIs s' v 0 ∧ ∀ y, y ≠ v.id → s' y = s y) := by
  refine ⟨?_, ?_, ?_⟩
  · rintro rfl
    have h0 := (qholds_iff.1 hv).1
    simp [qInverse, qNorm, qLengthSquared_eq (qreads_var hv), QArr.get, h0, QOrder.W_lt, Res.bind, divR,
      qPutRes]
  · intro h1
    obtain ⟨s', e1, e2, e3⟩ := qinverse_quot hv (by rw [h1]; exact one_ne_zero)
    refine ⟨s', e1, ?_, e3⟩
    convert e2 using 1
    ext <;> simp [qQuot, h1, cdiv_one]
  · intro h1
    obtain ⟨s', e1, e2, e3⟩ := qinverse_quot hv (lt_trans one_pos h1).ne'
    refine ⟨s', e1, ?_, e3⟩
    convert e2 using 1
    obtain ⟨a, b, c, d⟩ := cnormSq_le h
    have z : ∀ x : CInt, x * x ≤ normSq h → x / normSq h = 0 ∧ (-x) / normSq h = 0 := fun x hx =>
      ⟨cdiv_small (abs_lt_of_sq h1 hx), cdiv_small (by rw [abs_neg]; exact abs_lt_of_sq h1 hx)⟩
    ext <;> simp [qQuot, z _ a, z _ b, z _ c, z _ d]

/-- C131: what `inverse` gives is an inverse — on either side — exactly for the quaternions of norm one. -/
theorem qinv_int_iff (ha : QReads s a h) (h0 : h ≠ 0) :
    ∃ b r, qInv s a = .ok b ∧ QReads s b r ∧ (r * h = 1 ↔ normSq h = 1) ∧ (h * r = 1 ↔ normSq h = 1) := by
  obtain ⟨-, h2, h3⟩ := qinv_int ha
  rcases cpos_cases h with h1 | h1 | h1
  · exact absurd h1 h0
  · obtain ⟨b, e1, e2⟩ := h2 h1
    refine ⟨b, star h, e1, e2, ?_, ?_⟩
    · rw [Quaternion.star_mul_self, h1]; simp
    · rw [Quaternion.self_mul_star, h1]; simp
  · obtain ⟨b, e1, e2⟩ := h3 h1
    refine ⟨b, 0, e1, e2, ?_, ?_⟩
    · rw [zero_mul]
      exact iff_of_false zero_ne_one h1.ne'
    · rw [mul_zero]
      exact iff_of_false zero_ne_one h1.ne'

/-- C131: the claim `q * inverse(q) = 1` fails for every quaternion of integers other than the eight units. -/
theorem qinv_int_false (ha : QReads s a h) (h0 : h ≠ 0)
    (hu : h ∉ ({qOf 1 0 0 0, qOf (-1) 0 0 0, qOf 0 1 0 0, qOf 0 (-1) 0 0, qOf 0 0 1 0, qOf 0 0 (-1) 0,
      qOf 0 0 0 1, qOf 0 0 0 (-1)} : Set ℍ[CInt])) :
    ∃ b r, qInv s a = .ok b ∧ QReads s b r ∧ r = 0 ∧ h * r ≠ 1 ∧ r * h ≠ 1 := by
  have h1 : normSq h ≠ 1 := fun e => hu (by simpa using (quat_int_unit h).1 e)
  obtain ⟨b, r, e1, e2, e3, e4⟩ := qinv_int_iff ha h0
  refine ⟨b, r, e1, e2, ?_, fun e => h1 (e4.1 e), fun e => h1 (e3.1 e)⟩
  have h2 : 1 < normSq h := by
    rcases cpos_cases h with h | h | h
    exacts [absurd h h0, absurd h h1, h]
  obtain ⟨b', g1, g2⟩ := (qinv_int ha).2.2 h2
  rw [e1] at g1
  cases g1
  exact qreads_unique e2 g2

/-- C131, the part that holds of the inverse: for ±1, ±i, ±j and ±k both forms give the inverse.  Missing: every
other quaternion (`qinv_int_false`). -/
theorem qinv_int_partial (hv : QIs s v h) (hu : normSq h = 1) :
    ∃ b s' r, qInv s (.var v) = .ok b ∧ QReads s b r ∧ qInverse s v = .ok s' ∧ QIs s' v r ∧
      (∀ y, y ≠ v.id → s' y = s y) ∧ r * h = 1 ∧ h * r = 1 := by
  obtain ⟨b, e1, e2⟩ := (qinv_int (qreads_var hv)).2.1 hu
  obtain ⟨s', g1, g2, g3⟩ := (qinverse_int hv).2.1 hu
  refine ⟨b, s', star h, e1, e2, g1, g2, g3, ?_, ?_⟩
  · rw [Quaternion.star_mul_self, hu]; simp
  · rw [Quaternion.self_mul_star, hu]; simp

/-! ### Length and normalisation -/

/-- C131: the length of a quaternion of integers is the square root of its norm, rounded down. -/
theorem qlength_int (ha : QReads s a h) :
    ∃ l : CInt, qLength s a = .ok l ∧ 0 ≤ l ∧ l * l ≤ normSq h ∧ normSq h < (l + 1) * (l + 1) :=
  ⟨Sqrt.sqrt (normSq h), by simp [qLength, qLengthSquared_eq ha], csqrt_spec (cnormSq_nonneg h)⟩

/-- `y` is what truncating division by the length `l` leaves of `x`. -/
def SignAt (l x y : CInt) : Prop := (x = l → y = 1) ∧ (x = -l → y = -1) ∧ (|x| ≠ l → y = 0)

private theorem qnormalize_core_int (ha : QReads s a h) (h0 : h ≠ 0) :
    ∃ l : CInt, qLength s a = .ok l ∧ 0 < l ∧ l * l ≤ normSq h ∧ normSq h < (l + 1) * (l + 1) ∧
      SignAt l h.re (h.re / l) ∧ SignAt l h.imI (h.imI / l) ∧ SignAt l h.imJ (h.imJ / l) ∧
      SignAt l h.imK (h.imK / l) := by
  obtain ⟨l, h1, h2, h3, h4⟩ := qlength_int ha
  have hn : (0 : CInt) < normSq h :=
    lt_of_le_of_ne (cnormSq_nonneg h) fun e => h0 ((cnormSq_zero h).1 e.symm)
  have hl : 0 < l := by
    rcases h2.eq_or_lt with e | e
    · rw [← e] at h4
      exact absurd (Int.lt_add_one_iff.1 (show normSq h < 0 + 1 by simpa using h4)) (not_le.2 hn)
    · exact e
  have hb : ∀ x : CInt, x * x ≤ normSq h → |x| ≤ l := by
    intro x hx
    have : |x| < l + 1 := by
      rw [← abs_of_nonneg (show 0 ≤ l + 1 by linarith)]
      exact sq_lt_sq.1 (by rw [sq, sq]; exact lt_of_le_of_lt hx h4)
    exact Int.lt_add_one_iff.1 this
  obtain ⟨a, b, c, d⟩ := cnormSq_le h
  exact ⟨l, h1, hl, h3, h4, cdiv_len hl (hb _ a), cdiv_len hl (hb _ b), cdiv_len hl (hb _ c), cdiv_len hl (hb _ d)⟩

/-- C131: `normalize`, in place and as an expression: 1 or -1 in the elements whose absolute value is the
(truncated) length, zero in all others; the zero quaternion divides by zero; no other quaternion changes. -/
theorem qnormalize_int (hv : QIs s v h) :
    (h ≠ 0 → ∃ s' b u, ∃ l : CInt, qNormalize s v = .ok s' ∧ QIs s' v u ∧ (∀ y, y ≠ v.id → s' y = s y) ∧
      qNormalized s (.var v) = .ok b ∧ QReads s b u ∧ qLength s (.var v) = .ok l ∧ 0 < l ∧
      SignAt l h.re u.re ∧ SignAt l h.imI u.imI ∧ SignAt l h.imJ u.imJ ∧ SignAt l h.imK u.imK) ∧
    (h = 0 → qNormalize s v = .ub .divZero) := by
  constructor
  · intro h0
    obtain ⟨l, h1, h2, -, -, h3⟩ := qnormalize_core_int (qreads_var hv) h0
    obtain ⟨s', e1, e2, e3⟩ := qQuot_assign hv h2.ne'
    exact ⟨s', .scal .div (.var v) l, qQuot h l, l, by simp [qNormalize, h1, e1], e2, e3, by simp [qNormalized, h1],
      qQuot_reads (qreads_var hv) h2.ne', h1, h2, h3⟩
  · rintro rfl
    obtain ⟨l, h1, h2, h3, -⟩ := qlength_int (qreads_var hv)
    have hl : l = 0 := mul_self_eq_zero.1 (le_antisymm (by simpa using h3) (mul_self_nonneg l))
    obtain ⟨x, hx⟩ : ∃ x, QNode.get s (.var v) 0 = .ok x := by
      have h := qreads_var hv
      unfold QReads at h
      revert h
      cases (QNode.var v : QNode CInt).order <;> simp only [] <;> exact fun h => ⟨_, h.1⟩
    simp only [qNormalize, h1, Out.withVal_ok, hl]
    simp [qScalAssign, Out.loop, qPutRes, hx, QScalar.read, divR]

/-- C131: unless `q` is a multiple of 1, i, j or k, the result of `normalize` is not a unit quaternion of which `q`
is a multiple. -/
theorem qnormalize_int_false (hv : QIs s v h)
    (hm : ∀ k : CInt, h ≠ qOf k 0 0 0 ∧ h ≠ qOf 0 k 0 0 ∧ h ≠ qOf 0 0 k 0 ∧ h ≠ qOf 0 0 0 k) :
    ∃ s' u, qNormalize s v = .ok s' ∧ QIs s' v u ∧ ¬(normSq u = 1 ∧ ∃ k : CInt, h = k • u) := by
  have h0 : h ≠ 0 := (hm 0).1
  obtain ⟨s', -, u, -, e1, e2, -⟩ := (qnormalize_int hv).1 h0
  refine ⟨s', u, e1, e2, ?_⟩
  rintro ⟨h1, k, rfl⟩
  rcases (quat_int_unit u).1 h1 with rfl | rfl | rfl | rfl | rfl | rfl | rfl | rfl
  · exact (hm k).1 (by ext <;> simp)
  · exact (hm (-k)).1 (by ext <;> simp)
  · exact (hm k).2.1 (by ext <;> simp)
  · exact (hm (-k)).2.1 (by ext <;> simp)
  · exact (hm k).2.2.1 (by ext <;> simp)
  · exact (hm (-k)).2.2.1 (by ext <;> simp)
  · exact (hm k).2.2.2 (by ext <;> simp)
  · exact (hm (-k)).2.2.2 (by ext <;> simp)

/-- C131, the part that holds of `normalize`: a positive multiple of one of the eight units becomes that unit.
Missing: every other quaternion (`qnormalize_int_false`). -/
theorem qnormalize_int_partial {u : ℍ[CInt]} {k : CInt} (hk : 0 < k) (hu : normSq u = 1)
    (hv : QIs s v (k • u)) :
    ∃ s' b, qNormalize s v = .ok s' ∧ QIs s' v u ∧ qNormalized s (.var v) = .ok b ∧ QReads s b u ∧
      qLength s (.var v) = .ok k := by
  have hn : normSq (k • u) = k * k := by rw [Quaternion.normSq_smul, hu, mul_one, sq]
  have h0 : k • u ≠ 0 := fun e => by
    rw [e, map_zero] at hn
    exact (mul_pos hk hk).ne hn
  obtain ⟨s', b, w, l, e1, e2, -, e3, e4, e5, e6, e7⟩ := (qnormalize_int hv).1 h0
  have hl : l = k := by
    obtain ⟨l', g1, g2, g3, g4⟩ := qlength_int (qreads_var hv)
    rw [e5] at g1
    cases g1
    rw [hn] at g3 g4
    have a1 : l ≤ k := by nlinarith
    have a2 : k < l + 1 := by nlinarith
    exact le_antisymm a1 (Int.lt_add_one_iff.1 a2)
  subst hl
  have hw : w = u := by
    obtain ⟨c0, c1, c2, c3⟩ := e7
    have hab : |(0 : CInt)| ≠ l := by rw [abs_zero]; exact hk.ne
    rcases (quat_int_unit u).1 hu with rfl | rfl | rfl | rfl | rfl | rfl | rfl | rfl <;>
      simp only [Quaternion.re_smul, Quaternion.imI_smul, Quaternion.imJ_smul, Quaternion.imK_smul, smul_eq_mul, mul_zero,
        mul_one, mul_neg, qOf_re, qOf_imI, qOf_imJ, qOf_imK] at c0 c1 c2 c3 <;>
      ext <;>
      first
        | exact c0.1 rfl | exact c0.2.1 rfl | exact c0.2.2 hab
        | exact c1.1 rfl | exact c1.2.1 rfl | exact c1.2.2 hab
        | exact c2.1 rfl | exact c2.2.1 rfl | exact c2.2.2 hab
        | exact c3.1 rfl | exact c3.2.1 rfl | exact c3.2.2 hab
  subst hw
  exact ⟨s', b, e1, e2, e3, e4, e5⟩

/-! ### The hypotheses are met -/

/-- A state with one quaternion. -/
private def exQ (w x y z : CInt) : QState CInt := fun _ => qMake .realFirst w x y z

private theorem exQ_is (w x y z : CInt) : QIs (exQ w x y z) ⟨0, .realFirst, .positive⟩ (qOf w x y z) :=
  ⟨rfl, rfl, rfl, rfl⟩

/-- `1 + 2i` has norm five: `q.inverse()` is zero, as is `inverse(q)`. -/
example : ∃ s', qInverse (exQ 1 2 0 0) ⟨0, .realFirst, .positive⟩ = .ok s' ∧
    QIs s' ⟨0, .realFirst, .positive⟩ 0 := by
  obtain ⟨s', h1, h2, -⟩ := (qinverse_int (exQ_is 1 2 0 0)).2.2 (by rw [cnormSq_def]; decide)
  exact ⟨s', h1, h2⟩

/-- The inverse of `j` is `-j`. -/
example : ∃ b s' r, qInv (exQ 0 0 1 0) (.var ⟨0, .realFirst, .positive⟩) = .ok b ∧
    QReads (exQ 0 0 1 0) b r ∧ qInverse (exQ 0 0 1 0) ⟨0, .realFirst, .positive⟩ = .ok s' ∧
    r * qOf 0 0 1 0 = 1 := by
  obtain ⟨b, s', r, h1, h2, h3, -, -, h4, -⟩ := qinv_int_partial (exQ_is 0 0 1 0) (by rw [cnormSq_def]; decide)
  exact ⟨b, s', r, h1, h2, h3, h4⟩

/-- `normalize` of `3 + 4k` (length five) leaves zero; of `3 + k` (length three) it leaves one. -/
example : (∃ s', qNormalize (exQ 3 0 0 4) ⟨0, .realFirst, .positive⟩ = .ok s' ∧
      QIs s' ⟨0, .realFirst, .positive⟩ 0) ∧
    (∃ s', qNormalize (exQ 3 0 0 1) ⟨0, .realFirst, .positive⟩ = .ok s' ∧
      QIs s' ⟨0, .realFirst, .positive⟩ 1) := by
  constructor
  · obtain ⟨s', b, u, l, h1, h2, -, -, -, h3, -, c0, c1, c2, c3⟩ := (qnormalize_int (exQ_is 3 0 0 4)).1
      (fun h => absurd (congrArg QuaternionAlgebra.re h) (by decide))
    have hl : l = 5 := by
      have : qLength (exQ 3 0 0 4) (.var ⟨0, .realFirst, .positive⟩) = .ok (5 : CInt) := by decide +kernel
      rw [h3] at this; cases this; rfl
    subst hl
    refine ⟨s', h1, ?_⟩
    convert h2 using 1
    symm
    ext
    exacts [c0.2.2 (by decide), c1.2.2 (by decide), c2.2.2 (by decide), c3.2.2 (by decide)]
  · obtain ⟨s', b, u, l, h1, h2, -, -, -, h3, -, c0, c1, c2, c3⟩ := (qnormalize_int (exQ_is 3 0 0 1)).1
      (fun h => absurd (congrArg QuaternionAlgebra.re h) (by decide))
    have hl : l = 3 := by
      have : qLength (exQ 3 0 0 1) (.var ⟨0, .realFirst, .positive⟩) = .ok (3 : CInt) := by decide +kernel
      rw [h3] at this; cases this; rfl
    subst hl
    refine ⟨s', h1, ?_⟩
    convert h2 using 1
    symm
    ext
    exacts [c0.1 (by decide), c1.2.2 (by decide), c2.2.2 (by decide), c3.2.2 (by decide)]

/-- `7k` becomes `k`. -/
example : ∃ s', qNormalize (exQ 0 0 0 7) ⟨0, .realFirst, .positive⟩ = .ok s' ∧
    QIs s' ⟨0, .realFirst, .positive⟩ (qOf 0 0 0 1) := by
  obtain ⟨s', b, h1, h2, -⟩ := qnormalize_int_partial (s := exQ 0 0 0 7) (v := ⟨0, .realFirst, .positive⟩)
    (k := 7) (u := qOf 0 0 0 1) (by decide) (by rw [cnormSq_def]; decide) (by
      convert exQ_is 0 0 0 7 using 1
      ext <;> simp)
  exact ⟨s', h1, h2⟩

#print axioms quat_int_unit
#print axioms qinv_int
#print axioms qinverse_int
#print axioms qinv_int_iff
#print axioms qinv_int_false
#print axioms qinv_int_partial
#print axioms qlength_int
#print axioms qnormalize_int
#print axioms qnormalize_int_false
#print axioms qnormalize_int_partial

end CML
