import Verif.Lemmas.Quat
import Verif.Model.QuatReal
import Verif.Props.IntElem

/-! Lemmas about quaternions of integers. -/

set_option linter.unusedSectionVars false

namespace CML
open Quaternion

variable {s : QState CInt} {a : QNode CInt} {v : QVar} {h : ℍ[CInt]}

/-- The quaternion `w + x i + y j + z k`. -/
def qOf (w x y z : CInt) : ℍ[CInt] := ⟨w, x, y, z⟩

@[simp] theorem qOf_re (w x y z : CInt) : (qOf w x y z).re = w := rfl
@[simp] theorem qOf_imI (w x y z : CInt) : (qOf w x y z).imI = x := rfl
@[simp] theorem qOf_imJ (w x y z : CInt) : (qOf w x y z).imJ = y := rfl
@[simp] theorem qOf_imK (w x y z : CInt) : (qOf w x y z).imK = z := rfl

theorem qOf_eta (h : ℍ[CInt]) : h = qOf h.re h.imI h.imJ h.imK := by ext <;> rfl

/-- Every element divided by `k`. -/
def qQuot (h : ℍ[CInt]) (k : CInt) : ℍ[CInt] := ⟨h.re / k, h.imI / k, h.imJ / k, h.imK / k⟩

theorem qQuot_assign (hv : QIs s v h) {k : CInt} (hk : k ≠ 0) :
    ∃ s', qScalAssign .div s v (.val k) = .ok s' ∧
      QIs s' v (qQuot h k) ∧ ∀ y, y ≠ v.id → s' y = s y := by
  obtain ⟨h0, h1, h2, h3⟩ := qreads_iff.1 (qreads_var hv)
  have hvo : (QNode.var v : QNode CInt).order = v.order := rfl
  rw [hvo] at h0 h1 h2 h3
  have hg : ∃ g : Nat → CInt, ∀ i, i < 4 → ∀ x, QNode.get s (.var v) i = .ok x → g i = x :=
    ⟨fun i => match QNode.get s (.var v) i with
      | .ok x => x
      | _ => 0, fun i _ x hx => by simp [hx]⟩
  obtain ⟨g, hg⟩ := hg
  have hW := hg _ (QOrder.W_lt _) _ h0
  have hX := hg _ (QOrder.X_lt _) _ h1
  have hY := hg _ (QOrder.Y_lt _) _ h2
  have hZ := hg _ (QOrder.Z_lt _) _ h3
  have hall : ∀ i, i < 4 → ∃ x, QNode.get s (.var v) i = .ok x := by
    intro i hi
    have : i = v.order.W ∨ i = v.order.X ∨ i = v.order.Y ∨ i = v.order.Z := by
      cases v.order <;> simp only [QOrder.W, QOrder.X, QOrder.Y, QOrder.Z] <;> omega
    rcases this with rfl | rfl | rfl | rfl
    exacts [⟨_, h0⟩, ⟨_, h1⟩, ⟨_, h2⟩, ⟨_, h3⟩]
  obtain ⟨s', e1, e2, e3⟩ := qPutLoop (s := s) (x := v.id) (g := fun i => g i / k)
    (f := fun s i => do
      let x ← QNode.get s (.var v) i
      let y ← (QScalar.val k).read s
      divR x y) (by
    intro i s' hi hs
    obtain ⟨x, hx⟩ := hall i hi
    rw [QNode.get_congr _ i (s := s) (fun y => hs y i (fun _ => le_refl i)), hx, hg i hi x hx]
    simp [divR, hk, QScalar.read])
  refine ⟨s', e1, ?_, e3⟩
  unfold QIs
  rw [qholds_iff, e2 _ (QOrder.W_lt _), e2 _ (QOrder.X_lt _), e2 _ (QOrder.Y_lt _), e2 _ (QOrder.Z_lt _), hW, hX, hY, hZ]
  exact ⟨rfl, rfl, rfl, rfl⟩

theorem qQuot_reads (ha : QReads s a h) {k : CInt} (hk : k ≠ 0) : QReads s (.scal .div a k) (qQuot h k) := by
  obtain ⟨h0, h1, h2, h3⟩ := qreads_iff.1 ha
  rw [qreads_iff]
  simp only [QNode.order, QNode.ty, QTy.order] at *
  simp [QNode.get, h0, h1, h2, h3, divR, hk, qQuot]

/-- The node built by `inverse(q)` multiplies the conjugate by the stored quotient. -/
theorem qinv_node (ha : QReads s a h) (k : CInt) : QReads s (.inv a k) (k • star h) := by
  obtain ⟨h0, h1, h2, h3⟩ := qreads_iff.1 ha
  have hd := QOrder.distinct a.order
  rw [qreads_iff]
  have ho : (QNode.inv a k).order = a.order := rfl
  rw [ho]
  simp [QNode.get, h0, h1, h2, h3, hd.1, hd.2.1, hd.2.2.2.1]

/-- The in-place inverse divides each element of the conjugate by the norm. -/
theorem qinverse_quot (hv : QIs s v h) (hn : normSq h ≠ 0) :
    ∃ s', qInverse s v = .ok s' ∧ QIs s' v (qQuot (star h) (normSq h)) ∧ ∀ y, y ≠ v.id → s' y = s y := by
  have hd := QOrder.distinct v.order
  obtain ⟨h0, h1, h2, h3⟩ := qholds_iff.1 hv
  have hr := qreads_var hv
  have := qPut4 (s := s) (x := v.id) (o := v.order) (h := qQuot (star h) (normSq h))
    (f := fun s i => if i = v.order.W then (QArr.get (s v.id) i).bind fun x => divR x (normSq h) else
      (QArr.get (s v.id) i).bind fun x => divR (-x) (normSq h))
    (by simp [QArr.get, h0, QOrder.W_lt, Res.bind, divR, hn, qQuot])
    (fun s' hs => by
      have := hs v.id v.order.X (fun _ => hd.1)
      simp [QArr.get, this, hd.1, h1, QOrder.X_lt, Res.bind, divR, hn, qQuot])
    (fun s' hs => by
      have := hs v.id v.order.Y (fun _ => ⟨hd.2.1, hd.2.2.1⟩)
      simp [QArr.get, this, hd.2.1, h2, QOrder.Y_lt, Res.bind, divR, hn, qQuot])
    (fun s' hs => by
      have := hs v.id v.order.Z (fun _ => ⟨hd.2.2.2.1, hd.2.2.2.2.1, hd.2.2.2.2.2⟩)
      simp [QArr.get, this, hd.2.2.2.1, h3, QOrder.Z_lt, Res.bind, divR, hn, qQuot])
  simpa only [if_true, hd.1, hd.2.1, hd.2.2.2.1, if_false, qInverse, QIs, qNorm,
    qLengthSquared_eq hr, Out.withVal_ok] using this

theorem cdiv_one (x : CInt) : x / 1 = x := Int.tdiv_one x

theorem cdiv_small {n x : CInt} (h : |x| < n) : x / n = 0 :=
  (cdiv_len (lt_of_le_of_lt (abs_nonneg x) h) h.le).2.2 h.ne

/-- An integer is at most its square; above one it is smaller. -/
theorem abs_lt_of_sq {n x : CInt} (h1 : 1 < n) (h2 : x * x ≤ n) : |x| < n := by
  have h3 : |x| * |x| ≤ n := by rwa [abs_mul_abs_self]
  by_contra hc
  rw [not_lt] at hc
  nlinarith

theorem cnormSq_def (h : ℍ[CInt]) :
    normSq h = h.re * h.re + h.imI * h.imI + h.imJ * h.imJ + h.imK * h.imK := by
  rw [normSq_def']; ring

theorem cnormSq_nonneg (h : ℍ[CInt]) : 0 ≤ normSq h := by
  rw [cnormSq_def]
  nlinarith [mul_self_nonneg h.re, mul_self_nonneg h.imI, mul_self_nonneg h.imJ, mul_self_nonneg h.imK]

/-- Each square is at most the norm. -/
theorem cnormSq_le (h : ℍ[CInt]) : h.re * h.re ≤ normSq h ∧ h.imI * h.imI ≤ normSq h ∧
    h.imJ * h.imJ ≤ normSq h ∧ h.imK * h.imK ≤ normSq h := by
  rw [cnormSq_def]
  have a := mul_self_nonneg h.re
  have b := mul_self_nonneg h.imI
  have c := mul_self_nonneg h.imJ
  have d := mul_self_nonneg h.imK
  refine ⟨?_, ?_, ?_, ?_⟩ <;> linarith

theorem cnormSq_zero (h : ℍ[CInt]) : normSq h = 0 ↔ h = 0 := by
  constructor
  · intro h0
    obtain ⟨a, b, c, d⟩ := cnormSq_le h
    rw [h0] at a b c d
    have z : ∀ x : CInt, x * x ≤ 0 → x = 0 := fun x hx => mul_self_eq_zero.1 (le_antisymm hx (mul_self_nonneg x))
    ext
    exacts [z _ a, z _ b, z _ c, z _ d]
  · rintro rfl; simp

theorem cpos_cases (h : ℍ[CInt]) : h = 0 ∨ normSq h = 1 ∨ 1 < normSq h := by
  by_cases h0 : h = 0
  · exact .inl h0
  · have h1 : normSq h ≠ 0 := fun e => h0 ((cnormSq_zero h).1 e)
    have h2 : (0 : CInt) < normSq h := lt_of_le_of_ne (cnormSq_nonneg h) (Ne.symm h1)
    have h3 : (1 : CInt) ≤ normSq h := Int.add_one_le_iff.2 h2
    rcases h3.eq_or_lt with e | e
    exacts [.inr (.inl e.symm), .inr (.inr e)]

end CML
