import Verif.Spec.Quat
import Verif.Tactics

/-! Lemmas for the quaternion theorems. -/

set_option linter.unusedSectionVars false

namespace CML

open Quaternion

section
variable {E : Type} [Zero E] [One E] [Add E] [Sub E] [Mul E] [Neg E] [Div E] [DecidableEq E]

theorem qreads_iff {s : QState E} {a : QNode E} {h : ℍ[E]} :
    QReads s a h ↔ a.get s a.order.W = .ok h.re ∧ a.get s a.order.X = .ok h.imI ∧
      a.get s a.order.Y = .ok h.imJ ∧ a.get s a.order.Z = .ok h.imK := by
  unfold QReads
  cases a.order <;> simp only [QOrder.W, QOrder.X, QOrder.Y, QOrder.Z]
  tauto

theorem qholds_iff {o : QOrder} {el : QArr E} {h : ℍ[E]} :
    QHolds o el h ↔ el o.W = some h.re ∧ el o.X = some h.imI ∧ el o.Y = some h.imJ ∧
      el o.Z = some h.imK := by
  unfold QHolds
  cases o <;> simp only [QOrder.W, QOrder.X, QOrder.Y, QOrder.Z]
  tauto

theorem QArr.get_some {a : QArr E} {i : Nat} {v : E} (hi : i < 4) (h : a i = some v) :
    a.get i = .ok v := by
  simp [QArr.get, hi, h]

theorem QOrder.W_lt (o : QOrder) : o.W < 4 := by cases o <;> decide
theorem QOrder.X_lt (o : QOrder) : o.X < 4 := by cases o <;> decide
theorem QOrder.Y_lt (o : QOrder) : o.Y < 4 := by cases o <;> decide
theorem QOrder.Z_lt (o : QOrder) : o.Z < 4 := by cases o <;> decide

/-- A variable is read with its value. -/
theorem qreads_var {s : QState E} {v : QVar} {h : ℍ[E]} (hv : QIs s v h) : QReads s (.var v) h := by
  have := qholds_iff.1 hv
  refine qreads_iff.2 ⟨?_, ?_, ?_, ?_⟩
  · exact QArr.get_some (QOrder.W_lt _) this.1
  · exact QArr.get_some (QOrder.X_lt _) this.2.1
  · exact QArr.get_some (QOrder.Y_lt _) this.2.2.1
  · exact QArr.get_some (QOrder.Z_lt _) this.2.2.2

theorem qholds_make (o : QOrder) (w x y z : E) : QHolds o (qMake o w x y z) ⟨w, x, y, z⟩ := by
  cases o <;> simp [QHolds, qMake, QOrder.W, QOrder.X, QOrder.Y, QOrder.Z]

theorem qholds_make' {o : QOrder} {w x y z : E} {h : ℍ[E]} (h0 : h.re = w) (h1 : h.imI = x)
    (h2 : h.imJ = y) (h3 : h.imK = z) : QHolds o (qMake o w x y z) h := by
  subst h0; subst h1; subst h2; subst h3
  exact qholds_make _ _ _ _ _

theorem qreads_tmp {s : QState E} {o : QOrder} {c : QCross} {el : QArr E} {h : ℍ[E]}
    (hv : QHolds o el h) : QReads s (.tmp o c el) h := by
  have := qholds_iff.1 hv
  refine qreads_iff.2 ⟨?_, ?_, ?_, ?_⟩
  · exact QArr.get_some (QOrder.W_lt _) this.1
  · exact QArr.get_some (QOrder.X_lt _) this.2.1
  · exact QArr.get_some (QOrder.Y_lt _) this.2.2.1
  · exact QArr.get_some (QOrder.Z_lt _) this.2.2.2

theorem qreads_unique {s : QState E} {a : QNode E} {h h' : ℍ[E]} (h1 : QReads s a h)
    (h2 : QReads s a h') : h = h' := by
  obtain ⟨a1, a2, a3, a4⟩ := qreads_iff.1 h1
  obtain ⟨b1, b2, b3, b4⟩ := qreads_iff.1 h2
  rw [a1] at b1; rw [a2] at b2; rw [a3] at b3; rw [a4] at b4
  injection b1 with b1; injection b2 with b2; injection b3 with b3; injection b4 with b4
  exact QuaternionAlgebra.ext b1 b2 b3 b4

/-- The imaginary part as a vector. -/
theorem qImag_eq {s : QState E} {a : QNode E} {h : ℍ[E]} (ha : QReads s a h) :
    qImag s a 0 = .ok h.imI ∧ qImag s a 1 = .ok h.imJ ∧ qImag s a 2 = .ok h.imK := by
  obtain ⟨-, h1, h2, h3⟩ := qreads_iff.1 ha
  unfold qImag
  revert h1 h2 h3
  cases a.order <;> simp only [QOrder.X, QOrder.Y, QOrder.Z] <;> intro h1 h2 h3 <;>
    exact ⟨h1, h2, h3⟩

/-- The product as it is computed, for elements of any type. -/
def qMulEl (c : QCross) (p q : ℍ[E]) : ℍ[E] :=
  let cr := fun (a b x y : E) => match c with
    | .positive => a * b - x * y
    | .negative => y * x - b * a
  ⟨p.re * q.re - (p.imI * q.imI + p.imJ * q.imJ + p.imK * q.imK),
   p.re * q.imI + q.re * p.imI + cr p.imJ q.imK p.imK q.imJ,
   p.re * q.imJ + q.re * p.imJ + cr p.imK q.imI p.imI q.imK,
   p.re * q.imK + q.re * p.imK + cr p.imI q.imJ p.imJ q.imI⟩

/-- The product of two operands, for elements of any type. -/
theorem qMul_gen {s : QState E} {a b : QNode E} {p q : ℍ[E]} (ha : QReads s a p) (hb : QReads s b q)
    (ht : a.ty = b.ty) :
    ∃ el, qMul s a b = .ok (.tmp a.order a.cross el) ∧ QHolds a.order el (qMulEl a.cross p q) := by
  have ho : a.order = b.order := by simp [QNode.order, ht]
  have hc : a.cross = b.cross := by simp [QNode.cross, ht]
  obtain ⟨wa, -, -, -⟩ := qreads_iff.1 ha
  obtain ⟨wb, -, -, -⟩ := qreads_iff.1 hb
  obtain ⟨a0, a1, a2⟩ := qImag_eq ha
  obtain ⟨b0, b1, b2⟩ := qImag_eq hb
  rw [← ho] at wb
  unfold qMul
  rw [if_pos ⟨ho, hc, ht⟩]
  cases hcr : a.cross
  · simp only [wa, wb, qImagDot, qCross, Res.loop, Res.bind, a0, a1, a2, b0, b1, b2, Res.ok_bind,
      Res.pure_eq, if_true, Nat.reduceAdd, Nat.reduceMod]
    exact ⟨_, rfl, qholds_make _ _ _ _ _⟩
  · simp only [wa, wb, qImagDot, qCross, Res.loop, Res.bind, a0, a1, a2, b0, b1, b2, Res.ok_bind,
      Res.pure_eq, reduceCtorEq, if_false, Nat.reduceAdd, Nat.reduceMod]
    exact ⟨_, rfl, qholds_make _ _ _ _ _⟩

end

section
variable {E : Type} [CommRing E] [Div E] [DecidableEq E]

theorem qLengthSquared_eq {s : QState E} {a : QNode E} {h : ℍ[E]} (ha : QReads s a h) :
    qLengthSquared s a = .ok (normSq h) := by
  unfold QReads at ha
  rw [normSq_def']
  revert ha
  cases a.order <;> simp only [] <;> rintro ⟨h0, h1, h2, h3⟩ <;>
    simp [qLengthSquared, Res.loop, h0, h1, h2, h3, Res.bind] <;> ring

/-- The product of two operands that are read as `p` and `q`. -/
theorem qMul_eq {s : QState E} {a b : QNode E} {p q : ℍ[E]} (ha : QReads s a p) (hb : QReads s b q)
    (ht : a.ty = b.ty) :
    ∃ el, qMul s a b = .ok (.tmp a.order a.cross el) ∧ QHolds a.order el (crossMul a.cross p q) := by
  have ho : a.order = b.order := by simp [QNode.order, ht]
  have hc : a.cross = b.cross := by simp [QNode.cross, ht]
  obtain ⟨wa, -, -, -⟩ := qreads_iff.1 ha
  obtain ⟨wb, -, -, -⟩ := qreads_iff.1 hb
  obtain ⟨a0, a1, a2⟩ := qImag_eq ha
  obtain ⟨b0, b1, b2⟩ := qImag_eq hb
  rw [← ho] at wb
  unfold qMul
  rw [if_pos ⟨ho, hc, ht⟩]
  cases hcr : a.cross
  · simp only [wa, wb, qImagDot, qCross, Res.loop, Res.bind, a0, a1, a2, b0, b1, b2, Res.ok_bind,
      Res.pure_eq, if_true, Nat.reduceAdd, Nat.reduceMod]
    refine ⟨_, rfl, ?_⟩
    refine qholds_make' ?_ ?_ ?_ ?_ <;>
      simp only [crossMul, Quaternion.re_mul, Quaternion.imI_mul, Quaternion.imJ_mul, Quaternion.imK_mul] <;> ring
  · simp only [wa, wb, qImagDot, qCross, Res.loop, Res.bind, a0, a1, a2, b0, b1, b2, Res.ok_bind,
      Res.pure_eq, reduceCtorEq, if_false, Nat.reduceAdd, Nat.reduceMod]
    refine ⟨_, rfl, ?_⟩
    refine qholds_make' ?_ ?_ ?_ ?_ <;>
      simp only [crossMul, Quaternion.re_mul, Quaternion.imI_mul, Quaternion.imJ_mul, Quaternion.imK_mul] <;> ring

end

section
variable {E : Type} [Zero E] [One E] [Add E] [Sub E] [Mul E] [Neg E] [Div E] [DecidableEq E]

/-- Storing four values one after the other: what each read sees is the old content, except for the
positions already written. -/
theorem qPut4 {s : QState E} {x : Nat} {o : QOrder} {f : QState E → Nat → Res E} {h : ℍ[E]}
    (h0 : f s o.W = .ok h.re)
    (hX : ∀ s', (∀ y j, (y = x → j ≠ o.W) → s' y j = s y j) → f s' o.X = .ok h.imI)
    (hY : ∀ s', (∀ y j, (y = x → j ≠ o.W ∧ j ≠ o.X) → s' y j = s y j) → f s' o.Y = .ok h.imJ)
    (hZ : ∀ s', (∀ y j, (y = x → j ≠ o.W ∧ j ≠ o.X ∧ j ≠ o.Y) → s' y j = s y j) →
      f s' o.Z = .ok h.imK) :
    ∃ s', ((qPutRes s x o.W (f s o.W)).andThen fun s => (qPutRes s x o.X (f s o.X)).andThen fun s =>
        (qPutRes s x o.Y (f s o.Y)).andThen fun s => qPutRes s x o.Z (f s o.Z)) = .ok s' ∧
      QHolds o (s' x) h ∧ ∀ y, y ≠ x → s' y = s y := by
  simp only [qPutRes, h0, Out.withVal_ok, qPut, QOrder.W_lt, if_true, Out.ok_andThen]
  rw [hX _ (fun y j hy => by
    by_cases e : y = x
    · simp [e, hy e]
    · simp [e])]
  simp only [Out.withVal_ok, QOrder.X_lt, if_true, Out.ok_andThen]
  rw [hY _ (fun y j hy => by
    by_cases e : y = x
    · simp [e, hy e]
    · simp [e])]
  simp only [Out.withVal_ok, QOrder.Y_lt, if_true, Out.ok_andThen]
  rw [hZ _ (fun y j hy => by
    by_cases e : y = x
    · simp [e, hy e]
    · simp [e])]
  simp only [Out.withVal_ok, QOrder.Z_lt, if_true]
  refine ⟨_, rfl, ?_, ?_⟩
  · cases o <;> simp [QHolds, QOrder.W, QOrder.X, QOrder.Y, QOrder.Z]
  · intro y hy
    funext j
    simp [hy]

/-- Reading element `i` of a node only looks at elements `i` of variables. -/
theorem QNode.get_congr {s s' : QState E} (a : QNode E) (i : Nat) (h : ∀ y, s' y i = s y i) :
    a.get s' i = a.get s i := by
  induction a with
  | var v => simp [QNode.get, QArr.get, h]
  | tmp o c el => rfl
  | un op a ih => cases op <;> simp [QNode.get, ih]
  | bin op a b iha ihb => cases op <;> simp [QNode.get, iha, ihb]
  | scal op a k ih => cases op <;> simp [QNode.get, ih]
  | conj a ih => simp [QNode.get, ih]
  | inv a n ih => simp [QNode.get, ih]

theorem QOrder.distinct (o : QOrder) : o.X ≠ o.W ∧ o.Y ≠ o.W ∧ o.Y ≠ o.X ∧ o.Z ≠ o.W ∧ o.Z ≠ o.X ∧
    o.Z ≠ o.Y := by cases o <;> decide

/-- Assignment from an operand of the same order. -/
theorem qAssign_eq {s : QState E} {v : QVar} {a : QNode E} {h : ℍ[E]} (ha : QReads s a h)
    (ho : a.order = v.order) :
    ∃ s', qAssign s v a = .ok s' ∧ QIs s' v h ∧ ∀ y, y ≠ v.id → s' y = s y := by
  obtain ⟨h0, h1, h2, h3⟩ := qreads_iff.1 ha
  rw [ho] at h0 h1 h2 h3
  have hd := QOrder.distinct v.order
  unfold qAssign
  refine qPut4 (f := fun s i => a.get s i) h0 ?_ ?_ ?_
  · intro s' hs
    rw [QNode.get_congr a _ (s := s) (fun y => hs y _ (fun _ => hd.1))]; exact h1
  · intro s' hs
    rw [QNode.get_congr a _ (s := s) (fun y => hs y _ (fun _ => ⟨hd.2.1, hd.2.2.1⟩))]; exact h2
  · intro s' hs
    rw [QNode.get_congr a _ (s := s) (fun y => hs y _ (fun _ => ⟨hd.2.2.2.1, hd.2.2.2.2.1,
      hd.2.2.2.2.2⟩))]; exact h3

/-- A loop over the four elements in storage order. -/
theorem qPutLoop {s : QState E} {x : Nat} {f : QState E → Nat → Res E} {g : Nat → E}
    (hf : ∀ i s', i < 4 → (∀ y j, (y = x → i ≤ j) → s' y j = s y j) → f s' i = .ok (g i)) :
    ∃ s', Out.loop (fun i s => qPutRes s x i (f s i)) 0 4 s = .ok s' ∧
      (∀ i, i < 4 → s' x i = some (g i)) ∧ ∀ y, y ≠ x → s' y = s y := by
  have := Out.loop_inv (body := fun i s => qPutRes s x i (f s i)) (lo := 0) (n := 4) (s := s)
    (fun k s' => (∀ i, i < k → s' x i = some (g i)) ∧ (∀ y j, (y = x → k ≤ j) → s' y j = s y j))
    ⟨by omega, fun y j _ => rfl⟩ ?_
  · obtain ⟨s', h1, h2, h3⟩ := this
    exact ⟨s', h1, by simpa using h2, fun y hy => funext fun j => h3 y j (fun e => absurd e hy)⟩
  · rintro k s' - hk ⟨h1, h2⟩
    simp only [Nat.zero_add] at hk
    simp only [qPutRes, hf k s' hk h2, Out.withVal_ok, qPut, hk, if_true]
    refine ⟨_, rfl, ?_, ?_⟩
    · intro i hi
      by_cases e : i = k
      · simp [e]
      · simp [e, h1 i (by omega)]
    · intro y j hy
      by_cases e : y = x
      · have : j ≠ k := by have := hy e; omega
        simp [this, h2 y j (fun e => by have := hy e; omega)]
      · simp [e, h2 y j (fun e' => absurd e' e)]

end

end CML

namespace CML

open Quaternion

section
variable {E : Type} [Field E] [LinearOrder E] [IsStrictOrderedRing E]

theorem qreads_un {s : QState E} {a : QNode E} {h : ℍ[E]} (ha : QReads s a h) :
    QReads s (.un .neg a) (-h) ∧ QReads s (.un .pos a) h := by
  obtain ⟨h0, h1, h2, h3⟩ := qreads_iff.1 ha
  constructor <;> rw [qreads_iff] <;>
    simp only [QNode.order, QNode.ty, QTy.order] at * <;>
    simp [QNode.get, h0, h1, h2, h3]

theorem qreads_bin {s : QState E} {a b : QNode E} {p q : ℍ[E]} (ha : QReads s a p)
    (hb : QReads s b q) (ho : a.order = b.order) :
    QReads s (.bin .add a b) (p + q) ∧ QReads s (.bin .sub a b) (p - q) := by
  obtain ⟨h0, h1, h2, h3⟩ := qreads_iff.1 ha
  obtain ⟨k0, k1, k2, k3⟩ := qreads_iff.1 hb
  rw [← ho] at k0 k1 k2 k3
  constructor <;> rw [qreads_iff] <;>
    simp only [QNode.order, QNode.ty, QTy.order] at * <;>
    simp [QNode.get, h0, h1, h2, h3, k0, k1, k2, k3]

theorem qreads_scal {s : QState E} {a : QNode E} {p : ℍ[E]} (ha : QReads s a p) (k : E) :
    QReads s (.scal .mul a k) (k • p) ∧ (k ≠ 0 → QReads s (.scal .div a k) (k⁻¹ • p)) := by
  obtain ⟨h0, h1, h2, h3⟩ := qreads_iff.1 ha
  refine ⟨?_, fun hk => ?_⟩ <;> rw [qreads_iff] <;>
    simp only [QNode.order, QNode.ty, QTy.order] at *
  · simp [QNode.get, h0, h1, h2, h3, mul_comm]
  · simp [QNode.get, h0, h1, h2, h3, divR, hk, div_eq_mul_inv, mul_comm]

theorem qreads_conj {s : QState E} {a : QNode E} {p : ℍ[E]} (ha : QReads s a p) :
    QReads s (.conj a) (star p) := by
  obtain ⟨h0, h1, h2, h3⟩ := qreads_iff.1 ha
  have hd := QOrder.distinct a.order
  rw [qreads_iff]
  have ho : (QNode.conj a).order = a.order := rfl
  rw [ho]
  simp [QNode.get, h0, h1, h2, h3, hd.1, hd.2.1, hd.2.2.2.1]

theorem qreads_inv {s : QState E} {a : QNode E} {p : ℍ[E]} (ha : QReads s a p) (n : E) :
    QReads s (.inv a n) (n • star p) := by
  obtain ⟨h0, h1, h2, h3⟩ := qreads_iff.1 ha
  have hd := QOrder.distinct a.order
  rw [qreads_iff]
  have ho : (QNode.inv a n).order = a.order := rfl
  rw [ho]
  simp [QNode.get, h0, h1, h2, h3, hd.1, hd.2.1, hd.2.2.2.1]

theorem qInv_eq {s : QState E} {a : QNode E} {p : ℍ[E]} (ha : QReads s a p) (hp : p ≠ 0) :
    qInv s a = .ok (.inv a (normSq p)⁻¹) ∧ QReads s (.inv a (normSq p)⁻¹) p⁻¹ := by
  refine ⟨?_, ?_⟩
  · have : normSq p ≠ 0 := normSq_ne_zero.2 hp
    simp [qInv, qNorm, qLengthSquared_eq ha, divR, this]
  · rw [Quaternion.inv_def]; exact qreads_inv ha _

/-- Every well-typed expression without division by zero evaluates to an operand that reads as its
mathematical value. -/
theorem QExp.build_eq {o : QOrder} {c : QCross} {s : QState E} {ρ : Nat → ℍ[E]} (e : QExp E)
    (ht : e.Typed o c) (hs : e.Has s ρ) (hd : e.Defined c ρ) :
    ∃ a, e.build s = .ok a ∧ a.ty = e.ty o c ∧ a.isRef = e.isVar ∧ a.order = o ∧ a.cross = c ∧
      QReads s a (e.value c ρ) := by
  induction e with
  | var v =>
    exact ⟨.var v, rfl, rfl, rfl, ht.1, ht.2, qreads_var hs⟩
  | un op a ih =>
    obtain ⟨n, h1, h2, h3, h4, h5, h6⟩ := ih ht hs hd
    refine ⟨.un op n, by simp [QExp.build, h1, qUn], by simp [QNode.ty, QExp.ty, h2, h3], rfl,
      h4, h5, ?_⟩
    cases op
    · exact (qreads_un h6).2
    · exact (qreads_un h6).1
  | bin op a b iha ihb =>
    obtain ⟨n, h1, h2, h3, h4, h5, h6⟩ := iha ht.1 hs.1 hd.1
    obtain ⟨m, k1, k2, k3, k4, k5, k6⟩ := ihb ht.2 hs.2 hd.2
    refine ⟨.bin op n m, by simp [QExp.build, h1, k1, qBin, h4, k4, h5, k5],
      by simp [QNode.ty, QExp.ty, h2, h3, k2, k3], rfl, h4, h5, ?_⟩
    cases op
    · exact (qreads_bin h6 k6 (h4.trans k4.symm)).1
    · exact (qreads_bin h6 k6 (h4.trans k4.symm)).2
  | scal op a k ih =>
    cases op with
    | mul =>
      obtain ⟨n, h1, h2, h3, h4, h5, h6⟩ := ih ht hs hd
      exact ⟨.scal .mul n k, by simp [QExp.build, h1, qScal], by simp [QNode.ty, QExp.ty, h2, h3],
        rfl, h4, h5, (qreads_scal h6 k).1⟩
    | div =>
      obtain ⟨n, h1, h2, h3, h4, h5, h6⟩ := ih ht hs hd.1
      exact ⟨.scal .div n k, by simp [QExp.build, h1, qScal], by simp [QNode.ty, QExp.ty, h2, h3],
        rfl, h4, h5, (qreads_scal h6 k).2 hd.2⟩
  | conj a ih =>
    obtain ⟨n, h1, h2, h3, h4, h5, h6⟩ := ih ht hs hd
    exact ⟨.conj n, by simp [QExp.build, h1, qConj], by simp [QNode.ty, QExp.ty, h2, h3], rfl,
      h4, h5, qreads_conj h6⟩
  | inv a ih =>
    obtain ⟨n, h1, h2, h3, h4, h5, h6⟩ := ih ht hs hd.1
    exact ⟨.inv n _, by simp [QExp.build, h1, (qInv_eq h6 hd.2).1],
      by simp [QNode.ty, QExp.ty, h2, h3], rfl, h4, h5, (qInv_eq h6 hd.2).2⟩
  | mul a b iha ihb =>
    obtain ⟨n, h1, h2, h3, h4, h5, h6⟩ := iha ht.1 hs.1 hd.1
    obtain ⟨m, k1, k2, k3, k4, k5, k6⟩ := ihb ht.2.1 hs.2 hd.2
    obtain ⟨el, e1, e2⟩ := qMul_eq h6 k6 (by rw [h2, k2]; exact ht.2.2)
    refine ⟨_, by simp [QExp.build, h1, k1, e1]; rfl, ?_, rfl, ?_, ?_, ?_⟩
    · simp [QNode.ty, QExp.ty, h4, h5]
    · exact h4
    · exact h5
    · have := qreads_tmp (s := s) (c := n.cross) e2
      rw [h5] at this
      rw [h5]
      exact this

theorem QReads.get_ok {s : QState E} {a : QNode E} {h : ℍ[E]} (ha : QReads s a h) {i : Nat} (hi : i < 4) :
    ∃ v, a.get s i = .ok v := by
  unfold QReads at ha
  have : i = 0 ∨ i = 1 ∨ i = 2 ∨ i = 3 := by omega
  revert ha
  cases a.order <;> rintro ⟨h0, h1, h2, h3⟩ <;> rcases this with rfl | rfl | rfl | rfl <;>
    exact ⟨_, by assumption⟩

/-- A well-typed expression that divides by zero fails for that reason when it is built, or whenever one of
its elements is read. -/
theorem QExp.build_undefined {o : QOrder} {c : QCross} {s : QState E} {ρ : Nat → ℍ[E]} (e : QExp E)
    (ht : e.Typed o c) (hs : e.Has s ρ) (hd : ¬ e.Defined c ρ) :
    e.build s = .ub .divZero ∨
      ∃ a, e.build s = .ok a ∧ a.ty = e.ty o c ∧ a.isRef = e.isVar ∧ a.order = o ∧ a.cross = c ∧
        ∀ i, i < 4 → a.get s i = .ub .divZero := by
  induction e with
  | var v => exact absurd trivial hd
  | un op a ih =>
    rcases ih ht hs hd with h | ⟨n, h1, h2, h3, h4, h5, h6⟩
    · exact .inl (by simp [QExp.build, h])
    · refine .inr ⟨.un op n, by simp [QExp.build, h1, qUn], by simp [QNode.ty, QExp.ty, h2, h3], rfl,
        h4, h5, fun i hi => ?_⟩
      cases op <;> simp [QNode.get, h6 i hi]
  | bin op a b iha ihb =>
    by_cases ha : a.Defined c ρ
    · have hb : ¬ b.Defined c ρ := fun hb => hd ⟨ha, hb⟩
      obtain ⟨n, h1, h2, h3, h4, h5, h6⟩ := a.build_eq ht.1 hs.1 ha
      rcases ihb ht.2 hs.2 hb with h | ⟨m, k1, k2, k3, k4, k5, k6⟩
      · exact .inl (by simp [QExp.build, h1, h])
      · refine .inr ⟨.bin op n m, by simp [QExp.build, h1, k1, qBin, h4, k4, h5, k5],
          by simp [QNode.ty, QExp.ty, h2, h3, k2, k3], rfl, h4, h5, fun i hi => ?_⟩
        obtain ⟨v, hv⟩ := h6.get_ok hi
        cases op <;> simp [QNode.get, hv, k6 i hi]
    · rcases iha ht.1 hs.1 ha with h | ⟨n, h1, h2, h3, h4, h5, h6⟩
      · exact .inl (by simp [QExp.build, h])
      · have hb : b.build s = .ub .divZero ∨ ∃ m, b.build s = .ok m ∧ m.ty = b.ty o c ∧
            m.isRef = b.isVar ∧ m.order = o ∧ m.cross = c := by
          by_cases hb : b.Defined c ρ
          · obtain ⟨m, k1, k2, k3, k4, k5, -⟩ := b.build_eq ht.2 hs.2 hb
            exact .inr ⟨m, k1, k2, k3, k4, k5⟩
          · rcases ihb ht.2 hs.2 hb with h | ⟨m, k1, k2, k3, k4, k5, -⟩
            · exact .inl h
            · exact .inr ⟨m, k1, k2, k3, k4, k5⟩
        rcases hb with h | ⟨m, k1, k2, k3, k4, k5⟩
        · exact .inl (by simp [QExp.build, h1, h])
        · refine .inr ⟨.bin op n m, by simp [QExp.build, h1, k1, qBin, h4, k4, h5, k5],
            by simp [QNode.ty, QExp.ty, h2, h3, k2, k3], rfl, h4, h5, fun i hi => ?_⟩
          cases op <;> simp [QNode.get, h6 i hi]
  | scal op a k ih =>
    by_cases ha : a.Defined c ρ
    · obtain ⟨n, h1, h2, h3, h4, h5, h6⟩ := a.build_eq ht hs ha
      cases op with
      | mul => exact absurd ha hd
      | div =>
        have hk : k = 0 := by
          by_contra hk
          exact hd ⟨ha, hk⟩
        refine .inr ⟨.scal .div n k, by simp [QExp.build, h1, qScal], by simp [QNode.ty, QExp.ty, h2, h3],
          rfl, h4, h5, fun i hi => ?_⟩
        obtain ⟨v, hv⟩ := h6.get_ok hi
        simp [QNode.get, hv, divR, hk]
    · rcases ih ht hs ha with h | ⟨n, h1, h2, h3, h4, h5, h6⟩
      · exact .inl (by simp [QExp.build, h])
      · refine .inr ⟨.scal op n k, by simp [QExp.build, h1, qScal], by simp [QNode.ty, QExp.ty, h2, h3],
          rfl, h4, h5, fun i hi => ?_⟩
        cases op <;> simp [QNode.get, h6 i hi]
  | conj a ih =>
    rcases ih ht hs hd with h | ⟨n, h1, h2, h3, h4, h5, h6⟩
    · exact .inl (by simp [QExp.build, h])
    · refine .inr ⟨.conj n, by simp [QExp.build, h1, qConj], by simp [QNode.ty, QExp.ty, h2, h3], rfl,
        h4, h5, fun i hi => ?_⟩
      simp [QNode.get, h6 i hi]
  | inv a ih =>
    refine .inl ?_
    by_cases ha : a.Defined c ρ
    · obtain ⟨n, h1, h2, h3, h4, h5, h6⟩ := a.build_eq ht hs ha
      have h0 : a.value c ρ = 0 := by
        by_contra h0
        exact hd ⟨ha, h0⟩
      rw [h0] at h6
      simp [QExp.build, h1, qInv, qNorm, qLengthSquared_eq h6, divR]
    · rcases ih ht hs ha with h | ⟨n, h1, h2, h3, h4, h5, h6⟩
      · simp [QExp.build, h]
      · simp [QExp.build, h1, qInv, qNorm, qLengthSquared, h6 0 (by omega)]
  | mul a b iha ihb =>
    refine .inl ?_
    have key : ∀ (n m : QNode E), n.ty = m.ty →
        (n.get s n.order.W = .ub .divZero ∨
          (∃ v, n.get s n.order.W = .ok v) ∧ m.get s n.order.W = .ub .divZero) →
        qMul s n m = .ub .divZero := by
      intro n m ht' h
      have ho : n.order = m.order := by simp [QNode.order, ht']
      have hc : n.cross = m.cross := by simp [QNode.cross, ht']
      rcases h with h | ⟨⟨v, h⟩, h'⟩
      · simp [qMul, hc, ht', h, ho ▸ h, ho]
      · rw [ho] at h h'
        simp [qMul, hc, ht', h, h', ho]
    by_cases ha : a.Defined c ρ
    · have hb : ¬ b.Defined c ρ := fun hb => hd ⟨ha, hb⟩
      obtain ⟨n, h1, h2, h3, h4, h5, h6⟩ := a.build_eq ht.1 hs.1 ha
      rcases ihb ht.2.1 hs.2 hb with h | ⟨m, k1, k2, k3, k4, k5, k6⟩
      · simp [QExp.build, h1, h]
      · have := key n m (by rw [h2, k2]; exact ht.2.2)
          (.inr ⟨h6.get_ok (QOrder.W_lt _), k6 _ (QOrder.W_lt _)⟩)
        simp [QExp.build, h1, k1, this]
    · rcases iha ht.1 hs.1 ha with h | ⟨n, h1, h2, h3, h4, h5, h6⟩
      · simp [QExp.build, h]
      · have hb : b.build s = .ub .divZero ∨ ∃ m, b.build s = .ok m ∧ m.ty = b.ty o c := by
          by_cases hb : b.Defined c ρ
          · obtain ⟨m, k1, k2, -⟩ := b.build_eq ht.2.1 hs.2 hb
            exact .inr ⟨m, k1, k2⟩
          · rcases ihb ht.2.1 hs.2 hb with h | ⟨m, k1, k2, -⟩
            · exact .inl h
            · exact .inr ⟨m, k1, k2⟩
        rcases hb with h | ⟨m, k1, k2⟩
        · simp [QExp.build, h1, h]
        · have := key n m (by rw [h2, k2]; exact ht.2.2) (.inl (h6 _ (QOrder.W_lt _)))
          simp [QExp.build, h1, k1, this]

/-- A type with all orders replaced. -/
def QTy.reorder (o : QOrder) : QTy → QTy
  | .quat _ c => .quat o c
  | .un op r t => .un op r (t.reorder o)
  | .bin op r t r' t' => .bin op r (t.reorder o) r' (t'.reorder o)
  | .scal op r t => .scal op r (t.reorder o)
  | .conj r t => .conj r (t.reorder o)
  | .inv r t => .inv r (t.reorder o)

theorem QExp.reorder_isVar (o : QOrder) (e : QExp E) : (e.reorder o).isVar = e.isVar := by
  cases e <;> rfl

theorem QExp.reorder_ty (o o' : QOrder) (c : QCross) (e : QExp E) :
    (e.reorder o').ty o' c = (e.ty o c).reorder o' := by
  induction e with
  | var v => rfl
  | un op a ih => simp [QExp.reorder, QExp.ty, QTy.reorder, ih, reorder_isVar]
  | bin op a b iha ihb => simp [QExp.reorder, QExp.ty, QTy.reorder, iha, ihb, reorder_isVar]
  | scal op a k ih => simp [QExp.reorder, QExp.ty, QTy.reorder, ih, reorder_isVar]
  | conj a ih => simp [QExp.reorder, QExp.ty, QTy.reorder, ih, reorder_isVar]
  | inv a ih => simp [QExp.reorder, QExp.ty, QTy.reorder, ih, reorder_isVar]
  | mul a b _ _ => rfl

theorem QExp.reorder_typed {o : QOrder} (o' : QOrder) {c : QCross} (e : QExp E) (ht : e.Typed o c) :
    (e.reorder o').Typed o' c := by
  induction e with
  | var v => exact ⟨rfl, ht.2⟩
  | un op a ih => exact ih ht
  | bin op a b iha ihb => exact ⟨iha ht.1, ihb ht.2⟩
  | scal op a k ih => exact ih ht
  | conj a ih => exact ih ht
  | inv a ih => exact ih ht
  | mul a b iha ihb =>
    refine ⟨iha ht.1, ihb ht.2.1, ?_⟩
    rw [reorder_ty o, reorder_ty o, ht.2.2]

theorem QExp.reorder_value (o' : QOrder) {c : QCross} {ρ : Nat → ℍ[E]} (e : QExp E) :
    (e.reorder o').value c ρ = e.value c ρ := by
  induction e with
  | var v => rfl
  | un op a ih => cases op <;> simp [QExp.reorder, QExp.value, ih]
  | bin op a b iha ihb => cases op <;> simp [QExp.reorder, QExp.value, iha, ihb]
  | scal op a k ih => cases op <;> simp [QExp.reorder, QExp.value, ih]
  | conj a ih => simp [QExp.reorder, QExp.value, ih]
  | inv a ih => simp [QExp.reorder, QExp.value, ih]
  | mul a b iha ihb => simp [QExp.reorder, QExp.value, iha, ihb]

theorem QExp.reorder_defined (o' : QOrder) {c : QCross} {ρ : Nat → ℍ[E]} (e : QExp E) :
    (e.reorder o').Defined c ρ ↔ e.Defined c ρ := by
  induction e with
  | var v => exact Iff.rfl
  | un op a ih => simp [QExp.reorder, QExp.Defined, ih]
  | bin op a b iha ihb => simp [QExp.reorder, QExp.Defined, iha, ihb]
  | scal op a k ih => cases op <;> simp [QExp.reorder, QExp.Defined, ih]
  | conj a ih => simp [QExp.reorder, QExp.Defined, ih]
  | inv a ih => simp [QExp.reorder, QExp.Defined, ih, reorder_value]
  | mul a b iha ihb => simp [QExp.reorder, QExp.Defined, iha, ihb]

end

end CML
