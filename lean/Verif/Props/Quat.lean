import Verif.Lemmas.Quat

/-!
Property theorems for quaternions: C43 (product), C44 (conjugate, inverse), C45 (independence of the
storage order), C46 (assignment between orders), C48 (in-place product), C85 (operand types of a
product), C86 (comparison), C87 (compound assignment), C88 (construction from elements).
-/

set_option linter.unusedSectionVars false

namespace CML

open Quaternion

section ring
variable {E : Type} [CommRing E] [Div E] [DecidableEq E]

/-- C43: `p * q` is the Hamilton product (of the exchanged operands for `negative_cross`), over any
commutative ring, for both orders and any operands of equal type. -/
theorem qmul_hamilton {s : QState E} {a b : QNode E} {p q : ℍ[E]} (ha : QReads s a p)
    (hb : QReads s b q) (ht : a.ty = b.ty) :
    ∃ r, qMul s a b = .ok r ∧ r.ty = .quat a.order a.cross ∧
      QReads s r (match a.cross with | .positive => p * q | .negative => q * p) := by
  obtain ⟨el, h1, h2⟩ := qMul_eq ha hb ht
  refine ⟨_, h1, rfl, ?_⟩
  have := qreads_tmp (s := s) (c := a.cross) h2
  cases hc : a.cross <;> rw [hc] at this <;> exact this

/-- C43: `(a * b) * d` and `a * (b * d)` are equal element by element. -/
theorem qmul_assoc {s : QState E} {a b d : QNode E} {p q r : ℍ[E]} {o : QOrder} {c : QCross}
    (ha : QReads s a p) (hb : QReads s b q) (hd : QReads s d r)
    (hta : a.ty = .quat o c) (htb : b.ty = .quat o c) (htd : d.ty = .quat o c) :
    ∃ ab bd x y, qMul s a b = .ok ab ∧ qMul s b d = .ok bd ∧ qMul s ab d = .ok x ∧
      qMul s a bd = .ok y ∧ ∀ i, i < 4 → ∃ e, x.get s i = .ok e ∧ y.get s i = .ok e := by
  obtain ⟨ab, h1, t1, r1⟩ := qmul_hamilton ha hb (hta.trans htb.symm)
  obtain ⟨bd, h2, t2, r2⟩ := qmul_hamilton hb hd (htb.trans htd.symm)
  have oa : a.order = o := by simp [QNode.order, hta, QTy.order]
  have ca : a.cross = c := by simp [QNode.cross, hta, QTy.cross]
  have ob : b.order = o := by simp [QNode.order, htb, QTy.order]
  have cb : b.cross = c := by simp [QNode.cross, htb, QTy.cross]
  rw [oa, ca] at t1; rw [ob, cb] at t2
  have oab : ab.order = o := by simp [QNode.order, t1, QTy.order]
  have cab : ab.cross = c := by simp [QNode.cross, t1, QTy.cross]
  obtain ⟨x, h3, t3, r3⟩ := qmul_hamilton r1 hd (t1.trans htd.symm)
  obtain ⟨y, h4, t4, r4⟩ := qmul_hamilton ha r2 (hta.trans t2.symm)
  refine ⟨ab, bd, x, y, h1, h2, h3, h4, ?_⟩
  rw [oab, cab] at t3; rw [oa, ca] at t4
  have ox : x.order = o := by simp [QNode.order, t3, QTy.order]
  have oy : y.order = o := by simp [QNode.order, t4, QTy.order]
  rw [ca, cab] at r3; rw [ca, cb] at r4
  have r5 : QReads s x (match c with | .positive => p * (q * r) | .negative => r * q * p) := by
    cases c <;> simpa only [mul_assoc] using r3
  have r6 : QReads s y (match c with | .positive => p * (q * r) | .negative => r * q * p) := by
    cases c <;> exact r4
  intro i hi
  unfold QReads at r5 r6
  rw [ox] at r5; rw [oy] at r6
  cases o <;> simp only [] at r5 r6 <;> interval_cases i
  all_goals first
    | exact ⟨_, r5.1, r6.1⟩
    | exact ⟨_, r5.2.1, r6.2.1⟩
    | exact ⟨_, r5.2.2.1, r6.2.2.1⟩
    | exact ⟨_, r5.2.2.2, r6.2.2.2⟩

/-- C43: `norm(a * b) = norm(a) * norm(b)`. -/
theorem qmul_norm {s : QState E} {a b : QNode E} {p q : ℍ[E]} (ha : QReads s a p)
    (hb : QReads s b q) (ht : a.ty = b.ty) :
    ∃ r x y, qMul s a b = .ok r ∧ qNorm s a = .ok x ∧ qNorm s b = .ok y ∧
      qNorm s r = .ok (x * y) := by
  obtain ⟨r, h1, -, h3⟩ := qmul_hamilton ha hb ht
  refine ⟨r, _, _, h1, qLengthSquared_eq ha, qLengthSquared_eq hb, ?_⟩
  unfold qNorm
  rw [qLengthSquared_eq h3]
  cases a.cross
  · simp
  · simp [mul_comm]

/-- C43, C88: `identity()` stores the real quaternion 1, `zero()` the zero quaternion; other variables
keep their values. -/
theorem qidentity_zero (s : QState E) (v : QVar) :
    (∃ s', qIdentity s v = .ok s' ∧ QIs s' v 1 ∧ ∀ y, y ≠ v.id → s' y = s y) ∧
    (∃ s', qZero s v = .ok s' ∧ QIs s' v 0 ∧ ∀ y, y ≠ v.id → s' y = s y) := by
  constructor
  · simp only [qIdentity, qPut, QOrder.W_lt, QOrder.X_lt, QOrder.Y_lt, QOrder.Z_lt, if_true,
      Out.ok_andThen]
    refine ⟨_, rfl, ?_, ?_⟩
    · unfold QIs
      cases v.order <;> simp [QHolds, QOrder.W, QOrder.X, QOrder.Y, QOrder.Z]
    · intro y hy; funext j; simp [hy]
  · simp only [qZero, qPut, Out.loop, Out.ok_andThen]
    simp only [Nat.reduceAdd, Nat.reduceLT, if_true, Out.ok_andThen]
    refine ⟨_, rfl, ?_, ?_⟩
    · unfold QIs
      cases v.order <;> simp [QHolds]
    · intro y hy; funext j; simp [hy]

/-- C43: multiplying with a quaternion that was set to the identity changes nothing, on either
side. -/
theorem qmul_identity {s : QState E} {v : QVar} {a : QNode E} {p : ℍ[E]} (hv : QIs s v 1)
    (ha : QReads s a p) (ht : a.ty = .quat v.order v.cross) :
    ∃ l r, qMul s (.var v) a = .ok l ∧ qMul s a (.var v) = .ok r ∧ QReads s l p ∧ QReads s r p := by
  obtain ⟨l, h1, -, h3⟩ := qmul_hamilton (qreads_var hv) ha ht.symm
  obtain ⟨r, k1, -, k3⟩ := qmul_hamilton ha (qreads_var hv) ht
  refine ⟨l, r, h1, k1, ?_, ?_⟩
  · revert h3; cases (QNode.var v : QNode E).cross <;> simp
  · revert k3; cases a.cross <;> simp

/-- C85 (negated): two quaternion expressions of the same order and cross can in general not be
multiplied: `q * conjugate(q)` is rejected at compile time. -/
theorem qmul_mixed_false (s : QState E) (v : QVar) :
    qMul s (.var v) (.conj (.var v)) = .throw .staticAssert ∧
    qMul s (.var v) (.un .neg (.var v)) = .throw .staticAssert := by
  simp [qMul, QNode.ty]

/-- C85, proved part: a product is accepted exactly if the operands have the same type (in particular
whenever both are quaternion objects of the same order and cross, named or temporary).  Missing:
operands of different types. -/
theorem qmul_accepted_partial {s : QState E} {a b : QNode E} {p q : ℍ[E]} (ha : QReads s a p)
    (hb : QReads s b q) :
    (a.ty = b.ty → ∃ r, qMul s a b = .ok r) ∧ (a.ty ≠ b.ty → qMul s a b = .throw .staticAssert) := by
  refine ⟨fun h => ?_, fun h => ?_⟩
  · obtain ⟨r, h1, -⟩ := qmul_hamilton ha hb h
    exact ⟨r, h1⟩
  · simp [qMul, h]

/-- C46 (negated): copying the quaternion (1, 2, 3, 4) with real part 1 from a `real_first` to an
`imaginary_first` quaternion gives the real part 4. -/
theorem qassign_cross_order_false :
    ∃ (s s' : QState ℤ) (v w : QVar), v.order ≠ w.order ∧ v.id ≠ w.id ∧
      QIs s w (⟨1, 2, 3, 4⟩ : ℍ[ℤ]) ∧ qAssign s v (.var w) = .ok s' ∧
      qReal s (.var w) = .ok 1 ∧ qReal s' (.var v) = .ok 4 ∧ ¬ QIs s' v (⟨1, 2, 3, 4⟩ : ℍ[ℤ]) := by
  refine ⟨fun x i => if x = 1 then some (i + 1 : ℤ) else none,
    fun x i => if x = 1 then some (i + 1 : ℤ) else if x = 0 ∧ i < 4 then some (i + 1 : ℤ) else none,
    ⟨0, .imagFirst, .positive⟩, ⟨1, .realFirst, .positive⟩, by decide, by decide, ?_, ?_, ?_, ?_, ?_⟩
  · norm_num [QIs, QHolds]
  · simp only [qAssign, qPutRes, QNode.get, QArr.get, QOrder.W, QOrder.X, QOrder.Y, QOrder.Z, qPut]
    norm_num
    funext x i
    by_cases h1 : x = 1
    · simp [h1]
    · by_cases h0 : x = 0
      · simp only [h0]
        rcases i with _ | _ | _ | _ | i <;> norm_num
        rw [if_neg (by omega), if_neg (by omega), if_neg (by omega)]
      · simp [h1, h0]
  · norm_num [qReal, QNode.get, QArr.get, QNode.order, QNode.ty, QTy.order, QOrder.W]
  · norm_num [qReal, QNode.get, QArr.get, QNode.order, QNode.ty, QTy.order, QOrder.W]
  · norm_num [QIs, QHolds]

/-- C46, proved part: assignment from an operand of the same order keeps the quaternion, even if the
operand is an expression that mentions the target, and changes nothing else.  The cross types need not
agree.  Missing: different orders (false, see `qassign_cross_order_false`). -/
theorem qassign_same_order_partial {s : QState E} {v : QVar} {a : QNode E} {h : ℍ[E]}
    (ha : QReads s a h) (ho : a.order = v.order) :
    ∃ s', qAssign s v a = .ok s' ∧ QIs s' v h ∧ ∀ y, y ≠ v.id → s' y = s y :=
  qAssign_eq ha ho

/-- C46: what assignment between different orders does: it copies the elements by storage
position, so from `real_first` to `imaginary_first` (w, x, y, z) becomes x' = w, y' = x, z' = y,
w' = z, and conversely. -/
theorem qassign_cross_order {s : QState E} {v : QVar} {a : QNode E} {h : ℍ[E]}
    (ha : QReads s a h) (ho : a.order ≠ v.order) :
    ∃ s', qAssign s v a = .ok s' ∧ (∀ y, y ≠ v.id → s' y = s y) ∧
      QIs s' v (match v.order with
        | .imagFirst => ⟨h.imK, h.re, h.imI, h.imJ⟩
        | .realFirst => ⟨h.imI, h.imJ, h.imK, h.re⟩) := by
  have hd := QOrder.distinct v.order
  have key : ∀ g : ℍ[E], a.get s v.order.W = .ok g.re → a.get s v.order.X = .ok g.imI →
      a.get s v.order.Y = .ok g.imJ → a.get s v.order.Z = .ok g.imK →
      ∃ s', qAssign s v a = .ok s' ∧ QHolds v.order (s' v.id) g ∧ ∀ y, y ≠ v.id → s' y = s y := by
    intro g h0 h1 h2 h3
    unfold qAssign
    refine qPut4 (f := fun s i => a.get s i) h0 ?_ ?_ ?_
    · intro s' hs
      rw [QNode.get_congr a _ (s := s) (fun y => hs y _ (fun _ => hd.1))]; exact h1
    · intro s' hs
      rw [QNode.get_congr a _ (s := s) (fun y => hs y _ (fun _ => ⟨hd.2.1, hd.2.2.1⟩))]; exact h2
    · intro s' hs
      rw [QNode.get_congr a _ (s := s) (fun y => hs y _ (fun _ => ⟨hd.2.2.2.1, hd.2.2.2.2.1,
        hd.2.2.2.2.2⟩))]; exact h3
  unfold QReads at ha
  unfold QIs
  revert key ha ho
  cases a.order <;> cases v.order <;> simp only [ne_eq, not_true_eq_false, false_implies,
    implies_true, reduceCtorEq, not_false_eq_true, true_implies]
  · rintro ⟨h0, h1, h2, h3⟩ key
    obtain ⟨s', e1, e2, e3⟩ := key ⟨h.imK, h.re, h.imI, h.imJ⟩ h3 h0 h1 h2
    exact ⟨s', e1, e3, e2⟩
  · rintro ⟨h0, h1, h2, h3⟩ key
    obtain ⟨s', e1, e2, e3⟩ := key ⟨h.imI, h.imJ, h.imK, h.re⟩ h0 h1 h2 h3
    exact ⟨s', e1, e3, e2⟩

/-- C48: `v *= a` stores the product, also if `a` mentions `v` (for instance `v *= v`), and changes
nothing else. -/
theorem qmul_assign {s : QState E} {v : QVar} {a : QNode E} {p q : ℍ[E]} (hv : QIs s v p)
    (ha : QReads s a q) (ht : a.ty = .quat v.order v.cross) :
    ∃ s', qMulAssign s v a = .ok s' ∧
      QIs s' v (match v.cross with | .positive => p * q | .negative => q * p) ∧
      ∀ y, y ≠ v.id → s' y = s y := by
  obtain ⟨r, h1, h2, h3⟩ := qmul_hamilton (qreads_var hv) ha ht.symm
  have ho : r.order = v.order := by simp [QNode.order, h2, QTy.order, QNode.ty]
  obtain ⟨s', e1, e2, e3⟩ := qAssign_eq h3 ho
  refine ⟨s', by simp [qMulAssign, h1, e1], ?_, e3⟩
  exact e2

/-- C88: four elements are taken in storage order, i.e. (w, x, y, z) for `real_first` and
(x, y, z, w) for `imaginary_first`; a list of another length is refused with the target unchanged. -/
theorem qassign_list (s : QState E) (v : QVar) (fixed : Bool) (l : List E) :
    (∀ e0 e1 e2 e3, l = [e0, e1, e2, e3] → ∃ s', qAssignList s v fixed l = .ok s' ∧
      s' v.id 0 = some e0 ∧ s' v.id 1 = some e1 ∧ s' v.id 2 = some e2 ∧ s' v.id 3 = some e3 ∧
      QIs s' v (match v.order with
        | .realFirst => ⟨e0, e1, e2, e3⟩
        | .imagFirst => ⟨e3, e0, e1, e2⟩) ∧ ∀ y, y ≠ v.id → s' y = s y) ∧
    (l.length ≠ 4 → ∃ e, qAssignList s v fixed l = .throw e s ∧
      (e = .quatSize ∨ (e = .staticAssert ∧ fixed = true))) := by
  constructor
  · rintro e0 e1 e2 e3 rfl
    have key : ∀ g : ℍ[E], ([e0, e1, e2, e3] : List E)[v.order.W]? = some g.re →
        ([e0, e1, e2, e3] : List E)[v.order.X]? = some g.imI →
        ([e0, e1, e2, e3] : List E)[v.order.Y]? = some g.imJ →
        ([e0, e1, e2, e3] : List E)[v.order.Z]? = some g.imK →
        ∃ s', qAssignList s v fixed [e0, e1, e2, e3] = .ok s' ∧ QHolds v.order (s' v.id) g ∧
          ∀ y, y ≠ v.id → s' y = s y := by
      intro g h0 h1 h2 h3
      unfold qAssignList
      rw [if_pos (by rfl)]
      refine qPut4 (f := fun _ i => match ([e0, e1, e2, e3] : List E)[i]? with
        | some e => Res.ok e
        | none => .ub .oob) (by simp [h0]) ?_ ?_ ?_ <;> intro s' _ <;> simp [h1, h2, h3]
    unfold QIs
    revert key
    cases v.order <;> intro key
    · obtain ⟨s', a1, a2, a3⟩ := key ⟨e0, e1, e2, e3⟩ rfl rfl rfl rfl
      exact ⟨s', a1, a2.1, a2.2.1, a2.2.2.1, a2.2.2.2, a2, a3⟩
    · obtain ⟨s', a1, a2, a3⟩ := key ⟨e3, e0, e1, e2⟩ rfl rfl rfl rfl
      exact ⟨s', a1, a2.1, a2.2.1, a2.2.2.1, a2.2.2.2, a2, a3⟩
  · intro h
    cases fixed
    · exact ⟨_, by simp [qAssignList, h], Or.inl rfl⟩
    · exact ⟨_, by simp [qAssignList, h], Or.inr ⟨rfl, rfl⟩⟩

/-- C88: construction from a vector and a scalar puts the scalar in the real part and the vector in
the imaginary part, whatever the order; a vector that does not have three elements is refused with the
target unchanged. -/
theorem qassign_vec (s : QState E) (v : QVar) (fixed : Bool) (n : Nat) (f : QState E → Nat → Res E)
    (e0 x y z : E) (h0 : ∀ s', f s' 0 = .ok x) (h1 : ∀ s', f s' 1 = .ok y)
    (h2 : ∀ s', f s' 2 = .ok z) :
    (n = 3 → ∃ s', qAssignVec s v fixed n f e0 = .ok s' ∧ QIs s' v ⟨e0, x, y, z⟩ ∧
      ∀ y, y ≠ v.id → s' y = s y) ∧
    (n ≠ 3 → ∃ e, qAssignVec s v fixed n f e0 = .throw e s ∧
      (e = .vecSize ∨ (e = .staticAssert ∧ fixed = true))) := by
  constructor
  · rintro rfl
    unfold qAssignVec
    simp only [if_true, qPut, QOrder.W_lt, Out.ok_andThen, qPutRes, h0, h1, h2, Out.withVal_ok,
      QOrder.X_lt, QOrder.Y_lt, QOrder.Z_lt]
    refine ⟨_, rfl, ?_, ?_⟩
    · unfold QIs
      cases v.order <;> simp [QHolds, QOrder.W, QOrder.X, QOrder.Y, QOrder.Z]
    · intro y hy; funext j; simp [hy]
  · intro h
    cases fixed
    · exact ⟨_, by simp [qAssignVec, h], Or.inl rfl⟩
    · exact ⟨_, by simp [qAssignVec, h], Or.inr ⟨rfl, rfl⟩⟩

/-- C86: `==` holds exactly if the two quaternions are equal. -/
theorem qeq_iff {s : QState E} {a b : QNode E} {p q : ℍ[E]} (ha : QReads s a p) (hb : QReads s b q)
    (ho : a.order = b.order) : ∃ r, qEq s a b = .ok r ∧ (r = true ↔ p = q) := by
  have key : (p = q) ↔ (p.re = q.re ∧ p.imI = q.imI ∧ p.imJ = q.imJ ∧ p.imK = q.imK) :=
    Quaternion.ext_iff
  unfold QReads at ha hb
  rw [← ho] at hb
  unfold qEq
  rw [if_pos ho]
  revert ha hb
  cases a.order <;> simp only [] <;> rintro ⟨a0, a1, a2, a3⟩ ⟨b0, b1, b2, b3⟩ <;>
    simp only [Res.loop, Res.bind, a0, a1, a2, a3, b0, b1, b2, b3, Res.ok_bind, Res.pure_eq, if_true,
      Nat.reduceAdd, decide_eq_true_eq] <;>
    by_cases c0 : p.re = q.re <;> by_cases c1 : p.imI = q.imI <;> by_cases c2 : p.imJ = q.imJ <;>
    by_cases c3 : p.imK = q.imK <;> simp [c0, c1, c2, c3, key]

/-- C45, C11: `dot(a, b)` is the sum of the products of the corresponding parts. -/
theorem qdot_eq {s : QState E} {a b : QNode E} {p q : ℍ[E]} (ha : QReads s a p) (hb : QReads s b q)
    (ho : a.order = b.order) :
    qDot s a b = .ok (p.re * q.re + p.imI * q.imI + p.imJ * q.imJ + p.imK * q.imK) := by
  unfold QReads at ha hb
  rw [← ho] at hb
  unfold qDot
  rw [if_pos ho]
  revert ha hb
  cases a.order <;> simp only [] <;> rintro ⟨a0, a1, a2, a3⟩ ⟨b0, b1, b2, b3⟩ <;>
    simp only [a0, a1, a2, a3, b0, b1, b2, b3, Res.ok_bind, Res.pure_eq]
  ring_nf

end ring

section field
variable {E : Type} [Field E] [LinearOrder E] [IsStrictOrderedRing E]

/-- C43, C44: every well-typed quaternion expression without division by zero evaluates, and its
elements are those of its mathematical value: sums, differences, multiples, conjugates, inverses and
(Hamilton or reversed) products of quaternions, nested to any depth. -/
theorem qexpr_value {o : QOrder} {c : QCross} {s : QState E} {ρ : Nat → ℍ[E]} (e : QExp E)
    (ht : e.Typed o c) (hs : e.Has s ρ) (hd : e.Defined c ρ) :
    ∃ a, e.build s = .ok a ∧ a.order = o ∧ a.cross = c ∧ QReads s a (e.value c ρ) := by
  obtain ⟨a, h1, -, -, h4, h5, h6⟩ := e.build_eq ht hs hd
  exact ⟨a, h1, h4, h5, h6⟩

/-- C43, C44, C48: `v = e` stores the mathematical value of `e` computed from the old values of the
variables, also if `e` mentions `v`, and changes nothing else. -/
theorem qrun_value {v : QVar} {s : QState E} {ρ : Nat → ℍ[E]} (e : QExp E) {c : QCross}
    (ht : e.Typed v.order c) (hs : e.Has s ρ) (hd : e.Defined c ρ) :
    ∃ s', qRun s v e = .ok s' ∧ QIs s' v (e.value c ρ) ∧ ∀ y, y ≠ v.id → s' y = s y := by
  obtain ⟨a, h1, h2, -, h4⟩ := qexpr_value e ht hs hd
  obtain ⟨s', e1, e2, e3⟩ := qAssign_eq h4 h2
  exact ⟨s', by simp [qRun, h1, e1], e2, e3⟩

/-- C43: the product distributes over sums on both sides.  The sum is stored in `t` first, because a
product needs operands of equal type (C85). -/
theorem qmul_distrib {s : QState E} {a b d t : QVar} {ρ : Nat → ℍ[E]} (ha : QIs s a (ρ a.id))
    (hb : QIs s b (ρ b.id)) (hd : QIs s d (ρ d.id)) (hta : a.id ≠ t.id) (htb : b.id ≠ t.id)
    (htd : d.id ≠ t.id) (ob : b.order = a.order) (cb : b.cross = a.cross) (od : d.order = a.order)
    (cd : d.cross = a.cross) (ot : t.order = a.order) (ct : t.cross = a.cross) :
    ∃ s' l l' r r' x y, qRun s t (.bin .add (.var b) (.var d)) = .ok s' ∧
      qMul s' (.var a) (.var t) = .ok l ∧
      QExp.build s' (.bin .add (.mul (.var a) (.var b)) (.mul (.var a) (.var d))) = .ok l' ∧
      QReads s' l x ∧ QReads s' l' x ∧
      qMul s' (.var t) (.var a) = .ok r ∧
      QExp.build s' (.bin .add (.mul (.var b) (.var a)) (.mul (.var d) (.var a))) = .ok r' ∧
      QReads s' r y ∧ QReads s' r' y := by
  obtain ⟨s', e1, e2, e3⟩ := qrun_value (v := t) (s := s) (ρ := ρ) (.bin .add (.var b) (.var d))
    (c := a.cross) ⟨⟨ob.trans ot.symm, cb⟩, ⟨od.trans ot.symm, cd⟩⟩ ⟨hb, hd⟩ ⟨trivial, trivial⟩
  have ha' : QIs s' a (ρ a.id) := by unfold QIs; rw [e3 _ hta]; exact ha
  have hb' : QIs s' b (ρ b.id) := by unfold QIs; rw [e3 _ htb]; exact hb
  have hd' : QIs s' d (ρ d.id) := by unfold QIs; rw [e3 _ htd]; exact hd
  have ht : (QNode.var a : QNode E).ty = (QNode.var t : QNode E).ty := by simp [QNode.ty, ot, ct]
  obtain ⟨l, l1, -, l3⟩ := qmul_hamilton (qreads_var ha') (qreads_var e2) ht
  obtain ⟨r, r1, -, r3⟩ := qmul_hamilton (qreads_var e2) (qreads_var ha') ht.symm
  have hty : ∀ x y : QVar, x.order = a.order → x.cross = a.cross → y.order = a.order →
      y.cross = a.cross →
      (QExp.var x : QExp E).ty a.order a.cross = (QExp.var y : QExp E).ty a.order a.cross := by
    intro x y h1 h2 h3 h4; simp [QExp.ty, h1, h2, h3, h4]
  obtain ⟨l', m1, -, -, m4⟩ := qexpr_value (o := a.order) (c := a.cross) (s := s') (ρ := ρ)
    (.bin .add (.mul (.var a) (.var b)) (.mul (.var a) (.var d)))
    ⟨⟨⟨rfl, rfl⟩, ⟨ob, cb⟩, hty _ _ rfl rfl ob cb⟩, ⟨⟨rfl, rfl⟩, ⟨od, cd⟩, hty _ _ rfl rfl od cd⟩⟩ ⟨⟨ha', hb'⟩, ⟨ha', hd'⟩⟩
    ⟨⟨trivial, trivial⟩, ⟨trivial, trivial⟩⟩
  obtain ⟨r', n1, -, -, n4⟩ := qexpr_value (o := a.order) (c := a.cross) (s := s') (ρ := ρ)
    (.bin .add (.mul (.var b) (.var a)) (.mul (.var d) (.var a)))
    ⟨⟨⟨ob, cb⟩, ⟨rfl, rfl⟩, hty _ _ ob cb rfl rfl⟩, ⟨⟨od, cd⟩, ⟨rfl, rfl⟩, hty _ _ od cd rfl rfl⟩⟩ ⟨⟨hb', ha'⟩, ⟨hd', ha'⟩⟩
    ⟨⟨trivial, trivial⟩, ⟨trivial, trivial⟩⟩
  refine ⟨s', l, l', r, r', _, _, e1, l1, m1, l3, ?_, r1, n1, r3, ?_⟩
  · convert m4 using 1
    have : (QNode.var a : QNode E).cross = a.cross := rfl
    rw [this]
    cases a.cross <;> simp [QExp.value, crossMul, mul_add, add_mul]
  · convert n4 using 1
    have : (QNode.var t : QNode E).cross = a.cross := ct
    rw [this]
    cases a.cross <;> simp [QExp.value, crossMul, mul_add, add_mul]

/-- C43, C44: division by zero — by a zero scalar or in the inverse of the zero quaternion — is the only way
in which a well-typed expression with initialised variables goes wrong, and it always does: the assignment
`v = e` succeeds exactly if nothing in `e` divides by zero. -/
theorem qrun_undefined {v : QVar} {s : QState E} {ρ : Nat → ℍ[E]} (e : QExp E) {c : QCross}
    (ht : e.Typed v.order c) (hs : e.Has s ρ) :
    (qRun s v e = .ub .divZero ↔ ¬ e.Defined c ρ) ∧ ((∃ s', qRun s v e = .ok s') ↔ e.Defined c ρ) := by
  by_cases hd : e.Defined c ρ
  · obtain ⟨s', h, -⟩ := qrun_value e ht hs hd
    simp [h, hd]
  · have : qRun s v e = .ub .divZero := by
      rcases e.build_undefined ht hs hd with h | ⟨a, h1, -, -, -, -, h6⟩
      · simp [qRun, h]
      · simp [qRun, h1, qAssign, h6 _ (QOrder.W_lt _), qPutRes]
    simp [this, hd]

/-- C44: inverting the zero quaternion divides by zero. -/
theorem qinv_zero {s : QState E} {a : QNode E} (ha : QReads s a 0) :
    qInv s a = .ub .divZero := by
  simp [qInv, qNorm, qLengthSquared_eq ha, divR]

/-- C44: `r = conjugate(q); q * r` and `r * q` are the real quaternion `norm(q)`. -/
theorem qmul_conj {s : QState E} {q r : QVar} {h : ℍ[E]} (hq : QIs s q h) (hne : q.id ≠ r.id)
    (ho : r.order = q.order) (hc : r.cross = q.cross) :
    ∃ s' x y, qRun s r (.conj (.var q)) = .ok s' ∧ qMul s' (.var q) (.var r) = .ok x ∧
      qMul s' (.var r) (.var q) = .ok y ∧
      QReads s' x ((normSq h : E) : ℍ[E]) ∧ QReads s' y ((normSq h : E) : ℍ[E]) ∧
      qNorm s' (.var q) = .ok (normSq h) := by
  obtain ⟨s', e1, e2, e3⟩ := qrun_value (v := r) (s := s) (ρ := fun _ => h) (.conj (.var q))
    (c := q.cross) ⟨ho.symm, rfl⟩ hq trivial
  have hq' : QIs s' q h := by unfold QIs; rw [e3 _ hne]; exact hq
  have ht : (QNode.var q : QNode E).ty = (QNode.var r : QNode E).ty := by simp [QNode.ty, ho, hc]
  obtain ⟨x, a1, -, a3⟩ := qmul_hamilton (qreads_var hq') (qreads_var e2) ht
  obtain ⟨y, b1, -, b3⟩ := qmul_hamilton (qreads_var e2) (qreads_var hq') ht.symm
  refine ⟨s', x, y, e1, a1, b1, ?_, ?_, qLengthSquared_eq (qreads_var hq')⟩
  · rw [← Quaternion.self_mul_star]
    revert a3
    cases (QNode.var q : QNode E).cross <;> simp only [QExp.value] <;> intro a3
    · exact a3
    · rw [Quaternion.self_mul_star, ← Quaternion.star_mul_self]; exact a3
  · rw [← Quaternion.self_mul_star]
    revert b3
    cases (QNode.var r : QNode E).cross <;> simp only [QExp.value] <;> intro a3
    · rw [Quaternion.self_mul_star, ← Quaternion.star_mul_self]; exact a3
    · exact a3

/-- C44: for a non-zero `q`, after `r = inverse(q)` both `q * r` and `r * q` are the identity. -/
theorem qmul_inverse {s : QState E} {q r : QVar} {h : ℍ[E]} (hq : QIs s q h) (h0 : h ≠ 0)
    (hne : q.id ≠ r.id) (ho : r.order = q.order) (hc : r.cross = q.cross) :
    ∃ s' x y, qRun s r (.inv (.var q)) = .ok s' ∧ qMul s' (.var q) (.var r) = .ok x ∧
      qMul s' (.var r) (.var q) = .ok y ∧ QReads s' x 1 ∧ QReads s' y 1 := by
  obtain ⟨s', e1, e2, e3⟩ := qrun_value (v := r) (s := s) (ρ := fun _ => h) (.inv (.var q))
    (c := q.cross) ⟨ho.symm, rfl⟩ hq ⟨trivial, h0⟩
  have hq' : QIs s' q h := by unfold QIs; rw [e3 _ hne]; exact hq
  have ht : (QNode.var q : QNode E).ty = (QNode.var r : QNode E).ty := by simp [QNode.ty, ho, hc]
  obtain ⟨x, a1, -, a3⟩ := qmul_hamilton (qreads_var hq') (qreads_var e2) ht
  obtain ⟨y, b1, -, b3⟩ := qmul_hamilton (qreads_var e2) (qreads_var hq') ht.symm
  refine ⟨s', x, y, e1, a1, b1, ?_, ?_⟩
  · revert a3
    cases (QNode.var q : QNode E).cross <;> simp [QExp.value, h0]
  · revert b3
    cases (QNode.var r : QNode E).cross <;> simp [QExp.value, h0]

/-- C44: `conjugate(p * q)` and `conjugate(q) * conjugate(p)` have the same value; so have
`inverse(p * q)` and `inverse(q) * inverse(p)` for non-zero operands. -/
theorem qconj_mul {o : QOrder} {c : QCross} {s : QState E} {v w : QVar} {ρ : Nat → ℍ[E]}
    (hv : QIs s v (ρ v.id)) (hw : QIs s w (ρ w.id)) (hvo : v.order = o) (hwo : w.order = o)
    (hvc : v.cross = c) (hwc : w.cross = c) :
    (∃ l r h, QExp.build s (.conj (.mul (.var v) (.var w))) = .ok l ∧
      QExp.build s (.mul (.conj (.var w)) (.conj (.var v))) = .ok r ∧ QReads s l h ∧ QReads s r h) ∧
    (ρ v.id ≠ 0 → ρ w.id ≠ 0 → ∃ l r h, QExp.build s (.inv (.mul (.var v) (.var w))) = .ok l ∧
      QExp.build s (.mul (.inv (.var w)) (.inv (.var v))) = .ok r ∧ QReads s l h ∧
      QReads s r h) := by
  have hty : (QExp.var v : QExp E).ty o c = (QExp.var w : QExp E).ty o c := by
    simp [QExp.ty, hvo, hwo, hvc, hwc]
  constructor
  · obtain ⟨l, a1, -, -, a4⟩ := qexpr_value (o := o) (c := c) (s := s) (ρ := ρ)
      (.conj (.mul (.var v) (.var w))) ⟨⟨hvo, hvc⟩, ⟨hwo, hwc⟩, hty⟩ ⟨hv, hw⟩ ⟨trivial, trivial⟩
    obtain ⟨r, b1, -, -, b4⟩ := qexpr_value (o := o) (c := c) (s := s) (ρ := ρ)
      (.mul (.conj (.var w)) (.conj (.var v)))
      ⟨⟨hwo, hwc⟩, ⟨hvo, hvc⟩, by simp [QExp.ty, QExp.isVar, hvo, hwo, hvc, hwc]⟩ ⟨hw, hv⟩
      ⟨trivial, trivial⟩
    refine ⟨l, r, _, a1, b1, a4, ?_⟩
    convert b4 using 1
    cases c <;> simp [QExp.value, crossMul]
  · intro h0 h1
    obtain ⟨l, a1, -, -, a4⟩ := qexpr_value (o := o) (c := c) (s := s) (ρ := ρ)
      (.inv (.mul (.var v) (.var w))) ⟨⟨hvo, hvc⟩, ⟨hwo, hwc⟩, hty⟩ ⟨hv, hw⟩
      ⟨⟨trivial, trivial⟩, by cases c <;> simp [QExp.value, crossMul, h0, h1]⟩
    obtain ⟨r, b1, -, -, b4⟩ := qexpr_value (o := o) (c := c) (s := s) (ρ := ρ)
      (.mul (.inv (.var w)) (.inv (.var v)))
      ⟨⟨hwo, hwc⟩, ⟨hvo, hvc⟩, by simp [QExp.ty, QExp.isVar, hvo, hwo, hvc, hwc]⟩ ⟨hw, hv⟩
      ⟨⟨trivial, h1⟩, ⟨trivial, h0⟩⟩
    refine ⟨l, r, _, a1, b1, a4, ?_⟩
    convert b4 using 1
    cases c <;> simp [QExp.value, crossMul]

/-- C44: the in-place `conjugate()` and `inverse()` store what the expression forms denote. -/
theorem qconj_inverse_inplace {s : QState E} {v : QVar} {h : ℍ[E]} (hv : QIs s v h) :
    (∃ s', qConjugate s v = .ok s' ∧ QIs s' v (star h) ∧ ∀ y, y ≠ v.id → s' y = s y) ∧
    (h ≠ 0 → ∃ s', qInverse s v = .ok s' ∧ QIs s' v h⁻¹ ∧ ∀ y, y ≠ v.id → s' y = s y) ∧
    (h = 0 → qInverse s v = .ub .divZero) := by
  have hd := QOrder.distinct v.order
  obtain ⟨h0, h1, h2, h3⟩ := qholds_iff.1 hv
  have hr := qreads_var hv
  refine ⟨?_, ?_, ?_⟩
  · have := qPut4 (s := s) (x := v.id) (o := v.order) (h := star h)
      (f := fun s i => if i = v.order.W then QArr.get (s v.id) i else
        (QArr.get (s v.id) i).bind fun x => .ok (-x))
      (by simp [QArr.get, h0, QOrder.W_lt])
      (fun s' hs => by
        have := hs v.id v.order.X (fun _ => hd.1)
        simp [QArr.get, this, hd.1, h1, QOrder.X_lt, Res.bind])
      (fun s' hs => by
        have := hs v.id v.order.Y (fun _ => ⟨hd.2.1, hd.2.2.1⟩)
        simp [QArr.get, this, hd.2.1, h2, QOrder.Y_lt, Res.bind])
      (fun s' hs => by
        have := hs v.id v.order.Z (fun _ => ⟨hd.2.2.2.1, hd.2.2.2.2.1, hd.2.2.2.2.2⟩)
        simp [QArr.get, this, hd.2.2.2.1, h3, QOrder.Z_lt, Res.bind])
    simpa only [if_true, hd.1, hd.2.1, hd.2.2.2.1, if_false, qConjugate, QIs] using this
  · intro hne
    have hn : normSq h ≠ 0 := normSq_ne_zero.2 hne
    have := qPut4 (s := s) (x := v.id) (o := v.order) (h := h⁻¹)
      (f := fun s i => if i = v.order.W then (QArr.get (s v.id) i).bind fun x => divR x (normSq h) else
        (QArr.get (s v.id) i).bind fun x => divR (-x) (normSq h))
      (by simp [QArr.get, h0, QOrder.W_lt, Res.bind, divR, hn, Quaternion.inv_def, div_eq_inv_mul])
      (fun s' hs => by
        have := hs v.id v.order.X (fun _ => hd.1)
        simp [QArr.get, this, hd.1, h1, QOrder.X_lt, Res.bind, divR, hn, Quaternion.inv_def,
          div_eq_inv_mul])
      (fun s' hs => by
        have := hs v.id v.order.Y (fun _ => ⟨hd.2.1, hd.2.2.1⟩)
        simp [QArr.get, this, hd.2.1, h2, QOrder.Y_lt, Res.bind, divR, hn, Quaternion.inv_def,
          div_eq_inv_mul])
      (fun s' hs => by
        have := hs v.id v.order.Z (fun _ => ⟨hd.2.2.2.1, hd.2.2.2.2.1, hd.2.2.2.2.2⟩)
        simp [QArr.get, this, hd.2.2.2.1, h3, QOrder.Z_lt, Res.bind, divR, hn, Quaternion.inv_def,
          div_eq_inv_mul])
    simpa only [if_true, hd.1, hd.2.1, hd.2.2.2.1, if_false, qInverse, QIs, qNorm,
      qLengthSquared_eq hr, Out.withVal_ok] using this
  · rintro rfl
    simp [qInverse, qNorm, qLengthSquared_eq hr, QArr.get, h0, QOrder.W_lt, Res.bind, divR, qPutRes]

/-- C45: the same expression over `o`-ordered and over `o'`-ordered quaternions with equal real and
imaginary parts gives equal real parts and equal imaginary parts. -/
theorem qorder_independent {o : QOrder} {c : QCross} (o' : QOrder) {s s' : QState E}
    {ρ : Nat → ℍ[E]} (e : QExp E) (ht : e.Typed o c) (hs : e.Has s ρ)
    (hs' : (e.reorder o').Has s' ρ) (hd : e.Defined c ρ) :
    ∃ a b w x y z, e.build s = .ok a ∧ (e.reorder o').build s' = .ok b ∧
      a.order = o ∧ b.order = o' ∧
      qReal s a = .ok w ∧ qReal s' b = .ok w ∧ qImag s a 0 = .ok x ∧ qImag s' b 0 = .ok x ∧
      qImag s a 1 = .ok y ∧ qImag s' b 1 = .ok y ∧ qImag s a 2 = .ok z ∧ qImag s' b 2 = .ok z ∧
      qNorm s a = qNorm s' b := by
  obtain ⟨a, a1, a2, -, a4⟩ := qexpr_value e ht hs hd
  obtain ⟨b, b1, b2, -, b4⟩ := qexpr_value (e.reorder o') (e.reorder_typed o' ht) hs'
    ((e.reorder_defined o').2 hd)
  rw [e.reorder_value] at b4
  obtain ⟨x1, x2, x3⟩ := qImag_eq a4
  obtain ⟨y1, y2, y3⟩ := qImag_eq b4
  exact ⟨a, b, _, _, _, _, a1, b1, a2, b2, (qreads_iff.1 a4).1, (qreads_iff.1 b4).1, x1, y1, x2, y2,
    x3, y3, by rw [qNorm, qNorm, qLengthSquared_eq a4, qLengthSquared_eq b4]⟩

/-- C86: `<` is the lexicographic order of the elements in storage order (which for `real_first`
compares the real parts first), a strict total order; `>` is its converse, and `<=`, `>=` are the
negations of `>` and `<`. -/
theorem qlt_iff {s : QState E} {a b : QNode E} {p q : ℍ[E]} (ha : QReads s a p) (hb : QReads s b q)
    (ho : a.order = b.order) :
    (∃ r, qLt s a b = .ok r ∧ qGt s b a = .ok r ∧ qGe s a b = .ok (!r) ∧ qLe s b a = .ok (!r) ∧
      (r = true ↔ toLex (qKey a.order p) < toLex (qKey a.order q))) := by
  have hk : ∀ (p0 p1 p2 p3 q0 q1 q2 q3 : E), a.get s 0 = .ok p0 → a.get s 1 = .ok p1 →
      a.get s 2 = .ok p2 → a.get s 3 = .ok p3 → b.get s 0 = .ok q0 → b.get s 1 = .ok q1 →
      b.get s 2 = .ok q2 → b.get s 3 = .ok q3 →
      (∃ r, qLt s a b = .ok r ∧ qGt s b a = .ok r ∧ (r = true ↔
        (p0 < q0 ∨ (p0 = q0 ∧ (p1 < q1 ∨ (p1 = q1 ∧ (p2 < q2 ∨ (p2 = q2 ∧ p3 < q3)))))))) := by
    intro p0 p1 p2 p3 q0 q1 q2 q3 a0 a1 a2 a3 b0 b1 b2 b3
    unfold qLt qGt
    rw [if_pos ho, if_pos ho.symm]
    rcases lt_trichotomy p0 q0 with h | h | h
    · exact ⟨true, by simp [Res.loop, Res.bind, a0, b0, h], by simp [Res.loop, Res.bind, a0, b0, h],
        by simp [h]⟩
    · rcases lt_trichotomy p1 q1 with h1 | h1 | h1
      · exact ⟨true, by simp [Res.loop, Res.bind, a0, b0, h, a1, b1, h1],
          by simp [Res.loop, Res.bind, a0, b0, h, a1, b1, h1], by simp [h, h1]⟩
      · rcases lt_trichotomy p2 q2 with h2 | h2 | h2
        · exact ⟨true, by simp [Res.loop, Res.bind, a0, b0, h, a1, b1, h1, a2, b2, h2],
            by simp [Res.loop, Res.bind, a0, b0, h, a1, b1, h1, a2, b2, h2], by simp [h, h1, h2]⟩
        · rcases lt_trichotomy p3 q3 with h3 | h3 | h3
          · exact ⟨true, by simp [Res.loop, Res.bind, a0, b0, h, a1, b1, h1, a2, b2, h2, a3, b3, h3],
              by simp [Res.loop, Res.bind, a0, b0, h, a1, b1, h1, a2, b2, h2, a3, b3, h3],
              by simp [h, h1, h2, h3]⟩
          · exact ⟨false, by simp [Res.loop, Res.bind, a0, b0, h, a1, b1, h1, a2, b2, h2, a3, b3, h3],
              by simp [Res.loop, Res.bind, a0, b0, h, a1, b1, h1, a2, b2, h2, a3, b3, h3],
              by simp [h, h1, h2, h3]⟩
          · exact ⟨false, by simp [Res.loop, Res.bind, a0, b0, h, a1, b1, h1, a2, b2, h2, a3, b3, h3,
              h3.not_gt], by simp [Res.loop, Res.bind, a0, b0, h, a1, b1, h1, a2, b2, h2, a3, b3, h3,
              h3.not_gt], by simp [h, h1, h2, h3.not_gt]⟩
        · exact ⟨false, by simp [Res.loop, Res.bind, a0, b0, h, a1, b1, h1, a2, b2, h2, h2.not_gt],
            by simp [Res.loop, Res.bind, a0, b0, h, a1, b1, h1, a2, b2, h2, h2.not_gt],
            by simp [h, h1, h2.not_gt, h2.ne']⟩
      · exact ⟨false, by simp [Res.loop, Res.bind, a0, b0, h, a1, b1, h1, h1.not_gt],
          by simp [Res.loop, Res.bind, a0, b0, h, a1, b1, h1, h1.not_gt],
          by simp [h, h1.not_gt, h1.ne']⟩
    · exact ⟨false, by simp [Res.loop, Res.bind, a0, b0, h, h.not_gt],
        by simp [Res.loop, Res.bind, a0, b0, h, h.not_gt], by simp [h.not_gt, h.ne']⟩
  unfold QReads at ha hb
  rw [← ho] at hb
  revert ha hb
  cases a.order <;> simp only [] <;> rintro ⟨a0, a1, a2, a3⟩ ⟨b0, b1, b2, b3⟩ <;>
  · obtain ⟨r, h1, h2, h3⟩ := hk _ _ _ _ _ _ _ _ a0 a1 a2 a3 b0 b1 b2 b3
    refine ⟨r, h1, h2, by simp [qGe, h1], by simp [qLe, h2], h3.trans ?_⟩
    simp [qKey, Prod.Lex.toLex_lt_toLex]

/-- C86: exactly one of `a < b`, `a == b`, `a > b` holds, and `!=` is the negation of `==`. -/
theorem qtrichotomy {s : QState E} {a b : QNode E} {p q : ℍ[E]} (ha : QReads s a p)
    (hb : QReads s b q) (ho : a.order = b.order) :
    ∃ l e g, qLt s a b = .ok l ∧ qEq s a b = .ok e ∧ qGt s a b = .ok g ∧ qNe s a b = .ok (!e) ∧
      ((l = true ∧ e = false ∧ g = false) ∨ (l = false ∧ e = true ∧ g = false) ∨
        (l = false ∧ e = false ∧ g = true)) := by
  obtain ⟨l, l1, -, -, -, l2⟩ := qlt_iff ha hb ho
  obtain ⟨g, -, g1, -, -, g2⟩ := qlt_iff hb ha ho.symm
  obtain ⟨e, e1, e2⟩ := qeq_iff ha hb ho
  rw [← ho] at g2
  refine ⟨l, e, g, l1, e1, g1, by simp [qNe, e1], ?_⟩
  have hinj : toLex (qKey a.order p) = toLex (qKey a.order q) ↔ p = q := by
    rw [toLex_inj]
    constructor
    · intro h
      refine Quaternion.ext _ _ ?_ ?_ ?_ ?_ <;> revert h <;> cases a.order <;>
        simp [qKey] <;> intros <;> assumption
    · rintro rfl; rfl
  rcases lt_trichotomy (toLex (qKey a.order p)) (toLex (qKey a.order q)) with h | h | h
  · left
    exact ⟨l2.2 h, by
      rw [← Bool.not_eq_true, e2, ← hinj]; exact h.ne, by
      rw [← Bool.not_eq_true, g2]; exact h.not_gt⟩
  · right; left
    exact ⟨by rw [← Bool.not_eq_true, l2]; exact h.not_lt, e2.2 (hinj.1 h), by
      rw [← Bool.not_eq_true, g2]; exact h.not_gt⟩
  · right; right
    exact ⟨by rw [← Bool.not_eq_true, l2]; exact h.not_gt, by
      rw [← Bool.not_eq_true, e2, ← hinj]; exact h.ne', g2.2 h⟩

theorem qis_of_elems {s : QState E} {v : QVar} {g : Nat → E} {h : ℍ[E]}
    (hs : ∀ i, i < 4 → s v.id i = some (g i))
    (hW : g v.order.W = h.re) (hX : g v.order.X = h.imI) (hY : g v.order.Y = h.imJ)
    (hZ : g v.order.Z = h.imK) : QIs s v h := by
  unfold QIs
  rw [qholds_iff, hs _ (QOrder.W_lt _), hs _ (QOrder.X_lt _), hs _ (QOrder.Y_lt _),
    hs _ (QOrder.Z_lt _), hW, hX, hY, hZ]
  exact ⟨rfl, rfl, rfl, rfl⟩

theorem qop_loop {s : QState E} {v : QVar} {a : QNode E} {p q : ℍ[E]} (hv : QIs s v p)
    (ha : QReads s a q) (ho : a.order = v.order) (f : E → E → E) :
    ∃ s', Out.loop (fun i s => qPutRes s v.id i (do
        let x ← QNode.get s (.var v) i
        let y ← a.get s i
        pure (f x y))) 0 4 s = .ok s' ∧
      QIs s' v ⟨f p.re q.re, f p.imI q.imI, f p.imJ q.imJ, f p.imK q.imK⟩ ∧
      ∀ y, y ≠ v.id → s' y = s y := by
  obtain ⟨h0, h1, h2, h3⟩ := qreads_iff.1 (qreads_var hv)
  obtain ⟨k0, k1, k2, k3⟩ := qreads_iff.1 ha
  rw [ho] at k0 k1 k2 k3
  have hvo : (QNode.var v : QNode E).order = v.order := rfl
  rw [hvo] at h0 h1 h2 h3
  have hall : ∀ i, i < 4 → i = v.order.W ∨ i = v.order.X ∨ i = v.order.Y ∨ i = v.order.Z := by
    intro i hi
    cases v.order <;> simp only [QOrder.W, QOrder.X, QOrder.Y, QOrder.Z] <;> omega
  have hg : ∃ g : Nat → E, ∀ i, i < 4 → ∀ x y, QNode.get s (.var v) i = .ok x → a.get s i = .ok y →
      g i = f x y := by
    refine ⟨fun i => match QNode.get s (.var v) i, a.get s i with
      | .ok x, .ok y => f x y
      | _, _ => 0, ?_⟩
    intro i _ x y hx hy
    simp [hx, hy]
  obtain ⟨g, hg⟩ := hg
  have hW := hg _ (QOrder.W_lt _) _ _ h0 k0
  have hX := hg _ (QOrder.X_lt _) _ _ h1 k1
  have hY := hg _ (QOrder.Y_lt _) _ _ h2 k2
  have hZ := hg _ (QOrder.Z_lt _) _ _ h3 k3
  obtain ⟨s', e1, e2, e3⟩ := qPutLoop (s := s) (x := v.id) (g := g)
    (f := fun s i => do
      let x ← QNode.get s (.var v) i
      let y ← a.get s i
      pure (f x y)) (by
    intro i s' hi hs
    have hc : ∀ y, s' y i = s y i := fun y => hs y i (fun _ => le_refl i)
    rw [QNode.get_congr _ i hc, QNode.get_congr a i hc]
    rcases hall i hi with rfl | rfl | rfl | rfl
    · simp [h0, k0, hW]
    · simp [h1, k1, hX]
    · simp [h2, k2, hY]
    · simp [h3, k3, hZ])
  exact ⟨s', e1, qis_of_elems e2 hW hX hY hZ, e3⟩

/-- C87: `v += a` and `v -= a` add and subtract, for operands of the same order, also if `a` mentions
`v` (`v += v`); nothing else changes.  Missing: operands of different orders (false, see
`qop_assign_cross_order_false`). -/
theorem qop_assign_partial {s : QState E} {v : QVar} {a : QNode E} {p q : ℍ[E]} (hv : QIs s v p)
    (ha : QReads s a q) (ho : a.order = v.order) (op : QBin) :
    ∃ s', qOpAssign op s v a = .ok s' ∧
      QIs s' v (match op with | .add => p + q | .sub => p - q) ∧ ∀ y, y ≠ v.id → s' y = s y := by
  cases op
  · exact qop_loop hv ha ho (· + ·)
  · exact qop_loop hv ha ho (· - ·)

/-- The scalar operand of a compound assignment keeps its value `k` while elements of `x` are
overwritten: it is a value, or an element of another quaternion. -/
def QScalar.Steady {E : Type} [CommRing E] (s : QState E) (x : Nat) (k : E) : QScalar E → Prop
  | .val c => c = k
  | .elem y j => y ≠ x ∧ j < 4 ∧ s y j = some k

/-- C87, proved part: `v *= k` and `v /= k` multiply and divide all four elements by `k`, if `k` is a
value or an element of another quaternion.  Missing: `k` a reference to an element of `v` itself (false,
see `qscal_assign_alias_false`). -/
theorem qscal_assign_partial {s : QState E} {v : QVar} {p : ℍ[E]} (hv : QIs s v p) (k : E)
    (r : QScalar E) (hr : r.Steady s v.id k) :
    (∃ s', qScalAssign .mul s v r = .ok s' ∧ QIs s' v (k • p) ∧ ∀ y, y ≠ v.id → s' y = s y) ∧
    (k ≠ 0 → ∃ s', qScalAssign .div s v r = .ok s' ∧ QIs s' v (k⁻¹ • p) ∧
      ∀ y, y ≠ v.id → s' y = s y) ∧
    (k = 0 → qScalAssign .div s v r = .ub .divZero) := by
  obtain ⟨h0, h1, h2, h3⟩ := qreads_iff.1 (qreads_var hv)
  have hvo : (QNode.var v : QNode E).order = v.order := rfl
  rw [hvo] at h0 h1 h2 h3
  have hall : ∀ i, i < 4 → ∃ x, QNode.get s (.var v) i = .ok x := by
    intro i hi
    have : i = v.order.W ∨ i = v.order.X ∨ i = v.order.Y ∨ i = v.order.Z := by
      cases v.order <;> simp only [QOrder.W, QOrder.X, QOrder.Y, QOrder.Z] <;> omega
    rcases this with rfl | rfl | rfl | rfl
    exacts [⟨_, h0⟩, ⟨_, h1⟩, ⟨_, h2⟩, ⟨_, h3⟩]
  have hread : ∀ s' : QState E, (∀ y, y ≠ v.id → s' y = s y) → r.read s' = .ok k := by
    intro s' hs
    cases r with
    | val c => simp [QScalar.Steady] at hr; simp [QScalar.read, hr]
    | elem y j =>
      obtain ⟨ha, hb, hc⟩ := hr
      simp [QScalar.read, QArr.get, hs y ha, hb, hc]
  have hg : ∃ g : Nat → E, ∀ i, i < 4 → ∀ x, QNode.get s (.var v) i = .ok x → g i = x :=
    ⟨fun i => match QNode.get s (.var v) i with
      | .ok x => x
      | _ => 0, fun i _ x hx => by simp [hx]⟩
  obtain ⟨g, hg⟩ := hg
  have hW := hg _ (QOrder.W_lt _) _ h0
  have hX := hg _ (QOrder.X_lt _) _ h1
  have hY := hg _ (QOrder.Y_lt _) _ h2
  have hZ := hg _ (QOrder.Z_lt _) _ h3
  refine ⟨?_, ?_, ?_⟩
  · obtain ⟨s', e1, e2, e3⟩ := qPutLoop (s := s) (x := v.id) (g := fun i => g i * k)
      (f := fun s i => do
        let x ← QNode.get s (.var v) i
        let y ← r.read s
        pure (x * y)) (by
      intro i s' hi hs
      obtain ⟨x, hx⟩ := hall i hi
      rw [QNode.get_congr _ i (s := s) (fun y => hs y i (fun _ => le_refl i)),
        hread s' (fun y hy => funext fun j => hs y j (fun e => absurd e hy)), hx, hg i hi x hx]
      rfl)
    refine ⟨s', e1, qis_of_elems e2 ?_ ?_ ?_ ?_, e3⟩ <;> simp [hW, hX, hY, hZ, mul_comm]
  · intro hk
    obtain ⟨s', e1, e2, e3⟩ := qPutLoop (s := s) (x := v.id) (g := fun i => g i / k)
      (f := fun s i => do
        let x ← QNode.get s (.var v) i
        let y ← r.read s
        divR x y) (by
      intro i s' hi hs
      obtain ⟨x, hx⟩ := hall i hi
      rw [QNode.get_congr _ i (s := s) (fun y => hs y i (fun _ => le_refl i)),
        hread s' (fun y hy => funext fun j => hs y j (fun e => absurd e hy)), hx, hg i hi x hx]
      simp [divR, hk])
    refine ⟨s', e1, qis_of_elems e2 ?_ ?_ ?_ ?_, e3⟩ <;> simp [hW, hX, hY, hZ, div_eq_inv_mul]
  · rintro rfl
    obtain ⟨x, hx⟩ := hall 0 (by omega)
    simp [qScalAssign, Out.loop, qPutRes, hx, hread s (fun _ _ => rfl), divR]

/-- C87 (negated): `q *= q[0]` does not multiply all elements by the old `q[0]`: with (2, 3, 5, 7) the
result is (4, 12, 20, 28). -/
theorem qscal_assign_alias_false :
    ∃ (s s' : QState ℚ) (v : QVar), QIs s v (⟨2, 3, 5, 7⟩ : ℍ[ℚ]) ∧
      qScalAssign .mul s v (.elem v.id 0) = .ok s' ∧ QIs s' v (⟨4, 12, 20, 28⟩ : ℍ[ℚ]) ∧
      ¬ QIs s' v ((2 : ℚ) • (⟨2, 3, 5, 7⟩ : ℍ[ℚ])) := by
  refine ⟨fun _ i => [2, 3, 5, 7][i]?, fun y i => if y = 0 then [4, 12, 20, 28][i]? else
    [2, 3, 5, 7][i]?, ⟨0, .realFirst, .positive⟩, ?_, ?_, ?_, ?_⟩
  · simp [QIs, QHolds]
  · simp [qScalAssign, Out.loop, qPutRes, QNode.get, QArr.get, QScalar.read, qPut]
    norm_num
    funext y i
    rcases y with _ | y <;> rcases i with _ | _ | _ | _ | i <;> simp
  · simp [QIs, QHolds]
  · simp [QIs, QHolds]; norm_num

/-- C87 (negated): `+=` does not compare the orders: adding the `imaginary_first` quaternion 1 to the
`real_first` quaternion 0 gives the imaginary unit k. -/
theorem qop_assign_cross_order_false :
    ∃ (s s' : QState ℚ) (v w : QVar), v.id ≠ w.id ∧ QIs s v (0 : ℍ[ℚ]) ∧ QIs s w (1 : ℍ[ℚ]) ∧
      qOpAssign .add s v (.var w) = .ok s' ∧ QIs s' v (⟨0, 0, 0, 1⟩ : ℍ[ℚ]) ∧
      ¬ QIs s' v (0 + 1 : ℍ[ℚ]) := by
  refine ⟨fun x i => if x = 0 then some 0 else if i = 3 then some 1 else some 0,
    fun _ i => if i = 3 then some 1 else some 0,
    ⟨0, .realFirst, .positive⟩, ⟨1, .imagFirst, .positive⟩, by decide, ?_, ?_, ?_, ?_, ?_⟩
  · simp [QIs, QHolds]
  · simp [QIs, QHolds]
  · simp [qOpAssign, Out.loop, qPutRes, QNode.get, QArr.get, qPut]
    funext y i
    rcases y with _ | y <;> rcases i with _ | _ | _ | _ | i <;> simp
  · simp [QIs, QHolds]
  · simp [QIs, QHolds]

end field

/-! ### Examples: concrete states that meet the hypotheses of the theorems above. -/

/-- Quaternion 0 holds (2, 3, 5, 7), quaternion 1 (1, -1, 4, 0), quaternion 2 the identity, all others
(9, 8, 7, 6), in storage order. -/
def qDemo : QState ℚ := fun x i =>
  if x = 0 then [2, 3, 5, 7][i]? else if x = 1 then [1, -1, 4, 0][i]? else
    if x = 2 then [1, 0, 0, 0][i]? else [9, 8, 7, 6][i]?

def qv (x : Nat) : QVar := ⟨x, .realFirst, .positive⟩

def qw (x : Nat) : QVar := ⟨x, .imagFirst, .negative⟩

def qA : ℍ[ℚ] := ⟨2, 3, 5, 7⟩

def qB : ℍ[ℚ] := ⟨1, -1, 4, 0⟩

theorem qDemo0 : QIs qDemo (qv 0) qA := by simp [QIs, QHolds, qDemo, qv, qA]

theorem qDemo1 : QIs qDemo (qv 1) qB := by simp [QIs, QHolds, qDemo, qv, qB]

theorem qDemo2 : QIs qDemo (qv 2) (1 : ℍ[ℚ]) := by simp [QIs, QHolds, qDemo, qv]

/-- The same storage read with the imaginary part first. -/
theorem qDemo0' : QIs qDemo (qw 0) (⟨7, 2, 3, 5⟩ : ℍ[ℚ]) := by simp [QIs, QHolds, qDemo, qw]

theorem qDemo1' : QIs qDemo (qw 1) (⟨0, 1, -1, 4⟩ : ℍ[ℚ]) := by simp [QIs, QHolds, qDemo, qw]

/-- C43: the theorem applies to two named quaternions, and the product of the example does not
commute: with `positive_cross` it is (-15, -27, 6, 24). -/
example : ∃ r, qMul qDemo (.var (qv 0)) (.var (qv 1)) = .ok r ∧
    QReads qDemo r (⟨-15, -27, 6, 24⟩ : ℍ[ℚ]) := by
  obtain ⟨r, h1, -, h3⟩ := qmul_hamilton (qreads_var qDemo0) (qreads_var qDemo1) rfl
  refine ⟨r, h1, ?_⟩
  simp only [QNode.cross, QNode.ty, QTy.cross, qv] at h3
  have e : qA * qB = ⟨-15, -27, 6, 24⟩ := by
    refine Quaternion.ext _ _ ?_ ?_ ?_ ?_ <;>
      simp only [re_mul, imI_mul, imJ_mul, imK_mul] <;> norm_num [qA, qB]
  rw [e] at h3
  exact h3

example := qmul_hamilton (qreads_var qDemo0') (qreads_var qDemo1') rfl
example := qmul_assoc (qreads_var qDemo0) (qreads_var qDemo1) (qreads_var qDemo0) rfl rfl rfl
example := qmul_norm (qreads_var qDemo0') (qreads_var qDemo1') rfl
example := qmul_identity qDemo2 (qreads_var qDemo0) rfl
example := qmul_accepted_partial (qreads_var qDemo0) (qreads_var qDemo1)
example := qassign_same_order_partial (v := qv 5) (qreads_var qDemo0) rfl
example := qassign_cross_order (v := qw 5) (qreads_var qDemo0) (by decide)
example := qmul_assign qDemo0 (qreads_var qDemo0) rfl
example := (qassign_list qDemo (qw 0) true [1, 2, 3, 4]).1 _ _ _ _ rfl
example := (qassign_list qDemo (qw 0) false [1, 2, 3]).2 (by decide)
example := (qassign_vec qDemo (qw 0) true 3 (fun _ i => .ok (i : ℚ)) 7 0 1 2 (by simp) (by simp)
  (by simp)).1 rfl
example := qeq_iff (qreads_var qDemo0) (qreads_var qDemo1) rfl
example := qdot_eq (qreads_var qDemo0') (qreads_var qDemo1') rfl

/-- C43, C44: the hypotheses of `qexpr_value` hold for `q0 * q1 + inverse(q0)`. -/
example : ∃ s', qRun qDemo (qv 0) (.bin .add (.mul (.var (qv 0)) (.var (qv 1)))
      (.inv (.var (qv 0)))) = .ok s' ∧
    QIs s' (qv 0) (qA * qB + qA⁻¹) := by
  obtain ⟨s', h1, h2, -⟩ := qrun_value (v := qv 0) (s := qDemo) (c := .positive)
    (ρ := fun x => if x = 0 then qA else qB)
    (.bin .add (.mul (.var (qv 0)) (.var (qv 1))) (.inv (.var (qv 0))))
    (by simp [QExp.Typed, QExp.ty, qv]) ⟨⟨qDemo0, qDemo1⟩, qDemo0⟩
    (by
      simp [QExp.Defined, QExp.value, qv]
      intro h; have := congrArg QuaternionAlgebra.re h; simp [qA] at this)
  exact ⟨s', h1, by simpa [QExp.value, crossMul, qv] using h2⟩

example := qmul_distrib (a := qv 0) (b := qv 0) (d := qv 0) (t := qv 7) (ρ := fun _ => qA) qDemo0
  qDemo0 qDemo0 (by decide) (by decide) (by decide) rfl rfl rfl rfl rfl rfl
example := qmul_conj (r := qv 7) qDemo0 (by decide) rfl rfl
example := qmul_inverse (r := qv 7) qDemo1
  (by intro h; have := congrArg QuaternionAlgebra.re h; simp [qB] at this) (by decide) rfl rfl
example := qconj_mul (o := .realFirst) (c := .positive) (v := qv 0) (w := qv 0)
  (ρ := fun _ => qA) qDemo0 qDemo0 rfl rfl rfl rfl
example := qconj_inverse_inplace qDemo0
/-- `q0 = conjugate(q0 / 0)` is typed and initialised but divides by zero. -/
example := (qrun_undefined (v := qv 0) (c := .positive) (ρ := fun _ => qA) (.conj (.scal .div (.var (qv 0)) 0))
  ⟨rfl, rfl⟩ qDemo0).1.2 fun h => h.2 rfl
example : qInv (fun _ i => ([0, 0, 0, 0] : List ℚ)[i]?) (.var (qv 0)) = .ub .divZero :=
  qinv_zero (qreads_var (by simp [QIs, QHolds, qv]))

/-- C45: the conjugate of the same quaternion stored in either order. -/
example := qorder_independent (o := .realFirst) (c := .positive) .imagFirst (s := qDemo)
  (s' := fun _ i => ([3, 5, 7, 2] : List ℚ)[i]?) (ρ := fun _ => qA)
  (.conj (.var (qv 0))) ⟨rfl, rfl⟩ qDemo0
  (by simp [QExp.reorder, QExp.Has, QIs, QHolds, qv, qA]) trivial

example := qlt_iff (qreads_var qDemo0) (qreads_var qDemo1) rfl
example := qtrichotomy (qreads_var qDemo0) (qreads_var qDemo1) rfl
example := qop_assign_partial qDemo0 (qreads_var qDemo0) rfl .sub
example := qscal_assign_partial qDemo0 9 (.elem 3 0) (by simp [QScalar.Steady, qDemo, qv])

end CML

#print axioms CML.qmul_hamilton
#print axioms CML.qmul_assoc
#print axioms CML.qmul_norm
#print axioms CML.qidentity_zero
#print axioms CML.qmul_identity
#print axioms CML.qmul_mixed_false
#print axioms CML.qmul_accepted_partial
#print axioms CML.qassign_cross_order_false
#print axioms CML.qassign_same_order_partial
#print axioms CML.qassign_cross_order
#print axioms CML.qmul_assign
#print axioms CML.qassign_list
#print axioms CML.qassign_vec
#print axioms CML.qeq_iff
#print axioms CML.qdot_eq
#print axioms CML.qexpr_value
#print axioms CML.qrun_value
#print axioms CML.qmul_distrib
#print axioms CML.qrun_undefined
#print axioms CML.qinv_zero
#print axioms CML.qmul_conj
#print axioms CML.qmul_inverse
#print axioms CML.qconj_mul
#print axioms CML.qconj_inverse_inplace
#print axioms CML.qorder_independent
#print axioms CML.qlt_iff
#print axioms CML.qtrichotomy
#print axioms CML.qop_assign_partial
#print axioms CML.qscal_assign_partial
#print axioms CML.qscal_assign_alias_false
#print axioms CML.qop_assign_cross_order_false
