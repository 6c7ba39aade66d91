import Verif.Model.EulerTypes
import Verif.Model.IntAngle
import Verif.Lemmas.IntAngle
import Verif.Props.Extract

/-!
C135: the types of the angles `matrix_to_euler` returns.
-/

namespace CML

open Matrix BMat

/-- A conversion between floating-point types or to a signed integral type: symmetric about zero. -/
def OddFn (c : ℝ → ℝ) : Prop := ∀ x, c (-x) = -c x

/-- The third angle is converted to the type of the first one: the order repeats its first axis, and the length that
decides about gimbal lock is above the tolerance. -/
def ViaFirst (o : EulerOrder) (M : Matrix (Fin 3) (Fin 3) ℝ) (tol : ℝ) : Prop :=
  o.repeats ∧ tol < Real.sqrt (M o.axes.1 (o.axes.1 + 1) ^ 2 + M o.axes.1 (o.axes.1 + 2) ^ 2)

private theorem perm_rest (o : EulerOrder) :
    (o.perm 1 = o.perm 0 + 1 ∧ o.perm 2 = o.perm 0 + 2) ∨ (o.perm 1 = o.perm 0 + 2 ∧ o.perm 2 = o.perm 0 + 1) := by
  cases o <;> decide

private theorem viaFirst_iff (o : EulerOrder) (M : Matrix (Fin 3) (Fin 3) ℝ) (tol : ℝ) :
    ViaFirst o M tol ↔ o.repeats ∧ len2 (M (o.perm 0) (o.perm 1)) (M (o.perm 0) (o.perm 2)) > tol := by
  unfold ViaFirst len2
  rw [o.perm_facts.1, pow_two, pow_two]
  rcases perm_rest o with ⟨h1, h2⟩ | ⟨h1, h2⟩ <;> rw [h1, h2]
  rw [add_comm (M (o.perm 0) (o.perm 0 + 2) * _)]

open Classical in
/-- C135: the first two angles are converted to their own types; the third one as well, but for the orders with a
repeated axis outside of gimbal lock it is converted to the type of the first angle before. -/
theorem toEulerAs_spec {c0 c1 c2 : ℝ → ℝ} (h0 : OddFn c0) (h1 : OddFn c1) (h2 : OddFn c2) {m : BMat ℝ}
    (hm : m.HasLin 3) (o : EulerOrder) (tol : ℝ) :
    ∃ v x, toEuler m o tol = .ok v ∧ v.Is 3 x ∧
      toEulerAs c0 c1 c2 m o tol =
        .ok (c0 (x 0), c1 (x 1), if ViaFirst o (linOf m 3) tol then c2 (c0 (x 2)) else c2 (x 2)) := by
  obtain ⟨-, -, -, fi, fj, fk, -, fr⟩ := o.perm_facts
  have hg : ∀ a b : Fin 3, m.bget (o.perm a) (o.perm b) = .ok (linOf m 3 (o.perm b) (o.perm a)) := fun a b =>
    bget_lin hm _ _
  simp only [viaFirst_iff]
  simp only [toEuler, toEulerAs, checkLinear3D_ok hm, Res.ok_bind, fi, fj, fk, fr, hg]
  have fin : ∀ (r0 r1 r2 : ℝ) (f : ℝ → ℝ), OddFn f →
      ∃ v x, (if (unpackEulerOrder o.code).odd = true then (pure (.mk3 true (-r0) (-r1) (-r2)) : Res (AVec ℝ))
        else pure (.mk3 true r0 r1 r2)) = .ok v ∧ v.Is 3 x ∧
      (if (unpackEulerOrder o.code).odd = true then (pure (-c0 r0, -c1 r1, -f r2) : Res (ℝ × ℝ × ℝ))
        else pure (c0 r0, c1 r1, f r2)) = .ok (c0 (x 0), c1 (x 1), f (x 2)) := by
    intro r0 r1 r2 f hf
    by_cases ho : (unpackEulerOrder o.code).odd = true
    · simp only [ho, if_true]
      refine ⟨_, _, rfl, AVec.mk3_is _ _ _ _, ?_⟩
      show Res.ok _ = Res.ok _
      simp [h0 r0, h1 r1, hf r2]
    · simp only [ho]
      exact ⟨_, _, rfl, AVec.mk3_is _ _ _ _, rfl⟩
  by_cases hrep : o.repeats
  · simp only [hrep, decide_true, if_true, true_and]
    by_cases hgt : len2 (linOf m 3 (o.perm 0) (o.perm 1)) (linOf m 3 (o.perm 0) (o.perm 2)) > tol
    · simp only [hgt, if_true, Res.ok_bind]
      exact fin _ _ _ (fun x => c2 (c0 x)) (fun x => by show c2 (c0 (-x)) = _; rw [h0, h2])
    · simp only [hgt, if_false, Res.ok_bind]
      exact fin _ _ _ c2 h2
  · simp only [hrep, decide_false, Bool.false_eq_true, if_false, false_and]
    by_cases hgt : len2 (linOf m 3 (o.perm 0) (o.perm 0)) (linOf m 3 (o.perm 1) (o.perm 0)) > tol
    · simp only [hgt, if_true, Res.ok_bind]
      exact fin _ _ _ c2 h2
    · have hneg : ∀ x, -c2 x = c2 (-x) := fun x => (h2 x).symm
      have e := fin 0 (atan2 (-linOf m 3 (o.perm 2) (o.perm 0))
        (len2 (linOf m 3 (o.perm 0) (o.perm 0)) (linOf m 3 (o.perm 1) (o.perm 0))))
        (-(sign (-linOf m 3 (o.perm 2) (o.perm 0)) *
          atan2 (-linOf m 3 (o.perm 1) (o.perm 2)) (linOf m 3 (o.perm 1) (o.perm 1)))) c2 h2
      rw [← hneg] at e
      simp only [hgt, if_false, Res.ok_bind]
      exact e

/-- C135: all three angles are those of `matrix_to_euler`, each converted to the type of its variable, exactly if the
type of the first angle does no harm to the third one. -/
theorem toEulerAs_iff {c0 c1 c2 : ℝ → ℝ} (h0 : OddFn c0) (h1 : OddFn c1) (h2 : OddFn c2) {m : BMat ℝ}
    (hm : m.HasLin 3) (o : EulerOrder) (tol : ℝ) :
    ∃ v x, toEuler m o tol = .ok v ∧ v.Is 3 x ∧
      (toEulerAs c0 c1 c2 m o tol = .ok (c0 (x 0), c1 (x 1), c2 (x 2)) ↔
        (ViaFirst o (linOf m 3) tol → c2 (c0 (x 2)) = c2 (x 2))) := by
  obtain ⟨v, x, e1, e2, e3⟩ := toEulerAs_spec h0 h1 h2 hm o tol
  refine ⟨v, x, e1, e2, ?_⟩
  rw [e3]
  by_cases h : ViaFirst o (linOf m 3) tol <;> simp [h]

/-- C135, the part that holds: the angles are right for orders that do not repeat an axis, and for all orders if a
conversion to the type of the first angle does not change what is stored in the third (the same type, or a wider one).
Missing: a first angle of a narrower type, `toEulerAs_false`. -/
theorem toEulerAs_partial {c0 c1 c2 : ℝ → ℝ} (h0 : OddFn c0) (h1 : OddFn c1) (h2 : OddFn c2) {m : BMat ℝ}
    (hm : m.HasLin 3) (o : EulerOrder) (tol : ℝ) (h : ¬o.repeats ∨ ∀ x, c2 (c0 x) = c2 x) :
    ∃ v x, toEuler m o tol = .ok v ∧ v.Is 3 x ∧
      toEulerAs c0 c1 c2 m o tol = .ok (c0 (x 0), c1 (x 1), c2 (x 2)) := by
  obtain ⟨v, x, e1, e2, e3⟩ := toEulerAs_iff h0 h1 h2 hm o tol
  exact ⟨v, x, e1, e2, e3.2 fun hv => h.elim (fun h => absurd hv.1 h) fun h => h (x 2)⟩

/-- C135: for real numbers this is `matrix_to_euler` of C57. -/
theorem toEulerAs_real {m : BMat ℝ} (hm : m.HasLin 3) (o : EulerOrder) (tol : ℝ) :
    ∃ v x, toEuler m o tol = .ok v ∧ v.Is 3 x ∧ toEulerAs id id id m o tol = .ok (x 0, x 1, x 2) :=
  toEulerAs_partial (c0 := id) (c1 := id) (c2 := id) (fun _ => rfl) (fun _ => rfl) (fun _ => rfl) hm o tol (.inr fun _ => rfl)

/-- C135: in general it fails.  For every order that repeats an axis, the angles of a matrix built from `a0, a1, a2`
are returned in variables of types of which only the first is not exact; the third angle is the one converted to the
type of the first, so it is wrong whenever that conversion changes it. -/
theorem toEulerAs_false {c0 : ℝ → ℝ} (hc : OddFn c0) {m : BMat ℝ} (hm : m.HasLin 3) (o : EulerOrder)
    (hrep : o.repeats) {a0 a1 a2 tol : ℝ} (ht : 0 ≤ tol)
    (h0 : -Real.pi < o.sgn * a0 ∧ o.sgn * a0 ≤ Real.pi) (h2 : -Real.pi < o.sgn * a2 ∧ o.sgn * a2 ≤ Real.pi)
    (h1 : 0 < o.sgn * a1 ∧ o.sgn * a1 < Real.pi ∧ tol < Real.sin (o.sgn * a1)) :
    ∃ m', rotationEuler m a0 a1 a2 o = .ok m' ∧ toEulerAs c0 id id m' o tol = .ok (c0 a0, a1, c0 a2) := by
  obtain ⟨m', v, e1, e2, e3⟩ := rotationEuler_extract hm o ht h0 h2 (by rw [if_pos hrep]; exact h1)
  obtain ⟨m'', f1, f2, -, f4⟩ := rotationEuler_spec hm a0 a1 a2 o
  obtain rfl : m'' = m' := by rw [e1] at f1; exact (Res.ok.inj f1).symm
  obtain ⟨v', x, g1, g2, g3⟩ := toEulerAs_spec hc (c1 := id) (c2 := id) (fun _ => rfl) (fun _ => rfl) (f2.hasLin hm) o tol
  obtain rfl : v' = v := by rw [e2] at g1; exact (Res.ok.inj g1).symm
  have hx : x = ![a0, a1, a2] := g2.2.symm.trans e3.2
  refine ⟨m'', e1, ?_⟩
  have hv : ViaFirst o (linOf m'' 3) tol := by
    rw [viaFirst_iff, f4]
    refine ⟨hrep, ?_⟩
    have e := eulerRot_perm o a0 a1 a2
    rw [eulerStd_eq, if_pos hrep] at e
    have e01 := congrFun (congrFun e 0) 1
    have e02 := congrFun (congrFun e 0) 2
    simp only [submatrix_apply] at e01 e02
    rw [e01, e02]
    have hp : 0 < Real.sin (o.sgn * a1) := lt_of_le_of_lt ht h1.2.2
    have hl : len2 (Real.sin (o.sgn * a0) * Real.sin (o.sgn * a1)) (Real.cos (o.sgn * a0) * Real.sin (o.sgn * a1)) =
        Real.sin (o.sgn * a1) := by
      rw [len2, Real.sqrt_eq_iff_mul_self_eq (add_nonneg (mul_self_nonneg _) (mul_self_nonneg _)) hp.le]
      linear_combination (Real.sin (o.sgn * a1) ^ 2) * Real.sin_sq_add_cos_sq (o.sgn * a0)
    exact lt_of_lt_of_eq h1.2.2 hl.symm
  rw [g3, if_pos hv, hx]
  rfl

/-! ### The hypotheses are met -/

private theorem trunc_odd : OddFn fun x => (truncR x : ℝ) := by
  intro x
  simp only [truncR]
  rcases lt_trichotomy x 0 with h | rfl | h
  · rw [if_pos (by linarith), if_neg (by linarith), Int.floor_neg]; push_cast; rfl
  · simp
  · rw [if_neg (by linarith), if_pos h.le, Int.ceil_neg]; push_cast; rfl

/-- `int a0; double a1, a2; matrix_to_euler(m, a0, a1, a2, euler_order_xyx)`: the third angle, `1/2`, is returned as
zero. -/
example (m : BMat ℝ) (hm : m.HasLin 3) : ∃ m', rotationEuler m 0 1 (1 / 2) .xyx = .ok m' ∧
    toEulerAs (fun x => (truncR x : ℝ)) id id m' .xyx 0 = .ok (0, 1, 0) := by
  have hpi := Real.two_le_pi
  have hs : EulerOrder.sgn .xyx = 1 := if_pos (by decide)
  obtain ⟨m', h1, h2⟩ := toEulerAs_false trunc_odd hm .xyx (by decide) (a0 := 0) (a1 := 1) (a2 := 1 / 2) le_rfl
    (by rw [hs]; constructor <;> linarith) (by rw [hs]; constructor <;> linarith)
    (by rw [hs, one_mul]
        exact ⟨one_pos, by linarith, Real.sin_pos_of_pos_of_lt_pi one_pos (by linarith)⟩)
  refine ⟨m', h1, ?_⟩
  rw [h2, truncR_zero, truncR_inside (by rw [abs_of_pos] <;> norm_num)]
  simp

#print axioms toEulerAs_spec
#print axioms toEulerAs_iff
#print axioms toEulerAs_partial
#print axioms toEulerAs_real
#print axioms toEulerAs_false

end CML
