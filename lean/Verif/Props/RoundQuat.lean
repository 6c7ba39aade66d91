import Verif.Spec.RoundQuat
import Verif.Lemmas.Quat
import Verif.Lemmas.RoundExpr
import Verif.Props.Rounding

/-!
C102: rounding errors of quaternion arithmetic.
-/

set_option linter.unusedSectionVars false

namespace CML

open Quaternion

variable {R : Rounding}

/-! ### Products -/

/-- A quaternion given by its elements. -/
private def qOf (w x y z : Fl R) : ℍ[Fl R] := ⟨w, x, y, z⟩

private theorem realQ_re (h : ℍ[Fl R]) : (realQ h).re = h.re.val := rfl
private theorem realQ_imI (h : ℍ[Fl R]) : (realQ h).imI = h.imI.val := rfl
private theorem realQ_imJ (h : ℍ[Fl R]) : (realQ h).imJ = h.imJ.val := rfl
private theorem realQ_imK (h : ℍ[Fl R]) : (realQ h).imK = h.imK.val := rfl

private theorem pr (x y : Fl R) : Tracks (x * y) (x.val * y.val) ⟨|x.val| * |y.val|⟩ ⟨1⟩ :=
  (Tracks.exact x).mul (Tracks.exact y)

private theorem qMulEl_tracks (c : QCross) (p q : ℍ[Fl R]) :
    Tracks (qMulEl c p q).re (crossMul c (realQ p) (realQ q)).re
      ⟨|p.re.val| * |q.re.val| + (|p.imI.val| * |q.imI.val| + |p.imJ.val| * |q.imJ.val| + |p.imK.val| * |q.imK.val|)⟩ ⟨4⟩ ∧
    Tracks (qMulEl c p q).imI (crossMul c (realQ p) (realQ q)).imI
      ⟨|p.re.val| * |q.imI.val| + |q.re.val| * |p.imI.val| + (|p.imJ.val| * |q.imK.val| + |p.imK.val| * |q.imJ.val|)⟩ ⟨3⟩ ∧
    Tracks (qMulEl c p q).imJ (crossMul c (realQ p) (realQ q)).imJ
      ⟨|p.re.val| * |q.imJ.val| + |q.re.val| * |p.imJ.val| + (|p.imK.val| * |q.imI.val| + |p.imI.val| * |q.imK.val|)⟩ ⟨3⟩ ∧
    Tracks (qMulEl c p q).imK (crossMul c (realQ p) (realQ q)).imK
      ⟨|p.re.val| * |q.imK.val| + |q.re.val| * |p.imK.val| + (|p.imI.val| * |q.imJ.val| + |p.imJ.val| * |q.imI.val|)⟩ ⟨3⟩ := by
  have as : ∀ {x : Fl R} {X X' A A' : ℝ} {k : ℕ}, Tracks x X ⟨A⟩ ⟨k⟩ → X = X' → A = A' → Tracks x X' ⟨A'⟩ ⟨k⟩ := by
    rintro x X X' A A' k h rfl rfl; exact h
  have R4 := (pr p.re q.re).sub (((pr p.imI q.imI).add (pr p.imJ q.imJ)).add (pr p.imK q.imK))
  cases c
  · refine ⟨as R4 ?_ rfl,
      as (((pr p.re q.imI).add (pr q.re p.imI)).add ((pr p.imJ q.imK).sub (pr p.imK q.imJ))) ?_ rfl,
      as (((pr p.re q.imJ).add (pr q.re p.imJ)).add ((pr p.imK q.imI).sub (pr p.imI q.imK))) ?_ rfl,
      as (((pr p.re q.imK).add (pr q.re p.imK)).add ((pr p.imI q.imJ).sub (pr p.imJ q.imI))) ?_ rfl⟩ <;>
    simp only [crossMul, Quaternion.re_mul, Quaternion.imI_mul, Quaternion.imJ_mul, Quaternion.imK_mul, realQ_re, realQ_imI, realQ_imJ, realQ_imK] <;> ring
  · have sw : ∀ a b c d : ℝ, a * b + c * d = d * c + b * a := fun a b c d => by ring
    refine ⟨as R4 ?_ rfl,
      as (((pr p.re q.imI).add (pr q.re p.imI)).add ((pr q.imJ p.imK).sub (pr q.imK p.imJ))) ?_ (congrArg _ (sw _ _ _ _)),
      as (((pr p.re q.imJ).add (pr q.re p.imJ)).add ((pr q.imK p.imI).sub (pr q.imI p.imK))) ?_ (congrArg _ (sw _ _ _ _)),
      as (((pr p.re q.imK).add (pr q.re p.imK)).add ((pr q.imI p.imJ).sub (pr q.imJ p.imI))) ?_ (congrArg _ (sw _ _ _ _))⟩ <;>
    simp only [crossMul, Quaternion.re_mul, Quaternion.imI_mul, Quaternion.imJ_mul, Quaternion.imK_mul, realQ_re, realQ_imI, realQ_imJ, realQ_imK] <;> ring

/-- C102: every element of a product of quaternions in rounded arithmetic differs from that of the exact product by at
most `γ_4` (real part) or `γ_3` (imaginary parts) times the sum of the absolute values of its four terms. -/
theorem qmul_error {s : QState (Fl R)} {a b : QNode (Fl R)} {p q : ℍ[Fl R]} (ha : QReads s a p) (hb : QReads s b q)
    (ht : a.ty = b.ty) (hu : 4 * R.u < 1) :
    ∃ r h, qMul s a b = .ok r ∧ r.ty = .quat a.order a.cross ∧ QReads s r h ∧
      |h.re.val - (crossMul a.cross (realQ p) (realQ q)).re| ≤ gamma R.u 4 *
        (|p.re.val| * |q.re.val| + |p.imI.val| * |q.imI.val| + |p.imJ.val| * |q.imJ.val| + |p.imK.val| * |q.imK.val|) ∧
      |h.imI.val - (crossMul a.cross (realQ p) (realQ q)).imI| ≤ gamma R.u 3 *
        (|p.re.val| * |q.imI.val| + |p.imI.val| * |q.re.val| + |p.imJ.val| * |q.imK.val| + |p.imK.val| * |q.imJ.val|) ∧
      |h.imJ.val - (crossMul a.cross (realQ p) (realQ q)).imJ| ≤ gamma R.u 3 *
        (|p.re.val| * |q.imJ.val| + |p.imJ.val| * |q.re.val| + |p.imK.val| * |q.imI.val| + |p.imI.val| * |q.imK.val|) ∧
      |h.imK.val - (crossMul a.cross (realQ p) (realQ q)).imK| ≤ gamma R.u 3 *
        (|p.re.val| * |q.imK.val| + |p.imK.val| * |q.re.val| + |p.imI.val| * |q.imJ.val| + |p.imJ.val| * |q.imI.val|) := by
  obtain ⟨el, h1, h2⟩ := qMul_gen ha hb ht
  obtain ⟨t0, t1, t2, t3⟩ := qMulEl_tracks a.cross p q
  have u3 : ((3 : ℕ) : ℝ) * R.u < 1 := by have := R.u_nonneg; push_cast; linarith
  have u4 : ((4 : ℕ) : ℝ) * R.u < 1 := by push_cast; exact hu
  have key : ∀ {x : Fl R} {X : ℝ} {A : ℝ} {k : ℕ} {A' : ℝ}, Tracks x X ⟨A⟩ ⟨k⟩ → (k : ℝ) * R.u < 1 → A = A' →
      |x.val - X| ≤ gamma R.u k * A' := by
    rintro x X A k A' h hk rfl
    exact le_trans h.err (mul_le_mul_of_nonneg_right (phi_le_gamma R.u_nonneg R.u_lt hk) h.nonneg)
  exact ⟨_, _, h1, rfl, qreads_tmp h2, key t0 u4 (by ring), key t1 u3 (by ring), key t2 u3 (by ring), key t3 u3 (by ring)⟩

/-! ### Norms -/

private theorem sq_norm (z : ℍ[ℝ]) : ‖z‖ ^ 2 = z.re ^ 2 + z.imI ^ 2 + z.imJ ^ 2 + z.imK ^ 2 := by
  rw [pow_two, ← normSq_eq_norm_mul_self, normSq_def']

private theorem norm_le_two {z : ℍ[ℝ]} {B : ℝ} (hB : 0 ≤ B) (h0 : |z.re| ≤ B) (h1 : |z.imI| ≤ B) (h2 : |z.imJ| ≤ B)
    (h3 : |z.imK| ≤ B) : ‖z‖ ≤ 2 * B := by
  refine le_of_sq_le_sq ?_ (by positivity)
  rw [sq_norm]
  have k0 := sq_le_sq' (abs_le.1 h0).1 (abs_le.1 h0).2
  have k1 := sq_le_sq' (abs_le.1 h1).1 (abs_le.1 h1).2
  have k2 := sq_le_sq' (abs_le.1 h2).1 (abs_le.1 h2).2
  have k3 := sq_le_sq' (abs_le.1 h3).1 (abs_le.1 h3).2
  nlinarith

private theorem norm_le_mul {z w : ℍ[ℝ]} {B : ℝ} (hB : 0 ≤ B) (h0 : |z.re| ≤ B * |w.re|) (h1 : |z.imI| ≤ B * |w.imI|)
    (h2 : |z.imJ| ≤ B * |w.imJ|) (h3 : |z.imK| ≤ B * |w.imK|) : ‖z‖ ≤ B * ‖w‖ := by
  refine le_of_sq_le_sq ?_ (by positivity)
  rw [mul_pow, sq_norm, sq_norm]
  have key : ∀ {x y : ℝ}, |x| ≤ B * |y| → x ^ 2 ≤ B ^ 2 * y ^ 2 := by
    intro x y h
    rw [← sq_abs x, ← sq_abs y, ← mul_pow]
    exact pow_le_pow_left₀ (abs_nonneg _) h 2
  have := key h0; have := key h1; have := key h2; have := key h3
  linarith

private theorem cauchy (z w : ℍ[ℝ]) {a b c d x y u v : ℝ} (h : a ^ 2 + b ^ 2 + c ^ 2 + d ^ 2 = ‖z‖ ^ 2)
    (h' : x ^ 2 + y ^ 2 + u ^ 2 + v ^ 2 = ‖w‖ ^ 2) : a * x + b * y + c * u + d * v ≤ ‖z‖ * ‖w‖ := by
  refine le_of_sq_le_sq ?_ (by positivity)
  rw [mul_pow, ← h, ← h']
  nlinarith [sq_nonneg (a * y - b * x), sq_nonneg (a * u - c * x), sq_nonneg (a * v - d * x),
    sq_nonneg (b * u - c * y), sq_nonneg (b * v - d * y), sq_nonneg (c * v - d * u)]

private theorem phi_two : 2 * phi R.u 4 ≤ phi R.u 8 := by
  have := phi_add (u := R.u) 4 4
  have h := phi_nonneg R.u_nonneg R.u_lt 4
  nlinarith

theorem qMulEl_norm (c : QCross) (p q : ℍ[Fl R]) :
    ‖realQ (qMulEl c p q) - crossMul c (realQ p) (realQ q)‖ ≤ phi R.u 8 * (‖realQ p‖ * ‖realQ q‖) := by
  obtain ⟨t0, t1, t2, t3⟩ := qMulEl_tracks c p q
  have h3 : phi R.u 3 ≤ phi R.u 4 := phi_mono R.u_nonneg R.u_lt (by norm_num)
  have h4 := phi_nonneg R.u_nonneg R.u_lt 4
  have h0 := phi_nonneg R.u_nonneg R.u_lt 3
  have hn : 0 ≤ ‖realQ p‖ * ‖realQ q‖ := by positivity
  have sp := sq_norm (realQ p)
  have sq := sq_norm (realQ q)
  simp only [realQ] at sp sq
  refine le_trans (norm_le_two (B := phi R.u 4 * (‖realQ p‖ * ‖realQ q‖)) (by positivity) ?_ ?_ ?_ ?_)
    (by have := mul_le_mul_of_nonneg_right (phi_two (R := R)) hn; linarith)
  · refine le_trans t0.err (mul_le_mul_of_nonneg_left ?_ h4)
    have := cauchy (realQ p) (realQ q) (a := |p.re.val|) (b := |p.imI.val|) (c := |p.imJ.val|) (d := |p.imK.val|)
      (x := |q.re.val|) (y := |q.imI.val|) (u := |q.imJ.val|) (v := |q.imK.val|)
      (by simp only [sq_abs, realQ]; linarith) (by simp only [sq_abs, realQ]; linarith)
    simp only; linarith
  · refine le_trans t1.err (mul_le_mul h3 ?_ t1.nonneg h4)
    have := cauchy (realQ p) (realQ q) (a := |p.re.val|) (b := |p.imI.val|) (c := |p.imJ.val|) (d := |p.imK.val|)
      (x := |q.imI.val|) (y := |q.re.val|) (u := |q.imK.val|) (v := |q.imJ.val|)
      (by simp only [sq_abs, realQ]; linarith) (by simp only [sq_abs, realQ]; linarith)
    simp only; linarith
  · refine le_trans t2.err (mul_le_mul h3 ?_ t2.nonneg h4)
    have := cauchy (realQ p) (realQ q) (a := |p.re.val|) (b := |p.imI.val|) (c := |p.imJ.val|) (d := |p.imK.val|)
      (x := |q.imJ.val|) (y := |q.imK.val|) (u := |q.re.val|) (v := |q.imI.val|)
      (by simp only [sq_abs, realQ]; linarith) (by simp only [sq_abs, realQ]; linarith)
    simp only; linarith
  · refine le_trans t3.err (mul_le_mul h3 ?_ t3.nonneg h4)
    have := cauchy (realQ p) (realQ q) (a := |p.re.val|) (b := |p.imI.val|) (c := |p.imJ.val|) (d := |p.imK.val|)
      (x := |q.imK.val|) (y := |q.imJ.val|) (u := |q.imI.val|) (v := |q.re.val|)
      (by simp only [sq_abs, realQ]; linarith) (by simp only [sq_abs, realQ]; linarith)
    simp only; linarith

/-! ### Expressions -/

/-- A computed quaternion `h` is within `φ_k A` of `X`, and `A` bounds the length of `X`. -/
private structure QTr (h : ℍ[Fl R]) (X : ℍ[ℝ]) (A : ℝ) (k : ℕ) : Prop where
  err : ‖realQ h - X‖ ≤ phi R.u k * A
  mag : ‖X‖ ≤ A

private theorem QTr.nonneg {h : ℍ[Fl R]} {X A k} (t : QTr h X A k) : 0 ≤ A := le_trans (norm_nonneg _) t.mag

private theorem QTr.round {h : ℍ[Fl R]} {z X : ℍ[ℝ]} {A : ℝ} {j k : ℕ} (hz : ‖z - X‖ ≤ phi R.u k * A) (hX : ‖X‖ ≤ A)
    (hh : ‖realQ h - z‖ ≤ phi R.u j * ‖z‖) : QTr h X A (k + j) := by
  refine ⟨?_, hX⟩
  have h0 : ‖z‖ ≤ phi R.u k * A + A := by
    calc ‖z‖ = ‖(z - X) + X‖ := by rw [sub_add_cancel]
      _ ≤ _ := le_trans (norm_add_le _ _) (add_le_add hz hX)
  have h1 := mul_le_mul_of_nonneg_left h0 (phi_nonneg R.u_nonneg R.u_lt j)
  rw [← phi_add]
  calc ‖realQ h - X‖ = ‖(realQ h - z) + (z - X)‖ := by rw [sub_add_sub_cancel]
    _ ≤ _ := norm_add_le _ _
    _ ≤ _ := by linarith

/-- One rounding of every element. -/
private theorem round1 {h : ℍ[Fl R]} {z : ℍ[ℝ]} (h0 : h.re.val = R.fl z.re) (h1 : h.imI.val = R.fl z.imI)
    (h2 : h.imJ.val = R.fl z.imJ) (h3 : h.imK.val = R.fl z.imK) : ‖realQ h - z‖ ≤ phi R.u 1 * ‖z‖ := by
  have key : ∀ x : ℝ, |R.fl x - x| ≤ phi R.u 1 * |x| := by
    intro x
    obtain ⟨t, g1, -, -, g4⟩ := R.fac x
    rw [g4]; exact g1.abs_le
  refine norm_le_mul (phi_nonneg R.u_nonneg R.u_lt 1) ?_ ?_ ?_ ?_
  · show |h.re.val - z.re| ≤ _; rw [h0]; exact key _
  · show |h.imI.val - z.imI| ≤ _; rw [h1]; exact key _
  · show |h.imJ.val - z.imJ| ≤ _; rw [h2]; exact key _
  · show |h.imK.val - z.imK| ≤ _; rw [h3]; exact key _

private theorem phi_max {j k : ℕ} {A B : ℝ} (hA : 0 ≤ A) (hB : 0 ≤ B) :
    phi R.u j * A + phi R.u k * B ≤ phi R.u (max j k) * (A + B) := by
  have h1 := mul_le_mul_of_nonneg_right (phi_mono R.u_nonneg R.u_lt (le_max_left j k)) hA
  have h2 := mul_le_mul_of_nonneg_right (phi_mono R.u_nonneg R.u_lt (le_max_right j k)) hB
  linarith

private theorem norm_crossMul (c : QCross) (a b : ℍ[ℝ]) : ‖crossMul c a b‖ = ‖a‖ * ‖b‖ := by
  cases c
  · exact norm_mul _ _
  · rw [crossMul, norm_mul, mul_comm]

private theorem crossMul_sub (c : QCross) (a b x y : ℍ[ℝ]) :
    crossMul c a b - crossMul c x y = crossMul c (a - x) (b - y) + crossMul c (a - x) y + crossMul c x (b - y) := by
  cases c <;> simp only [crossMul, sub_mul, mul_sub] <;> abel

private theorem QExp.build_round {o : QOrder} {c : QCross} {s : QState (Fl R)} {ρ : Nat → ℍ[Fl R]} (e : QExp (Fl R))
    (ht : e.Typed o c) (hs : e.Has s ρ) (hd : e.Plain) :
    ∃ a h, e.build s = .ok a ∧ a.ty = e.ty o c ∧ a.isRef = e.isVar ∧ a.order = o ∧ a.cross = c ∧
      QReads s a h ∧ QTr h ((e.map Fl.val).value c (fun i => realQ (ρ i))) ((e.map Fl.val).mag fun i => realQ (ρ i))
        e.cnt := by
  induction e with
  | var v =>
    refine ⟨.var v, ρ v.id, rfl, rfl, rfl, ht.1, ht.2, qreads_var hs, ?_, le_refl _⟩
    show ‖realQ (ρ v.id) - realQ (ρ v.id)‖ ≤ _
    rw [sub_self, norm_zero]
    exact mul_nonneg (phi_nonneg R.u_nonneg R.u_lt _) (norm_nonneg _)
  | un op a ih =>
    obtain ⟨n, h, h1, h2, h3, h4, h5, h6, h7⟩ := ih ht hs hd
    cases op
    · refine ⟨.un .pos n, h, by simp [QExp.build, h1, qUn], by simp [QNode.ty, QExp.ty, h2, h3], rfl,
        h4, h5, ?_, h7⟩
      obtain ⟨k0, k1, k2, k3⟩ := qreads_iff.1 h6
      exact qreads_iff.2 ⟨k0, k1, k2, k3⟩
    · refine ⟨.un .neg n, qOf (-h.re) (-h.imI) (-h.imJ) (-h.imK), by simp [QExp.build, h1, qUn],
        by simp [QNode.ty, QExp.ty, h2, h3], rfl, h4, h5, ?_, ?_, ?_⟩
      · obtain ⟨k0, k1, k2, k3⟩ := qreads_iff.1 h6
        rw [qreads_iff]
        simp only [QNode.order, QNode.ty, QTy.order] at *
        simp [qOf, QNode.get, k0, k1, k2, k3]
      · have : realQ (qOf (-h.re) (-h.imI) (-h.imJ) (-h.imK)) = -realQ h := rfl
        rw [this]
        show ‖-realQ h - -(QExp.value _ _ _)‖ ≤ _
        rw [← neg_sub', norm_neg]
        exact h7.err
      · show ‖-(QExp.value _ _ _)‖ ≤ _
        rw [norm_neg]; exact h7.mag
  | bin op a b iha ihb =>
    obtain ⟨n, p, h1, h2, h3, h4, h5, h6, h7⟩ := iha ht.1 hs.1 hd.1
    obtain ⟨m, q, k1, k2, k3, k4, k5, k6, k7⟩ := ihb ht.2 hs.2 hd.2
    obtain ⟨a0, a1, a2, a3⟩ := qreads_iff.1 h6
    obtain ⟨b0, b1, b2, b3⟩ := qreads_iff.1 k6
    rw [k4] at b0 b1 b2 b3
    rw [h4] at a0 a1 a2 a3
    cases op
    · refine ⟨.bin .add n m, qOf (p.re + q.re) (p.imI + q.imI) (p.imJ + q.imJ) (p.imK + q.imK),
        by simp [QExp.build, h1, k1, qBin, h4, k4, h5, k5],
        by simp [QNode.ty, QExp.ty, h2, h3, k2, k3], rfl, h4, h5, ?_, ?_⟩
      · rw [qreads_iff, show (QNode.bin .add n m).order = o from h4]
        simp [qOf, QNode.get, a0, a1, a2, a3, b0, b1, b2, b3]
      · refine QTr.round (z := realQ p + realQ q) ?_ ?_ (round1 rfl rfl rfl rfl)
        · refine le_trans ?_ (phi_max h7.nonneg k7.nonneg)
          refine le_trans ?_ (add_le_add h7.err k7.err)
          refine le_trans (le_of_eq ?_) (norm_add_le _ _)
          congr 1
          exact add_sub_add_comm _ _ _ _
        · exact le_trans (norm_add_le _ _) (add_le_add h7.mag k7.mag)
    · refine ⟨.bin .sub n m, qOf (p.re - q.re) (p.imI - q.imI) (p.imJ - q.imJ) (p.imK - q.imK),
        by simp [QExp.build, h1, k1, qBin, h4, k4, h5, k5],
        by simp [QNode.ty, QExp.ty, h2, h3, k2, k3], rfl, h4, h5, ?_, ?_⟩
      · rw [qreads_iff, show (QNode.bin .sub n m).order = o from h4]
        simp [qOf, QNode.get, a0, a1, a2, a3, b0, b1, b2, b3]
      · refine QTr.round (z := realQ p - realQ q) ?_ ?_ (round1 rfl rfl rfl rfl)
        · refine le_trans ?_ (phi_max h7.nonneg k7.nonneg)
          refine le_trans ?_ (add_le_add h7.err k7.err)
          refine le_trans (le_of_eq ?_) (norm_sub_le _ _)
          congr 1
          exact sub_sub_sub_comm _ _ _ _
        · exact le_trans (norm_sub_le _ _) (add_le_add h7.mag k7.mag)
  | scal op a k ih =>
    obtain ⟨n, p, h1, h2, h3, h4, h5, h6, h7⟩ := ih ht hs hd.1
    obtain ⟨a0, a1, a2, a3⟩ := qreads_iff.1 h6
    rw [h4] at a0 a1 a2 a3
    cases op with
    | mul =>
      refine ⟨.scal .mul n k, qOf (p.re * k) (p.imI * k) (p.imJ * k) (p.imK * k), by simp [QExp.build, h1, qScal],
        by simp [QNode.ty, QExp.ty, h2, h3], rfl, h4, h5, ?_, ?_⟩
      · rw [qreads_iff, show (QNode.scal .mul n k).order = o from h4]
        simp [qOf, QNode.get, a0, a1, a2, a3]
      · refine QTr.round (z := k.val • realQ p) ?_ ?_ (round1 ?_ ?_ ?_ ?_)
        · show ‖k.val • realQ p - k.val • _‖ ≤ phi R.u a.cnt * (_ * |k.val|)
          rw [← smul_sub, norm_smul, Real.norm_eq_abs, ← mul_assoc, mul_comm]
          exact mul_le_mul_of_nonneg_right h7.err (abs_nonneg _)
        · show ‖k.val • _‖ ≤ _ * |k.val|
          rw [norm_smul, Real.norm_eq_abs, mul_comm]
          exact mul_le_mul_of_nonneg_right h7.mag (abs_nonneg _)
        all_goals simp [qOf, Fl.mul_val, realQ_re, realQ_imI, realQ_imJ, realQ_imK, mul_comm]
    | div =>
      have hk := hd.2 rfl
      have hk' : k.val ≠ 0 := fun h => hk (Fl.ext h)
      refine ⟨.scal .div n k, qOf (p.re / k) (p.imI / k) (p.imJ / k) (p.imK / k), by simp [QExp.build, h1, qScal],
        by simp [QNode.ty, QExp.ty, h2, h3], rfl, h4, h5, ?_, ?_⟩
      · rw [qreads_iff, show (QNode.scal .div n k).order = o from h4]
        simp [qOf, QNode.get, a0, a1, a2, a3, divR, hk]
      · refine QTr.round (z := k.val⁻¹ • realQ p) ?_ ?_ (round1 ?_ ?_ ?_ ?_)
        · show ‖k.val⁻¹ • realQ p - k.val⁻¹ • _‖ ≤ phi R.u a.cnt * (_ / |k.val|)
          rw [← smul_sub, norm_smul, Real.norm_eq_abs, abs_inv, ← mul_div_assoc, mul_comm, ← div_eq_mul_inv]
          exact div_le_div_of_nonneg_right h7.err (abs_nonneg _)
        · show ‖k.val⁻¹ • _‖ ≤ _ / |k.val|
          rw [norm_smul, Real.norm_eq_abs, abs_inv, mul_comm, ← div_eq_mul_inv]
          exact div_le_div_of_nonneg_right h7.mag (abs_nonneg _)
        all_goals simp [qOf, Fl.div_val, realQ_re, realQ_imI, realQ_imJ, realQ_imK, div_eq_mul_inv, mul_comm]
  | conj a ih =>
    obtain ⟨n, p, h1, h2, h3, h4, h5, h6, h7⟩ := ih ht hs hd
    obtain ⟨a0, a1, a2, a3⟩ := qreads_iff.1 h6
    have hdis := QOrder.distinct n.order
    refine ⟨.conj n, qOf p.re (-p.imI) (-p.imJ) (-p.imK), by simp [QExp.build, h1, qConj],
      by simp [QNode.ty, QExp.ty, h2, h3], rfl, h4, h5, ?_, ?_, ?_⟩
    · rw [qreads_iff, show (QNode.conj n).order = n.order from rfl]
      simp [qOf, QNode.get, a0, a1, a2, a3, hdis.1, hdis.2.1, hdis.2.2.2.1]
    · have : realQ (qOf p.re (-p.imI) (-p.imJ) (-p.imK)) = star (realQ p) := by
        ext <;> simp [qOf] <;> rfl
      rw [this]
      show ‖star (realQ p) - star _‖ ≤ _
      rw [← star_sub, Quaternion.norm_star]
      exact h7.err
    · show ‖star _‖ ≤ _
      rw [Quaternion.norm_star]; exact h7.mag
  | inv a ih => exact absurd hd id
  | mul a b iha ihb =>
    obtain ⟨n, p, h1, h2, h3, h4, h5, h6, h7⟩ := iha ht.1 hs.1 hd.1
    obtain ⟨m, q, k1, k2, k3, k4, k5, k6, k7⟩ := ihb ht.2.1 hs.2 hd.2
    obtain ⟨el, e1, e2⟩ := qMul_gen h6 k6 (by rw [h2, k2]; exact ht.2.2)
    refine ⟨_, _, by simp [QExp.build, h1, k1, e1]; rfl, ?_, rfl, ?_, ?_, qreads_tmp e2, ?_⟩
    · simp [QNode.ty, QExp.ty, h4, h5]
    · exact h4
    · exact h5
    · rw [h5]
      have hn := qMulEl_norm c p q
      rw [← norm_crossMul c] at hn
      refine QTr.round ?_ ?_ hn
      · show ‖crossMul c (realQ p) (realQ q) - crossMul c _ _‖ ≤ phi R.u (a.cnt + b.cnt) * (_ * _)
        rw [crossMul_sub, ← phi_add]
        refine le_trans (norm_add₃_le) ?_
        rw [norm_crossMul, norm_crossMul, norm_crossMul]
        have x1 := mul_le_mul h7.err k7.err (norm_nonneg _) (le_trans (norm_nonneg _) h7.err)
        have x2 := mul_le_mul h7.err k7.mag (norm_nonneg _) (le_trans (norm_nonneg _) h7.err)
        have x3 := mul_le_mul h7.mag k7.err (norm_nonneg _) h7.nonneg
        linarith
      · show ‖crossMul c _ _‖ ≤ _ * _
        rw [norm_crossMul]
        exact mul_le_mul h7.mag k7.mag (norm_nonneg _) h7.nonneg

/-- C102: a quaternion expression without inverses, evaluated in rounded arithmetic, differs from its exact value by at
most `γ_k` times the lengths of the operands combined as the operands are (so there is nothing to add for
cancellation-free expressions, e.g. products). -/
theorem qexp_rounding {o : QOrder} {c : QCross} {s : QState (Fl R)} {ρ : Nat → ℍ[Fl R]} (e : QExp (Fl R))
    (ht : e.Typed o c) (hs : e.Has s ρ) (hd : e.Plain) (hu : e.cnt * R.u < 1) :
    ∃ a h, e.build s = .ok a ∧ a.order = o ∧ a.cross = c ∧ QReads s a h ∧
      ‖realQ h - (e.map Fl.val).value c (fun i => realQ (ρ i))‖ ≤
        gamma R.u e.cnt * (e.map Fl.val).mag fun i => realQ (ρ i) := by
  obtain ⟨a, h, h1, -, -, h2, h3, h4, h5⟩ := QExp.build_round e ht hs hd
  exact ⟨a, h, h1, h2, h3, h4, le_trans h5.err
    (mul_le_mul_of_nonneg_right (phi_le_gamma R.u_nonneg R.u_lt hu) h5.nonneg)⟩

/-! ### Norm, dot product and inverse -/

theorem qLengthSquared_gen {s : QState (Fl R)} {a : QNode (Fl R)} {p : ℍ[Fl R]} (ha : QReads s a p) :
    ∃ n, qNorm s a = .ok n ∧ ∃ t, Fac R.u 4 t ∧ n.val = normSq (realQ p) * t := by
  have four : ∀ x y z w : Fl R, ∃ t, Fac R.u 4 t ∧
      (x * x + y * y + z * z + w * w).val = (x.val ^ 2 + y.val ^ 2 + z.val ^ 2 + w.val ^ 2) * t := by
    intro x y z w
    have T := (((pr x x).add (pr y y)).add (pr z z)).add (pr w w)
    have e := T.err
    have hA : (0 : ℝ) ≤ x.val ^ 2 + y.val ^ 2 + z.val ^ 2 + w.val ^ 2 := by positivity
    set S := x.val ^ 2 + y.val ^ 2 + z.val ^ 2 + w.val ^ 2 with hS
    have e' : |(x * x + y * y + z * z + w * w).val - S| ≤ phi R.u 4 * S := by
      have h1 : x.val * x.val + y.val * y.val + z.val * z.val + w.val * w.val = S := by rw [hS]; ring
      have h2 : |x.val| * |x.val| + |y.val| * |y.val| + |z.val| * |z.val| + |w.val| * |w.val| = S := by
        simp only [abs_mul_abs_self]; exact h1
      have e2 : |(x * x + y * y + z * z + w * w).val - (x.val * x.val + y.val * y.val + z.val * z.val + w.val * w.val)| ≤
        phi R.u 4 * (|x.val| * |x.val| + |y.val| * |y.val| + |z.val| * |z.val| + |w.val| * |w.val|) := e
      rw [h1, h2] at e2; exact e2
    rcases hA.eq_or_lt with h0 | h0
    · refine ⟨1, Fac.one.mono R.u_nonneg R.u_lt (by norm_num), ?_⟩
      rw [← h0] at e' ⊢
      rw [mul_zero, sub_zero] at e'
      rw [zero_mul]
      exact abs_eq_zero.1 (le_antisymm e' (abs_nonneg _))
    · refine ⟨(x * x + y * y + z * z + w * w).val / S, ?_, by field_simp⟩
      show |_ - 1| ≤ _
      rw [div_sub_one h0.ne', abs_div, abs_of_pos h0, div_le_iff₀ h0]
      exact e'
  unfold QReads at ha
  rw [normSq_def']
  revert ha
  cases a.order <;> simp only [] <;> rintro ⟨h0, h1, h2, h3⟩
  · obtain ⟨t, t1, t2⟩ := four p.re p.imI p.imJ p.imK
    exact ⟨_, by simp only [qNorm, qLengthSquared, Res.loop, h0, h1, h2, h3, Res.bind, Res.ok_bind, Res.pure_eq], t, t1, t2⟩
  · obtain ⟨t, t1, t2⟩ := four p.imI p.imJ p.imK p.re
    refine ⟨_, by simp only [qNorm, qLengthSquared, Res.loop, h0, h1, h2, h3, Res.bind, Res.ok_bind, Res.pure_eq]
                  rfl, t, t1, ?_⟩
    rw [t2]
    simp only [realQ]
    ring

/-- C102: the norm of a quaternion in rounded arithmetic has a relative error of at most `γ_4`. -/
theorem qnorm_error {s : QState (Fl R)} {a : QNode (Fl R)} {p : ℍ[Fl R]} (ha : QReads s a p) (hu : 4 * R.u < 1) :
    ∃ n, qNorm s a = .ok n ∧ |n.val - normSq (realQ p)| ≤ gamma R.u 4 * normSq (realQ p) := by
  obtain ⟨n, h1, t, h2, h3⟩ := qLengthSquared_gen ha
  refine ⟨n, h1, ?_⟩
  rw [h3]
  have u4 : ((4 : ℕ) : ℝ) * R.u < 1 := by push_cast; exact hu
  have := h2.abs_le (x := normSq (realQ p))
  rw [abs_of_nonneg (normSq_nonneg (a := realQ p))] at this
  exact le_trans this (mul_le_mul_of_nonneg_right (phi_le_gamma R.u_nonneg R.u_lt u4) normSq_nonneg)

/-- C102: the dot product of two quaternions in rounded arithmetic: error at most `γ_4 Σ |pᵢ qᵢ|`. -/
theorem qdot_error {s : QState (Fl R)} {a b : QNode (Fl R)} {p q : ℍ[Fl R]} (ha : QReads s a p) (hb : QReads s b q)
    (ho : a.order = b.order) (hu : 4 * R.u < 1) :
    ∃ d, qDot s a b = .ok d ∧
      |d.val - (p.re.val * q.re.val + p.imI.val * q.imI.val + p.imJ.val * q.imJ.val + p.imK.val * q.imK.val)| ≤
        gamma R.u 4 * (|p.re.val * q.re.val| + |p.imI.val * q.imI.val| + |p.imJ.val * q.imJ.val| +
          |p.imK.val * q.imK.val|) := by
  have u4 : ((4 : ℕ) : ℝ) * R.u < 1 := by push_cast; exact hu
  have four : ∀ x y z w x' y' z' w' : Fl R,
      |(x * x' + y * y' + z * z' + w * w').val - (x.val * x'.val + y.val * y'.val + z.val * z'.val + w.val * w'.val)| ≤
      gamma R.u 4 * (|x.val * x'.val| + |y.val * y'.val| + |z.val * z'.val| + |w.val * w'.val|) := by
    intro x y z w x' y' z' w'
    have T := (((pr x x').add (pr y y')).add (pr z z')).add (pr w w')
    simp only [abs_mul]
    exact le_trans T.err (mul_le_mul_of_nonneg_right (phi_le_gamma R.u_nonneg R.u_lt u4) T.nonneg)
  unfold QReads at ha hb
  unfold qDot
  rw [if_pos ho]
  rw [← ho] at hb
  revert ha hb
  cases a.order <;> simp only [] <;> rintro ⟨h0, h1, h2, h3⟩ ⟨k0, k1, k2, k3⟩ <;>
    simp only [h0, h1, h2, h3, k0, k1, k2, k3, Res.ok_bind, Res.pure_eq, Res.ok.injEq, exists_eq_left']
  · exact four _ _ _ _ _ _ _ _
  · have := four p.imI p.imJ p.imK p.re q.imI q.imJ q.imK q.re
    rw [show p.re.val * q.re.val + p.imI.val * q.imI.val + p.imJ.val * q.imJ.val + p.imK.val * q.imK.val =
      p.imI.val * q.imI.val + p.imJ.val * q.imJ.val + p.imK.val * q.imK.val + p.re.val * q.re.val by ring]
    refine le_trans this (le_of_eq ?_)
    ring

/-- The reciprocal of a factor close to one. -/
private theorem Fac.inv {u : ℝ} (h0 : 0 ≤ u) (h1 : 16 * u ≤ 1) {t : ℝ} (h : Fac u 4 t) : 0 < t ∧ Fac u 8 t⁻¹ := by
  have hlt : u < 1 := by linarith
  have e := phi_add (u := u) 4 4
  set f := phi u 4 with hf
  have f0 : 0 ≤ f := phi_nonneg h0 hlt 4
  have hb : f ≤ 1 / 3 := by
    have hg := phi_le_gamma (k := 4) h0 hlt (by push_cast; linarith)
    refine le_trans hg ?_
    rw [gamma, div_le_iff₀ (by push_cast; linarith)]
    push_cast; linarith
  obtain ⟨h2, h3⟩ := _root_.abs_le.1 h
  have tp : 0 < t := by linarith
  refine ⟨tp, ?_⟩
  show |t⁻¹ - 1| ≤ phi u 8
  rw [show (8 : ℕ) = 4 + 4 from rfl, ← e, inv_eq_one_div, div_sub_one tp.ne', abs_div, abs_of_pos tp, div_le_iff₀ tp,
    abs_sub_comm]
  have h4 : (f + f + f * f) * (1 - f) ≤ (f + f + f * f) * t := mul_le_mul_of_nonneg_left (by linarith) (by positivity)
  have h5 : |t - 1| ≤ f := h
  nlinarith

/-- C102: every element of the inverse of a nonzero quaternion has, in rounded arithmetic, a relative error of at most
`γ_10`. -/
theorem qinv_error {s : QState (Fl R)} {a : QNode (Fl R)} {p : ℍ[Fl R]} (ha : QReads s a p) (hp : realQ p ≠ 0)
    (hu : 16 * R.u ≤ 1) :
    ∃ r h, qInv s a = .ok r ∧ QReads s r h ∧
      |h.re.val - (realQ p)⁻¹.re| ≤ gamma R.u 10 * |(realQ p)⁻¹.re| ∧
      |h.imI.val - (realQ p)⁻¹.imI| ≤ gamma R.u 10 * |(realQ p)⁻¹.imI| ∧
      |h.imJ.val - (realQ p)⁻¹.imJ| ≤ gamma R.u 10 * |(realQ p)⁻¹.imJ| ∧
      |h.imK.val - (realQ p)⁻¹.imK| ≤ gamma R.u 10 * |(realQ p)⁻¹.imK| := by
  have u10 : ((10 : ℕ) : ℝ) * R.u < 1 := by have := R.u_nonneg; push_cast; linarith
  obtain ⟨n, h1, t, h2, h3⟩ := qLengthSquared_gen ha
  have hN : normSq (realQ p) ≠ 0 := normSq_ne_zero.2 hp
  obtain ⟨tp, h4⟩ := Fac.inv R.u_nonneg hu h2
  have hn : n ≠ 0 := fun h => by
    have : n.val = 0 := by rw [h]; rfl
    rw [h3] at this
    exact (mul_ne_zero hN tp.ne') this
  obtain ⟨d, d1, -, -, d4⟩ := R.fac (1 / n.val)
  have hk : ((1 : Fl R) / n).val = (normSq (realQ p))⁻¹ * (t⁻¹ * d) := by
    rw [Fl.div_val, Fl.one_val, d4, h3, one_div, mul_inv]; ring
  have key : ∀ x : Fl R, |((1 : Fl R) / n * x).val - (normSq (realQ p))⁻¹ * x.val| ≤
      gamma R.u 10 * |(normSq (realQ p))⁻¹ * x.val| := by
    intro x
    obtain ⟨d', e1, -, -, e4⟩ := R.fac (((1 : Fl R) / n).val * x.val)
    have hf : Fac R.u 10 (t⁻¹ * d * d') := (h4.mul R.u_nonneg R.u_lt d1).mul R.u_nonneg R.u_lt e1
    rw [Fl.mul_val, e4, hk, show (normSq (realQ p))⁻¹ * (t⁻¹ * d) * x.val * d' =
      (normSq (realQ p))⁻¹ * x.val * (t⁻¹ * d * d') by ring]
    exact le_trans hf.abs_le (mul_le_mul_of_nonneg_right (phi_le_gamma R.u_nonneg R.u_lt u10) (abs_nonneg _))
  obtain ⟨a0, a1, a2, a3⟩ := qreads_iff.1 ha
  have hdis := QOrder.distinct a.order
  refine ⟨.inv a ((1 : Fl R) / n), qOf ((1 : Fl R) / n * p.re) ((1 : Fl R) / n * -p.imI)
    ((1 : Fl R) / n * -p.imJ) ((1 : Fl R) / n * -p.imK), by simp [qInv, h1, divR, hn], ?_, ?_, ?_, ?_, ?_⟩
  · rw [qreads_iff, show (QNode.inv a ((1 : Fl R) / n)).order = a.order from rfl]
    simp [qOf, QNode.get, a0, a1, a2, a3, hdis.1, hdis.2.1, hdis.2.2.2.1]
  · rw [Quaternion.inv_def, Quaternion.re_smul, Quaternion.re_star]; exact key p.re
  · rw [Quaternion.inv_def, Quaternion.imI_smul, Quaternion.imI_star]; exact key (-p.imI)
  · rw [Quaternion.inv_def, Quaternion.imJ_smul, Quaternion.imJ_star]; exact key (-p.imJ)
  · rw [Quaternion.inv_def, Quaternion.imK_smul, Quaternion.imK_star]; exact key (-p.imK)

/-! ### Examples: double precision -/

private theorem ex_u {k : ℕ} (h : k ≤ 20) : (k : ℝ) * double.u < 1 := by
  have : (k : ℝ) ≤ 20 := by exact_mod_cast h
  rw [show double.u = (2 : ℝ)⁻¹ ^ 53 from rfl]
  nlinarith [show (2 : ℝ)⁻¹ ^ 53 ≤ 1 / 100 by norm_num, show (0 : ℝ) ≤ (2 : ℝ)⁻¹ ^ 53 by positivity]

/-- Two quaternions of doubles. -/
private noncomputable def qρ : Nat → ℍ[Fl double] := fun i =>
  if i = 0 then qOf ⟨1 / 3⟩ ⟨2⟩ ⟨-5⟩ ⟨1 / 7⟩ else qOf ⟨4⟩ ⟨0⟩ ⟨1 / 9⟩ ⟨-1⟩

/-- A state holding them in two variables. -/
private noncomputable def qS : QState (Fl double) := fun i => qMake .imagFirst (qρ i).re (qρ i).imI (qρ i).imJ (qρ i).imK

private theorem qS_reads (i : Nat) (c : QCross) : QIs qS ⟨i, .imagFirst, c⟩ (qρ i) := qholds_make _ _ _ _ _

example := qmul_error (qreads_var (qS_reads 0 .negative)) (qreads_var (qS_reads 1 .negative)) rfl
  (by have := ex_u (k := 4) (by norm_num); push_cast at this; exact this)
example := qdot_error (qreads_var (qS_reads 0 .negative)) (qreads_var (qS_reads 1 .positive)) rfl
  (by have := ex_u (k := 4) (by norm_num); push_cast at this; exact this)
example := qnorm_error (qreads_var (qS_reads 0 .negative))
  (by have := ex_u (k := 4) (by norm_num); push_cast at this; exact this)
example := qinv_error (qreads_var (qS_reads 0 .negative)) (fun h => by
    have : (realQ (qρ 0)).imI = 2 := rfl
    rw [h] at this; norm_num at this)
  (by have := ex_u (k := 16) (by norm_num); push_cast at this; exact this.le)

/-- `p * q - conjugate(q) / 3`, with the bound `γ_9 (‖p‖ ‖q‖ + ‖q‖ / 3)`. -/
example : ∃ a h, QExp.build qS (.bin .sub (.mul (.var ⟨0, .imagFirst, .positive⟩) (.var ⟨1, .imagFirst, .positive⟩))
      (.scal .div (.conj (.var ⟨1, .imagFirst, .positive⟩)) ⟨3⟩)) = .ok a ∧ QReads qS a h ∧
    ‖realQ h - (realQ (qρ 0) * realQ (qρ 1) - (3 : ℝ)⁻¹ • star (realQ (qρ 1)))‖ ≤
      gamma double.u 9 * (‖realQ (qρ 0)‖ * ‖realQ (qρ 1)‖ + ‖realQ (qρ 1)‖ / |3|) := by
  obtain ⟨a, h, h1, -, -, h2, h3⟩ := qexp_rounding (o := .imagFirst) (c := .positive) (s := qS) (ρ := qρ)
    (.bin .sub (.mul (.var ⟨0, .imagFirst, .positive⟩) (.var ⟨1, .imagFirst, .positive⟩))
      (.scal .div (.conj (.var ⟨1, .imagFirst, .positive⟩)) ⟨3⟩))
    ⟨⟨⟨rfl, rfl⟩, ⟨rfl, rfl⟩, rfl⟩, ⟨rfl, rfl⟩⟩ ⟨⟨qS_reads 0 _, qS_reads 1 _⟩, qS_reads 1 _⟩
    ⟨⟨trivial, trivial⟩, trivial, fun _ h => by have := congrArg Fl.val h; norm_num at this⟩
    (ex_u (k := 9) (by norm_num))
  exact ⟨a, h, h1, h2, h3⟩

#print axioms qmul_error
#print axioms qdot_error
#print axioms qnorm_error
#print axioms qinv_error
#print axioms qexp_rounding

end CML
