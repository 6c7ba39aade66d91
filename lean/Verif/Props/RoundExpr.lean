import Verif.Lemmas.RoundExpr
import Verif.Props.VecExpr
import Verif.Props.MatAssign
import Verif.Props.Assign

/-!
C99: the rounding error of any vector or matrix expression.  The expression is evaluated three times: with real
numbers (the exact value), with magnitudes (all terms with a plus sign) and with counts (how many roundings a value
went through).
-/

set_option linter.unusedSectionVars false

namespace CML

variable {R : Rounding}

/-- The computed value `p` of a vector has the exact value `P`, up to rounding errors `γ_k · A`. -/
def VNear (p : VVal (Fl R)) (P : VVal ℝ) (A : VVal Mag) (k : VVal Cnt) : Prop :=
  ∃ (hP : P.n = p.n) (hA : A.n = p.n) (hk : k.n = p.n), ∀ i : Fin p.n,
    (k.f (i.cast hk.symm)).val * R.u < 1 →
    |(p.f i).val - P.f (i.cast hP.symm)| ≤
      gamma R.u (k.f (i.cast hk.symm)).val * (A.f (i.cast hA.symm)).val

/-- The computed value `p` of a matrix has the exact value `P`, up to rounding errors `γ_k · A`. -/
def MNear (p : MVal (Fl R)) (P : MVal ℝ) (A : MVal Mag) (k : MVal Cnt) : Prop :=
  ∃ (hP : P.r = p.r ∧ P.c = p.c) (hA : A.r = p.r ∧ A.c = p.c) (hk : k.r = p.r ∧ k.c = p.c),
    ∀ (i : Fin p.r) (j : Fin p.c),
      (k.f (i.cast hk.1.symm) (j.cast hk.2.symm)).val * R.u < 1 →
      |(p.f i j).val - P.f (i.cast hP.1.symm) (j.cast hP.2.symm)| ≤
        gamma R.u (k.f (i.cast hk.1.symm) (j.cast hk.2.symm)).val *
          (A.f (i.cast hA.1.symm) (j.cast hA.2.symm)).val

theorem Tracks.gamma_le {x : Fl R} {X : ℝ} {A : Mag} {k : Cnt} (h : Tracks x X A k) (hu : k.val * R.u < 1) :
    |x.val - X| ≤ gamma R.u k.val * A.val :=
  le_trans h.err (mul_le_mul_of_nonneg_right (phi_le_gamma R.u_nonneg R.u_lt hu) h.nonneg)

theorem VTr.near {p P A k} (h : VTr (R := R) p (Option.some P) A k) :
    ∃ p' A' k', p = Option.some p' ∧ A = Option.some A' ∧ k = Option.some k' ∧ VNear p' P A' k' := by
  cases h with
  | some n x X A k h => exact ⟨_, _, _, rfl, rfl, rfl, rfl, rfl, rfl, fun i hu => (h i).gamma_le hu⟩

theorem VTr.none_iff {p P A k} (h : VTr (R := R) p P A k) : p = Option.none ↔ P = Option.none := by
  cases h <;> simp

theorem MTr.none_iff {p P A k} (h : MTr (R := R) p P A k) : p = Option.none ↔ P = Option.none := by
  cases h <;> simp

theorem MTr.near {p P A k} (h : MTr (R := R) p (Option.some P) A k) :
    ∃ p' A' k', p = Option.some p' ∧ A = Option.some A' ∧ k = Option.some k' ∧ MNear p' P A' k' := by
  cases h with
  | some r c x X A k h =>
    exact ⟨_, _, _, rfl, rfl, rfl, ⟨rfl, rfl⟩, ⟨rfl, rfl⟩, ⟨rfl, rfl⟩, fun i j hu => (h i j).gamma_le hu⟩

/-- C99: if the exact value of a vector expression exists then building the expression in rounded arithmetic
succeeds, and reading any element of it gives the exact element with an error of at most `γ_k` times the
magnitude of that element. -/
theorem vexpr_rounding {s : State (Fl R)} {ρ : Env (Fl R)} (hA : Agree s ρ) (e : VExpr (Fl R)) (hc : e.Regular s)
    (hp : e.Pre ρ) (_hd : e.DivOk) (P : VVal ℝ) (hP : (e.map Fl.val).den (ρ.map Fl.val) = some P) :
    ∃ x p A k, e.build s = .ok x ∧ VRep s x p ∧ (e.map (fun y => (⟨|y.val|⟩ : Mag))).den (ρ.map fun y => ⟨|y.val|⟩) = some A ∧
      (e.map fun _ => (⟨0⟩ : Cnt)).den (ρ.map fun _ => ⟨0⟩) = some k ∧ VNear p P A k := by
  have h := vden_tracks ρ e
  rw [hP] at h
  obtain ⟨p, A, k, h1, h2, h3, h4⟩ := h.near
  obtain ⟨x, h5, h6⟩ := (vexpr_refines hA e hc hp).1 p h1
  exact ⟨x, p, A, k, h5, h6, h2, h3, h4⟩

/-- C99: an expression is rejected by the rounded program exactly if its exact value does not exist. -/
theorem vexpr_rounding_rejects {s : State (Fl R)} {ρ : Env (Fl R)} (hA : Agree s ρ) (e : VExpr (Fl R))
    (hc : e.Regular s) (hp : e.Pre ρ) :
    (∃ er, e.build s = .throw er) ↔ (e.map Fl.val).den (ρ.map Fl.val) = none := by
  obtain ⟨h1, h2⟩ := vexpr_refines hA e hc hp
  rw [← (vden_tracks ρ e).none_iff]
  cases hd : e.den ρ with
  | none =>
    obtain ⟨er, he, -⟩ := h2 hd
    simp [he]
  | some p =>
    obtain ⟨x, hx, -⟩ := h1 p hd
    simp [hx]

/-- C99: the same for matrix expressions. -/
theorem mexpr_rounding_rejects {s : State (Fl R)} {ρ : Env (Fl R)} (hA : Agree s ρ) (e : MExpr (Fl R))
    (hc : e.Regular s) (hp : e.Pre ρ) :
    (∃ er, e.build s = .throw er) ↔ (e.map Fl.val).den (ρ.map Fl.val) = none := by
  obtain ⟨h1, h2⟩ := mexpr_refines hA e hc hp
  rw [← (mden_tracks ρ e).none_iff]
  cases hd : e.den ρ with
  | none =>
    obtain ⟨er, he, -⟩ := h2 hd
    simp [he]
  | some p =>
    obtain ⟨x, hx, -⟩ := h1 p hd
    simp [hx]

/-- C99 for matrix expressions. -/
theorem mexpr_rounding {s : State (Fl R)} {ρ : Env (Fl R)} (hA : Agree s ρ) (e : MExpr (Fl R)) (hc : e.Regular s)
    (hp : e.Pre ρ) (_hd : e.DivOk) (P : MVal ℝ) (hP : (e.map Fl.val).den (ρ.map Fl.val) = some P) :
    ∃ x p A k, e.build s = .ok x ∧ MRep s x p ∧ (e.map (fun y => (⟨|y.val|⟩ : Mag))).den (ρ.map fun y => ⟨|y.val|⟩) = some A ∧
      (e.map fun _ => (⟨0⟩ : Cnt)).den (ρ.map fun _ => ⟨0⟩) = some k ∧ MNear p P A k := by
  have h := mden_tracks ρ e
  rw [hP] at h
  obtain ⟨p, A, k, h1, h2, h3, h4⟩ := h.near
  obtain ⟨x, h5, h6⟩ := (mexpr_refines hA e hc hp).1 p h1
  exact ⟨x, p, A, k, h5, h6, h2, h3, h4⟩

/-- C99: the vector stored by `x = e`. -/
theorem assign_rounding {triv : Bool} {s : State (Fl R)} {ρ : Env (Fl R)} (hA : Agree s ρ) {x : Nat}
    {d : VObj} (hx : s.vec x = some d) (e : VExpr (Fl R)) (hc : e.Regular s) (_hd : e.DivOk) (P : VVal ℝ)
    (hP : (e.map Fl.val).den (ρ.map Fl.val) = some P) (hsz : P.n = d.size) (hw : d.Ready triv s.heap)
    (hal : e.Ahead (VAhead s d) (VDisj s d) (MDisj s d)) :
    ∃ h' p A k, stmtAssign triv s x e = .ok { s with heap := h' } ∧
      VRep { s with heap := h' } (.var x) p ∧ SameOutside d s.heap h' ∧
      (e.map (fun y => (⟨|y.val|⟩ : Mag))).den (ρ.map fun y => ⟨|y.val|⟩) = some A ∧
      (e.map fun _ => (⟨0⟩ : Cnt)).den (ρ.map fun _ => ⟨0⟩) = some k ∧ VNear p P A k := by
  have h := vden_tracks ρ e
  rw [hP] at h
  obtain ⟨p, A, k, h1, h2, h3, h4⟩ := h.near
  obtain ⟨h', h5, h6, h7⟩ := assign_elementwise (triv := triv) hA hx e hc p h1 (by rw [← h4.1, hsz]) hw hal
  exact ⟨h', p, A, k, h5, h6, h7, h2, h3, h4⟩

/-- C99: the matrix stored by `x = e`, in either layout. -/
theorem massign_rounding {triv : Bool} {s : State (Fl R)} {ρ : Env (Fl R)} (hA : Agree s ρ) {x : Nat}
    {d : MObj} (hx : s.mat x = some d) (e : MExpr (Fl R)) (hc : e.Regular s) (_hd : e.DivOk) (P : MVal ℝ)
    (hP : (e.map Fl.val).den (ρ.map Fl.val) = some P) (hr : P.r = d.rows) (hcc : P.c = d.cols)
    (hw : d.flat.Ready triv s.heap)
    (hal : e.Ahead (MAhead s d) (VDisj s d.flat) (MDisj s d.flat)) :
    ∃ h' p A k, mstmtAssign triv s x e = .ok { s with heap := h' } ∧
      MRep { s with heap := h' } (.var x) p ∧ SameOutside d.flat s.heap h' ∧
      (e.map (fun y => (⟨|y.val|⟩ : Mag))).den (ρ.map fun y => ⟨|y.val|⟩) = some A ∧
      (e.map fun _ => (⟨0⟩ : Cnt)).den (ρ.map fun _ => ⟨0⟩) = some k ∧ MNear p P A k := by
  have h := mden_tracks ρ e
  rw [hP] at h
  obtain ⟨p, A, k, h1, h2, h3, h4⟩ := h.near
  obtain ⟨r, c, p⟩ := p
  have e1 : r = d.rows := h4.1.1.symm.trans hr
  have e2 : c = d.cols := h4.1.2.symm.trans hcc
  subst e1 e2
  obtain ⟨h', h5, h6, h7⟩ := massign_elementwise (triv := triv) hA hx e hc p h1 hw hal
  exact ⟨h', _, A, k, h5, h6, h7, h2, h3, h4⟩

/-- Where all terms of an element have the same sign (its magnitude is its absolute value), the relative error is
at most `γ_k`. -/
theorem VNear.relative {p : VVal (Fl R)} {P A k} (h : VNear p P A k) (hP : P.n = p.n) (hA : A.n = p.n)
    (hk : k.n = p.n) (i : Fin p.n) (hm : (A.f (i.cast hA.symm)).val = |P.f (i.cast hP.symm)|)
    (hu : (k.f (i.cast hk.symm)).val * R.u < 1) :
    |(p.f i).val - P.f (i.cast hP.symm)| ≤
      gamma R.u (k.f (i.cast hk.symm)).val * |P.f (i.cast hP.symm)| := by
  obtain ⟨_, _, _, h⟩ := h
  rw [← hm]
  exact h i hu

section Examples

private noncomputable abbrev double : Rounding := binaryRounding 52

private noncomputable def flS : State (Fl double) :=
  demo [[some ⟨1⟩, some ⟨2⟩, some ⟨3⟩], [some ⟨4⟩, some ⟨5⟩, some ⟨6⟩]]
    [⟨.compiled, true, some 0, 0, 3⟩, ⟨.allocated, false, some 1, 0, 3⟩] []

private noncomputable def flρ : Env (Fl double) :=
  ⟨fun x => match x with
    | 0 => some ⟨3, ![⟨1⟩, ⟨2⟩, ⟨3⟩]⟩
    | 1 => some ⟨3, ![⟨4⟩, ⟨5⟩, ⟨6⟩]⟩
    | _ => none,
   fun _ => none⟩

private theorem flS_agree : Agree flS flρ := by
  constructor
  · intro x p h
    match x, h with
    | 0, h =>
      simp only [flρ, Option.some.injEq] at h
      subst h
      exact ⟨rfl, fun i => by fin_cases i <;> rfl⟩
    | 1, h =>
      simp only [flρ, Option.some.injEq] at h
      subst h
      exact ⟨rfl, fun i => by fin_cases i <;> rfl⟩
    | n + 2, h => simp [flρ] at h
  · intro x p h
    simp [flρ] at h

/-- `v0 = (v0 + v1) / 7 - v0`: three roundings. -/
private noncomputable def flE : VExpr (Fl double) :=
  .bin .minus (.scal .div (.bin .plus (.var 0) (.var 1)) ⟨7⟩) (.var 0)

private theorem flE_div : flE.DivOk := by
  simp only [flE, VExpr.DivOk, true_and, and_true]
  intro _ h
  have := congrArg Fl.val h
  norm_num at this

private theorem flE_ahead : flE.Ahead (VAhead flS ⟨.compiled, true, some 0, 0, 3⟩)
    (VDisj flS ⟨.compiled, true, some 0, 0, 3⟩) (MDisj flS ⟨.compiled, true, some 0, 0, 3⟩) := by
  refine ⟨⟨?_, ?_⟩, ?_⟩
  · intro w hw; cases hw; exact Or.inr ⟨rfl, le_refl _⟩
  · intro w hw; cases hw; exact Or.inl (Or.inl (by simp))
  · intro w hw; cases hw; exact Or.inr ⟨rfl, le_refl _⟩

/-- The hypotheses of `assign_rounding` hold for it, and the first element of `v0` is then `(1 + 4) / 7 - 1` up to
an error of `γ_3 ((1 + 4) / 7 + 1)`. -/
example : ∃ h' p, stmtAssign true flS 0 flE = .ok { flS with heap := h' } ∧
    VRep { flS with heap := h' } (.var 0) ⟨3, p⟩ ∧
    |(p 0).val - ((1 + 4) / 7 - 1)| ≤ gamma double.u 3 * ((1 + 4) / 7 + 1) := by
  obtain ⟨h', p, A, k, h1, h2, -, h3, h4, h5⟩ := assign_rounding (triv := true) flS_agree (x := 0) rfl flE
    (by simp [flE, VExpr.Regular]) flE_div ⟨3, ![(1 + 4) / 7 - 1, (2 + 5) / 7 - 2, (3 + 6) / 7 - 3]⟩
    (by
      simp only [flE, VExpr.map, VExpr.den, Env.map, flρ, Option.map, VVal.map, dite_true, Option.some.injEq,
        VVal.mk.injEq, heq_eq_eq, true_and]
      funext i
      fin_cases i <;> simp [BinOp.den, ScalOp.den, VVal.map])
    rfl
    (by
      intro i hi
      refine ⟨0, rfl, ?_⟩
      simp only at hi
      interval_cases i <;> exact ⟨_, rfl, Or.inl rfl⟩)
    flE_ahead
  have e1 : A = ⟨3, fun i => ⟨(|((![⟨1⟩, ⟨2⟩, ⟨3⟩] : Fin 3 → Fl double) i).val| +
      |((![⟨4⟩, ⟨5⟩, ⟨6⟩] : Fin 3 → Fl double) i).val|) / |7| + |((![⟨1⟩, ⟨2⟩, ⟨3⟩] : Fin 3 → Fl double) i).val|⟩⟩ :=
    (Option.some.inj h3).symm
  have e2 : k = ⟨3, fun _ => ⟨3⟩⟩ := (Option.some.inj h4).symm
  subst e1 e2
  obtain ⟨n, p⟩ := p
  obtain ⟨hP, hA, hk, h6⟩ := h5
  have hP : n = 3 := hP.symm
  subst hP
  refine ⟨h', p, h1, h2, ?_⟩
  have := h6 0 (by norm_num [binaryRounding])
  simpa using this

end Examples

#print axioms vexpr_rounding
#print axioms vexpr_rounding_rejects
#print axioms mexpr_rounding
#print axioms mexpr_rounding_rejects
#print axioms assign_rounding
#print axioms massign_rounding
#print axioms VNear.relative

end CML
