import Verif.Model.SelfLook
import Verif.Lemmas.SelfBuild
import Verif.Lemmas.Alias
import Verif.Props.Align

/-!
C123 for `matrix_look_at`: an argument that refers to the target never has its value before the call.
-/

namespace CML
open BMat SelfBuild

/-- The argument is no part of the leading 3×3 block of the target. -/
def VArg.Outside (m : BMat ℝ) : VArg ℝ → Prop
  | .other _ => True
  | .row i => 3 ≤ i ∧ i < m.rows
  | .col j => 3 ≤ j ∧ j < m.cols

/-- The identity outside of the leading 3×3 block. -/
private structure Like (m M : BMat ℝ) : Prop where
  shape : m.SameShape M
  el : ∀ a b, 3 ≤ a ∨ 3 ≤ b → M.el a b = m.identity.el a b

private theorem Like.bput {m M M' : BMat ℝ} (hM : Like m M) {i j : Nat} (hi : i < 3) (hj : j < 3) {v : ℝ}
    (h : M.bput i j v = .ok M') : Like m M' := by
  obtain ⟨hs, he⟩ := hM
  obtain ⟨⟨r, c, e⟩, b, f⟩ := M
  cases b <;> simp only [BMat.bput, Mat.put] at h <;> split at h
  all_goals first
    | (simp only [Res.ok_bind, Res.pure_eq, Res.ok.injEq] at h
       subst h
       refine ⟨⟨hs.rows, hs.cols, hs.basis, hs.fixed⟩, fun a b hab => ?_⟩
       rw [← he a b hab]
       simp only [Mat.set]
       exact if_neg (by omega))
    | cases h

private theorem view_like {m M : BMat ℝ} (hM : Like m M) {v : VArg ℝ} (hv : v.Outside m) :
    v.view M = .ok (v.now m.identity) := by
  cases v with
  | other v => rfl
  | row i =>
    have : i < M.rows := by rw [hM.shape.rows]; exact hv.2
    simp only [VArg.view, this, if_true, VArg.now, hM.shape.fixed, hM.shape.cols]
    congr 2
    funext k
    exact hM.el i k (.inl hv.1)
  | col j =>
    have : j < M.cols := by rw [hM.shape.cols]; exact hv.2
    simp only [VArg.view, this, if_true, VArg.now, hM.shape.fixed, hM.shape.rows]
    congr 2
    funext k
    exact hM.el k j (.inr hv.1)

private theorem set_like {m M : BMat ℝ} (hM : Like m M) {i : Int} {v : LazyVec} {w : AVec ℝ}
    (hv : ∀ M, Like m M → v M = .ok w) :
    setTransposedLazy M i v = setTransposedBasisVector M i w ∧
      ∀ M', setTransposedBasisVector M i w = .ok M' → Like m M' := by
  simp only [setTransposedLazy, setTransposedBasisVector, hv M hM, Res.ok_bind]
  by_cases hi : 0 ≤ i ∧ i ≤ 2
  swap
  · simp only [hi, decide_false, Res.require]
    constructor
    · cases M.checkLinear3D <;> cases w.checkSize 3 <;> rfl
    · intro M' h
      obtain ⟨_, -, h⟩ := Res.bind_ok h
      obtain ⟨_, -, h⟩ := Res.bind_ok h
      obtain ⟨_, h, -⟩ := Res.bind_ok h
      cases h
  have hi3 : i.toNat < 3 := by omega
  constructor
  · congr 1; funext _
    congr 1; funext _
    congr 1; funext _
    congr 1; funext a
    cases e0 : M.bput 0 i.toNat a with
    | throw e => rfl
    | ub e => rfl
    | ok M1 =>
      have l1 := hM.bput (by omega) hi3 e0
      simp only [Res.ok_bind, hv M1 l1]
      congr 1; funext b
      cases e1 : M1.bput 1 i.toNat b with
      | throw e => rfl
      | ub e => rfl
      | ok M2 => simp only [Res.ok_bind, hv M2 (l1.bput (by omega) hi3 e1)]
  · intro M' h
    obtain ⟨_, -, h⟩ := Res.bind_ok h
    obtain ⟨_, -, h⟩ := Res.bind_ok h
    obtain ⟨_, -, h⟩ := Res.bind_ok h
    obtain ⟨a, -, h⟩ := Res.bind_ok h
    obtain ⟨M1, e0, h⟩ := Res.bind_ok h
    obtain ⟨b, -, h⟩ := Res.bind_ok h
    obtain ⟨M2, e1, h⟩ := Res.bind_ok h
    obtain ⟨c, -, h⟩ := Res.bind_ok h
    exact ((hM.bput (by omega) hi3 e0).bput (by omega) hi3 e1).bput (by omega) hi3 h

/-- C123 fails for `matrix_look_at`: a row or column of the target outside of its linear part (the translation) has the
value it has in the identity matrix, whatever the target was. -/
theorem lookAt_sees_identity (m : BMat ℝ) {position target up : VArg ℝ} (hp : position.Outside m)
    (ht : target.Outside m) (hu : up.Outside m) (h : Handed) :
    SelfBuild.lookAt m position target up h =
      lookAt m (position.now m.identity) (target.now m.identity) (up.now m.identity) h := by
  have h0 : Like m m.identity := ⟨SameShape.identity m, fun _ _ _ => rfl⟩
  have hD : ∀ M, Like m M → lookD position target M = (target.now m.identity).sub (position.now m.identity) := by
    intro M hM
    simp only [lookD, view_like hM ht, view_like hM hp, Res.ok_bind]
  simp only [SelfBuild.lookAt, lookAt, hD _ h0]
  generalize target.now m.identity = T at *
  have hU : ∀ M, Like m M → up.view M = .ok (up.now m.identity) := fun M hM => view_like hM hu
  have hP : ∀ M, Like m M → position.view M = .ok (position.now m.identity) := fun M hM => view_like hM hp
  generalize up.now m.identity = U at *
  generalize position.now m.identity = P at *
  congr 1; funext _
  cases hd : T.sub P with
  | throw e => rfl
  | ub e => rfl
  | ok d =>
  simp only [Res.ok_bind, AVec.normalized]
  cases hl : d.length with
  | throw e => rfl
  | ub e => rfl
  | ok lz =>
  simp only [Res.ok_bind]
  cases hn : d.sdiv lz with
  | throw e => simp only [lookC, lookZ, hU _ h0, hD _ h0, hd, hn, Res.ok_bind]; rfl
  | ub e => simp only [lookC, lookZ, hU _ h0, hD _ h0, hd, hn, Res.ok_bind]; rfl
  | ok n =>
  have hZ : ∀ M, Like m M → lookZ position target h.s lz M = .ok (n.smul h.s) := by
    intro M hM
    simp only [lookZ, hD M hM, hd, hn, Res.ok_bind]
  simp only [Res.ok_bind]
  generalize lookZ position target h.s lz = Zl at *
  generalize n.smul h.s = Z at *
  have hC : ∀ M, Like m M → lookC up Zl M = U.cross Z := by
    intro M hM
    simp only [lookC, hU M hM, hZ M hM, Res.ok_bind]
  simp only [hC _ h0, Res.ok_bind]
  cases hc : U.cross Z with
  | throw e => rfl
  | ub e => rfl
  | ok c =>
  simp only [Res.ok_bind]
  cases hl : c.length with
  | throw e => rfl
  | ub e => rfl
  | ok lx =>
  simp only [Res.ok_bind]
  cases hx : c.sdiv lx with
  | throw e => simp only [lookY, lookX, hZ _ h0, hC _ h0, hc, hx, Res.ok_bind]; rfl
  | ub e => simp only [lookY, lookX, hZ _ h0, hC _ h0, hc, hx, Res.ok_bind]; rfl
  | ok X =>
  have hX : ∀ M, Like m M → lookX up Zl lx M = .ok X := by
    intro M hM
    simp only [lookX, hC M hM, hc, hx, Res.ok_bind]
  generalize lookX up Zl lx = Xl at *
  have hY : ∀ M, Like m M → lookY Zl Xl M = Z.cross X := by
    intro M hM
    simp only [lookY, hZ M hM, hX M hM, Res.ok_bind]
  generalize lookY Zl Xl = Yl at *
  simp only [hY _ h0, Res.ok_bind]
  cases hy : Z.cross X with
  | throw e => rfl
  | ub e => rfl
  | ok Y =>
  rw [hy] at hY
  simp only [Res.ok_bind, setTransposedBasisVectors]
  rw [(set_like h0 hX).1]
  cases a1 : setTransposedBasisVector m.identity 0 X with
  | throw e => rfl
  | ub e => rfl
  | ok m1 =>
  have l1 := (set_like h0 hX).2 m1 a1
  simp only [Res.ok_bind]
  rw [(set_like l1 hY).1]
  cases a2 : setTransposedBasisVector m1 1 Y with
  | throw e => rfl
  | ub e => rfl
  | ok m2 =>
  have l2 := (set_like l1 hY).2 m2 a2
  simp only [Res.ok_bind]
  rw [(set_like l2 hZ).1]
  cases a3 : setTransposedBasisVector m2 2 Z with
  | throw e => rfl
  | ub e => rfl
  | ok m3 =>
  have l3 := (set_like l2 hZ).2 m3 a3
  simp only [Res.ok_bind, hP m3 l3, hX m3 l3, hY m3 l3, hZ m3 l3]

/-- For arguments that do not refer to the target the model is `matrix_look_at` of `Model/Rotation.lean`. -/
theorem selflook_plain (m : BMat ℝ) (position target up : AVec ℝ) (h : Handed) :
    SelfBuild.lookAt m (.other position) (.other target) (.other up) h = lookAt m position target up h :=
  lookAt_sees_identity m (position := .other position) (target := .other target) (up := .other up) trivial trivial
    trivial h

/-- C123 fails for `matrix_look_at`: what the target was does not matter at all, not even for arguments that refer to
it. -/
theorem lookAt_forgets {m m' : BMat ℝ} (hs : m.SameShape m') (position target up : VArg ℝ) (h : Handed) :
    SelfBuild.lookAt m' position target up h = SelfBuild.lookAt m position target up h := by
  obtain ⟨⟨r, c, e⟩, b, f⟩ := m
  obtain ⟨⟨r', c', e'⟩, b', f'⟩ := m'
  obtain ⟨h1, h2, h3, h4⟩ := hs
  simp only at h1 h2 h3 h4
  subst h1 h2 h3 h4
  rfl

/-- C123 fails for `matrix_look_at` with the translation of the target as position: it is the origin, and the
result is not the meant one unless the translation was the origin. -/
theorem lookAt_ownPosition_false {m : BMat ℝ} (hm : m.HasAff 3) (h3 : m.BasisSize 3) {target up : AVec ℝ}
    {t u : Fin 3 → ℝ} (ht : target.Is 3 t) (hu : up.Is 3 u) (h0 : crossProduct u t ≠ 0)
    (h1 : crossProduct u (t - transOf m 3) ≠ 0) (h : Handed) :
    ∃ M M', SelfBuild.lookAt m (.basisVec m.basis 3) (.other target) (.other up) h = .ok M ∧
      lookAt m ((VArg.basisVec m.basis 3).now m) target up h = .ok M' ∧
      affOf M 3 0 = 0 ∧ affOf M' 3 (transOf m 3) = 0 ∧ (transOf m 3 ≠ 0 → M ≠ M') := by
  have hk := (hasAff_iff m 3).1 hm
  have hb := basisSize_iff.1 h3
  have hout : (VArg.basisVec m.basis 3 : VArg ℝ).Outside m := by
    obtain ⟨⟨r, c, e⟩, b, f⟩ := m
    cases b
    · exact ⟨le_refl _, hk.1⟩
    · exact ⟨le_refl _, hk.1⟩
  have hI : ((VArg.basisVec m.basis 3).now m.identity).Is 3 0 := by
    refine ⟨((VArg.now_size (SameShape.identity m) _).1.trans (VArg.size_basisVec m 3)).trans hb, ?_⟩
    funext k
    have := k.2
    obtain ⟨⟨r, c, e⟩, b, f⟩ := m
    cases b <;> simp only [AVec.vec, VArg.basisVec, VArg.now, BMat.identity, Pi.zero_apply] <;>
      exact if_neg (by omega)
  have hN : ((VArg.basisVec m.basis 3).now m).Is 3 (transOf m 3) := by
    refine ⟨(VArg.size_basisVec m 3).trans hb, ?_⟩
    funext k
    obtain ⟨⟨r, c, e⟩, b, f⟩ := m
    cases b <;> rfl
  obtain ⟨M, a1, -, -, a2, a3, -⟩ := lookAt_spec hm hI ht hu (by simpa using h0) h
  obtain ⟨M', b1, -, -, b2, b3, -⟩ := lookAt_spec hm hN ht hu h1 h
  refine ⟨M, M', (lookAt_sees_identity m hout (target := .other target) (up := .other up) trivial trivial h).trans a1,
    b1, a3, b3, fun hne e => hne ?_⟩
  subst e
  have e := a3.trans b3.symm
  simp only [affOf, Matrix.mulVec_zero, zero_add] at e
  have e0 : (linOf M 3).mulVec (transOf m 3) = 0 := by simpa using e
  have := congrArg (linOf M 3).transpose.mulVec e0
  rwa [Matrix.mulVec_mulVec, (Matrix.mem_orthogonalGroup_iff' _ _).1 (Matrix.mem_specialOrthogonalGroup_iff.1 a2).1,
    Matrix.one_mulVec, Matrix.mulVec_zero] at this

/-- A 4×3 row-basis matrix. -/
private def rm (e : Nat → Nat → ℝ) : BMat ℝ := ⟨⟨4, 3, e⟩, .row, true⟩

private def upd (e : Nat → Nat → ℝ) (i j : Nat) (x : ℝ) : Nat → Nat → ℝ := fun a b => if a = i ∧ b = j then x else e a b

private def upd3 (e : Nat → Nat → ℝ) (i : Nat) (x : (Nat → Nat → ℝ) → Fin 3 → ℝ) : Nat → Nat → ℝ :=
  let e1 := upd e 0 i (x e 0)
  let e2 := upd e1 1 i (x e1 1)
  upd e2 2 i (x e2 2)

private theorem rm_set (e : Nat → Nat → ℝ) {i : Nat} (hi : i < 3) {v : LazyVec} {x : (Nat → Nat → ℝ) → Fin 3 → ℝ}
    (h : ∀ e, ∃ w, v (rm e) = .ok w ∧ w.Is 3 (x e)) : setTransposedLazy (rm e) i v = .ok (rm (upd3 e i x)) := by
  choose w hv hw using h
  have hr : Res.require (decide (0 ≤ (i : Int) ∧ (i : Int) ≤ 2)) .invalidArgument = .ok () := by
    rw [decide_eq_true (by omega)]; rfl
  have hl : (rm e).checkLinear3D = .ok () := checkLinear3D_ok ⟨by simp [rm], by simp [rm]⟩
  have g : ∀ e (k : Fin 3), (w e).get k = .ok (x e k) := fun e k => by
    rw [AVec.get_ok (by have := (hw e).1; have := k.2; omega)]
    exact congrArg Res.ok (congrFun (hw e).2 k)
  have g0 : ∀ e, (w e).get 0 = .ok (x e 0) := fun e => g e 0
  have g1 : ∀ e, (w e).get 1 = .ok (x e 1) := fun e => g e 1
  have g2 : ∀ e, (w e).get 2 = .ok (x e 2) := fun e => g e 2
  have put : ∀ (e : Nat → Nat → ℝ) (a : Nat) (x : ℝ), a < 3 → (rm e).bput a i x = .ok (rm (upd e a i x)) := by
    intro e a x ha
    have : a < 4 ∧ i < 3 := ⟨by omega, hi⟩
    simp [rm, BMat.bput, Mat.put, Mat.set, this]
    rfl
  simp only [setTransposedLazy, hl, hv, AVec.checkSize_ok (hw e).1, hr, Res.ok_bind, Int.toNat_natCast, g0, g1, g2,
    put _ 0 _ (show 0 < 3 by omega), put _ 1 _ (show 1 < 3 by omega), put _ 2 _ (show 2 < 3 by omega)]
  rfl

private noncomputable def fx (e : Nat → Nat → ℝ) : Fin 3 → ℝ :=
  ![(e 1 1 * (4 / 5) - e 1 2 * (3 / 5)) / (4 / 5), -e 1 0, e 1 0 * (3 / 5) / (4 / 5)]

private noncomputable def fy (e : Nat → Nat → ℝ) : Fin 3 → ℝ :=
  ![3 / 5 * (e 1 0 * (3 / 5) / (4 / 5)) + 4 / 5 * e 1 0, e 1 1 * (4 / 5) - e 1 2 * (3 / 5),
    -(3 / 5 * ((e 1 1 * (4 / 5) - e 1 2 * (3 / 5)) / (4 / 5)))]

/-- C123 fails for `matrix_look_at` with a row of the linear part of the target as up vector, even if the target is the
identity: the vector changes while the axes are stored, and the result is no rotation. -/
theorem lookAt_ownUp_false :
    ∃ (m M : BMat ℝ) (position target : AVec ℝ) (p t u : Fin 3 → ℝ), m = m.identity ∧ m.HasAff 3 ∧ position.Is 3 p ∧ target.Is 3 t ∧
      ((VArg.row 1).now m).Is 3 u ∧ crossProduct u (t - p) ≠ 0 ∧
      SelfBuild.lookAt m (.other position) (.other target) (.row 1) .left = .ok M ∧ ¬IsRotation (linOf M 3) := by
  have s25 : Real.sqrt 25 = 5 := by rw [show (25 : ℝ) = 5 ^ 2 by norm_num]; exact Real.sqrt_sq (by norm_num)
  have s16 : Real.sqrt (16 / 25) = 4 / 5 := by rw [show (16 / 25 : ℝ) = (4 / 5) ^ 2 by norm_num]; exact Real.sqrt_sq (by norm_num)
  let P : AVec ℝ := .mk3 true 0 0 0
  let T : AVec ℝ := .mk3 true 0 3 4
  have iP : P.Is 3 0 := by
    have := AVec.mk3_is true (0 : ℝ) 0 0
    rwa [show (![0, 0, 0] : Fin 3 → ℝ) = 0 from by funext k; fin_cases k <;> rfl] at this
  obtain ⟨d, d1, d2, -⟩ := AVec.sub_is (AVec.mk3_is true (0 : ℝ) 3 4) iP
  have hD : ∀ M, lookD (.other P) (.other T) M = .ok d := fun M => d1
  have hl : d.length = .ok 5 := by
    rw [AVec.length_is d2 (by norm_num)]
    simp [Fin.sum_univ_three, dotProduct]
    norm_num [s25]
  let z : Fin 3 → ℝ := ![0, 3 / 5, 4 / 5]
  have hZ : ∃ w, w.Is 3 z ∧ ∀ M, lookZ (.other P) (.other T) 1 5 M = .ok w := by
    refine ⟨AVec.smul 1 ⟨d.fixed, d.size, fun i => d.el i / 5⟩, ?_, fun M => ?_⟩
    rotate_left
    · simp only [lookZ, hD M, Res.ok_bind, AVec.sdiv, if_neg (show (5 : ℝ) ≠ 0 by norm_num)]
    · refine ⟨d2.1, ?_⟩
      funext k
      have e : ∀ j : Fin 3, d.el j = (![0, 3, 4] - 0 : Fin 3 → ℝ) j := fun j => congrFun d2.2 j
      simp only [AVec.vec, AVec.smul, e k]
      fin_cases k <;> simp [z]
  obtain ⟨zw, iz, hZ⟩ := hZ
  generalize hZd : lookZ (.other P) (.other T) 1 5 = Z at hZ
  have hC : ∀ e : Nat → Nat → ℝ, ∃ w, lookC (.row 1) Z (rm e) = .ok w ∧
      w.Is 3 (crossProduct ![e 1 0, e 1 1, e 1 2] z) := by
    intro e
    have iu : ((VArg.row 1).now (rm e)).Is 3 ![e 1 0, e 1 1, e 1 2] := by
      refine ⟨rfl, ?_⟩
      funext k
      fin_cases k <;> rfl
    obtain ⟨w, h1, h2, -⟩ := AVec.cross_is iu iz
    refine ⟨w, ?_, h2⟩
    have : (VArg.row 1 : VArg ℝ).view (rm e) = .ok ((VArg.row 1).now (rm e)) := VArg.view_ok (show 1 < 4 by omega)
    simp only [lookC, this, hZ, Res.ok_bind, h1]
  have hX : ∀ e : Nat → Nat → ℝ, ∃ w, lookX (.row 1) Z (4 / 5) (rm e) = .ok w ∧
      w.Is 3 (fx e) := by
    intro e
    obtain ⟨c, c1, c2⟩ := hC e
    refine ⟨⟨c.fixed, c.size, fun i => c.el i / (4 / 5)⟩, ?_, c2.1, ?_⟩
    · simp only [lookX, c1, Res.ok_bind, AVec.sdiv, if_neg (show (4 / 5 : ℝ) ≠ 0 by norm_num)]
    · funext k
      have e : ∀ j : Fin 3, c.el j = _ := fun j => congrFun c2.2 j
      simp only [AVec.vec, e k, cross_apply]
      fin_cases k <;> simp [z, fx]
      ring
  have hY : ∀ e : Nat → Nat → ℝ, ∃ w, lookY Z (lookX (.row 1) Z (4 / 5)) (rm e) = .ok w ∧
      w.Is 3 (fy e) := by
    intro e
    obtain ⟨x, x1, x2⟩ := hX e
    obtain ⟨w, h1, h2, -⟩ := AVec.cross_is iz x2
    refine ⟨w, ?_, ?_⟩
    · simp only [lookY, hZ, x1, Res.ok_bind, h1]
    · rw [cross_apply] at h2
      convert h2 using 1
      funext k
      fin_cases k <;> simp [z, fx, fy]
      ring
  let e0 : Nat → Nat → ℝ := fun i j => if i = j then 1 else 0
  obtain ⟨c, c1, c2⟩ := hC e0
  have hlx : c.length = .ok (4 / 5) := by
    rw [AVec.length_is c2 (by norm_num), ← s16]
    congr 2
    simp [cross_apply, dotProduct, Fin.sum_univ_three, z, e0]
    norm_num
  let e1 := upd3 e0 0 fx
  let e2 := upd3 e1 1 fy
  let e3 := upd3 e2 2 fun _ => z
  have E1 : setTransposedLazy (rm e0) 0 (lookX (.row 1) Z (4 / 5)) = .ok (rm e1) :=
    rm_set e0 (i := 0) (x := fx) (by omega) hX
  have E2 : setTransposedLazy (rm e1) 1 (lookY Z (lookX (.row 1) Z (4 / 5))) = .ok (rm e2) :=
    rm_set e1 (i := 1) (x := fy) (by omega) hY
  have E3 : setTransposedLazy (rm e2) 2 Z = .ok (rm e3) :=
    rm_set e2 (i := 2) (x := fun _ => z) (by omega) (fun e => ⟨zw, hZ (rm e), iz⟩)
  obtain ⟨xw, xw1, xw2⟩ := hX e3
  obtain ⟨yw, yw1, yw2⟩ := hY e3
  obtain ⟨y0, y01, -⟩ := hY e0
  obtain ⟨M, t1, t2, -, t4⟩ := setTranslation_spec (m := rm e3)
    ⟨by simp [rm], by simp [rm]⟩ (-(0 ⬝ᵥ fx e3)) (-(0 ⬝ᵥ fy e3)) (-(0 ⬝ᵥ z))
  refine ⟨rm e0, M, P, T, 0, ![0, 3, 4], ![0, 1, 0], rfl, ⟨by simp [rm], by simp [rm]⟩, iP, AVec.mk3_is _ _ _ _, ?_, ?_, ?_, ?_⟩
  · refine ⟨rfl, ?_⟩
    funext k
    fin_cases k <;> rfl
  · simp [cross_apply]
  · have hc : (rm e0).checkAffine3D = .ok () := checkAffine3D_ok ⟨by simp [rm], by simp [rm]⟩
    have hi : (rm e0).identity = rm e0 := rfl
    have hs : (Handed.left.s : ℝ) = 1 := rfl
    have hv : (VArg.other P).view (rm e3) = .ok P := rfl
    simp only [SelfBuild.lookAt, hc, hi, hs, hD, hl, hZd, c1, hlx, y01, E1, E2, E3, hv, xw1, yw1, hZ, Res.ok_bind,
      AVec.dot_is iP xw2 (by norm_num), AVec.dot_is iP yw2 (by norm_num), AVec.dot_is iP iz (by norm_num), t1]
  · intro hR
    have h1 := congrFun (congrFun ((Matrix.mem_orthogonalGroup_iff _ _).1 (Matrix.mem_specialOrthogonalGroup_iff.1 hR).1) 1) 1
    have hl : ∀ k : Fin 3, linOf M 3 1 k = e3 k 1 := by
      intro k
      have hk := k.2
      have hb : M.basis = .row := t2.basis
      have := t4 k 1 (by simp [TransPos, rm]; omega)
      simp only [linOf, hb, Matrix.transpose_apply, Mat.toMatrix, Matrix.of_apply]
      exact this
    rw [Matrix.mul_apply, Fin.sum_univ_three] at h1
    simp only [Matrix.transpose_apply, Matrix.star_apply, hl, star_trivial, Fin.isValue, Fin.val_zero, Fin.val_one, Fin.val_two,
      Matrix.one_apply_eq] at h1
    simp [e3, e2, e1, e0, upd3, upd, fx, fy, z] at h1
    norm_num at h1

/-- A position outside of the linear part: the translation of a 4×3 matrix. -/
example : (VArg.row 3).Outside (rm fun _ _ => 5) ∧ (rm fun _ _ => 5).HasAff 3 ∧ (rm fun _ _ => 5).BasisSize 3 ∧
    transOf (rm fun _ _ => 5) 3 ≠ 0 ∧ crossProduct ![0, 1, 0] ![1, 0, 0] ≠ (0 : Fin 3 → ℝ) ∧
    crossProduct ![0, 1, 0] (![1, 0, 0] - transOf (rm fun _ _ => 5) 3) ≠ 0 := by
  refine ⟨⟨le_refl _, by simp [rm]⟩, ⟨by simp [rm], by simp [rm]⟩, rfl, ?_, ?_, ?_⟩
  · intro h
    have := congrFun h 0
    simp [transOf, rm] at this
  · simp [cross_apply]
  · intro h
    have := congrFun h 0
    simp [transOf, rm, cross_apply, Matrix.vecHead, Matrix.vecTail] at this

end CML

#print axioms CML.lookAt_sees_identity
#print axioms CML.selflook_plain
#print axioms CML.lookAt_forgets
#print axioms CML.lookAt_ownPosition_false
#print axioms CML.lookAt_ownUp_false
