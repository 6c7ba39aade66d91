import Verif.Lemmas.SelfBuild
import Verif.Props.SelfArg

/-!
C123, second part: the functions that build transforms, when their arguments refer to the matrix they write.  The
claim is that the result is the one for the values the arguments have before the call.  It holds for the functions
that compute temporaries first; it fails for those that store in turn, and for those that start with `m.identity()`
or `m.zero()`: they read the identity or zero matrix.
-/

namespace CML
variable {K : Type}
open BMat

/-- The functions of this model are those of `Model/Lin.lean` when no argument refers to the target. -/
theorem selfbuild_plain [Field K] [DecidableEq K] (m : BMat K) (i : Int) (x y z : AVec K) (a b c : K) :
    SelfBuild.setBasisVector m i (.other x) = setBasisVector m i x ∧
    SelfBuild.setBasisVectors m (.other x) (.other y) (.other z) = setBasisVectors m x y z ∧
    SelfBuild.setTransposedBasisVector m i (.other x) = setTransposedBasisVector m i x ∧
    SelfBuild.setTranslation2D m (.val a) (.val b) = setTranslation2D m a b ∧
    SelfBuild.setTranslation m (.val a) (.val b) (.val c) = setTranslation m a b c ∧
    SelfBuild.setTranslationV m (.other x) = setTranslationV m x ∧
    SelfBuild.translation2D m (.val a) (.val b) = translation2D m a b ∧
    SelfBuild.translation m (.val a) (.val b) (.val c) = translation m a b c ∧
    SelfBuild.translationV m (.other x) = translationV m x ∧
    SelfBuild.scale2D m (.val a) (.val b) = scale2D m a b ∧
    SelfBuild.uniformScale2D m (.val a) = uniformScale2D m a ∧
    SelfBuild.inverseScale2D m (.val a) (.val b) = inverseScale2D m a b ∧
    SelfBuild.scale3D m (.val a) (.val b) (.val c) = scale3D m a b c ∧
    SelfBuild.scale3DV m (.other x) = scale3DV m x ∧
    SelfBuild.uniformScale3D m (.val a) = uniformScale3D m a ∧
    SelfBuild.inverseScale3D m (.val a) (.val b) (.val c) = inverseScale3D m a b c ∧
    SelfBuild.skewSymmetric m (.other x) = skewSymmetric m x ∧
    SelfBuild.skewSymmetric2D m (.val a) = skewSymmetric2D m a := by
  have hT : ∀ m : BMat K, SelfBuild.setTranslationV m (.other x) = setTranslationV m x := by
    intro m
    simp only [SelfBuild.setTranslationV, setTranslationV, VArg.now, VArg.get]
    by_cases h : 2 ≤ x.size ∧ x.size ≤ 3
    · have h0 : x.get 0 = .ok (x.el 0) := AVec.get_ok (by omega)
      have h1 : x.get 1 = .ok (x.el 1) := AVec.get_ok (by omega)
      by_cases h3 : x.size = 3
      · have h2 : x.get 2 = .ok (x.el 2) := AVec.get_ok (by omega)
        simp only [h0, h1, h2, h3, if_true, Res.ok_bind]
      · simp only [h0, h1, h3, if_false, Res.ok_bind]
    · simp [AVec.checkSizeRange, h, Res.require]
  refine ⟨rfl, rfl, rfl, rfl, rfl, hT m, rfl, rfl, hT m.identity, rfl, rfl, rfl, rfl, ?_, rfl, rfl, ?_, rfl⟩
  · simp only [SelfBuild.scale3DV, scale3DV, VArg.now, SelfBuild.elemRef]
    by_cases h : x.size = 3
    · have h0 : x.get 0 = .ok (x.el 0) := AVec.get_ok (by omega)
      have h1 : x.get 1 = .ok (x.el 1) := AVec.get_ok (by omega)
      have h2 : x.get 2 = .ok (x.el 2) := AVec.get_ok (by omega)
      simp only [h0, h1, h2, Res.ok_bind, Res.pure_eq]
      rfl
    · simp only [AVec.checkSize_throw h]; rfl
  · simp only [SelfBuild.skewSymmetric, skewSymmetric, VArg.now, VArg.get]
    by_cases h : x.size = 3
    · have h0 : x.get 0 = .ok (x.el 0) := AVec.get_ok (by omega)
      have h1 : x.get 1 = .ok (x.el 1) := AVec.get_ok (by omega)
      have h2 : x.get 2 = .ok (x.el 2) := AVec.get_ok (by omega)
      simp only [h0, h1, h2, Res.ok_bind]
    · simp only [AVec.checkSize_throw h]
      cases m.checkLinear3D <;> rfl

/-- The same for the rotations. -/
theorem selfbuild_plain_real (m : BMat ℝ) (axis : Int) (x y : AVec ℝ) (θ : ℝ) (nrm : Bool) (o : AxisOrder) :
    SelfBuild.rotationWorldAxis m axis (.val θ) = rotationWorldAxis m axis θ ∧
    SelfBuild.rotationAxisAngle m (.other x) (.val θ) = rotationAxisAngle m x θ ∧
    SelfBuild.rotationAlign m (.other x) (.other y) nrm o = rotationAlign m x y nrm o ∧
    SelfBuild.affineAxisAngle m (.other x) (.val θ) (.other y) nrm = affineAxisAngle m x θ y nrm := by
  refine ⟨rfl, rfl, rfl, ?_⟩
  have hT := fun m => (selfbuild_plain m 0 y y y (0 : ℝ) 0 0).2.2.2.2.2.1
  simp only [SelfBuild.affineAxisAngle, affineAxisAngle, hT]
  cases nrm <;> rfl

/-- C123 holds for `matrix_inverse_scale(_2D)`: arguments that refer to the target have their values before the call. -/
theorem selfbuild_temporaries [Field K] [DecidableEq K] (m : BMat K) {a b c : SArg K} (ha : a.In m) (hb : b.In m)
    (hc : c.In m) :
    SelfBuild.inverseScale2D m a b = inverseScale2D m (a.now m) (b.now m) ∧
    SelfBuild.inverseScale3D m a b c = inverseScale3D m (a.now m) (b.now m) (c.now m) := by
  simp only [SelfBuild.inverseScale2D, SelfBuild.inverseScale3D, inverseScale2D, inverseScale3D,
    SArg.read_ok ha, SArg.read_ok hb, SArg.read_ok hc, Res.ok_bind]
  exact ⟨rfl, rfl⟩

/-- C123 holds for `matrix_rotation_world_axis`. -/
theorem rotationWorldAxis_own (m : BMat ℝ) (axis : Int) {angle : SArg ℝ} (h : angle.In m) :
    SelfBuild.rotationWorldAxis m axis angle = rotationWorldAxis m axis (angle.now m) := by
  simp only [SelfBuild.rotationWorldAxis, rotationWorldAxis, SArg.read_ok h, Res.ok_bind]

/-- C123 holds for the axis of `matrix_affine_transform` if it is to be normalized: the normalized axis is a temporary. -/
theorem affineAxisAngle_own (m : BMat ℝ) {axis : VArg ℝ} (h : axis.In m) (θ : ℝ) (t : AVec ℝ) :
    SelfBuild.affineAxisAngle m axis (.val θ) (.other t) true = affineAxisAngle m (axis.now m) θ t true := by
  have hT := fun m => (selfbuild_plain m 0 t t t (0 : ℝ) 0 0).2.2.2.2.2.1
  simp only [SelfBuild.affineAxisAngle, affineAxisAngle, hT, VArg.view_ok h, Res.ok_bind]
  rfl

/-- C123 fails for `matrix_rotation_axis_angle` and `matrix_rotation_align`: a row, column or element of the target has
the value it has in the identity matrix, whatever the target was. -/
theorem rotation_sees_identity (m : BMat ℝ) {axis reference : VArg ℝ} {angle : SArg ℝ} (ha : axis.In m)
    (hr : reference.In m) (hn : angle.In m) (nrm : Bool) (o : AxisOrder) :
    SelfBuild.rotationAxisAngle m axis angle = rotationAxisAngle m (axis.now m.identity) (angle.now m.identity) ∧
    SelfBuild.rotationAlign m axis reference nrm o =
      rotationAlign m (axis.now m.identity) (reference.now m.identity) nrm o := by
  have hs := SameShape.identity m
  have hn' : angle.In m.identity := by cases angle with
    | val x => trivial
    | own i j => exact hn
  constructor
  · simp only [SelfBuild.rotationAxisAngle, rotationAxisAngle, SArg.read_ok hn', VArg.get_now (ha.shape hs),
      VArg.checkSize_shape hs, Res.ok_bind]
  · simp only [SelfBuild.rotationAlign, rotationAlign, VArg.view_ok (ha.shape hs), VArg.view_ok (hr.shape hs),
      Res.ok_bind]

/-- C123 fails for `matrix_scale`: elements of the target have the values of the identity matrix (unless they have been
stored in the same call). -/
theorem scale_sees_identity [Zero K] [One K] {m : BMat K} {a b c : SArg K} (ha : a.In m) (hb : b.In m) (hc : c.In m)
    (hb0 : b ≠ .own 0 0) (hc0 : c ≠ .own 0 0) (hc1 : c ≠ .own 1 1) :
    SelfBuild.scale3D m a b c = scale3D m (a.now m.identity) (b.now m.identity) (c.now m.identity) := by
  by_cases h : m.HasAff 3
  · have hk := (hasAff_iff m 3).1 h
    lin_run [SelfBuild.scale3D, scale3D, checkAffine3D_ok h, SArg.read_ok ha.identity,
      SArg.read_bset_diag 0 _ hb0, SArg.read_ok hb.identity, SArg.read_bset_diag 1 _ hc1,
      SArg.read_bset_diag 0 _ hc0, SArg.read_ok hc.identity]
  · simp only [SelfBuild.scale3D, scale3D, checkAffine3D_throw h]
    rfl

/-- C123 fails for `matrix_uniform_scale`: an element of the target counts as `1` on the diagonal and as `0`
elsewhere. -/
theorem uniformScale_sees_identity [Zero K] [One K] {m : BMat K} {a : SArg K} (ha : a.In m) :
    SelfBuild.uniformScale3D m a = uniformScale3D m (a.now m.identity) := by
  by_cases h0 : a = .own 0 0
  · subst h0
    by_cases h : m.HasAff 3
    · have hk := (hasAff_iff m 3).1 h
      have h01 : (SArg.own 0 0 : SArg K) ≠ .own 1 1 := by intro e; injection e; omega
      have hz : (SArg.own 0 0 : SArg K).read (m.identity.bset 0 0 1) = .ok 1 :=
        BMat.get_bset_self 0 1 ha.1 ha.2
      have hn : (SArg.own 0 0 : SArg K).now m.identity = 1 := rfl
      lin_run [SelfBuild.uniformScale3D, SelfBuild.scale3D, uniformScale3D, scale3D, checkAffine3D_ok h,
        SArg.read_ok ha.identity, hn, hz, SArg.read_bset_diag 1 _ h01]
    · simp only [SelfBuild.uniformScale3D, SelfBuild.scale3D, uniformScale3D, scale3D, checkAffine3D_throw h]
      rfl
  by_cases h1 : a = .own 1 1
  · subst h1
    by_cases h : m.HasAff 3
    · have hk := (hasAff_iff m 3).1 h
      have h01 : (SArg.own 1 1 : SArg K) ≠ .own 0 0 := by intro e; injection e; omega
      have hz : ∀ x, (SArg.own 1 1 : SArg K).read ((m.identity.bset 0 0 x).bset 1 1 1) = .ok 1 :=
        fun x => BMat.get_bset_self 1 1 (by simpa using ha.1) (by simpa using ha.2)
      have hn : (SArg.own 1 1 : SArg K).now m.identity = 1 := rfl
      lin_run [SelfBuild.uniformScale3D, SelfBuild.scale3D, uniformScale3D, scale3D, checkAffine3D_ok h,
        SArg.read_ok ha.identity, hn, hz, SArg.read_bset_diag 0 _ h01]
    · simp only [SelfBuild.uniformScale3D, SelfBuild.scale3D, uniformScale3D, scale3D, checkAffine3D_throw h]
      rfl
  exact scale_sees_identity ha ha ha h0 h0 h1

/-- C123 fails for `matrix_scale(m, v)` with `v` a row or column of the target. -/
theorem scaleV_sees_identity [Zero K] [One K] {m : BMat K} {v : VArg K} (hv : v.In m) (hn : ∀ a, v ≠ .other a) :
    SelfBuild.scale3DV m v = scale3DV m (v.now m.identity) := by
  by_cases h3 : (v.now m).size = 3
  swap
  · simp only [SelfBuild.scale3DV, scale3DV, ← VArg.checkSize_shape (SameShape.identity m) v 3]
    rw [AVec.checkSize_throw (by rw [(VArg.now_size (SameShape.identity m) v).1]; exact h3)]
    rfl
  cases v with
  | other a => exact absurd rfl (hn a)
  | row i =>
    have hi : i < m.rows := hv
    have hc : m.cols = 3 := h3
    simp only [SelfBuild.scale3DV, AVec.checkSize_ok h3, Res.ok_bind,
      SelfBuild.elemRef_row hi (show 0 < m.cols by omega), SelfBuild.elemRef_row hi (show 1 < m.cols by omega),
      SelfBuild.elemRef_row hi (show 2 < m.cols by omega)]
    rw [scale_sees_identity (a := .own i 0) (b := .own i 1) (c := .own i 2) ⟨hi, by omega⟩ ⟨hi, by omega⟩ ⟨hi, by omega⟩ (by simp) (by simp) (by simp)]
    exact (scale3DV_eq m (a := (VArg.row i : VArg K).now m.identity) hc).symm
  | col j =>
    have hj : j < m.cols := hv
    have hc : m.rows = 3 := h3
    simp only [SelfBuild.scale3DV, AVec.checkSize_ok h3, Res.ok_bind,
      SelfBuild.elemRef_col hj (show 0 < m.rows by omega), SelfBuild.elemRef_col hj (show 1 < m.rows by omega),
      SelfBuild.elemRef_col hj (show 2 < m.rows by omega)]
    rw [scale_sees_identity (a := .own 0 j) (b := .own 1 j) (c := .own 2 j) ⟨by omega, hj⟩ ⟨by omega, hj⟩ ⟨by omega, hj⟩ (by simp) (by simp) (by simp)]
    exact (scale3DV_eq m (a := (VArg.col j : VArg K).now m.identity) hc).symm

/-- C123 fails for `matrix_skew_symmetric`: a row or column of the target gives the zero matrix. -/
theorem skewSymmetric_own [Zero K] [Neg K] (hneg : -(0 : K) = 0) {m : BMat K} (h : m.HasLin 3) {v : VArg K} (hv : v.In m)
    (hn : ∀ a, v ≠ .other a) (h3 : (v.now m).size = 3) : SelfBuild.skewSymmetric m v = .ok m.zero := by
  have hk := (hasLin_iff m 3).1 h
  have hz : ∀ i j, m.zero.bset i j 0 = m.zero := by
    intro i j
    refine BMat.ext_bel (SameShape.bset _ _ _ _) fun a b => ?_
    rw [bel_bset, bel_zero]; simp
  have hg : ∀ k, k < 3 → v.get m.zero k = .ok 0 := by
    intro k hk3
    cases v with
    | other a => exact absurd rfl (hn a)
    | row i => exact if_pos ⟨hv, by show k < m.cols; have : m.cols = 3 := h3; omega⟩
    | col j => exact if_pos ⟨by show k < m.rows; have : m.rows = 3 := h3; omega, hv⟩
  have g0 := hg 0 (by omega)
  have g1 := hg 1 (by omega)
  have g2 := hg 2 (by omega)
  lin_run [SelfBuild.skewSymmetric, checkLinear3D_ok h, AVec.checkSize_ok h3, g0, g1, g2, hz, hneg]

/-- C123 fails for `matrix_skew_symmetric_2D`: an element of the target gives the zero matrix. -/
theorem skewSymmetric2D_own [Zero K] [Neg K] (hneg : -(0 : K) = 0) {m : BMat K} (h : m.HasLin 2) {i j : Nat}
    (hi : i < m.rows) (hj : j < m.cols) : SelfBuild.skewSymmetric2D m (.own i j) = .ok m.zero := by
  have hk := (hasLin_iff m 2).1 h
  have hz : ∀ i j, m.zero.bset i j 0 = m.zero := by
    intro i j
    refine BMat.ext_bel (SameShape.bset _ _ _ _) fun a b => ?_
    rw [bel_bset, bel_zero]; simp
  have hg : (SArg.own i j).read m.zero = .ok 0 := if_pos ⟨hi, hj⟩
  lin_run [SelfBuild.skewSymmetric2D, checkLinear2D_ok h, hg, hz, hneg]

/-- C123 holds for `matrix_set_basis_vector(m, i, v)` with `v` a basis vector of the target: basis vector `i` becomes
basis vector `j`, everything else is unchanged. -/
theorem setBasisVector_basis {m : BMat K} (h : m.HasLin 3) (h3 : m.BasisSize 3) (i : Fin 3) {j : Nat}
    (hj : m.HasBasis j) :
    ∃ m', SelfBuild.setBasisVector m i (.basisVec m.basis j) = .ok m' ∧ m.SameShape m' ∧
      ∀ a b, m'.basisEl a b = if a = i ∧ b < 3 then m.basisEl j b else m.basisEl a b := by
  simp only [basisEl_eq]
  exact setBasisVector_own h (basisSize_iff.1 h3) i (hasBasis_iff.1 hj)

/-- `matrix_set_basis_vector(m, i, v)` with `v` a vector across the basis vectors of the target: element `i` has already
been replaced when it is read, unless `i ≤ j`. -/
theorem setBasisVector_cross {m : BMat K} (h : m.HasLin 3) (h3 : m.HasBasis 2 ∧ ¬m.HasBasis 3) (i : Fin 3) {j : Nat}
    (hj : j < match m.basis with | .row => m.cols | .col => m.rows) :
    ∃ m', SelfBuild.setBasisVector m i (.crossVec m.basis j) = .ok m' ∧ m.SameShape m' ∧
      ∀ a b, m'.basisEl a b = if a = i ∧ b < 3 then
        (if b = i ∧ j < b then m.basisEl j j else m.basisEl b j) else m.basisEl a b := by
  simp only [basisEl_eq]
  have h3 : m.bcount = 3 := by rw [hasBasis_iff, hasBasis_iff] at h3; omega
  have hj : j < m.bsize := hj
  have hk := (hasLin_iff m 3).1 h
  have hg : ∀ (M : BMat K) k, M.basis = m.basis → (VArg.crossVec m.basis j).get M k = M.bget k j :=
    fun M k e => by rw [← e]; exact VArg.get_crossVec M j k
  have hi := i.2
  have hr : Res.require (decide (0 ≤ ((i : Nat) : Int) ∧ ((i : Nat) : Int) ≤ 2)) .invalidArgument = .ok () := by
    rw [decide_eq_true (by omega)]; rfl
  simp (disch := first | omega | (simp; done) | (simp; omega)) only [SelfBuild.setBasisVector, checkLinear3D_ok h, AVec.checkSize_ok ((VArg.size_crossVec m j).trans h3),
    hr, hg, bget_ok, bput_ok, Res.ok_bind, Int.toNat_natCast, Res.ok.injEq, exists_eq_left']
  refine ⟨by constructor <;> simp, ?_⟩
  intro a b
  simp only [bel_bset]
  by_cases ha : a = i
  · subst ha
    by_cases hb : b < 3
    · simp only [hb, and_self, if_true]
      generalize hii : (i : Nat) = p at *
      interval_cases p <;> interval_cases b <;> simp <;> 
      · by_cases h0 : j = 0
        · simp [h0]
        · by_cases h1 : j = 1
          · simp [h1]
          · simp [h0, h1]; try omega
    · have : b ≠ 0 ∧ b ≠ 1 ∧ b ≠ 2 := by omega
      simp [this, hb]
  · simp [ha]

/-- `matrix_set_basis_vectors` stores in turn: an argument that is a basis vector of the target in front of the one
being stored has its new value. -/
theorem setBasisVectors_in_turn {m : BMat K} (h : m.HasLin 3) {x y z : VArg K} {src : Fin 3 → Src (Fin 3 → K) 3}
    (hx : x.IsBasis m (src 0)) (hy : y.IsBasis m (src 1)) (hz : z.IsBasis m (src 2)) :
    ∃ m' r, InTurn (fun i k : Fin 3 => m.basisEl i k) src r ∧ SelfBuild.setBasisVectors m x y z = .ok m' ∧
      m.SameShape m' ∧ (∀ i k : Fin 3, m'.basisEl i k = r i k) ∧
      ∀ a b, ¬(a < 3 ∧ b < 3) → m'.basisEl a b = m.basisEl a b := by
  simp only [basisEl_eq]
  have hr := (inTurn_iff (q := fun i k : Fin 3 => m.bel i k) (src := src)).2 rfl
  obtain ⟨m1, a1, a2, a3⟩ := setBasisVector_step h hr (fun _ _ => rfl) 0 hx (SameShape.refl m) (by simp)
  obtain ⟨m2, b1, b2, b3⟩ := setBasisVector_step h hr (fun _ _ => rfl) 1 hy a2 a3
  obtain ⟨m3, c1, c2, c3⟩ := setBasisVector_step h hr (fun _ _ => rfl) 2 hz b2 b3
  refine ⟨m3, _, hr, ?_, c2, fun i k => ?_, fun a b hab => ?_⟩
  · simp only [SelfBuild.setBasisVectors]
    have a1' : SelfBuild.setBasisVector m 0 x = .ok m1 := a1
    have b1' : SelfBuild.setBasisVector m1 1 y = .ok m2 := b1
    have c1' : SelfBuild.setBasisVector m2 2 z = .ok m3 := c1
    rw [a1', Res.ok_bind, b1', Res.ok_bind, c1']
  · rw [c3, dif_pos ⟨by have := i.2; show (i : Nat) < 3; omega, k.2⟩]
  · rw [c3]
    exact dif_neg hab

/-- C123, the part that holds for `matrix_set_basis_vectors`: no argument refers to a basis vector that has been replaced
before.  (Missing: the others, see `setBasisVectors_false`.) -/
theorem setBasisVectors_partial {m : BMat K} (h : m.HasLin 3) {x y z : VArg K} {src : Fin 3 → Src (Fin 3 → K) 3}
    (hx : x.IsBasis m (src 0)) (hy : y.IsBasis m (src 1)) (hz : z.IsBasis m (src 2))
    (hok : ∀ i j, src i = .own j → j < i → src j = .own j) :
    ∃ m', SelfBuild.setBasisVectors m x y z = .ok m' ∧ m.SameShape m' ∧
      (∀ i k : Fin 3, m'.basisEl i k = (src i).meant (fun i k : Fin 3 => m.basisEl i k) k) ∧
      ∀ a b, ¬(a < 3 ∧ b < 3) → m'.basisEl a b = m.basisEl a b := by
  obtain ⟨m', r, h1, h2, h3, h4, h5⟩ := setBasisVectors_in_turn h hx hy hz
  refine ⟨m', h2, h3, fun i k => ?_, h5⟩
  rw [h4 i k]
  by_cases hn : Nontrivial K
  · rw [(in_turn_meant_iff src).2.2 hok _ _ h1 i]
  · exact (not_nontrivial_iff_subsingleton.1 hn).elim _ _

/-- `matrix_set_translation(m, e0, e1, e2)` stores in turn: an argument that is a component of the translation of the
target in front of the one being stored has its new value. -/
theorem setTranslation_in_turn {m : BMat K} (h : m.HasAff 3) {a b c : SArg K} {src : Fin 3 → Src K 3}
    (ha : a.IsTrans m (src 0)) (hb : b.IsTrans m (src 1)) (hc : c.IsTrans m (src 2)) :
    ∃ m' r, InTurn (transOf m 3) src r ∧ SelfBuild.setTranslation m a b c = .ok m' ∧ m.SameShape m' ∧
      transOf m' 3 = r ∧ ∀ i j, ¬m.TransPos 3 i j → m'.el i j = m.el i j := by
  have hk := (hasAff_iff m 3).1 h
  have hr := (inTurn_iff (q := transOf m 3) (src := src)).2 rfl
  generalize inTurn (transOf m 3) src = r at hr
  have hq : ∀ k : Fin 3, m.bel 3 k = transOf m 3 k := fun k => (transOf_apply m 3 k).symm
  have r0 := setTranslation_read h hr hq 0 ha (SameShape.refl m) (by simp)
  have r1 := setTranslation_read (M := m.bset 3 0 (r 0)) h hr hq 1 hb (SameShape.bset ..) (by
    intro a b
    rw [bel_bset]
    by_cases e : a = 3 ∧ b = 0
    · obtain ⟨rfl, rfl⟩ := e; simp
    · rw [if_neg e, dif_neg (by simp; omega)])
  have r2 := setTranslation_read (M := (m.bset 3 0 (r 0)).bset 3 1 (r 1)) h hr hq 2 hc
    ((SameShape.bset ..).trans (SameShape.bset ..)) (by
    intro a b
    rw [bel_bset, bel_bset]
    by_cases e1 : a = 3 ∧ b = 1
    · obtain ⟨rfl, rfl⟩ := e1; simp
    · by_cases e : a = 3 ∧ b = 0
      · obtain ⟨rfl, rfl⟩ := e; simp
      · rw [if_neg e1, if_neg e, dif_neg (by simp; omega)])
  refine ⟨((m.bset 3 0 (r 0)).bset 3 1 (r 1)).bset 3 2 (r 2), r, hr, ?_, by constructor <;> simp, ?_, ?_⟩
  · lin_run [SelfBuild.setTranslation, checkAffine3D_ok h, r0, r1, r2]
  · funext k
    rw [transOf_apply]
    simp only [bel_bset]
    fin_cases k <;> simp
  · intro i j hn
    obtain ⟨⟨rr, cc, e⟩, bb, f⟩ := m
    cases bb <;> simp only [TransPos] at hn <;> simp only [bset, Mat.set] <;>
      (repeat rw [if_neg (by omega)])

/-- C123, the part that holds for `matrix_set_translation`.  (Missing: arguments that have been replaced before, see
`setTranslation_own_false`.) -/
theorem setTranslation_partial {m : BMat K} (h : m.HasAff 3) {a b c : SArg K} {src : Fin 3 → Src K 3}
    (ha : a.IsTrans m (src 0)) (hb : b.IsTrans m (src 1)) (hc : c.IsTrans m (src 2))
    (hok : ∀ i j, src i = .own j → j < i → src j = .own j) :
    ∃ m', SelfBuild.setTranslation m a b c = .ok m' ∧ m.SameShape m' ∧
      (∀ i, transOf m' 3 i = (src i).meant (transOf m 3)) ∧
      ∀ i j, ¬m.TransPos 3 i j → m'.el i j = m.el i j := by
  obtain ⟨m', r, h1, h2, h3, h4, h5⟩ := setTranslation_in_turn h ha hb hc
  refine ⟨m', h2, h3, fun i => ?_, h5⟩
  rw [h4]
  by_cases hn : Nontrivial K
  · exact (in_turn_meant_iff src).2.2 hok _ _ h1 i
  · exact (not_nontrivial_iff_subsingleton.1 hn).elim _ _

/-! ### The claim is false -/

/-- A `4 × 3` row-basis matrix. -/
private def mB : BMat ℚ := .ofLists .row true 4 3 [[2, 0, 0], [0, 3, 5], [0, 7, 4], [1, 2, 3]]

/-- The sizes of the matrices of the examples. -/
local macro "inn" : tactic => `(tactic| simp [mB, BMat.HasAff, BMat.HasLin, BMat.ofLists, SArg.In, VArg.In])

/-- C123 is false for `matrix_scale` and its variants. -/
theorem scale_own_false :
    (¬∀ (m : BMat ℚ) (a b c : SArg ℚ), m.HasAff 3 → a.In m → b.In m → c.In m →
      SelfBuild.scale3D m a b c = scale3D m (a.now m) (b.now m) (c.now m)) ∧
    (¬∀ (m : BMat ℚ) (a : SArg ℚ), m.HasAff 3 → a.In m →
      SelfBuild.uniformScale3D m a = uniformScale3D m (a.now m)) ∧
    (¬∀ (m : BMat ℚ) (v : VArg ℚ), m.HasAff 3 → v.In m →
      SelfBuild.scale3DV m v = scale3DV m (v.now m)) ∧
    (¬∀ (m : BMat ℚ) (a b : SArg ℚ), m.HasAff 2 → a.In m → b.In m →
      SelfBuild.scale2D m a b = scale2D m (a.now m) (b.now m)) := by
  refine ⟨fun H => ?_, fun H => ?_, fun H => ?_, fun H => ?_⟩
  · exact absurd (congrArg BMat.table (H mB (.own 0 0) (.own 1 1) (.own 2 2) (by inn) (by inn)
      (by inn) (by inn))) (by decide +kernel)
  · exact absurd (congrArg BMat.table (H mB (.own 0 0) (by inn) (by inn))) (by decide +kernel)
  · exact absurd (congrArg BMat.table (H mB (.row 3) (by inn) (by inn))) (by decide +kernel)
  · exact absurd (congrArg BMat.table (H mB (.own 0 0) (.own 1 1) (by inn) (by inn)
      (by inn))) (by decide +kernel)

/-- C123 is false for `matrix_translation` and `matrix_set_translation`. -/
theorem setTranslation_own_false :
    (¬∀ (m : BMat ℚ) (a b c : SArg ℚ), m.HasAff 3 → a.In m → b.In m → c.In m →
      SelfBuild.setTranslation m a b c = setTranslation m (a.now m) (b.now m) (c.now m)) ∧
    (¬∀ (m : BMat ℚ) (a b c : SArg ℚ), m.HasAff 3 → a.In m → b.In m → c.In m →
      SelfBuild.translation m a b c = translation m (a.now m) (b.now m) (c.now m)) ∧
    (¬∀ (m : BMat ℚ) (v : VArg ℚ), m.HasAff 3 → v.In m →
      SelfBuild.translationV m v = translationV m (v.now m)) := by
  refine ⟨fun H => ?_, fun H => ?_, fun H => ?_⟩
  · exact absurd (congrArg BMat.table (H mB (.own 3 1) (.own 3 0) (.own 3 2) (by inn) (by inn)
      (by inn) (by inn))) (by decide +kernel)
  · exact absurd (congrArg BMat.table (H mB (.own 3 0) (.own 3 1) (.own 3 2) (by inn) (by inn)
      (by inn) (by inn))) (by decide +kernel)
  · exact absurd (congrArg BMat.table (H mB (.row 3) (by inn) (by inn))) (by decide +kernel)

/-- C123 is false for `matrix_set_basis_vectors`: exchanging two basis vectors makes them equal. -/
theorem setBasisVectors_false :
    ¬∀ (m : BMat ℚ) (x y z : VArg ℚ), m.HasLin 3 → x.In m → y.In m → z.In m →
      SelfBuild.setBasisVectors m x y z = setBasisVectors m (x.now m) (y.now m) (z.now m) :=
  fun H => absurd (congrArg BMat.table (H mB (.row 1) (.row 0) (.row 2) (by inn) (by inn)
    (by inn) (by inn))) (by decide +kernel)

/-- C123 is false for a single basis vector: a column of a row-basis matrix. -/
theorem setBasisVector_cross_false :
    ¬∀ (m : BMat ℚ) (i : Int) (v : VArg ℚ), m.HasLin 3 → v.In m →
      SelfBuild.setBasisVector m i v = setBasisVector m i (v.now m) :=
  fun H => absurd (congrArg BMat.table (H (.ofLists .row true 3 3 [[1, 2, 3], [4, 5, 6], [7, 8, 9]]) 1 (.col 0)
    (by inn) (by inn))) (by decide +kernel)

/-- C123 is false for `matrix_skew_symmetric`. -/
theorem skewSymmetric_own_false :
    ¬∀ (m : BMat ℚ) (v : VArg ℚ), m.HasLin 3 → v.In m →
      SelfBuild.skewSymmetric m v = skewSymmetric m (v.now m) :=
  fun H => absurd (congrArg BMat.table (H mB (.row 3) (by inn) (by inn))) (by decide +kernel)

/-- A real `3 × 3` matrix with first row `0, 0, 1`. -/
private def mR : BMat ℝ := ⟨⟨3, 3, fun i j => if i = 0 ∧ j = 2 then 1 else 0⟩, .row, true⟩

private theorem axisAngle_00 {m : BMat ℝ} (h : m.HasLin 3) {v : AVec ℝ} {x : Fin 3 → ℝ} (hv : v.Is 3 x) (θ : ℝ) :
    ∃ m', rotationAxisAngle m v θ = .ok m' ∧ m'.bel 0 0 = x 0 * (x 0 * (1 - Real.cos θ)) + Real.cos θ := by
  have h0 : v.el 0 = x 0 := congrFun hv.2 0
  have h3 := hv.1
  simp (disch := omega) only [rotationAxisAngle, checkLinear3D_ok h, AVec.checkSize_ok h3, AVec.get_ok, Res.ok_bind]
  obtain ⟨m', e, -, -, f, -⟩ := bput9_ok (m := m.identity) h (i := 0) (j := 1) (k := 2) (by omega) (by omega) (by omega)
    (by omega) (by omega) (by omega) _ _ _ _ _ _ _ _ _
  exact ⟨m', e, by rw [f, h0]⟩

/-- C123 is false for `matrix_rotation_axis_angle`: a half turn about the first row of the target. -/
theorem rotationAxisAngle_own_false :
    ¬∀ (m : BMat ℝ) (axis : VArg ℝ) (θ : ℝ), m.HasLin 3 → axis.In m →
      SelfBuild.rotationAxisAngle m axis (.val θ) = rotationAxisAngle m (axis.now m) θ := by
  intro H
  have hm : mR.HasLin 3 := ⟨le_refl 3, le_refl 3⟩
  have hi : (VArg.row 0 : VArg ℝ).In mR := by simp [VArg.In, mR]
  have h := H mR (.row 0) Real.pi hm hi
  rw [(rotation_sees_identity mR (axis := .row 0) (reference := .row 0) (angle := .val Real.pi) hi hi
    trivial false .xyz).1] at h
  obtain ⟨m1, e1, f1⟩ := axisAngle_00 hm (x := ![1, 0, 0]) (v := (VArg.row 0 : VArg ℝ).now mR.identity)
    ⟨rfl, by funext k; fin_cases k <;> simp [AVec.vec, VArg.now, BMat.identity]⟩ Real.pi
  obtain ⟨m2, e2, f2⟩ := axisAngle_00 hm (x := ![0, 0, 1]) (v := (VArg.row 0 : VArg ℝ).now mR)
    ⟨rfl, by funext k; fin_cases k <;> simp [AVec.vec, VArg.now, mR]⟩ Real.pi
  have h' : m1 = m2 := Res.ok.inj (e1.symm.trans (h.trans e2))
  rw [h', f2] at f1
  norm_num at f1

/-! ### Examples -/

/-- Plain arguments, temporaries and safe uses on a concrete matrix: halving the diagonal by its own elements. -/
example : BMat.table (SelfBuild.inverseScale3D mB (.own 0 0) (.own 1 1) (.own 2 2)) =
    .ok [[1/2, 0, 0], [0, 1/3, 0], [0, 0, 1/4], [0, 0, 0]] := by decide +kernel

example : SelfBuild.inverseScale3D mB (.own 0 0) (.own 1 1) (.own 2 2) = inverseScale3D mB 2 3 4 :=
  (selfbuild_temporaries mB (a := .own 0 0) (b := .own 1 1) (c := .own 2 2) (by inn) (by inn) (by inn)).2

example : SelfBuild.rotationWorldAxis mR 1 (.own 0 2) = rotationWorldAxis mR 1 1 := by
  rw [rotationWorldAxis_own mR 1 (angle := .own 0 2) (by simp [SArg.In, mR])]
  simp [SArg.now, mR]

example : SelfBuild.affineAxisAngle ⟨⟨4, 3, fun i j => if i = 0 ∧ j = 2 then 2 else 0⟩, .row, true⟩ (.row 0) (.val 1)
      (.other (.mk3 true 1 2 3)) true =
    affineAxisAngle ⟨⟨4, 3, fun i j => if i = 0 ∧ j = 2 then 2 else 0⟩, .row, true⟩
      ⟨true, 3, fun k => if k = 2 then 2 else 0⟩ 1 (.mk3 true 1 2 3) true := by
  rw [affineAxisAngle_own _ (axis := .row 0) (by simp [VArg.In])]
  simp [VArg.now]

/-- `matrix_uniform_scale(m, m(0,1))` is a projection to zero, `matrix_scale(m, row(m, 3))` scales by `0, 0, 0`. -/
example : SelfBuild.uniformScale3D mB (.own 1 2) = uniformScale3D mB 0 ∧
    SelfBuild.scale3D mB (.own 1 2) (.own 1 1) (.own 2 2) = scale3D mB 0 1 1 ∧
    BMat.table (SelfBuild.scale3DV mB (.row 1)) = .ok [[0, 0, 0], [0, 1, 0], [0, 0, 0], [0, 0, 0]] := by
  refine ⟨uniformScale_sees_identity (a := .own 1 2) (by inn), ?_, by decide +kernel⟩
  exact scale_sees_identity (a := .own 1 2) (b := .own 1 1) (c := .own 2 2) (by inn) (by inn) (by inn)
    (by simp) (by simp) (by simp)

example : SelfBuild.scale3DV mB (.row 1) = scale3DV mB ⟨true, 3, fun k => if 1 = k then 1 else 0⟩ :=
  scaleV_sees_identity (v := .row 1) (by inn) (by simp)

example : SelfBuild.skewSymmetric mB (.row 3) = .ok mB.zero :=
  skewSymmetric_own (by norm_num) (by inn) (v := .row 3) (by inn) (by simp) rfl

example : SelfBuild.skewSymmetric2D mB (.own 3 2) = .ok mB.zero :=
  skewSymmetric2D_own (by norm_num) (by inn) (by inn) (by inn)

/-- The translation becomes the second basis vector. -/
example : ∃ m', SelfBuild.setBasisVector mB 1 (.row 3) = .ok m' ∧ m'.basisEl 1 2 = 3 := by
  obtain ⟨m', h1, -, h3⟩ := setBasisVector_basis (m := mB) (by inn) rfl 1 (j := 3)
    (by simp [BMat.HasBasis, mB, BMat.ofLists])
  refine ⟨m', h1, ?_⟩
  rw [h3]
  decide +kernel

/-- The second column of a row-basis matrix becomes the first row, as meant; the first column becomes the second row
with a wrong element. -/
example : BMat.table (SelfBuild.setBasisVector (.ofLists .row true 3 3 [[1, 2, 3], [4, 5, 6], [7, 8, 9]]) 0 (.col 1)) =
      .ok [[2, 5, 8], [4, 5, 6], [7, 8, (9 : ℚ)]] ∧
    BMat.table (SelfBuild.setBasisVector (.ofLists .row true 3 3 [[1, 2, 3], [4, 5, 6], [7, 8, 9]]) 1 (.col 0)) =
      .ok [[1, 2, 3], [1, 1, 7], [7, 8, (9 : ℚ)]] := by decide +kernel

example : ∃ m', SelfBuild.setBasisVector (.ofLists .row true 3 3 [[1, 2, 3], [4, 5, 6], [7, 8, (9 : ℚ)]]) 1 (.col 0) =
    .ok m' ∧ m'.basisEl 1 1 = 1 := by
  obtain ⟨m', h1, -, h3⟩ := setBasisVector_cross (m := .ofLists .row true 3 3 [[1, 2, 3], [4, 5, 6], [7, 8, (9 : ℚ)]])
    (by inn) (by simp [BMat.HasBasis, BMat.ofLists]) 1 (j := 0) (by simp [BMat.ofLists])
  refine ⟨m', h1, ?_⟩
  rw [h3]
  decide +kernel

/-- The first two basis vectors become the translation and a new vector, the third keeps its value. -/
example : ∃ m', SelfBuild.setBasisVectors mB (.row 3) (.other (.mk3 true 8 9 10)) (.row 2) = .ok m' ∧
    m'.basisEl 0 1 = 2 ∧ m'.basisEl 1 0 = 8 ∧ m'.basisEl 2 1 = 7 := by
  obtain ⟨m', h1, -, h3, -⟩ := setBasisVectors_partial (m := mB) (by inn)
    (src := ![.val fun k : Fin 3 => mB.basisEl 3 k, .val ![8, 9, 10], .own 2])
    (VArg.IsBasis.rest 3 rfl (by norm_num) (by simp [BMat.HasBasis, mB, BMat.ofLists]))
    (VArg.IsBasis.vec (.mk3 true 8 9 10) ![8, 9, 10] ⟨rfl, by funext k; fin_cases k <;> rfl⟩)
    (VArg.IsBasis.own 2 rfl)
    (by intro i j; fin_cases i <;> simp; rintro rfl h; exact absurd h (lt_irrefl _))
  refine ⟨m', h1, ?_, ?_, ?_⟩
  · have := h3 0 1
    simpa [Src.meant, mB, BMat.ofLists, BMat.basisEl] using this
  · simpa [Src.meant] using h3 1 0
  · have := h3 2 1
    simpa [Src.meant, mB, BMat.ofLists, BMat.basisEl] using this

/-- `matrix_set_translation(m, m(3,2), 5, m(1,2))` is as meant. -/
example : ∃ m', SelfBuild.setTranslation mB (.own 3 2) (.val 5) (.own 1 2) = .ok m' ∧
    (∀ i, transOf m' 3 i = (![3, 5, 5] : Fin 3 → ℚ) i) := by
  obtain ⟨m', h1, -, h3, -⟩ := setTranslation_partial (m := mB) (by inn)
    (src := ![.own 2, .val 5, .val (mB.el 1 2)])
    (SArg.IsTrans.rowOwn rfl 2) (SArg.IsTrans.val 5)
    (SArg.IsTrans.other 1 2 (by simp [mB, BMat.ofLists]) (by simp [BMat.TransPos, mB, BMat.ofLists]))
    (by intro i j; fin_cases i <;> simp)
  refine ⟨m', h1, fun i => ?_⟩
  rw [h3]
  fin_cases i <;> simp [Src.meant, mB, BMat.ofLists, transOf]

#print axioms selfbuild_plain
#print axioms selfbuild_plain_real
#print axioms selfbuild_temporaries
#print axioms rotationWorldAxis_own
#print axioms affineAxisAngle_own
#print axioms rotation_sees_identity
#print axioms scale_sees_identity
#print axioms uniformScale_sees_identity
#print axioms scaleV_sees_identity
#print axioms skewSymmetric_own
#print axioms skewSymmetric2D_own
#print axioms setBasisVector_basis
#print axioms setBasisVector_cross
#print axioms setBasisVectors_in_turn
#print axioms setBasisVectors_partial
#print axioms setTranslation_in_turn
#print axioms setTranslation_partial
#print axioms scale_own_false
#print axioms setTranslation_own_false
#print axioms setBasisVectors_false
#print axioms setBasisVector_cross_false
#print axioms skewSymmetric_own_false
#print axioms rotationAxisAngle_own_false

end CML
