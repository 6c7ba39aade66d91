import Verif.Lemmas.Rotation
import Verif.Lemmas.Quat

/-! Lemmas on the rotations of quaternions and on the elements of rotation matrices. -/

namespace CML
open Matrix Quaternion

/-- The matrix of `v ↦ q v q̄`. -/
def quatMat (q : ℍ[ℝ]) : Matrix (Fin 3) (Fin 3) ℝ :=
  Matrix.of fun r c => qRotate q (Pi.single c 1) r

/-- The quaternion of the rotation about `u` by `θ`. -/
noncomputable def axisQuat (u : Fin 3 → ℝ) (θ : ℝ) : ℍ[ℝ] :=
  ⟨Real.cos (θ / 2), Real.sin (θ / 2) * u 0, Real.sin (θ / 2) * u 1, Real.sin (θ / 2) * u 2⟩

theorem qRotate_eq (q : ℍ[ℝ]) (v : Fin 3 → ℝ) : qRotate q v =
    !![q.re ^ 2 + q.imI ^ 2 - q.imJ ^ 2 - q.imK ^ 2, 2 * (q.imI * q.imJ - q.re * q.imK),
        2 * (q.imI * q.imK + q.re * q.imJ);
      2 * (q.imI * q.imJ + q.re * q.imK), q.re ^ 2 - q.imI ^ 2 + q.imJ ^ 2 - q.imK ^ 2,
        2 * (q.imJ * q.imK - q.re * q.imI);
      2 * (q.imI * q.imK - q.re * q.imJ), 2 * (q.imJ * q.imK + q.re * q.imI),
        q.re ^ 2 - q.imI ^ 2 - q.imJ ^ 2 + q.imK ^ 2] *ᵥ v := by
  have h0 : (pureQ v).re = 0 := rfl
  have h1 : (pureQ v).imI = v 0 := rfl
  have h2 : (pureQ v).imJ = v 1 := rfl
  have h3 : (pureQ v).imK = v 2 := rfl
  funext i
  fin_cases i <;>
    simp [qRotate, imVec, Matrix.mulVec, dotProduct, Fin.sum_univ_three, h0, h1, h2, h3] <;> ring

theorem quatMat_eq (q : ℍ[ℝ]) : quatMat q =
    !![q.re ^ 2 + q.imI ^ 2 - q.imJ ^ 2 - q.imK ^ 2, 2 * (q.imI * q.imJ - q.re * q.imK),
        2 * (q.imI * q.imK + q.re * q.imJ);
      2 * (q.imI * q.imJ + q.re * q.imK), q.re ^ 2 - q.imI ^ 2 + q.imJ ^ 2 - q.imK ^ 2,
        2 * (q.imJ * q.imK - q.re * q.imI);
      2 * (q.imI * q.imK - q.re * q.imJ), 2 * (q.imJ * q.imK + q.re * q.imI),
        q.re ^ 2 - q.imI ^ 2 - q.imJ ^ 2 + q.imK ^ 2] := by
  ext r c
  simp only [quatMat, of_apply, qRotate_eq, Matrix.mulVec_single_one]
  rfl

theorem quatMat_mulVec (q : ℍ[ℝ]) (v : Fin 3 → ℝ) : quatMat q *ᵥ v = qRotate q v := by
  rw [quatMat_eq, qRotate_eq]

theorem quatMat_mul (p q : ℍ[ℝ]) : quatMat (p * q) = quatMat p * quatMat q := by
  rw [quatMat_eq, quatMat_eq, quatMat_eq]
  ext r c
  fin_cases r <;> fin_cases c <;> simp [Matrix.mul_apply, Fin.sum_univ_three] <;> ring

theorem quatMat_neg (q : ℍ[ℝ]) : quatMat (-q) = quatMat q := by
  rw [quatMat_eq, quatMat_eq]; simp

theorem quatMat_isRotation {q : ℍ[ℝ]} (hq : normSq q = 1) : IsRotation (quatMat q) := by
  rw [normSq_def'] at hq
  rw [isRotation_iff, quatMat_eq]
  generalize q.re = w at *; generalize q.imI = x at *; generalize q.imJ = y at *
  generalize q.imK = z at *
  have hw : w ^ 2 = 1 - x ^ 2 - y ^ 2 - z ^ 2 := by linarith
  constructor
  · ext r c
    fin_cases r <;> fin_cases c <;> simp [Matrix.mul_apply, Fin.sum_univ_three] <;> grind
  · rw [det_fin_three]
    simp
    grind

theorem quatMat_axisQuat {u : Fin 3 → ℝ} (hu : u ⬝ᵥ u = 1) (θ : ℝ) :
    quatMat (axisQuat u θ) = rodrigues u θ := by
  have hc : Real.cos θ = 2 * Real.cos (θ / 2) ^ 2 - 1 := by
    rw [← Real.cos_two_mul]; congr 1; ring
  have hs : Real.sin θ = 2 * Real.sin (θ / 2) * Real.cos (θ / 2) := by
    rw [← Real.sin_two_mul]; congr 1; ring
  have h1 := Real.sin_sq_add_cos_sq (θ / 2)
  rw [quatMat_eq, rodrigues_eq, hc, hs]
  simp only [axisQuat]
  simp only [dotProduct, Fin.sum_univ_three] at hu
  generalize Real.cos (θ / 2) = c at *; generalize Real.sin (θ / 2) = s at *
  generalize u 0 = x at *; generalize u 1 = y at *; generalize u 2 = z at *
  have hs2 : s ^ 2 = 1 - c ^ 2 := by linarith
  have hz : z * z = 1 - x * x - y * y := by linarith
  ext r k
  fin_cases r <;> fin_cases k <;> simp <;> grind

theorem axisQuat_unit {u : Fin 3 → ℝ} (hu : u ⬝ᵥ u = 1) (θ : ℝ) : normSq (axisQuat u θ) = 1 := by
  have h1 := Real.sin_sq_add_cos_sq (θ / 2)
  rw [normSq_def']
  simp only [axisQuat]
  simp only [dotProduct, Fin.sum_univ_three] at hu
  linear_combination Real.sin (θ / 2) ^ 2 * hu + h1

/-- The elements of a rotation matrix are its cofactors. -/
theorem IsRotation.cof {M : Matrix (Fin 3) (Fin 3) ℝ} (h : IsRotation M) :
    M 0 0 = M 1 1 * M 2 2 - M 1 2 * M 2 1 ∧ M 0 1 = M 1 2 * M 2 0 - M 1 0 * M 2 2 ∧
    M 0 2 = M 1 0 * M 2 1 - M 1 1 * M 2 0 ∧ M 1 0 = M 0 2 * M 2 1 - M 0 1 * M 2 2 ∧
    M 1 1 = M 0 0 * M 2 2 - M 0 2 * M 2 0 ∧ M 1 2 = M 0 1 * M 2 0 - M 0 0 * M 2 1 ∧
    M 2 0 = M 0 1 * M 1 2 - M 0 2 * M 1 1 ∧ M 2 1 = M 0 2 * M 1 0 - M 0 0 * M 1 2 ∧
    M 2 2 = M 0 0 * M 1 1 - M 0 1 * M 1 0 := by
  have h' := isRotation_iff.1 h
  have e : M.adjugate = M.transpose := by
    have := M.mul_adjugate
    rw [h'.2, one_smul] at this
    calc M.adjugate = M.transpose * M * M.adjugate := by
            rw [(isRotation_iff'.1 h).1, one_mul]
      _ = M.transpose := by rw [mul_assoc, this, mul_one]
  have f : ∀ i j, M i j = M.adjugate j i := fun i j => by rw [e]; rfl
  rw [Matrix.adjugate_fin_three] at f
  refine ⟨?_, ?_, ?_, ?_, ?_, ?_, ?_, ?_, ?_⟩ <;> refine (f _ _).trans ?_ <;> simp <;> ring

/-- Rows and columns of a rotation matrix are unit vectors. -/
theorem IsRotation.norms {M : Matrix (Fin 3) (Fin 3) ℝ} (h : IsRotation M) :
    M 0 0 ^ 2 + M 0 1 ^ 2 + M 0 2 ^ 2 = 1 ∧ M 1 0 ^ 2 + M 1 1 ^ 2 + M 1 2 ^ 2 = 1 ∧
    M 2 0 ^ 2 + M 2 1 ^ 2 + M 2 2 ^ 2 = 1 ∧ M 0 0 ^ 2 + M 1 0 ^ 2 + M 2 0 ^ 2 = 1 ∧
    M 0 1 ^ 2 + M 1 1 ^ 2 + M 2 1 ^ 2 = 1 ∧ M 0 2 ^ 2 + M 1 2 ^ 2 + M 2 2 ^ 2 = 1 := by
  have h1 := (isRotation_iff.1 h).1
  have h2 := (isRotation_iff'.1 h).1
  have a := fun i => congrFun (congrFun h1 i) i
  have b := fun i => congrFun (congrFun h2 i) i
  simp only [Matrix.mul_apply, Fin.sum_univ_three, transpose_apply, one_apply_eq] at a b
  have a0 := a 0; have a1 := a 1; have a2 := a 2; have b0 := b 0; have b1 := b 1; have b2 := b 2
  refine ⟨?_, ?_, ?_, ?_, ?_, ?_⟩ <;> nlinarith

/-- Rows and columns of a rotation matrix are orthogonal. -/
theorem IsRotation.dots {M : Matrix (Fin 3) (Fin 3) ℝ} (h : IsRotation M) :
    M 0 0 * M 1 0 + M 0 1 * M 1 1 + M 0 2 * M 1 2 = 0 ∧
    M 0 0 * M 2 0 + M 0 1 * M 2 1 + M 0 2 * M 2 2 = 0 ∧
    M 1 0 * M 2 0 + M 1 1 * M 2 1 + M 1 2 * M 2 2 = 0 ∧
    M 0 0 * M 0 1 + M 1 0 * M 1 1 + M 2 0 * M 2 1 = 0 ∧
    M 0 0 * M 0 2 + M 1 0 * M 1 2 + M 2 0 * M 2 2 = 0 ∧
    M 0 1 * M 0 2 + M 1 1 * M 1 2 + M 2 1 * M 2 2 = 0 := by
  have h1 := (isRotation_iff.1 h).1
  have h2 := (isRotation_iff'.1 h).1
  have a := fun i j => congrFun (congrFun h1 i) j
  have b := fun i j => congrFun (congrFun h2 i) j
  simp only [Matrix.mul_apply, Fin.sum_univ_three, transpose_apply] at a b
  refine ⟨(a 0 1).trans rfl, (a 0 2).trans rfl, (a 1 2).trans rfl, (b 0 1).trans rfl,
    (b 0 2).trans rfl, (b 1 2).trans rfl⟩

/-- The symmetric matrix of the products `4 q_a q_b` of the parts of a quaternion, computed from its
rotation matrix. -/
def quatGram (M : Matrix (Fin 3) (Fin 3) ℝ) : Matrix (Fin 4) (Fin 4) ℝ :=
  !![1 + M 0 0 + M 1 1 + M 2 2, M 2 1 - M 1 2, M 0 2 - M 2 0, M 1 0 - M 0 1;
    M 2 1 - M 1 2, 1 + M 0 0 - M 1 1 - M 2 2, M 0 1 + M 1 0, M 0 2 + M 2 0;
    M 0 2 - M 2 0, M 0 1 + M 1 0, 1 - M 0 0 + M 1 1 - M 2 2, M 1 2 + M 2 1;
    M 1 0 - M 0 1, M 0 2 + M 2 0, M 1 2 + M 2 1, 1 - M 0 0 - M 1 1 + M 2 2]

theorem quatGram_rank {M : Matrix (Fin 3) (Fin 3) ℝ} (h : IsRotation M) (a b c : Fin 4) :
    quatGram M a a * quatGram M b c = quatGram M a b * quatGram M a c := by
  obtain ⟨c1, c2, c3, c4, c5, c6, c7, c8, c9⟩ := h.cof
  obtain ⟨n1, n2, n3, n4, n5, n6⟩ := h.norms
  obtain ⟨d1, d2, d3, d4, d5, d6⟩ := h.dots
  unfold quatGram
  generalize M 0 0 = m00 at *; generalize M 0 1 = m01 at *; generalize M 0 2 = m02 at *
  generalize M 1 0 = m10 at *; generalize M 1 1 = m11 at *; generalize M 1 2 = m12 at *
  generalize M 2 0 = m20 at *; generalize M 2 1 = m21 at *; generalize M 2 2 = m22 at *
  fin_cases a <;> fin_cases b <;> fin_cases c <;> simp <;> grind

theorem quatGram_diag (M : Matrix (Fin 3) (Fin 3) ℝ) :
    quatGram M 0 0 + quatGram M 1 1 + quatGram M 2 2 + quatGram M 3 3 = 4 := by
  simp [quatGram]; ring

theorem quatGram_symm (M : Matrix (Fin 3) (Fin 3) ℝ) (a b : Fin 4) :
    quatGram M a b = quatGram M b a := by
  fin_cases a <;> fin_cases b <;> rfl

/-- A quaternion whose products are the elements of the Gram matrix is a unit quaternion of the
rotation. -/
theorem quatGram_quat {M : Matrix (Fin 3) (Fin 3) ℝ} {q : ℍ[ℝ]}
    (hg : ∀ a b, 4 * (![q.re, q.imI, q.imJ, q.imK] a * ![q.re, q.imI, q.imJ, q.imK] b) =
      quatGram M a b) : normSq q = 1 ∧ quatMat q = M := by
  have h00 := hg 0 0; have h01 := hg 0 1; have h02 := hg 0 2; have h03 := hg 0 3
  have h11 := hg 1 1; have h12 := hg 1 2; have h13 := hg 1 3; have h22 := hg 2 2
  have h23 := hg 2 3; have h33 := hg 3 3
  simp [quatGram] at h00 h01 h02 h03 h11 h12 h13 h22 h23 h33
  constructor
  · rw [normSq_def']; linarith
  · rw [quatMat_eq]
    ext r c
    fin_cases r <;> fin_cases c <;> simp <;> linarith

/-- The largest of four numbers with positive sum is positive: one of the diagonal elements is at least
one. -/
theorem quatGram_pos (M : Matrix (Fin 3) (Fin 3) ℝ) : ∃ a, 1 ≤ quatGram M a a := by
  by_contra hc
  push Not at hc
  have := quatGram_diag M
  linarith [hc 0, hc 1, hc 2, hc 3]

/-- From any positive diagonal element the quaternion can be computed. -/
theorem quatGram_extract {M : Matrix (Fin 3) (Fin 3) ℝ} (h : IsRotation M) {a : Fin 4} {q : ℍ[ℝ]} {d : ℝ}
    (hd : 0 < d) (hd2 : 4 * (d * d) = quatGram M a a)
    (hq : ∀ b, ![q.re, q.imI, q.imJ, q.imK] b = quatGram M a b / (4 * d)) :
    normSq q = 1 ∧ quatMat q = M := by
  refine quatGram_quat fun b c => ?_
  have hr := quatGram_rank h a b c
  rw [hq, hq]
  rw [← hd2] at hr
  field_simp
  linear_combination -hr

theorem exists_parts (f : Fin 4 → ℝ) : ∃ q : ℍ[ℝ], ∀ b, ![q.re, q.imI, q.imJ, q.imK] b = f b := by
  refine ⟨⟨f 0, f 1, f 2, f 3⟩, fun b => ?_⟩
  fin_cases b <;> rfl

theorem four_sq {a b c d : ℝ} (h : a ^ 2 + b ^ 2 + c ^ 2 + d ^ 2 = 0) :
    a = 0 ∧ b = 0 ∧ c = 0 ∧ d = 0 := by
  have ha := sq_nonneg a; have hb := sq_nonneg b; have hc := sq_nonneg c; have hd := sq_nonneg d
  refine ⟨?_, ?_, ?_, ?_⟩ <;> refine pow_eq_zero_iff two_ne_zero |>.1 ?_ <;> linarith

/-- Two unit quaternions with the same rotation are equal or opposite. -/
theorem quatMat_injective {p q : ℍ[ℝ]} (hp : normSq p = 1) (hq : normSq q = 1)
    (h : quatMat p = quatMat q) : p = q ∨ p = -q := by
  rw [normSq_def'] at hp hq
  rw [quatMat_eq, quatMat_eq] at h
  have e := fun i j => congrFun (congrFun h i) j
  have e00 := e 0 0; have e01 := e 0 1; have e02 := e 0 2; have e10 := e 1 0; have e11 := e 1 1
  have e12 := e 1 2; have e20 := e 2 0; have e21 := e 2 1; have e22 := e 2 2
  simp at e00 e01 e02 e10 e11 e12 e20 e21 e22
  have key : (p.re * q.re + p.imI * q.imI + p.imJ * q.imJ + p.imK * q.imK) ^ 2 = 1 := by
    grind
  rcases (sq_eq_sq_iff_eq_or_eq_neg.1 (key.trans (one_pow 2).symm)) with hk | hk
  · left
    obtain ⟨h0, h1, h2, h3⟩ := four_sq (a := p.re - q.re) (b := p.imI - q.imI) (c := p.imJ - q.imJ)
      (d := p.imK - q.imK) (by linear_combination hp + hq - 2 * hk)
    exact Quaternion.ext _ _ (sub_eq_zero.1 h0) (sub_eq_zero.1 h1) (sub_eq_zero.1 h2) (sub_eq_zero.1 h3)
  · right
    obtain ⟨h0, h1, h2, h3⟩ := four_sq (a := p.re + q.re) (b := p.imI + q.imI) (c := p.imJ + q.imJ)
      (d := p.imK + q.imK) (by linear_combination hp + hq + 2 * hk)
    exact Quaternion.ext _ _ (eq_neg_of_add_eq_zero_left h0) (eq_neg_of_add_eq_zero_left h1)
      (eq_neg_of_add_eq_zero_left h2) (eq_neg_of_add_eq_zero_left h3)

/-- Every rotation is the rotation of a unit quaternion with non-negative real part. -/
theorem IsRotation.exists_quat {M : Matrix (Fin 3) (Fin 3) ℝ} (h : IsRotation M) :
    ∃ q : ℍ[ℝ], normSq q = 1 ∧ quatMat q = M ∧ 0 ≤ q.re := by
  obtain ⟨a, ha⟩ := quatGram_pos M
  have hp : 0 < quatGram M a a := by linarith
  have hs := Real.mul_self_sqrt hp.le
  have hs0 := Real.sqrt_pos.2 hp
  obtain ⟨q, hq⟩ : ∃ q : ℍ[ℝ], ∀ b, ![q.re, q.imI, q.imJ, q.imK] b =
      quatGram M a b / (4 * (Real.sqrt (quatGram M a a) / 2)) :=
    exists_parts fun b => quatGram M a b / (4 * (Real.sqrt (quatGram M a a) / 2))
  obtain ⟨h1, h2⟩ := quatGram_extract h (d := Real.sqrt (quatGram M a a) / 2) (by positivity)
    (by linarith) hq
  rcases le_total 0 q.re with hr | hr
  · exact ⟨q, h1, h2, hr⟩
  · exact ⟨-q, by rw [normSq_neg, h1], by rw [quatMat_neg, h2], by simpa using hr⟩

/-- Euler's rotation theorem: every rotation of space is a rotation about an axis by an angle in
`[0, π]`. -/
theorem IsRotation.exists_axis {M : Matrix (Fin 3) (Fin 3) ℝ} (h : IsRotation M) :
    ∃ (u : Fin 3 → ℝ) (θ : ℝ), u ⬝ᵥ u = 1 ∧ 0 ≤ θ ∧ θ ≤ Real.pi ∧ M = rodrigues u θ := by
  obtain ⟨q, hq, rfl, h0⟩ := h.exists_quat
  rw [normSq_def'] at hq
  have hw1 : q.re ≤ 1 := by nlinarith [sq_nonneg q.imI, sq_nonneg q.imJ, sq_nonneg q.imK]
  by_cases hi : q.imI ^ 2 + q.imJ ^ 2 + q.imK ^ 2 = 0
  · refine ⟨unitVec 0, 0, unitVec_unit _, le_refl _, Real.pi_pos.le, ?_⟩
    have hI : q.imI = 0 := by nlinarith [sq_nonneg q.imI, sq_nonneg q.imJ, sq_nonneg q.imK]
    have hJ : q.imJ = 0 := by nlinarith [sq_nonneg q.imI, sq_nonneg q.imJ, sq_nonneg q.imK]
    have hK : q.imK = 0 := by nlinarith [sq_nonneg q.imI, sq_nonneg q.imJ, sq_nonneg q.imK]
    rw [rodrigues_zero, quatMat_eq]
    have hre : q.re ^ 2 = 1 := by nlinarith
    ext r c
    fin_cases r <;> fin_cases c <;> simp [hI, hJ, hK, hre]
  · have hpos : 0 < q.imI ^ 2 + q.imJ ^ 2 + q.imK ^ 2 := lt_of_le_of_ne (by positivity) (Ne.symm hi)
    set l := Real.sqrt (q.imI ^ 2 + q.imJ ^ 2 + q.imK ^ 2) with hl
    have hl0 : 0 < l := Real.sqrt_pos.2 hpos
    have hll : l * l = q.imI ^ 2 + q.imJ ^ 2 + q.imK ^ 2 := Real.mul_self_sqrt hpos.le
    have hcos : Real.cos (Real.arccos q.re) = q.re := Real.cos_arccos (by linarith) hw1
    have hsin : Real.sin (Real.arccos q.re) = l := by
      rw [Real.sin_arccos, hl]; congr 1; linarith
    have hu : (![q.imI / l, q.imJ / l, q.imK / l] : Fin 3 → ℝ) ⬝ᵥ ![q.imI / l, q.imJ / l, q.imK / l] = 1 := by
      simp [dotProduct, Fin.sum_univ_three]
      field_simp
      linarith
    refine ⟨_, 2 * Real.arccos q.re, hu, ?_, ?_, ?_⟩
    · have := Real.arccos_nonneg q.re; linarith
    · have := Real.arccos_le_pi_div_two.2 h0; linarith
    · rw [← quatMat_axisQuat hu]
      congr 1
      have e2 : 2 * Real.arccos q.re / 2 = Real.arccos q.re := by ring
      refine Quaternion.ext _ _ ?_ ?_ ?_ ?_ <;> simp only [axisQuat, e2, hcos, hsin] <;>
        simp <;> field_simp

/-! ### Quaternions with renamed coordinates -/

/-- The part of the quaternion along the renamed coordinate. -/
noncomputable def EulerOrder.qperm (o : EulerOrder) (q : ℍ[ℝ]) : ℍ[ℝ] :=
  ⟨q.re, o.sgn * imVec q (o.perm 0), o.sgn * imVec q (o.perm 1), o.sgn * imVec q (o.perm 2)⟩

theorem EulerOrder.qperm_parts (o : EulerOrder) (q : ℍ[ℝ]) : (o.qperm q).re = q.re ∧
    (o.qperm q).imI = o.sgn * imVec q (o.perm 0) ∧ (o.qperm q).imJ = o.sgn * imVec q (o.perm 1) ∧
    (o.qperm q).imK = o.sgn * imVec q (o.perm 2) := ⟨rfl, rfl, rfl, rfl⟩

theorem EulerOrder.qperm_mul (o : EulerOrder) (p q : ℍ[ℝ]) :
    o.qperm (p * q) = o.qperm p * o.qperm q := by
  obtain ⟨p0, p1, p2, p3⟩ := o.qperm_parts p
  obtain ⟨q0, q1, q2, q3⟩ := o.qperm_parts q
  obtain ⟨r0, r1, r2, r3⟩ := o.qperm_parts (p * q)
  rcases o.perm_cases with ⟨h0, h1, h2, hs⟩ | ⟨h0, h1, h2, hs⟩ | ⟨h0, h1, h2, hs⟩ |
      ⟨h0, h1, h2, hs⟩ | ⟨h0, h1, h2, hs⟩ | ⟨h0, h1, h2, hs⟩ <;>
    refine Quaternion.ext _ _ ?_ ?_ ?_ ?_ <;>
    simp only [Quaternion.re_mul, Quaternion.imI_mul, Quaternion.imJ_mul, Quaternion.imK_mul, p0, p1, p2,
      p3, q0, q1, q2, q3, r0, r1, r2, r3, hs, h0, h1, h2] <;>
    simp [imVec] <;> ring

theorem EulerOrder.qperm_axis (o : EulerOrder) (a : Fin 3) (θ : ℝ) :
    o.qperm (axisQuat (unitVec (o.perm a)) θ) = axisQuat (unitVec a) (o.sgn * θ) := by
  rcases o.perm_cases with ⟨h0, h1, h2, hs⟩ | ⟨h0, h1, h2, hs⟩ | ⟨h0, h1, h2, hs⟩ |
      ⟨h0, h1, h2, hs⟩ | ⟨h0, h1, h2, hs⟩ | ⟨h0, h1, h2, hs⟩ <;>
    unfold EulerOrder.qperm <;> rw [hs] <;> fin_cases a <;>
    refine Quaternion.ext _ _ ?_ ?_ ?_ ?_ <;>
    simp [imVec, axisQuat, unitVec, h0, h1, h2, neg_div]

/-- The quaternion of the Euler angles. -/
noncomputable def eulerQuat (o : EulerOrder) (a0 a1 a2 : ℝ) : ℍ[ℝ] :=
  axisQuat (unitVec o.axes.2.2) a2 * axisQuat (unitVec o.axes.2.1) a1 * axisQuat (unitVec o.axes.1) a0

theorem quatMat_eulerQuat (o : EulerOrder) (a0 a1 a2 : ℝ) :
    quatMat (eulerQuat o a0 a1 a2) = eulerRot o a0 a1 a2 := by
  simp only [eulerQuat, eulerRot, quatMat_mul, quatMat_axisQuat (unitVec_unit _)]

theorem eulerQuat_unit (o : EulerOrder) (a0 a1 a2 : ℝ) : normSq (eulerQuat o a0 a1 a2) = 1 := by
  simp only [eulerQuat, map_mul, axisQuat_unit (unitVec_unit _), one_mul]

/-- The parts of the quaternion of Euler angles, along the renamed axes. -/
theorem eulerQuat_parts (o : EulerOrder) (a0 a1 a2 : ℝ) :
    let q := eulerQuat o a0 a1 a2
    let s0 := Real.sin (a0 / 2)
    let c0 := Real.cos (a0 / 2)
    let s1 := o.sgn * Real.sin (a1 / 2)
    let c1 := Real.cos (a1 / 2)
    let s2 := Real.sin (a2 / 2)
    let c2 := Real.cos (a2 / 2)
    if o.repeats then
      q.re = c1 * (c0 * c2 - s0 * s2) ∧ imVec q (o.perm 0) = c1 * (c0 * s2 + s0 * c2) ∧
      imVec q (o.perm 1) = o.sgn * (s1 * (c0 * c2 + s0 * s2)) ∧
      imVec q (o.perm 2) = s1 * (c0 * s2 - s0 * c2)
    else
      q.re = c1 * (c0 * c2) + s1 * (s0 * s2) ∧ imVec q (o.perm 0) = c1 * (s0 * c2) - s1 * (c0 * s2) ∧
      imVec q (o.perm 1) = o.sgn * (c1 * (s0 * s2) + s1 * (c0 * c2)) ∧
      imVec q (o.perm 2) = c1 * (c0 * s2) - s1 * (s0 * c2) := by
  intro q s0 c0 s1 c1 s2 c2
  obtain ⟨h0, h1, h2, -⟩ := o.perm_facts
  have hp : o.qperm q = axisQuat (unitVec (if o.repeats then 0 else 2)) (o.sgn * a2) *
      axisQuat (unitVec 1) (o.sgn * a1) * axisQuat (unitVec 0) (o.sgn * a0) := by
    rw [show q = eulerQuat o a0 a1 a2 from rfl, eulerQuat, EulerOrder.qperm_mul, EulerOrder.qperm_mul,
      h0, h1, h2, EulerOrder.qperm_axis, EulerOrder.qperm_axis, ← EulerOrder.qperm_axis o (if o.repeats then 0 else 2)]
    split_ifs <;> rfl
  have hss : o.sgn * o.sgn = 1 := by unfold EulerOrder.sgn; split_ifs <;> norm_num
  have hcos : ∀ t, Real.cos (o.sgn * t / 2) = Real.cos (t / 2) := by
    intro t; unfold EulerOrder.sgn; split_ifs <;> simp [neg_div]
  have hsin : ∀ t, Real.sin (o.sgn * t / 2) = o.sgn * Real.sin (t / 2) := by
    intro t; unfold EulerOrder.sgn; split_ifs <;> simp [neg_div]
  have e0 := congrArg (·.re) hp
  have e1 := congrArg (·.imI) hp
  have e2 := congrArg (·.imJ) hp
  have e3 := congrArg (·.imK) hp
  simp only [EulerOrder.qperm] at e0 e1 e2 e3
  have hinv : ∀ x y : ℝ, o.sgn * x = y → x = o.sgn * y := by
    intro x y h; rw [← h, ← mul_assoc, hss, one_mul]
  replace e1 := hinv _ _ e1
  replace e2 := hinv _ _ e2
  replace e3 := hinv _ _ e3
  by_cases hr : o.repeats
  · rw [if_pos hr] at *
    simp only [Quaternion.re_mul, Quaternion.imI_mul, Quaternion.imJ_mul, Quaternion.imK_mul] at e0 e1 e2 e3
    simp [axisQuat, unitVec, hcos, hsin] at e0 e1 e2 e3
    refine ⟨?_, ?_, ?_, ?_⟩ <;> simp only [s0, c0, s1, c1, s2, c2] <;> grind
  · rw [if_neg hr] at *
    simp only [Quaternion.re_mul, Quaternion.imI_mul, Quaternion.imJ_mul, Quaternion.imK_mul] at e0 e1 e2 e3
    simp [axisQuat, unitVec, hcos, hsin] at e0 e1 e2 e3
    refine ⟨?_, ?_, ?_, ?_⟩ <;> simp only [s0, c0, s1, c1, s2, c2] <;> grind

theorem qholds_iff_im {o : QOrder} {el : QArr ℝ} {h : ℍ[ℝ]} :
    QHolds o el h ↔ el o.W = some h.re ∧ ∀ i : Fin 3, el (o.X + i) = some (imVec h i) := by
  have : (∀ i : Fin 3, el (o.X + i) = some (imVec h i)) ↔
      el o.X = some h.imI ∧ el (o.X + 1) = some h.imJ ∧ el (o.X + 2) = some h.imK :=
    ⟨fun H => ⟨H 0, H 1, H 2⟩, fun ⟨a, b, c⟩ i => by fin_cases i <;> assumption⟩
  rw [this, qholds_iff]
  cases o <;> rfl

theorem qholds_perm {o : QOrder} {el : QArr ℝ} {h : ℍ[ℝ]} (σ : Equiv.Perm (Fin 3)) :
    QHolds o el h ↔ el o.W = some h.re ∧ el (o.X + σ 0) = some (imVec h (σ 0)) ∧
      el (o.X + σ 1) = some (imVec h (σ 1)) ∧ el (o.X + σ 2) = some (imVec h (σ 2)) := by
  rw [qholds_iff_im]
  refine and_congr_right fun _ => ⟨fun H => ⟨H _, H _, H _⟩, fun ⟨a, b, c⟩ i => ?_⟩
  obtain ⟨j, rfl⟩ := σ.surjective i
  fin_cases j <;> assumption

theorem QOrder.X_add_lt (o : QOrder) (i : Fin 3) : o.X + i.val < 4 := by
  have := i.2
  cases o <;> simp [QOrder.X] <;> omega

theorem QOrder.X_add_ne (o : QOrder) (i : Fin 3) : o.X + i.val ≠ o.W := by
  have := i.2
  cases o <;> simp [QOrder.X, QOrder.W] <;> omega

end CML
