import Verif.Model.RoundProj
import Verif.Props.Rounding
import Verif.Props.Projection

/-!
C139: the projection matrices in rounded arithmetic.
-/

namespace CML

open BMat Matrix

/-- C139: for fields the projections are those of C64 and C65. -/
theorem projections_field {K : Type} [Field K] [DecidableEq K] (m : BMat K) (left right bottom top n f : K) (h : Handed)
    (zc : ZClip) : orthographicG m left right bottom top n f h zc = orthographic m left right bottom top n f h zc ∧
      perspectiveG m left right bottom top n f h zc = perspective m left right bottom top n f h zc := by
  have h2 : ((2 : ℤ) : K) = 2 := Int.cast_ofNat 2
  constructor
  · cases zc <;> simp only [orthographicG, orthographic, h2]
  · cases zc <;> simp only [perspectiveG, perspective, h2]

variable {R : Rounding}

/-- `x` is `X` up to at most `k` relative errors. -/
private def Rel (x : Fl R) (X : ℝ) (k : ℕ) : Prop :=
  ∃ t, Fac R.u k t ∧ Fac R.u k t⁻¹ ∧ t ≠ 0 ∧ x.val = X * t

private theorem Rel.exact (x : Fl R) : Rel x x.val 0 :=
  ⟨1, Fac.one, by rw [inv_one]; exact Fac.one, one_ne_zero, (mul_one _).symm⟩

private theorem Rel.fl {z X : ℝ} {k : ℕ} {t : ℝ} (h1 : Fac R.u k t) (h2 : Fac R.u k t⁻¹) (h3 : t ≠ 0) (h4 : z = X * t) :
    Rel (⟨R.fl z⟩ : Fl R) X (k + 1) := by
  obtain ⟨s, g1, g2, g3, g4⟩ := R.fac z
  refine ⟨t * s, h1.mul R.u_nonneg R.u_lt g1, ?_, mul_ne_zero h3 g3, ?_⟩
  · rw [mul_inv]
    exact h2.mul R.u_nonneg R.u_lt g2
  · show R.fl z = _
    rw [g4, h4, mul_assoc]

private theorem Rel.sub (x y : Fl R) : Rel (x - y) (x.val - y.val) 1 :=
  Rel.fl Fac.one (by rw [inv_one]; exact Fac.one) one_ne_zero (mul_one _).symm

private theorem Rel.add (x y : Fl R) : Rel (x + y) (x.val + y.val) 1 :=
  Rel.fl Fac.one (by rw [inv_one]; exact Fac.one) one_ne_zero (mul_one _).symm

private theorem Rel.mul {x y : Fl R} {X Y : ℝ} {j k : ℕ} (h : Rel x X j) (h' : Rel y Y k) :
    Rel (x * y) (X * Y) (j + k + 1) := by
  obtain ⟨s, a1, a2, a3, a4⟩ := h
  obtain ⟨t, b1, b2, b3, b4⟩ := h'
  refine Rel.fl (t := s * t) (a1.mul R.u_nonneg R.u_lt b1) ?_ (mul_ne_zero a3 b3) ?_
  · rw [mul_inv]
    exact a2.mul R.u_nonneg R.u_lt b2
  · rw [a4, b4]; ring

private theorem Rel.neg {x : Fl R} {X : ℝ} {k : ℕ} (h : Rel x X k) : Rel (-x) (-X) k := by
  obtain ⟨s, a1, a2, a3, a4⟩ := h
  exact ⟨s, a1, a2, a3, by rw [Fl.neg_val, a4]; ring⟩

private theorem Rel.inv {x : Fl R} {X : ℝ} {k : ℕ} (h : Rel x X k) : Rel (1 / x) (1 / X) (k + 1) := by
  obtain ⟨s, a1, a2, a3, a4⟩ := h
  refine Rel.fl (t := s⁻¹) a2 (by rw [inv_inv]; exact a1) (inv_ne_zero a3) ?_
  rw [a4, Fl.one_val, one_div, one_div, mul_inv]

private theorem Rel.err {x : Fl R} {X : ℝ} {j k : ℕ} (h : Rel x X j) (hjk : j ≤ k) (hu : (k : ℝ) * R.u < 1) :
    |x.val - X| ≤ gamma R.u k * |X| := by
  obtain ⟨s, a1, -, -, a4⟩ := h
  rw [a4]
  refine (a1.mono R.u_nonneg R.u_lt hjk).abs_le.trans ?_
  exact mul_le_mul_of_nonneg_right (phi_le_gamma R.u_nonneg R.u_lt hu) (abs_nonneg _)

private theorem inv_ok {x y : Fl R} (h : x.val ≠ y.val) : divR 1 (x - y) = .ok (1 / (x - y)) := by
  obtain ⟨t, -, -, h3, h4⟩ := Rel.sub x y
  have : x - y ≠ 0 := by
    intro e
    rw [e, Fl.zero_val] at h4
    exact mul_ne_zero (sub_ne_zero.2 h) h3 h4.symm
  simp [divR, this]

private theorem rel_s (h : Handed) : Rel (h.s : Fl R) (h.s : ℝ) 0 := by
  cases h
  · exact Rel.exact (1 : Fl R)
  · exact (Rel.exact (1 : Fl R)).neg

/-- C139: every element of the orthographic projection has a small relative error, so that zeros are exact; outside
of the 4x4 block it is the identity. -/
theorem orthographic_error {m : BMat (Fl R)} (hm : m.HasLin 4) {m₀ : BMat ℝ} (h₀ : m₀.HasLin 4)
    {left right bottom top n f : Fl R} (hw : right.val ≠ left.val) (hh : top.val ≠ bottom.val) (hd : f.val ≠ n.val)
    (h : Handed) (zc : ZClip) (hu : ((4 : ℕ) : ℝ) * R.u < 1) :
    ∃ m', orthographicG m left right bottom top n f h zc = .ok m' ∧ m.SameShape m' ∧ m'.IdOutside 4 ∧ ∃ m₁,
      orthographic m₀ left.val right.val bottom.val top.val n.val f.val h zc = .ok m₁ ∧
      ∀ i j : Fin 4, |(linOf m' 4 i j).val - linOf m₁ 4 i j| ≤ gamma R.u 4 * |linOf m₁ 4 i j| := by
  have hb := (hasLin_iff m 4).1 hm
  have hb0 := (hasLin_iff m₀ 4).1 h₀
  have w0 : right.val - left.val ≠ 0 := sub_ne_zero.2 hw
  have h0 : top.val - bottom.val ≠ 0 := sub_ne_zero.2 hh
  have d0 : f.val - n.val ≠ 0 := sub_ne_zero.2 hd
  have e1 : divR 1 (right.val - left.val) = .ok (1 / (right.val - left.val)) := by simp [divR, w0]
  have e2 : divR 1 (top.val - bottom.val) = .ok (1 / (top.val - bottom.val)) := by simp [divR, h0]
  have e3 : divR 1 (f.val - n.val) = .ok (1 / (f.val - n.val)) := by simp [divR, d0]
  have two : Rel ((2 : ℤ) : Fl R) 2 0 := by
    have := Rel.exact ((2 : ℤ) : Fl R)
    rwa [Fl.intCast_val, Int.cast_ofNat] at this
  have W := (Rel.sub right left).inv
  have H := (Rel.sub top bottom).inv
  have D := (Rel.sub f n).inv
  have S := rel_s (R := R) h
  have z : |(0 : Fl R).val - 0| ≤ gamma R.u 4 * |(0 : ℝ)| := by simp
  have o : |(1 : Fl R).val - 1| ≤ gamma R.u 4 * |(1 : ℝ)| := by
    have : 0 ≤ gamma R.u 4 := div_nonneg (mul_nonneg (Nat.cast_nonneg _) R.u_nonneg) (by linarith)
    simpa using this
  have p1 := (two.mul W).err (k := 4) (by norm_num) hu
  have p2 := (two.mul H).err (k := 4) (by norm_num) hu
  have p3 := ((Rel.add right left).neg.mul W).err (k := 4) (by norm_num) hu
  have p4 := ((Rel.add top bottom).neg.mul H).err (k := 4) (by norm_num) hu
  have p5 := ((S.mul two).mul D).err (k := 4) (by norm_num) hu
  have p6 := ((Rel.add f n).neg.mul D).err (k := 4) (by norm_num) hu
  have p7 := (S.mul D).err (k := 4) (by norm_num) hu
  have p8 := ((Rel.exact n).neg.mul D).err (k := 4) (by norm_num) hu
  cases zc
  all_goals
    lin_run [orthographicG, orthographic, checkMin44_ok hm, checkMin44_ok h₀, inv_ok hw, inv_ok hh, inv_ok hd, e1, e2, e3]
    refine ⟨⟨by simp, by simp, by simp, by simp⟩, ?_, fun i j => ?_⟩
    · rw [idOutside_iff]
      intro i j _ _ hn
      simp only [bel_bset, bel_identity]
      repeat rw [if_neg (show ¬(i = _ ∧ j = _) by omega)]
    · fin_cases i <;> fin_cases j <;>
        simp (decide := true) only [linOf_apply, bel_bset, bel_identity, if_true, if_false] <;> assumption

/-- C139: every element of the perspective projection has a small relative error, so that zeros are exact; outside
of the 4x4 block it is the identity. -/
theorem perspective_error {m : BMat (Fl R)} (hm : m.HasLin 4) {m₀ : BMat ℝ} (h₀ : m₀.HasLin 4)
    {left right bottom top n f : Fl R} (hw : right.val ≠ left.val) (hh : top.val ≠ bottom.val) (hd : f.val ≠ n.val)
    (h : Handed) (zc : ZClip) (hu : ((6 : ℕ) : ℝ) * R.u < 1) :
    ∃ m', perspectiveG m left right bottom top n f h zc = .ok m' ∧ m.SameShape m' ∧ m'.IdOutside 4 ∧ ∃ m₁,
      perspective m₀ left.val right.val bottom.val top.val n.val f.val h zc = .ok m₁ ∧
      ∀ i j : Fin 4, |(linOf m' 4 i j).val - linOf m₁ 4 i j| ≤ gamma R.u 6 * |linOf m₁ 4 i j| := by
  have hb := (hasLin_iff m 4).1 hm
  have hb0 := (hasLin_iff m₀ 4).1 h₀
  have w0 : right.val - left.val ≠ 0 := sub_ne_zero.2 hw
  have h0 : top.val - bottom.val ≠ 0 := sub_ne_zero.2 hh
  have d0 : f.val - n.val ≠ 0 := sub_ne_zero.2 hd
  have e1 : divR 1 (right.val - left.val) = .ok (1 / (right.val - left.val)) := by simp [divR, w0]
  have e2 : divR 1 (top.val - bottom.val) = .ok (1 / (top.val - bottom.val)) := by simp [divR, h0]
  have e3 : divR 1 (f.val - n.val) = .ok (1 / (f.val - n.val)) := by simp [divR, d0]
  have two : Rel ((2 : ℤ) : Fl R) 2 0 := by
    have := Rel.exact ((2 : ℤ) : Fl R)
    rwa [Fl.intCast_val, Int.cast_ofNat] at this
  have W := (Rel.sub right left).inv
  have H := (Rel.sub top bottom).inv
  have D := (Rel.sub f n).inv
  have S := rel_s (R := R) h
  have z : |(0 : Fl R).val - 0| ≤ gamma R.u 6 * |(0 : ℝ)| := by simp
  have o : |(1 : Fl R).val - 1| ≤ gamma R.u 6 * |(1 : ℝ)| := by
    have : 0 ≤ gamma R.u 6 := div_nonneg (mul_nonneg (Nat.cast_nonneg _) R.u_nonneg) (by linarith)
    simpa using this
  have s0 := S.err (k := 6) (by norm_num) hu
  have p1 := ((two.mul (Rel.exact n)).mul W).err (k := 6) (by norm_num) hu
  have p2 := ((two.mul (Rel.exact n)).mul H).err (k := 6) (by norm_num) hu
  have p3 := ((S.neg.mul (Rel.add right left)).mul W).err (k := 6) (by norm_num) hu
  have p4 := ((S.neg.mul (Rel.add top bottom)).mul H).err (k := 6) (by norm_num) hu
  have p5 := ((S.mul (Rel.add f n)).mul D).err (k := 6) (by norm_num) hu
  have p6 := (((two.neg.mul (Rel.exact f)).mul (Rel.exact n)).mul D).err (k := 6) (by norm_num) hu
  have p7 := ((S.mul (Rel.exact f)).mul D).err (k := 6) (by norm_num) hu
  have p8 := ((S.neg.mul (Rel.exact n)).mul ((S.mul (Rel.exact f)).mul D)).err (k := 6) (by norm_num) hu
  cases zc
  all_goals
    lin_run [perspectiveG, perspective, checkMin44_ok hm, checkMin44_ok h₀, inv_ok hw, inv_ok hh, inv_ok hd, e1, e2, e3]
    refine ⟨⟨by simp, by simp, by simp, by simp⟩, ?_, fun i j => ?_⟩
    · rw [idOutside_iff]
      intro i j _ _ hn
      simp only [bel_bset, bel_identity]
      repeat rw [if_neg (show ¬(i = _ ∧ j = _) by omega)]
    · fin_cases i <;> fin_cases j <;>
        simp (decide := true) only [linOf_apply, bel_bset, bel_identity, if_true, if_false] <;> assumption

/-- C139: also in rounded arithmetic a degenerate box or frustum divides by zero, and a too small matrix is rejected. -/
theorem projections_round_fails (m : BMat (Fl R)) (left right bottom top n f : Fl R) (h : Handed) (zc : ZClip) :
    (¬m.HasLin 4 → orthographicG m left right bottom top n f h zc = .throw m.minErr ∧
      perspectiveG m left right bottom top n f h zc = .throw m.minErr) ∧
    (m.HasLin 4 → right.val = left.val ∨ top.val = bottom.val ∨ f.val = n.val →
      orthographicG m left right bottom top n f h zc = .ub .divZero ∧
      perspectiveG m left right bottom top n f h zc = .ub .divZero) := by
  constructor
  · intro hm
    simp only [orthographicG, perspectiveG, checkMin44_throw hm, Res.throw_bind, and_self]
  · intro hm hz
    have bad : ∀ {x y : Fl R}, x.val = y.val → divR 1 (x - y) = .ub .divZero := fun {x y} e => by
      obtain ⟨t, -, -, -, h4⟩ := Rel.sub x y
      have : x - y = 0 := Fl.ext (by rw [h4, e, sub_self, zero_mul, Fl.zero_val])
      simp [divR, this]
    by_cases a : right.val = left.val
    · simp [orthographicG, perspectiveG, checkMin44_ok hm, bad a]
    · by_cases b : top.val = bottom.val
      · simp [orthographicG, perspectiveG, checkMin44_ok hm, inv_ok a, bad b]
      · have c : f.val = n.val := by tauto
        simp [orthographicG, perspectiveG, checkMin44_ok hm, inv_ok a, inv_ok b, bad c]

/-! ### The hypotheses are met -/

private noncomputable def pm : BMat (Fl double) := ⟨⟨4, 4, fun _ _ => ⟨7⟩⟩, .row, true⟩
private noncomputable def pr : BMat ℝ := ⟨⟨4, 5, fun _ _ => 7⟩, .col, true⟩

private theorem ex_u {k : ℕ} (h : k ≤ 20) : (k : ℝ) * double.u < 1 := by
  have h1 : (k : ℝ) ≤ 20 := by exact_mod_cast h
  have h2 : double.u ≤ 1 / 1000 := by show (2 : ℝ)⁻¹ ^ 53 ≤ 1 / 1000; norm_num
  have h3 : 0 ≤ double.u := double.u_nonneg
  nlinarith

/-- A view volume in `double`. -/
example := orthographic_error (m := pm) (m₀ := pr) (by constructor <;> decide) (by constructor <;> decide)
  (left := ⟨-3⟩) (right := ⟨5⟩) (bottom := ⟨-1⟩) (top := ⟨2⟩) (n := ⟨1 / 10⟩) (f := ⟨100⟩) (by norm_num) (by norm_num)
  (by norm_num) .right .zero (ex_u (by norm_num))
example := perspective_error (m := pm) (m₀ := pr) (by constructor <;> decide) (by constructor <;> decide)
  (left := ⟨-3⟩) (right := ⟨5⟩) (bottom := ⟨-1⟩) (top := ⟨2⟩) (n := ⟨1 / 10⟩) (f := ⟨100⟩) (by norm_num) (by norm_num)
  (by norm_num) .right .zero (ex_u (by norm_num))

/-- An empty box. -/
example := ((projections_round_fails pm ⟨1⟩ ⟨1⟩ ⟨0⟩ ⟨1⟩ ⟨1⟩ ⟨2⟩ .left .zero).2 (by constructor <;> decide) (.inl rfl)).1

#print axioms projections_field
#print axioms orthographic_error
#print axioms perspective_error
#print axioms projections_round_fails

end CML
