import Verif.Lemmas.OutArg
import Mathlib.Analysis.SpecialFunctions.Complex.Arg
import Mathlib.Tactic.FinCases

/-!
C124: output arguments.  The claim is that a conversion function may be called with references to elements of the
object it converts, as with any other variables: every output has the value for the object as it was before the call.
It holds when the outputs avoid the elements that are read later, which the theorems ending in `_partial` say function
by function, and it is false otherwise.  This file has the conversions of coordinates; `Props/OutRot.lean` those of
matrices and quaternions.
-/

namespace CML

/-! ### Polar coordinates -/

private theorem wr_pair {σ : Cells} {a b : Nat} (h : a ≠ b) (x y : ℝ) :
    σ.Stores ((σ.wr a x).wr b y) [(a, x), (b, y)] := by
  constructor
  · simp [Cells.wr, h]
  · intro c hc
    simp only [List.mem_cons, List.not_mem_nil, or_false, forall_eq_or_imp, forall_eq] at hc
    simp [Cells.wr, Ne.symm hc.1, Ne.symm hc.2]

private theorem stores2 {σ σ' : Cells} {a b : Nat} {x y : ℝ} (h : σ.Stores σ' [(a, x), (b, y)]) :
    σ' a = x ∧ σ' b = y := by
  simpa using h.1

/-- C124: `cartesian_to_polar(v, radius, theta)` stores the polar coordinates of `v` in `radius` and `theta` and
changes nothing else, if `radius` is no element of `v`; `theta` may be one.  Missing for the full claim: `radius` may
not be an element, see `polarInPlace_iff`. -/
theorem polarInto_partial (σ : Cells) (v : VAt) (r t : Nat) (tol : ℝ) (hr : v.Avoids r) (hrt : r ≠ t) :
    (∀ ρ θ, cartesianToPolar (v.load σ) tol = .ok (ρ, θ) →
      ∃ σ', polarInto σ v r t tol = .ok σ' ∧ σ.Stores σ' [(r, ρ), (t, θ)]) ∧
    (∀ e, cartesianToPolar (v.load σ) tol = .throw e → polarInto σ v r t tol = .throw e) := by
  by_cases hv : v.size = 2
  · have h0 := hr 0 (by omega)
    have h1 := hr 1 (by omega)
    rw [cartesianToPolar_load σ hv, polarInto_run σ hv]
    refine ⟨?_, fun e h => by simp at h⟩
    rintro ρ θ h
    simp only [Res.ok.injEq, Prod.mk.injEq] at h
    obtain ⟨rfl, rfl⟩ := h
    refine ⟨_, rfl, ?_⟩
    simp only [Cells.wr_ne _ _ h0, Cells.wr_ne _ _ h1]
    exact wr_pair hrt _ _
  · have h : (v.load σ).checkSize 2 = .throw (if v.fixed then .staticAssert else .vecSize) :=
      AVec.checkSize_throw hv
    simp only [cartesianToPolar, polarInto, h]
    exact ⟨fun ρ θ h => (by cases h), fun e h => (by cases h; rfl)⟩

private theorem arg_scale {a b c d : ℝ} (h1 : (⟨a, b⟩ : ℂ) ≠ 0) (h2 : (⟨c, d⟩ : ℂ) ≠ 0)
    (h : atan2 b a = atan2 d c) : ∃ k : ℝ, 0 < k ∧ k * a = c ∧ k * b = d := by
  have e := (Complex.arg_eq_arg_iff h1 h2).1 h
  refine ⟨‖(⟨c, d⟩ : ℂ)‖ / ‖(⟨a, b⟩ : ℂ)‖, div_pos (norm_pos_iff.2 h2) (norm_pos_iff.2 h1), ?_, ?_⟩
  · have := congrArg Complex.re e
    rw [← Complex.ofReal_div] at this
    simpa using this
  · have := congrArg Complex.im e
    rw [← Complex.ofReal_div] at this
    simpa using this

private theorem cne {a b : ℝ} (h : a ≠ 0 ∨ b ≠ 0) : (⟨a, b⟩ : ℂ) ≠ 0 := by
  intro e
  have h1 := congrArg Complex.re e
  have h2 := congrArg Complex.im e
  simp at h1 h2
  exact h.elim (· h1) (· h2)

/-- The angle computed from the length instead of `x` is right only for points on the positive axis. -/
private theorem atan2_len_left (x y : ℝ) : atan2 y (len2 x y) = atan2 y x ↔ y = 0 ∧ 0 ≤ x := by
  have hsq := len2_sq x y
  have hnn := len2_nonneg x y
  constructor
  · intro h
    by_cases hz : x = 0 ∧ y = 0
    · exact ⟨hz.2, hz.1.ge⟩
    · have hL : len2 x y ≠ 0 := fun e => hz (len2_eq_zero.1 e)
      have hxy : x ≠ 0 ∨ y ≠ 0 := by
        by_contra hc
        push Not at hc
        exact hz hc
      obtain ⟨k, hk, e1, e2⟩ := arg_scale (cne (Or.inl hL)) (cne hxy) h
      have hy : y = 0 := by
        by_contra hy
        have : k = 1 := by
          have : (k - 1) * y = 0 := by linarith
          rcases mul_eq_zero.1 this with h | h
          · linarith
          · exact absurd h hy
        rw [this, one_mul] at e1
        rw [e1] at hsq
        exact hy (by nlinarith [mul_self_nonneg y])
      refine ⟨hy, ?_⟩
      rw [← e1]
      positivity
  · rintro ⟨rfl, hx⟩
    have : len2 x 0 = x := by rw [len2, mul_zero, add_zero, Real.sqrt_mul_self hx]
    rw [this]

private theorem atan2_len_right (x y : ℝ) : atan2 (len2 x y) x = atan2 y x ↔ x = 0 ∧ 0 ≤ y := by
  have hsq := len2_sq x y
  have hnn := len2_nonneg x y
  constructor
  · intro h
    by_cases hz : x = 0 ∧ y = 0
    · exact ⟨hz.1, hz.2.ge⟩
    · have hL : len2 x y ≠ 0 := fun e => hz (len2_eq_zero.1 e)
      have hxy : x ≠ 0 ∨ y ≠ 0 := by
        by_contra hc
        push Not at hc
        exact hz hc
      obtain ⟨k, hk, e1, e2⟩ := arg_scale (cne (Or.inr hL)) (cne hxy) h
      have hx : x = 0 := by
        by_contra hx
        have : k = 1 := by
          have : (k - 1) * x = 0 := by linarith
          rcases mul_eq_zero.1 this with h | h
          · linarith
          · exact absurd h hx
        rw [this, one_mul] at e2
        rw [e2] at hsq
        exact hx (by nlinarith [mul_self_nonneg x])
      refine ⟨hx, ?_⟩
      rw [← e2]
      positivity
  · rintro ⟨rfl, hy⟩
    have : len2 0 y = y := by rw [len2, mul_zero, zero_add, Real.sqrt_mul_self hy]
    rw [this]

/-- C124: `cartesian_to_polar(v, v[0], v[1])` gives the polar coordinates of `v` only for a radius below the tolerance
and for points on the positive first axis: the angle is computed from the new `v[0]`. -/
theorem polarInPlace_iff (σ : Cells) {v : VAt} (hv : v.size = 2) (hd : v.addr 0 ≠ v.addr 1) (tol : ℝ) {ρ θ : ℝ}
    (h : cartesianToPolar (v.load σ) tol = .ok (ρ, θ)) :
    (∃ σ', polarInto σ v (v.addr 0) (v.addr 1) tol = .ok σ' ∧ σ.Stores σ' [(v.addr 0, ρ), (v.addr 1, θ)]) ↔
      ρ < tol ∨ (σ (v.addr 1) = 0 ∧ 0 ≤ σ (v.addr 0)) := by
  rw [cartesianToPolar_load σ hv] at h
  simp only [Res.ok.injEq, Prod.mk.injEq] at h
  obtain ⟨rfl, rfl⟩ := h
  rw [polarInto_run σ hv]
  simp only [Cells.wr_same, Cells.wr_ne _ _ hd.symm, Res.ok.injEq, exists_eq_left']
  rw [← atan2_len_left]
  constructor
  · intro hs
    have := (stores2 hs).2
    rw [Cells.wr_same] at this
    by_cases hL : len2 (σ (v.addr 0)) (σ (v.addr 1)) < tol
    · exact Or.inl hL
    · rw [if_neg hL, if_neg hL] at this
      exact Or.inr this
  · intro hs
    have : (if len2 (σ (v.addr 0)) (σ (v.addr 1)) < tol then 0
        else atan2 (σ (v.addr 1)) (len2 (σ (v.addr 0)) (σ (v.addr 1)))) =
        if len2 (σ (v.addr 0)) (σ (v.addr 1)) < tol then 0 else atan2 (σ (v.addr 1)) (σ (v.addr 0)) := by
      split
      · rfl
      · next hL => exact hs.resolve_left hL
    rw [this]
    exact wr_pair hd _ _

/-- C124: `cartesian_to_polar(v, v[1], v[0])` gives the polar coordinates of `v` only for a radius below the tolerance
and for points on the positive second axis. -/
theorem polarInPlace_swapped_iff (σ : Cells) {v : VAt} (hv : v.size = 2) (hd : v.addr 0 ≠ v.addr 1) (tol : ℝ)
    {ρ θ : ℝ} (h : cartesianToPolar (v.load σ) tol = .ok (ρ, θ)) :
    (∃ σ', polarInto σ v (v.addr 1) (v.addr 0) tol = .ok σ' ∧ σ.Stores σ' [(v.addr 1, ρ), (v.addr 0, θ)]) ↔
      ρ < tol ∨ (σ (v.addr 0) = 0 ∧ 0 ≤ σ (v.addr 1)) := by
  rw [cartesianToPolar_load σ hv] at h
  simp only [Res.ok.injEq, Prod.mk.injEq] at h
  obtain ⟨rfl, rfl⟩ := h
  rw [polarInto_run σ hv]
  simp only [Cells.wr_same, Cells.wr_ne _ _ hd, Res.ok.injEq, exists_eq_left']
  rw [← atan2_len_right]
  constructor
  · intro hs
    have := (stores2 hs).2
    rw [Cells.wr_same] at this
    by_cases hL : len2 (σ (v.addr 0)) (σ (v.addr 1)) < tol
    · exact Or.inl hL
    · rw [if_neg hL, if_neg hL] at this
      exact Or.inr this
  · intro hs
    have : (if len2 (σ (v.addr 0)) (σ (v.addr 1)) < tol then 0
        else atan2 (len2 (σ (v.addr 0)) (σ (v.addr 1))) (σ (v.addr 0))) =
        if len2 (σ (v.addr 0)) (σ (v.addr 1)) < tol then 0 else atan2 (σ (v.addr 1)) (σ (v.addr 0)) := by
      split
      · rfl
      · next hL => exact hs.resolve_left hL
    rw [this]
    exact wr_pair hd.symm _ _

/-- The vector in cells 10 and 11. -/
private def vec2 : VAt := ⟨true, 2, fun i => 10 + i⟩

/-- The vector in cells 10, 11 and 12. -/
private def vec3 : VAt := ⟨true, 3, fun i => 10 + i⟩

example : vec2.Avoids 3 ∧ 3 ≠ vec2.addr 0 ∧ vec2.size = 2 ∧ vec2.addr 0 ≠ vec2.addr 1 := by
  refine ⟨fun i _ => ?_, by simp [vec2], rfl, by simp [vec2]⟩
  simp only [vec2]
  omega

/-- C124: the claim is false: `cartesian_to_polar(v, v[0], v[1])` for `v = (0, 1)`. -/
theorem polarInPlace_false :
    ∃ (σ : Cells) (v : VAt) (ρ θ : ℝ), v.size = 2 ∧ v.addr 0 ≠ v.addr 1 ∧
      cartesianToPolar (v.load σ) (1 / 1000) = .ok (ρ, θ) ∧
      ¬ ∃ σ', polarInto σ v (v.addr 0) (v.addr 1) (1 / 1000) = .ok σ' ∧
        σ.Stores σ' [(v.addr 0, ρ), (v.addr 1, θ)] := by
  let σ : Cells := fun b => if b = 11 then 1 else 0
  have h := cartesianToPolar_load σ (v := vec2) rfl (1 / 1000)
  refine ⟨σ, vec2, _, _, rfl, by simp [vec2], h, fun hc => ?_⟩
  rcases (polarInPlace_iff σ (v := vec2) rfl (by simp [vec2]) (1 / 1000) h).1 hc with h | h
  · norm_num [σ, vec2, len2] at h
  · norm_num [σ, vec2] at h

/-! ### Cylindrical coordinates -/

private theorem wr_triple {σ : Cells} {a b c : Nat} (hab : a ≠ b) (hac : a ≠ c) (hbc : b ≠ c) (x y z : ℝ) :
    σ.Stores (((σ.wr c z).wr a x).wr b y) [(a, x), (b, y), (c, z)] := by
  constructor
  · simp [Cells.wr, hab, hac.symm, hbc.symm]
  · intro d hd
    simp only [List.mem_cons, List.not_mem_nil, or_false, forall_eq_or_imp, forall_eq] at hd
    simp [Cells.wr, Ne.symm hd.1, Ne.symm hd.2.1, Ne.symm hd.2.2]

private theorem wr_triple' {σ : Cells} {a b c : Nat} (hab : a ≠ b) (hac : a ≠ c) (hbc : b ≠ c) (x y z : ℝ) :
    σ.Stores (((σ.wr b y).wr a x).wr c z) [(a, x), (b, y), (c, z)] := by
  constructor
  · simp [Cells.wr, hab.symm, hac, hbc]
  · intro d hd
    simp only [List.mem_cons, List.not_mem_nil, or_false, forall_eq_or_imp, forall_eq] at hd
    simp [Cells.wr, Ne.symm hd.1, Ne.symm hd.2.1, Ne.symm hd.2.2]

private theorem stores3 {σ σ' : Cells} {a b c : Nat} {x y z : ℝ} (h : σ.Stores σ' [(a, x), (b, y), (c, z)]) :
    σ' a = x ∧ σ' b = y ∧ σ' c = z := by
  simpa using h.1

private theorem bad_axis {axis : Int} (h : ¬ (0 ≤ axis ∧ axis ≤ 2)) (σ : Cells) (v : VAt) (type : LatitudeType)
    (r t p : Nat) (tol : ℝ) :
    cartesianToCylindrical (v.load σ) axis tol = .throw .invalidArgument ∧
    cylindricalInto σ v axis r t p tol = .throw .invalidArgument ∧
    cartesianToSpherical (v.load σ) axis type tol = .throw .invalidArgument ∧
    sphericalInto σ v axis type r t p tol = .throw .invalidArgument := by
  simp only [cartesianToCylindrical, cylindricalInto, cartesianToSpherical, sphericalInto, OutArg.axis_bad h]
  exact ⟨rfl, rfl, rfl, rfl⟩

private theorem bad_size (i : Fin 3) (σ : Cells) {v : VAt} (hv : v.size ≠ 3) (type : LatitudeType)
    (r t p : Nat) (tol : ℝ) :
    ∃ e, cartesianToCylindrical (v.load σ) (i : Nat) tol = .throw e ∧
    cylindricalInto σ v (i : Nat) r t p tol = .throw e ∧
    cartesianToSpherical (v.load σ) (i : Nat) type tol = .throw e ∧
    sphericalInto σ v (i : Nat) type r t p tol = .throw e := by
  have h : (v.load σ).checkSize 3 = .throw (if v.fixed then .staticAssert else .vecSize) :=
    AVec.checkSize_throw hv
  simp only [cartesianToCylindrical, cylindricalInto, cartesianToSpherical, sphericalInto, OutArg.axis_ok, h,
    Res.ok_bind]
  exact ⟨_, rfl, rfl, rfl, rfl⟩

/-- C124: `cartesian_to_cylindrical(v, axis, radius, theta, height)` stores the cylindrical coordinates of `v` and
changes nothing else, if neither `radius` nor `height` is one of the two elements across the axis.  Missing for the
full claim: they may not be, see `cylindricalInPlace_false`. -/
theorem cylindricalInto_partial (σ : Cells) (v : VAt) (axis : Int) (r t h : Nat) (tol : ℝ)
    (hr : ∀ j : Nat, j < 3 → (j : Int) ≠ axis → v.addr j ≠ r) (hh : ∀ j : Nat, j < 3 → (j : Int) ≠ axis → v.addr j ≠ h)
    (hrt : r ≠ t) (hrh : r ≠ h) (hth : t ≠ h) :
    (∀ ρ θ z, cartesianToCylindrical (v.load σ) axis tol = .ok (ρ, θ, z) →
      ∃ σ', cylindricalInto σ v axis r t h tol = .ok σ' ∧ σ.Stores σ' [(r, ρ), (t, θ), (h, z)]) ∧
    (∀ e, cartesianToCylindrical (v.load σ) axis tol = .throw e → cylindricalInto σ v axis r t h tol = .throw e) := by
  by_cases ha : 0 ≤ axis ∧ axis ≤ 2
  swap
  · obtain ⟨h1, h2, -, -⟩ := bad_axis ha σ v .latitude r t h tol
    rw [h1, h2]
    exact ⟨fun _ _ _ h => (by cases h), fun e h => (by cases h; rfl)⟩
  obtain ⟨i, rfl⟩ := OutArg.axis_lt ha
  by_cases hv : v.size = 3
  swap
  · obtain ⟨e, h1, h2, -, -⟩ := bad_size i σ hv .latitude r t h tol
    rw [h1, h2]
    exact ⟨fun _ _ _ h => (by cases h), fun e h => (by cases h; rfl)⟩
  have hne1 : (((i + 1 : Fin 3) : Nat) : Int) ≠ ((i : Nat) : Int) := by fin_cases i <;> decide
  have hne2 : (((i + 2 : Fin 3) : Nat) : Int) ≠ ((i : Nat) : Int) := by fin_cases i <;> decide
  have r1 := hr _ (i + 1).isLt hne1
  have r2 := hr _ (i + 2).isLt hne2
  have h1 := hh _ (i + 1).isLt hne1
  have h2 := hh _ (i + 2).isLt hne2
  rw [cartesianToCylindrical_load σ hv, cylindricalInto_run σ hv]
  refine ⟨?_, fun e h => by simp at h⟩
  rintro ρ θ z hz
  simp only [Res.ok.injEq, Prod.mk.injEq] at hz
  obtain ⟨rfl, rfl, rfl⟩ := hz
  refine ⟨_, rfl, ?_⟩
  simp only [Cells.wr_ne _ _ r1, Cells.wr_ne _ _ r2, Cells.wr_ne _ _ h1, Cells.wr_ne _ _ h2]
  exact wr_triple hrt hrh hth _ _ _

private theorem put_cells (v : VAt) (hd : v.Distinct) (i : Fin 3) (x y z : ℝ) :
    ∃ σ : Cells, σ (v.addr i) = z ∧ σ (v.addr (i + 1 : Fin 3)) = x ∧ σ (v.addr (i + 2 : Fin 3)) = y := by
  obtain ⟨h1, h2, h3⟩ := hd
  refine ⟨((Cells.wr (fun _ => 0) (v.addr i) z).wr (v.addr (i + 1 : Fin 3)) x).wr (v.addr (i + 2 : Fin 3)) y, ?_⟩
  fin_cases i <;> simp [Cells.wr, h1, h2, h3, h1.symm, h2.symm, h3.symm]

private theorem addr_inj {v : VAt} (hd : v.Distinct) {i j : Fin 3} (h : i ≠ j) : v.addr i ≠ v.addr j := by
  obtain ⟨h1, h2, h3⟩ := hd
  fin_cases i <;> fin_cases j <;> simp_all [Ne.symm]

private theorem perm_ne (π : Equiv.Perm (Fin 3)) : π 0 ≠ π 1 ∧ π 0 ≠ π 2 ∧ π 1 ≠ π 2 := by
  refine ⟨?_, ?_, ?_⟩ <;> intro h <;> have := π.injective h <;> simp at this

/-- C124: the three cylindrical coordinates cannot be stored in the three elements of the vector itself: for every
axis, every tolerance and every assignment of the outputs to the elements, some vector gives a wrong result. -/
theorem cylindricalInPlace_false {v : VAt} (hv : v.size = 3) (hd : v.Distinct) (i : Fin 3) (π : Equiv.Perm (Fin 3))
    (tol : ℝ) :
    ∃ (σ : Cells) (ρ θ z : ℝ), cartesianToCylindrical (v.load σ) (i : Nat) tol = .ok (ρ, θ, z) ∧
      ¬ ∃ σ', cylindricalInto σ v (i : Nat) (v.addr (π 0)) (v.addr (π 1)) (v.addr (π 2)) tol = .ok σ' ∧
        σ.Stores σ' [(v.addr (π 0), ρ), (v.addr (π 1), θ), (v.addr (π 2), z)] := by
  obtain ⟨p1, p2, p3⟩ := perm_ne π
  have a01 := addr_inj hd p1
  have a02 := addr_inj hd p2
  have a12 := addr_inj hd p3
  have q1 : i ≠ i + 1 := by fin_cases i <;> decide
  have q2 : i ≠ i + 2 := by fin_cases i <;> decide
  have q3 : i + 1 ≠ i + 2 := by fin_cases i <;> decide
  have b01 := addr_inj hd q1
  have b02 := addr_inj hd q2
  have b12 := addr_inj hd q3
  have cases3 : ∀ j : Fin 3, j = i ∨ j = i + 1 ∨ j = i + 2 := by
    intro j
    fin_cases i <;> fin_cases j <;> decide
  have l1 : len2 1 0 = 1 := by norm_num [len2]
  have l2 : len2 0 1 = 1 := by norm_num [len2]
  have l3 : len2 0 0 = 0 := by norm_num [len2]
  have key : ∀ x y z : ℝ, (∀ σ : Cells, σ (v.addr i) = z → σ (v.addr (i + 1 : Fin 3)) = x →
        σ (v.addr (i + 2 : Fin 3)) = y →
        let σ1 := σ.wr (v.addr (π 2)) z
        let L := len2 (σ1 (v.addr (i + 1 : Fin 3))) (σ1 (v.addr (i + 2 : Fin 3)))
        let σ2 := σ1.wr (v.addr (π 0)) L
        ¬ (L = len2 x y ∧
          (if L < tol then 0 else atan2 (σ2 (v.addr (i + 2 : Fin 3))) (σ2 (v.addr (i + 1 : Fin 3)))) =
            if len2 x y < tol then 0 else atan2 y x)) →
      ∃ (σ : Cells) (ρ θ z : ℝ), cartesianToCylindrical (v.load σ) (i : Nat) tol = .ok (ρ, θ, z) ∧
      ¬ ∃ σ', cylindricalInto σ v (i : Nat) (v.addr (π 0)) (v.addr (π 1)) (v.addr (π 2)) tol = .ok σ' ∧
        σ.Stores σ' [(v.addr (π 0), ρ), (v.addr (π 1), θ), (v.addr (π 2), z)] := by
    intro x y z hk
    obtain ⟨σ, e1, e2, e3⟩ := put_cells v hd i x y z
    refine ⟨σ, _, _, _, cartesianToCylindrical_load σ hv i tol, ?_⟩
    rintro ⟨σ', h1, h2⟩
    rw [cylindricalInto_run σ hv] at h1
    simp only [Res.ok.injEq] at h1
    obtain ⟨f1, f2, -⟩ := stores3 h2
    rw [← h1, Cells.wr_ne _ _ a01, Cells.wr_same, e1, e2, e3] at f1
    rw [← h1, Cells.wr_same, e1, e2, e3] at f2
    exact hk σ e1 e2 e3 ⟨f1, f2⟩
  rcases cases3 (π 2) with h2 | h2 | h2
  · have hs : (0 : ℝ) < |tol| + 1 := by positivity
    have ht : ¬ (|tol| + 1 < tol) := by
      have := le_abs_self tol
      linarith
    have m1 : len2 0 (|tol| + 1) = |tol| + 1 := by
      rw [len2, mul_zero, zero_add, Real.sqrt_mul_self hs.le]
    have m2 : len2 (|tol| + 1) 0 = |tol| + 1 := by
      rw [len2, mul_zero, add_zero, Real.sqrt_mul_self hs.le]
    rcases cases3 (π 0) with h0 | h0 | h0
    · exact absurd (h0.trans h2.symm) p2
    · refine key 0 (|tol| + 1) 0 fun σ e1 e2 e3 => ?_
      rw [h2, h0]
      simp only [Cells.wr_ne _ _ b01.symm, Cells.wr_ne _ _ b02.symm, Cells.wr_same, Cells.wr_ne _ _ b12.symm, e2, e3]
      rintro ⟨-, h⟩
      rw [m1, if_neg ht, if_neg ht] at h
      have := (atan2_len_left 0 (|tol| + 1)).1 (by rw [m1]; exact h)
      exact absurd this.1 hs.ne'
    · refine key (|tol| + 1) 0 0 fun σ e1 e2 e3 => ?_
      rw [h2, h0]
      simp only [Cells.wr_ne _ _ b01.symm, Cells.wr_ne _ _ b02.symm, Cells.wr_same, Cells.wr_ne _ _ b12, e2, e3]
      rintro ⟨-, h⟩
      rw [m2, if_neg ht, if_neg ht] at h
      have := (atan2_len_right (|tol| + 1) 0).1 (by rw [m2]; exact h)
      exact absurd this.1 hs.ne'
  · refine key 1 0 0 fun σ e1 e2 e3 => ?_
    rw [h2]
    simp only [Cells.wr_same, Cells.wr_ne _ _ b12.symm, e3]
    rintro ⟨h, -⟩
    rw [l1, l3] at h
    norm_num at h
  · refine key 0 1 0 fun σ e1 e2 e3 => ?_
    rw [h2]
    simp only [Cells.wr_same, Cells.wr_ne _ _ b12, e2]
    rintro ⟨h, -⟩
    rw [l2, l3] at h
    norm_num at h

example : vec3.size = 3 ∧ vec3.Distinct ∧ (∀ j : Nat, j < 3 → (j : Int) ≠ 2 → vec3.addr j ≠ 3) ∧
    (∀ j : Nat, j < 3 → (j : Int) ≠ 2 → vec3.addr j ≠ vec3.addr 2) ∧ 3 ≠ vec3.addr 1 ∧ 3 ≠ vec3.addr 2 ∧
    vec3.addr 1 ≠ vec3.addr 2 := by
  simp only [VAt.Distinct, vec3]
  refine ⟨trivial, by omega, ?_, ?_, by omega, by omega, by omega⟩ <;> intro j hj hj2 <;> omega

/-! ### Spherical coordinates -/

/-- C124: `cartesian_to_spherical(v, axis, type, radius, theta, phi)` stores the spherical coordinates of `v` and
changes nothing else, if neither `radius` nor `theta` is the element along the axis; `phi` may be any element.  Missing
for the full claim: they may not be, see `sphericalInPlace_iff`. -/
theorem sphericalInto_partial (σ : Cells) (v : VAt) (axis : Int) (type : LatitudeType) (r t p : Nat) (tol : ℝ)
    (hr : v.addr axis.toNat ≠ r) (ht : v.addr axis.toNat ≠ t) (hrt : r ≠ t) (hrp : r ≠ p) (htp : t ≠ p) :
    (∀ ρ θ φ, cartesianToSpherical (v.load σ) axis type tol = .ok (ρ, θ, φ) →
      ∃ σ', sphericalInto σ v axis type r t p tol = .ok σ' ∧ σ.Stores σ' [(r, ρ), (t, θ), (p, φ)]) ∧
    (∀ e, cartesianToSpherical (v.load σ) axis type tol = .throw e →
      sphericalInto σ v axis type r t p tol = .throw e) := by
  by_cases ha : 0 ≤ axis ∧ axis ≤ 2
  swap
  · obtain ⟨-, -, h1, h2⟩ := bad_axis ha σ v type r t p tol
    rw [h1, h2]
    exact ⟨fun _ _ _ h => (by cases h), fun e h => (by cases h; rfl)⟩
  obtain ⟨i, rfl⟩ := OutArg.axis_lt ha
  by_cases hv : v.size = 3
  swap
  · obtain ⟨e, -, -, h1, h2⟩ := bad_size i σ hv type r t p tol
    rw [h1, h2]
    exact ⟨fun _ _ _ h => (by cases h), fun e h => (by cases h; rfl)⟩
  rw [Int.toNat_natCast] at hr ht
  rw [cartesianToSpherical_load σ hv, sphericalInto_run σ hv]
  refine ⟨?_, fun e h => by simp at h⟩
  rintro ρ θ φ hz
  simp only [Res.ok.injEq, Prod.mk.injEq] at hz
  obtain ⟨rfl, rfl, rfl⟩ := hz
  refine ⟨_, rfl, ?_⟩
  simp only [Cells.wr_ne _ _ hr, Cells.wr_ne _ _ ht]
  exact wr_triple' hrt hrp htp _ _ _

/-- C124: the three spherical coordinates can be stored in the three elements of the vector itself exactly if `phi`
goes to the element along the axis.  So `cartesian_to_spherical(v, axis, type, v[0], v[1], v[2])` is right for
`axis == 2` and wrong for the other axes. -/
theorem sphericalInPlace_iff {v : VAt} (hv : v.size = 3) (hd : v.Distinct) (i : Fin 3) (type : LatitudeType)
    (π : Equiv.Perm (Fin 3)) (tol : ℝ) :
    (∀ (σ : Cells) (ρ θ φ : ℝ), cartesianToSpherical (v.load σ) (i : Nat) type tol = .ok (ρ, θ, φ) →
      ∃ σ', sphericalInto σ v (i : Nat) type (v.addr (π 0)) (v.addr (π 1)) (v.addr (π 2)) tol = .ok σ' ∧
        σ.Stores σ' [(v.addr (π 0), ρ), (v.addr (π 1), θ), (v.addr (π 2), φ)]) ↔ π 2 = i := by
  obtain ⟨p1, p2, p3⟩ := perm_ne π
  have a01 := addr_inj hd p1
  have a02 := addr_inj hd p2
  have a12 := addr_inj hd p3
  constructor
  swap
  · intro h2 σ ρ θ φ h
    refine (sphericalInto_partial σ v (i : Nat) type _ _ _ tol ?_ ?_ a01 a02 a12).1 ρ θ φ h
    · rw [Int.toNat_natCast]
      exact addr_inj hd (h2 ▸ p2.symm)
    · rw [Int.toNat_natCast]
      exact addr_inj hd (h2 ▸ p3.symm)
  · intro hall
    by_contra h2
    have hs : (0 : ℝ) < |tol| + 1 := by positivity
    have ht : ¬ (|tol| + 1 < tol) := by
      have := le_abs_self tol
      linarith
    have l3 : len2 0 0 = 0 := by norm_num [len2]
    have m2 : len2 (|tol| + 1) 0 = |tol| + 1 := by
      rw [len2, mul_zero, add_zero, Real.sqrt_mul_self hs.le]
    have m3 : len2 (-(|tol| + 1)) 0 = |tol| + 1 := by
      rw [len2, mul_zero, add_zero, neg_mul_neg, Real.sqrt_mul_self hs.le]
    have z2 : atan2 0 0 = 0 := by
      have : (⟨0, 0⟩ : ℂ) = 0 := rfl
      simp [atan2, this]
    have c0 : π 0 = i ∨ π 1 = i := by
      obtain ⟨j, hj⟩ := π.surjective i
      fin_cases j
      · exact Or.inl hj
      · exact Or.inr hj
      · exact absurd hj h2
    rcases c0 with h0 | h1
    · obtain ⟨σ, e1, e2, e3⟩ := put_cells v hd i 0 0 (-(|tol| + 1))
      obtain ⟨σ', f1, f2⟩ := hall σ _ _ _ (cartesianToSpherical_load σ hv i type tol)
      rw [sphericalInto_run σ hv] at f1
      simp only [Res.ok.injEq] at f1
      have g := (stores3 f2).2.2
      have hi1 : v.addr i ≠ v.addr (π 1) := h0 ▸ a01
      rw [← f1, Cells.wr_same, h0, e1, e2, e3, Cells.wr_same] at g
      simp only [Cells.wr_ne _ _ hi1, e1, l3, m3, sphPhi, if_neg ht] at g
      have e : atan2 0 (|tol| + 1) = 0 := Complex.arg_ofReal_of_nonneg hs.le
      have e' : atan2 0 (-(|tol| + 1)) = Real.pi := Complex.arg_ofReal_of_neg (by linarith)
      rw [e, e'] at g
      have hp := Real.pi_pos
      split at g <;> linarith
    · obtain ⟨σ, e1, e2, e3⟩ := put_cells v hd i 0 0 (|tol| + 1)
      obtain ⟨σ', f1, f2⟩ := hall σ _ _ _ (cartesianToSpherical_load σ hv i type tol)
      rw [sphericalInto_run σ hv] at f1
      simp only [Res.ok.injEq] at f1
      have g := (stores3 f2).1
      rw [← f1, Cells.wr_ne _ _ a02, Cells.wr_same, h1, e1, e2, e3, Cells.wr_same, z2, ite_self, l3, m2] at g
      linarith

example : (Equiv.refl (Fin 3)) 2 = (2 : Fin 3) ∧ (Equiv.refl (Fin 3)) 2 ≠ (0 : Fin 3) := by decide

end CML

#print axioms CML.polarInto_partial
#print axioms CML.polarInPlace_iff
#print axioms CML.polarInPlace_swapped_iff
#print axioms CML.polarInPlace_false
#print axioms CML.cylindricalInto_partial
#print axioms CML.cylindricalInPlace_false
#print axioms CML.sphericalInto_partial
#print axioms CML.sphericalInPlace_iff
