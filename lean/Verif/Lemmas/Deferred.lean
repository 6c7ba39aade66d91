import Verif.Spec.Deferred
import Verif.Lemmas.ExprBuild

/-! Expression objects that are evaluated after the variables have changed. -/

namespace CML

set_option linter.unusedSectionVars false

variable {E : Type} [Add E] [Sub E] [Mul E] [Div E] [Neg E]

theorem Res.bind_eq_ok {α β : Type} {x : Res α} {f : α → Res β} {b : β} :
    (x >>= f) = .ok b ↔ ∃ a, x = .ok a ∧ f a = .ok b := by
  cases x with
  | ok a => simp
  | throw e => exact ⟨fun h => (nomatch h), fun ⟨_, h, _⟩ => (nomatch h)⟩
  | ub u => exact ⟨fun h => (nomatch h), fun ⟨_, h, _⟩ => (nomatch h)⟩

theorem VVal.ext_n {n : Nat} {p : VVal E} (h : p.n = n) (g : Fin n → E) (hg : ∀ i, p.f i = g (i.cast h)) :
    p = ⟨n, g⟩ := by
  obtain ⟨m, f⟩ := p
  simp only at h
  subst h
  simp only [VVal.mk.injEq, heq_eq_eq, true_and]
  funext i
  exact hg i

theorem VVal.lit_den (ρ : Env E) (p : VVal E) : p.lit.den ρ = some p := by
  simp only [VVal.lit, VExpr.den, Option.some.injEq]
  exact VVal.ext_n (by simp) _ (fun i => by simp; rfl)

theorem MVal.lit_den (ρ : Env E) (p : MVal E) : p.lit.den ρ = some p := by
  obtain ⟨r, c, f⟩ := p
  simp only [MVal.lit, MExpr.den]
  rw [dif_pos (by simp)]
  simp only [Option.some.injEq, MVal.mk.injEq, heq_eq_eq, true_and]
  funext i j
  have e : ∀ k : Fin (r * c), k = finProdFinEquiv (i, j) →
      f (finProdFinEquiv.symm k).1 (finProdFinEquiv.symm k).2 = f i j := by
    rintro k rfl
    simp
  simp only [List.getElem_ofFn, Fin.getElem_fin]
  exact e _ (by simp [Fin.ext_iff])

theorem VRep.temp_indep {s s' : State E} {f : Bool} {xs : List E} {p : VVal E} (h : VRep s (.temp f xs) p) :
    VRep s' (.temp f xs) p := ⟨h.size, h.get⟩

theorem MRep.temp_indep {s s' : State E} {t : MTemp E} {p : MVal E} (h : MRep s (.temp t) p) :
    MRep s' (.temp t) p := ⟨h.dims, h.get⟩

mutual
/-- The value of the object at the time of the evaluation. -/
theorem VExpr.build_later {s s' : State E} {ρ ρ' : Env E} (hA : Agree s ρ) (hA' : Agree s' ρ') :
    ∀ e : VExpr E, e.Supported s → ∀ p, e.den ρ = some p → ∀ x, e.build s = .ok x →
    ∀ p', (e.freeze ρ).den ρ' = some p' → VRep s' x p'
  | .var x, _, _, _, y, hb, p', h' => by
    simp only [VExpr.build, Res.pure_eq, Res.ok.injEq] at hb
    subst hb
    exact hA'.v x p' h'
  | .temp f xs, _, _, _, y, hb, p', h' => by
    simp only [VExpr.build, Res.pure_eq, Res.ok.injEq] at hb
    subst hb
    simp only [VExpr.freeze, VExpr.den, Option.some.injEq] at h'
    subst h'
    exact VRep.temp xs
  | .bin o a b, hs, r, h, z, hb, p', h' => by
    simp only [VExpr.Supported] at hs
    simp only [VExpr.den] at h
    simp only [VExpr.freeze, VExpr.den] at h'
    split at h
    next p q hpa hpb =>
      split at h'
      next p2 q2 hpa' hpb' =>
        split at h'
        next hn =>
          simp only [Option.some.injEq] at h'
          subst h'
          simp only [VExpr.build, Res.bind_eq_ok] at hb
          obtain ⟨x, hx, y, hy, -, -, hz⟩ := hb
          simp only [Res.pure_eq, Res.ok.injEq] at hz
          subst hz
          have r1 := VExpr.build_later hA hA' a hs.1 p hpa x hx p2 hpa'
          have r2 := VExpr.build_later hA hA' b hs.2 q hpb y hy q2 hpb'
          refine ⟨by simp [VNode.size, r1.size], fun i => ?_⟩
          have e2 := r2.get (i.cast hn)
          simp only [Fin.val_cast] at e2
          simp [VNode.get, r1.get i, e2]
        next => cases h'
      next => cases h'
    next => cases h
  | .scal o a c, hs, r, h, z, hb, p', h' => by
    simp only [VExpr.Supported] at hs
    simp only [VExpr.den] at h
    simp only [VExpr.freeze, VExpr.den] at h'
    split at h
    next p hpa =>
      split at h'
      next p2 hpa' =>
        simp only [Option.some.injEq] at h'
        subst h'
        simp only [VExpr.build, Res.bind_eq_ok] at hb
        obtain ⟨x, hx, hz⟩ := hb
        simp only [Res.pure_eq, Res.ok.injEq] at hz
        subst hz
        have r1 := VExpr.build_later hA hA' a hs p hpa x hx p2 hpa'
        exact ⟨by simp [VNode.size, r1.size], fun i => by simp [VNode.get, r1.get i]⟩
      next => cases h'
    next => cases h
  | .neg a, hs, r, h, z, hb, p', h' => by
    simp only [VExpr.Supported] at hs
    simp only [VExpr.den] at h
    simp only [VExpr.freeze, VExpr.den] at h'
    split at h
    next p hpa =>
      split at h'
      next p2 hpa' =>
        simp only [Option.some.injEq] at h'
        subst h'
        simp only [VExpr.build, Res.bind_eq_ok] at hb
        obtain ⟨x, hx, hz⟩ := hb
        simp only [Res.pure_eq, Res.ok.injEq] at hz
        subst hz
        have r1 := VExpr.build_later hA hA' a hs p hpa x hx p2 hpa'
        exact ⟨by simp [VNode.size, r1.size], fun i => by simp [VNode.get, r1.get i]⟩
      next => cases h'
    next => cases h
  | .cross a b, hs, r, h, z, hb, p', h' => by
    simp only [VExpr.Supported] at hs
    simp only [VExpr.den] at h
    simp only [VExpr.freeze, VExpr.den] at h'
    split at h
    next p q hpa hpb =>
      split at h'
      next p2 q2 hpa' hpb' =>
        simp only [Option.some.injEq] at h'
        subst h'
        simp only [VExpr.build, Res.bind_eq_ok] at hb
        obtain ⟨x, hx, y, hy, -, -, -, -, -, -, -, -, -, -, -, -, hz⟩ := hb
        simp only [Res.pure_eq, Res.ok.injEq] at hz
        subst hz
        have r1 := VExpr.build_later hA hA' a hs.1 _ hpa x hx _ hpa'
        have r2 := VExpr.build_later hA hA' b hs.2.1 _ hpb y hy _ hpb'
        refine ⟨rfl, ?_⟩
        have a0 := r1.get (0 : Fin 3)
        have a1 := r1.get (1 : Fin 3)
        have a2 := r1.get (2 : Fin 3)
        have b0 := r2.get (0 : Fin 3)
        have b1 := r2.get (1 : Fin 3)
        have b2 := r2.get (2 : Fin 3)
        simp only [Fin.val_zero, Fin.val_one, Fin.val_two] at a0 a1 a2 b0 b1 b2
        intro i
        simp only at i
        fin_cases i <;> simp [VNode.get, a0, a1, a2, b0, b1, b2]
      next => cases h'
    next => cases h
  | .sub a k, hs, r, h, z, hb, p', h' => by
    simp only [VExpr.Supported] at hs
    simp only [VExpr.den] at h
    simp only [VExpr.freeze, VExpr.den] at h'
    split at h
    next n p hpa =>
      split at h'
      next n2 p2 hpa' =>
        split at h'
        next hk =>
          simp only [Option.some.injEq] at h'
          subst h'
          simp only [VExpr.build, Res.bind_eq_ok] at hb
          obtain ⟨x, hx, hz⟩ := hb
          simp only [Res.pure_eq, Res.ok.injEq] at hz
          subst hz
          have r1 := VExpr.build_later hA hA' a hs.1 _ hpa x hx _ hpa'
          refine ⟨by simp [VNode.size, r1.size], ?_⟩
          intro i
          have := r1.get ((⟨k.toNat, hk.2⟩ : Fin (n2 + 1)).succAbove i)
          simp only at this i
          simp only [VNode.get, ← this]
          congr 1
          by_cases hik : i.1 < k.toNat
          · rw [if_pos (by omega), Fin.succAbove_of_castSucc_lt _ _ (by simpa [Fin.lt_def] using hik)]
            simp
          · rw [if_neg (by omega), Fin.succAbove_of_le_castSucc _ _ (by simp [Fin.le_def]; omega)]
            simp
        next => cases h'
      next => cases h'
    next => cases h
  | .row m i, hs, r, h, z, hb, p', h' => by
    simp only [VExpr.Supported] at hs
    simp only [VExpr.den] at h
    simp only [VExpr.freeze, VExpr.den] at h'
    split at h
    next p hpa =>
      split at h'
      next p2 hpa' =>
        split at h'
        next hi =>
          simp only [Option.some.injEq] at h'
          subst h'
          simp only [VExpr.build, Res.bind_eq_ok] at hb
          obtain ⟨x, hx, -, -, hz⟩ := hb
          simp only [Res.pure_eq, Res.ok.injEq] at hz
          subst hz
          have r1 := MExpr.build_later hA hA' m hs _ hpa x hx _ hpa'
          exact ⟨by simp [VNode.size, r1.dims], fun j => r1.get ⟨i.toNat, hi.2⟩ j⟩
        next => cases h'
      next => cases h'
    next => cases h
  | .col m i, hs, r, h, z, hb, p', h' => by
    simp only [VExpr.Supported] at hs
    simp only [VExpr.den] at h
    simp only [VExpr.freeze, VExpr.den] at h'
    split at h
    next p hpa =>
      split at h'
      next p2 hpa' =>
        split at h'
        next hi =>
          simp only [Option.some.injEq] at h'
          subst h'
          simp only [VExpr.build, Res.bind_eq_ok] at hb
          obtain ⟨x, hx, -, -, hz⟩ := hb
          simp only [Res.pure_eq, Res.ok.injEq] at hz
          subst hz
          have r1 := MExpr.build_later hA hA' m hs _ hpa x hx _ hpa'
          exact ⟨by simp [VNode.size, r1.dims], fun j => r1.get j ⟨i.toNat, hi.2⟩⟩
        next => cases h'
      next => cases h'
    next => cases h
  | .mulMV m v, hs, r, h, z, hb, p', h' => by
    simp only [VExpr.freeze, h, VVal.lit_den, Option.some.injEq] at h'
    subst h'
    obtain ⟨x, hx, hr, -⟩ := VExpr.build_ok hA _ hs r h
    rw [hb, Res.ok.injEq] at hx
    subst hx
    simp only [VExpr.build, Res.bind_eq_ok] at hb
    obtain ⟨-, -, -, -, t, -, hz⟩ := hb
    simp only [Res.pure_eq, Res.ok.injEq] at hz
    subst hz
    exact hr.temp_indep
  | .mulVM v m, hs, r, h, z, hb, p', h' => by
    simp only [VExpr.freeze, h, VVal.lit_den, Option.some.injEq] at h'
    subst h'
    obtain ⟨x, hx, hr, -⟩ := VExpr.build_ok hA _ hs r h
    rw [hb, Res.ok.injEq] at hx
    subst hx
    simp only [VExpr.build, Res.bind_eq_ok] at hb
    obtain ⟨-, -, -, -, t, -, hz⟩ := hb
    simp only [Res.pure_eq, Res.ok.injEq] at hz
    subst hz
    exact hr.temp_indep
@[inherit_doc VExpr.build_later]
theorem MExpr.build_later {s s' : State E} {ρ ρ' : Env E} (hA : Agree s ρ) (hA' : Agree s' ρ') :
    ∀ e : MExpr E, e.Supported s → ∀ p, e.den ρ = some p → ∀ x, e.build s = .ok x →
    ∀ p', (e.freeze ρ).den ρ' = some p' → MRep s' x p'
  | .var x, _, _, _, y, hb, p', h' => by
    simp only [MExpr.build, Res.pure_eq, Res.ok.injEq] at hb
    subst hb
    exact hA'.m x p' h'
  | .temp t, hs, p, h, y, hb, p', h' => by
    obtain ⟨x, hx, hr, -⟩ := MExpr.build_ok hA _ hs p h
    rw [hb, Res.ok.injEq] at hx
    subst hx
    have h2 : (MExpr.temp t).den ρ = some p' := h'
    rw [h, Option.some.injEq] at h2
    subst h2
    simp only [MExpr.build, Res.pure_eq, Res.ok.injEq] at hb
    subst hb
    exact hr.temp_indep
  | .bin o a b, hs, r, h, z, hb, p', h' => by
    simp only [MExpr.Supported] at hs
    simp only [MExpr.den] at h
    simp only [MExpr.freeze, MExpr.den] at h'
    split at h
    next p q hpa hpb =>
      split at h'
      next p2 q2 hpa' hpb' =>
        split at h'
        next hn =>
          simp only [Option.some.injEq] at h'
          subst h'
          simp only [MExpr.build, Res.bind_eq_ok] at hb
          obtain ⟨x, hx, y, hy, -, -, hz⟩ := hb
          simp only [Res.pure_eq, Res.ok.injEq] at hz
          subst hz
          have r1 := MExpr.build_later hA hA' a hs.1 p hpa x hx p2 hpa'
          have r2 := MExpr.build_later hA hA' b hs.2.1 q hpb y hy q2 hpb'
          refine ⟨by simp [MNode.dims, r1.dims], fun i j => ?_⟩
          have e2 := r2.get (i.cast hn.1) (j.cast hn.2)
          simp only [Fin.val_cast] at e2
          simp [MNode.get, r1.get i j, e2]
        next => cases h'
      next => cases h'
    next => cases h
  | .scal o a c, hs, r, h, z, hb, p', h' => by
    simp only [MExpr.Supported] at hs
    simp only [MExpr.den] at h
    simp only [MExpr.freeze, MExpr.den] at h'
    split at h
    next p hpa =>
      split at h'
      next p2 hpa' =>
        simp only [Option.some.injEq] at h'
        subst h'
        simp only [MExpr.build, Res.bind_eq_ok] at hb
        obtain ⟨x, hx, hz⟩ := hb
        simp only [Res.pure_eq, Res.ok.injEq] at hz
        subst hz
        have r1 := MExpr.build_later hA hA' a hs p hpa x hx p2 hpa'
        exact ⟨by simp [MNode.dims, r1.dims], fun i j => by simp [MNode.get, r1.get i j]⟩
      next => cases h'
    next => cases h
  | .neg a, hs, r, h, z, hb, p', h' => by
    simp only [MExpr.Supported] at hs
    simp only [MExpr.den] at h
    simp only [MExpr.freeze, MExpr.den] at h'
    split at h
    next p hpa =>
      split at h'
      next p2 hpa' =>
        simp only [Option.some.injEq] at h'
        subst h'
        simp only [MExpr.build, Res.bind_eq_ok] at hb
        obtain ⟨x, hx, hz⟩ := hb
        simp only [Res.pure_eq, Res.ok.injEq] at hz
        subst hz
        have r1 := MExpr.build_later hA hA' a hs p hpa x hx p2 hpa'
        exact ⟨by simp [MNode.dims, r1.dims], fun i j => by simp [MNode.get, r1.get i j]⟩
      next => cases h'
    next => cases h
  | .transpose a, hs, r, h, z, hb, p', h' => by
    simp only [MExpr.Supported] at hs
    simp only [MExpr.den] at h
    simp only [MExpr.freeze, MExpr.den] at h'
    split at h
    next p hpa =>
      split at h'
      next p2 hpa' =>
        simp only [Option.some.injEq] at h'
        subst h'
        simp only [MExpr.build, Res.bind_eq_ok] at hb
        obtain ⟨x, hx, hz⟩ := hb
        simp only [Res.pure_eq, Res.ok.injEq] at hz
        subst hz
        have r1 := MExpr.build_later hA hA' a hs p hpa x hx p2 hpa'
        exact ⟨by simp [MNode.dims, r1.dims], fun i j => by simp [MNode.get, r1.get j i]⟩
      next => cases h'
    next => cases h
  | .outer a b, hs, r, h, z, hb, p', h' => by
    simp only [MExpr.Supported] at hs
    simp only [MExpr.den] at h
    simp only [MExpr.freeze, MExpr.den] at h'
    split at h
    next p q hpa hpb =>
      split at h'
      next p2 q2 hpa' hpb' =>
        simp only [Option.some.injEq] at h'
        subst h'
        simp only [MExpr.build, Res.bind_eq_ok] at hb
        obtain ⟨x, hx, y, hy, hz⟩ := hb
        simp only [Res.pure_eq, Res.ok.injEq] at hz
        subst hz
        have r1 := VExpr.build_later hA hA' a hs.1 p hpa x hx p2 hpa'
        have r2 := VExpr.build_later hA hA' b hs.2.1 q hpb y hy q2 hpb'
        exact ⟨by simp [MNode.dims, r1.size, r2.size], fun i j => by simp [MNode.get, r1.get i, r2.get j]⟩
      next => cases h'
    next => cases h
  | .mul a b, hs, r, h, z, hb, p', h' => by
    simp only [MExpr.freeze, h, MVal.lit_den, Option.some.injEq] at h'
    subst h'
    obtain ⟨x, hx, hr, -⟩ := MExpr.build_ok hA _ hs r h
    rw [hb, Res.ok.injEq] at hx
    subst hx
    simp only [MExpr.build, Res.bind_eq_ok] at hb
    obtain ⟨-, -, -, -, t, -, hz⟩ := hb
    simp only [Res.pure_eq, Res.ok.injEq] at hz
    subst hz
    exact hr.temp_indep
end

mutual
/-- If the variables have kept their sizes, the object has a value of the size it was built with. -/
theorem VExpr.freeze_shape {ρ ρ' : Env E} : ∀ (e : VExpr E) (p : VVal E),
    e.Leaves (VStays ρ ρ') (MStays ρ ρ') → e.den ρ = some p → ∃ p', (e.freeze ρ).den ρ' = some p' ∧ p'.n = p.n
  | .var x, p, hS, h => hS p h
  | .temp f xs, p, hS, h => ⟨p, h, rfl⟩
  | .bin o a b, r, hS, h => by
    simp only [VExpr.den] at h
    split at h
    next p q hpa hpb =>
      split at h
      next hn =>
        simp only [Option.some.injEq] at h
        subst h
        obtain ⟨p2, e1, n1⟩ := VExpr.freeze_shape a p hS.1 hpa
        obtain ⟨q2, e2, n2⟩ := VExpr.freeze_shape b q hS.2 hpb
        have hn' : p2.n = q2.n := by omega
        simp only [VExpr.freeze, VExpr.den, e1, e2, dif_pos hn']
        exact ⟨_, rfl, n1⟩
      next => cases h
    next => cases h
  | .scal o a c, r, hS, h => by
    simp only [VExpr.den] at h
    split at h
    next p hpa =>
      simp only [Option.some.injEq] at h
      subst h
      obtain ⟨p2, e1, n1⟩ := VExpr.freeze_shape a p hS hpa
      simp only [VExpr.freeze, VExpr.den, e1]
      exact ⟨_, rfl, n1⟩
    next => cases h
  | .neg a, r, hS, h => by
    simp only [VExpr.den] at h
    split at h
    next p hpa =>
      simp only [Option.some.injEq] at h
      subst h
      obtain ⟨p2, e1, n1⟩ := VExpr.freeze_shape a p hS hpa
      simp only [VExpr.freeze, VExpr.den, e1]
      exact ⟨_, rfl, n1⟩
    next => cases h
  | .cross a b, r, hS, h => by
    simp only [VExpr.den] at h
    split at h
    next p q hpa hpb =>
      simp only [Option.some.injEq] at h
      subst h
      obtain ⟨⟨k, p2⟩, e1, n1⟩ := VExpr.freeze_shape a _ hS.1 hpa
      obtain ⟨⟨k', q2⟩, e2, n2⟩ := VExpr.freeze_shape b _ hS.2 hpb
      simp only at n1 n2
      subst n1 n2
      simp only [VExpr.freeze, VExpr.den, e1, e2]
      exact ⟨_, rfl, rfl⟩
    next => cases h
  | .sub a k, r, hS, h => by
    simp only [VExpr.den] at h
    split at h
    next n p hpa =>
      split at h
      next hk =>
        simp only [Option.some.injEq] at h
        subst h
        obtain ⟨⟨l, p2⟩, e1, n1⟩ := VExpr.freeze_shape a _ hS hpa
        simp only at n1
        subst n1
        simp only [VExpr.freeze, VExpr.den, e1, dif_pos hk]
        exact ⟨_, rfl, rfl⟩
      next => cases h
    next => cases h
  | .row m i, r, hS, h => by
    simp only [VExpr.den] at h
    split at h
    next p hpa =>
      split at h
      next hi =>
        simp only [Option.some.injEq] at h
        subst h
        obtain ⟨p2, e1, n1, n2⟩ := MExpr.freeze_shape m p hS hpa
        have hi' : 0 ≤ i ∧ i.toNat < p2.r := by rw [n1]; exact hi
        simp only [VExpr.freeze, VExpr.den, e1, dif_pos hi']
        exact ⟨_, rfl, n2⟩
      next => cases h
    next => cases h
  | .col m i, r, hS, h => by
    simp only [VExpr.den] at h
    split at h
    next p hpa =>
      split at h
      next hi =>
        simp only [Option.some.injEq] at h
        subst h
        obtain ⟨p2, e1, n1, n2⟩ := MExpr.freeze_shape m p hS hpa
        have hi' : 0 ≤ i ∧ i.toNat < p2.c := by rw [n2]; exact hi
        simp only [VExpr.freeze, VExpr.den, e1, dif_pos hi']
        exact ⟨_, rfl, n1⟩
      next => cases h
    next => cases h
  | .mulMV m v, p, hS, h => ⟨p, by simp only [VExpr.freeze, h, VVal.lit_den], rfl⟩
  | .mulVM v m, p, hS, h => ⟨p, by simp only [VExpr.freeze, h, VVal.lit_den], rfl⟩
@[inherit_doc VExpr.freeze_shape]
theorem MExpr.freeze_shape {ρ ρ' : Env E} : ∀ (e : MExpr E) (p : MVal E),
    e.Leaves (VStays ρ ρ') (MStays ρ ρ') → e.den ρ = some p → ∃ p', (e.freeze ρ).den ρ' = some p' ∧ p'.r = p.r ∧ p'.c = p.c
  | .var x, p, hS, h => hS p h
  | .temp t, p, hS, h => ⟨p, h, rfl, rfl⟩
  | .bin o a b, r, hS, h => by
    simp only [MExpr.den] at h
    split at h
    next p q hpa hpb =>
      split at h
      next hn =>
        simp only [Option.some.injEq] at h
        subst h
        obtain ⟨p2, e1, n1, m1⟩ := MExpr.freeze_shape a p hS.1 hpa
        obtain ⟨q2, e2, n2, m2⟩ := MExpr.freeze_shape b q hS.2 hpb
        have hn' : p2.r = q2.r ∧ p2.c = q2.c := by omega
        simp only [MExpr.freeze, MExpr.den, e1, e2, dif_pos hn']
        exact ⟨_, rfl, n1, m1⟩
      next => cases h
    next => cases h
  | .scal o a c, r, hS, h => by
    simp only [MExpr.den] at h
    split at h
    next p hpa =>
      simp only [Option.some.injEq] at h
      subst h
      obtain ⟨p2, e1, n1⟩ := MExpr.freeze_shape a p hS hpa
      simp only [MExpr.freeze, MExpr.den, e1]
      exact ⟨_, rfl, n1⟩
    next => cases h
  | .neg a, r, hS, h => by
    simp only [MExpr.den] at h
    split at h
    next p hpa =>
      simp only [Option.some.injEq] at h
      subst h
      obtain ⟨p2, e1, n1⟩ := MExpr.freeze_shape a p hS hpa
      simp only [MExpr.freeze, MExpr.den, e1]
      exact ⟨_, rfl, n1⟩
    next => cases h
  | .transpose a, r, hS, h => by
    simp only [MExpr.den] at h
    split at h
    next p hpa =>
      simp only [Option.some.injEq] at h
      subst h
      obtain ⟨p2, e1, n1, n2⟩ := MExpr.freeze_shape a p hS hpa
      simp only [MExpr.freeze, MExpr.den, e1]
      exact ⟨_, rfl, n2, n1⟩
    next => cases h
  | .outer a b, r, hS, h => by
    simp only [MExpr.den] at h
    split at h
    next p q hpa hpb =>
      simp only [Option.some.injEq] at h
      subst h
      obtain ⟨p2, e1, n1⟩ := VExpr.freeze_shape a p hS.1 hpa
      obtain ⟨q2, e2, n2⟩ := VExpr.freeze_shape b q hS.2 hpb
      simp only [MExpr.freeze, MExpr.den, e1, e2]
      exact ⟨_, rfl, n1, n2⟩
    next => cases h
  | .mul a b, p, hS, h => ⟨p, by simp only [MExpr.freeze, h, MVal.lit_den], rfl, rfl⟩
end

mutual
theorem VExpr.freeze_lazy (ρ : Env E) : ∀ e : VExpr E, e.Lazy → e.freeze ρ = e
  | .var _, _ => rfl
  | .temp _ _, _ => rfl
  | .bin o a b, h => by simp only [VExpr.freeze, VExpr.freeze_lazy ρ a h.1, VExpr.freeze_lazy ρ b h.2]
  | .scal o a c, h => by simp only [VExpr.freeze, VExpr.freeze_lazy ρ a h]
  | .neg a, h => by simp only [VExpr.freeze, VExpr.freeze_lazy ρ a h]
  | .cross a b, h => by simp only [VExpr.freeze, VExpr.freeze_lazy ρ a h.1, VExpr.freeze_lazy ρ b h.2]
  | .sub a k, h => by simp only [VExpr.freeze, VExpr.freeze_lazy ρ a h]
  | .row m i, h => by simp only [VExpr.freeze, MExpr.freeze_lazy ρ m h]
  | .col m i, h => by simp only [VExpr.freeze, MExpr.freeze_lazy ρ m h]
  | .mulMV _ _, h => h.elim
  | .mulVM _ _, h => h.elim
theorem MExpr.freeze_lazy (ρ : Env E) : ∀ e : MExpr E, e.Lazy → e.freeze ρ = e
  | .var _, _ => rfl
  | .temp _, _ => rfl
  | .bin o a b, h => by simp only [MExpr.freeze, MExpr.freeze_lazy ρ a h.1, MExpr.freeze_lazy ρ b h.2]
  | .scal o a c, h => by simp only [MExpr.freeze, MExpr.freeze_lazy ρ a h]
  | .neg a, h => by simp only [MExpr.freeze, MExpr.freeze_lazy ρ a h]
  | .transpose a, h => by simp only [MExpr.freeze, MExpr.freeze_lazy ρ a h]
  | .outer a b, h => by simp only [MExpr.freeze, VExpr.freeze_lazy ρ a h.1, VExpr.freeze_lazy ρ b h.2]
  | .mul _ _, h => h.elim
end

end CML
