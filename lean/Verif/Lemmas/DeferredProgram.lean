import Verif.Lemmas.Deferred
import Verif.Lemmas.Program

/-! Stored expression objects in programs over dynamic vectors and matrices. -/

namespace CML

set_option linter.unusedSectionVars false

variable {E : Type} [Add E] [Sub E] [Mul E] [Div E] [Neg E]

mutual
theorem VExpr.freeze_anchored (ρ : Env E) : ∀ e : VExpr E, e.Anchored → (e.freeze ρ).Anchored
  | .var _, _ => trivial
  | .temp _ _, h => h.elim
  | .bin _ a _, h => VExpr.freeze_anchored ρ a h
  | .scal _ a _, h => VExpr.freeze_anchored ρ a h
  | .neg a, h => VExpr.freeze_anchored ρ a h
  | .cross _ _, _ => trivial
  | .sub a _, h => VExpr.freeze_anchored ρ a h
  | .row m _, h => MExpr.freeze_anchored ρ m h
  | .col m _, h => MExpr.freeze_anchored ρ m h
  | .mulMV _ _, h => h.elim
  | .mulVM _ _, h => h.elim
theorem MExpr.freeze_anchored (ρ : Env E) : ∀ e : MExpr E, e.Anchored → (e.freeze ρ).Anchored
  | .var _, _ => trivial
  | .temp _, h => h.elim
  | .bin _ a _, h => MExpr.freeze_anchored ρ a h
  | .scal _ a _, h => MExpr.freeze_anchored ρ a h
  | .neg a, h => MExpr.freeze_anchored ρ a h
  | .transpose a, h => MExpr.freeze_anchored ρ a h
  | .outer a b, h => ⟨VExpr.freeze_anchored ρ a h.1, VExpr.freeze_anchored ρ b h.2⟩
  | .mul _ _, h => h.elim
end

mutual
theorem VExpr.freeze_dyn (ρ : Env E) : ∀ e : VExpr E, e.Dyn → (e.freeze ρ).Dyn
  | .var _, _ => trivial
  | .temp _ _, h => h
  | .bin _ a b, h => ⟨VExpr.freeze_dyn ρ a h.1, VExpr.freeze_dyn ρ b h.2⟩
  | .scal _ a _, h => VExpr.freeze_dyn ρ a h
  | .neg a, h => VExpr.freeze_dyn ρ a h
  | .cross a b, h => ⟨⟨VExpr.freeze_dyn ρ a h.1.1, VExpr.freeze_anchored ρ a h.1.2⟩,
      VExpr.freeze_dyn ρ b h.2.1, VExpr.freeze_anchored ρ b h.2.2⟩
  | .sub a _, h => VExpr.freeze_dyn ρ a h
  | .row m _, h => MExpr.freeze_dyn ρ m h
  | .col m _, h => MExpr.freeze_dyn ρ m h
  | .mulMV m v, h => by
    simp only [VExpr.freeze]
    split
    · exact rfl
    · exact h
  | .mulVM v m, h => by
    simp only [VExpr.freeze]
    split
    · exact rfl
    · exact h
theorem MExpr.freeze_dyn (ρ : Env E) : ∀ e : MExpr E, e.Dyn → (e.freeze ρ).Dyn
  | .var _, _ => trivial
  | .temp _, h => h
  | .bin _ a b, h => ⟨MExpr.freeze_dyn ρ a h.1, MExpr.freeze_dyn ρ b h.2⟩
  | .scal _ a _, h => MExpr.freeze_dyn ρ a h
  | .neg a, h => MExpr.freeze_dyn ρ a h
  | .transpose a, h => MExpr.freeze_dyn ρ a h
  | .outer a b, h => ⟨VExpr.freeze_dyn ρ a h.1, VExpr.freeze_dyn ρ b h.2⟩
  | .mul a b, h => by
    simp only [MExpr.freeze]
    split
    · exact rfl
    · exact h
end

mutual
/-- An expression that has a value obeys the usage rules, once the products have been computed. -/
theorem VExpr.freeze_pre {ρ ρ' : Env E} : ∀ e : VExpr E, e.Leaves (VStays ρ ρ') (MStays ρ ρ') → e.Pre ρ →
    (e.den ρ).isSome → (e.freeze ρ).Pre ρ'
  | .var x, hS, _, h => by
    obtain ⟨p, hp⟩ := Option.isSome_iff_exists.1 h
    obtain ⟨p', h', -⟩ := hS p hp
    simp [VExpr.freeze, VExpr.Pre, h']
  | .temp _ _, _, _, _ => trivial
  | .bin o a b, hS, hp, h => by
    simp only [VExpr.den] at h
    split at h
    next p q ha hb =>
      exact ⟨VExpr.freeze_pre a hS.1 hp.1 (by simp [ha]), VExpr.freeze_pre b hS.2 hp.2 (by simp [hb])⟩
    next => cases h
  | .scal o a c, hS, hp, h => by
    simp only [VExpr.den] at h
    split at h
    next p ha => exact VExpr.freeze_pre a hS hp (by simp [ha])
    next => cases h
  | .neg a, hS, hp, h => by
    simp only [VExpr.den] at h
    split at h
    next p ha => exact VExpr.freeze_pre a hS hp (by simp [ha])
    next => cases h
  | .cross a b, hS, hp, h => by
    simp only [VExpr.den] at h
    split at h
    next p q ha hb =>
      exact ⟨VExpr.freeze_pre a hS.1 hp.1 (by simp [ha]), VExpr.freeze_pre b hS.2 hp.2 (by simp [hb])⟩
    next => cases h
  | .sub a k, hS, hp, h => by
    simp only [VExpr.den] at h
    split at h
    next n p ha =>
      refine ⟨VExpr.freeze_pre a hS hp.1 (by simp [ha]), fun p' hp' => ?_⟩
      obtain ⟨p2, e1, e2⟩ := VExpr.freeze_shape a _ hS ha
      rw [hp', Option.some.injEq] at e1
      rw [e1, e2]
      exact hp.2 _ ha
    next => cases h
  | .row m i, hS, hp, h => by
    simp only [VExpr.den] at h
    split at h
    next p ha =>
      refine ⟨MExpr.freeze_pre m hS hp.1 (by simp [ha]), fun p' hp' => ?_⟩
      obtain ⟨p2, e1, e2, e3⟩ := MExpr.freeze_shape m _ hS ha
      rw [hp', Option.some.injEq] at e1
      rw [e1, e2]
      exact hp.2 _ ha
    next => cases h
  | .col m i, hS, hp, h => by
    simp only [VExpr.den] at h
    split at h
    next p ha =>
      refine ⟨MExpr.freeze_pre m hS hp.1 (by simp [ha]), fun p' hp' => ?_⟩
      obtain ⟨p2, e1, e2, e3⟩ := MExpr.freeze_shape m _ hS ha
      rw [hp', Option.some.injEq] at e1
      rw [e1, e3]
      exact hp.2 _ ha
    next => cases h
  | .mulMV m v, _, _, h => by
    obtain ⟨p, hp⟩ := Option.isSome_iff_exists.1 h
    simp only [VExpr.freeze, hp]
    exact trivial
  | .mulVM v m, _, _, h => by
    obtain ⟨p, hp⟩ := Option.isSome_iff_exists.1 h
    simp only [VExpr.freeze, hp]
    exact trivial
@[inherit_doc VExpr.freeze_pre]
theorem MExpr.freeze_pre {ρ ρ' : Env E} : ∀ e : MExpr E, e.Leaves (VStays ρ ρ') (MStays ρ ρ') → e.Pre ρ →
    (e.den ρ).isSome → (e.freeze ρ).Pre ρ'
  | .var x, hS, _, h => by
    obtain ⟨p, hp⟩ := Option.isSome_iff_exists.1 h
    obtain ⟨p', h', -⟩ := hS p hp
    simp [MExpr.freeze, MExpr.Pre, h']
  | .temp _, _, hp, _ => hp
  | .bin o a b, hS, hp, h => by
    simp only [MExpr.den] at h
    split at h
    next p q ha hb =>
      exact ⟨MExpr.freeze_pre a hS.1 hp.1 (by simp [ha]), MExpr.freeze_pre b hS.2 hp.2 (by simp [hb])⟩
    next => cases h
  | .scal o a c, hS, hp, h => by
    simp only [MExpr.den] at h
    split at h
    next p ha => exact MExpr.freeze_pre a hS hp (by simp [ha])
    next => cases h
  | .neg a, hS, hp, h => by
    simp only [MExpr.den] at h
    split at h
    next p ha => exact MExpr.freeze_pre a hS hp (by simp [ha])
    next => cases h
  | .transpose a, hS, hp, h => by
    simp only [MExpr.den] at h
    split at h
    next p ha => exact MExpr.freeze_pre a hS hp (by simp [ha])
    next => cases h
  | .outer a b, hS, hp, h => by
    simp only [MExpr.den] at h
    split at h
    next p q ha hb =>
      exact ⟨VExpr.freeze_pre a hS.1 hp.1 (by simp [ha]), VExpr.freeze_pre b hS.2 hp.2 (by simp [hb])⟩
    next => cases h
  | .mul a b, _, _, h => by
    obtain ⟨p, hp⟩ := Option.isSome_iff_exists.1 h
    simp only [MExpr.freeze, hp]
    simp [MVal.lit, MExpr.Pre]
end

/-- The stored expression is well-formed in the later store and has kept its size. -/
theorem VExpr.Has.freeze {σ σ' : Store E} {e : VExpr E} {p : VVal E} (h : e.Has σ p)
    (hS : e.Leaves (VStays σ.env σ'.env) (MStays σ.env σ'.env)) :
    ∃ p', p'.n = p.n ∧ (e.freeze σ.env).Has σ' p' := by
  obtain ⟨h1, h2, h3⟩ := h
  obtain ⟨p', e1, e2⟩ := VExpr.freeze_shape e p hS h3
  exact ⟨p', e2, VExpr.freeze_dyn _ e h1, VExpr.freeze_pre e hS h2 (by simp [h3]), e1⟩

@[inherit_doc VExpr.Has.freeze]
theorem MExpr.Has.freeze {σ σ' : Store E} {e : MExpr E} {p : MVal E} (h : e.Has σ p)
    (hS : e.Leaves (VStays σ.env σ'.env) (MStays σ.env σ'.env)) :
    ∃ p', (p'.r = p.r ∧ p'.c = p.c) ∧ (e.freeze σ.env).Has σ' p' := by
  obtain ⟨h1, h2, h3⟩ := h
  obtain ⟨p', e1, e2⟩ := MExpr.freeze_shape e p hS h3
  exact ⟨p', e2, MExpr.freeze_dyn _ e h1, MExpr.freeze_pre e hS h2 (by simp [h3]), e1⟩

theorem VRep.temp_list {s : State E} {f : Bool} {xs : List E} {p : VVal E} (h : VRep s (.temp f xs) p) :
    xs = List.ofFn p.f := by
  have hl : xs.length = p.n := by simpa [VNode.size] using h.size
  refine List.ext_getElem (by simp [hl]) fun i h1 h2 => ?_
  have := h.get ⟨i, by omega⟩
  simp only [VNode.get, List.getElem?_eq_getElem h1, Res.ok.injEq] at this
  simpa using this

theorem MRep.temp_list {s : State E} {t : MTemp E} {p : MVal E} (h : MRep s (.temp t) p)
    (hl : t.elems.length = t.rows * t.cols) :
    t = ⟨t.fixed, p.r, p.c,
      List.ofFn fun k => p.f (finProdFinEquiv.symm k).1 (finProdFinEquiv.symm k).2⟩ := by
  obtain ⟨f, r, c, l⟩ := t
  obtain ⟨r', c', g⟩ := p
  have hd := h.dims
  simp only [MNode.dims, Res.pure_eq, Res.ok.injEq, Prod.mk.injEq, Nat.cast_inj] at hd
  obtain ⟨rfl, rfl⟩ := hd
  simp only at hl
  simp only [MTemp.mk.injEq, true_and]
  refine List.ext_getElem (by simp [hl]) fun k h1 h2 => ?_
  rw [List.getElem_ofFn]
  have hk : k < r * c := by omega
  have := h.get (finProdFinEquiv.symm ⟨k, hk⟩).1 (finProdFinEquiv.symm ⟨k, hk⟩).2
  have e : ((finProdFinEquiv.symm (⟨k, hk⟩ : Fin (r * c))).1 : Nat) * c
      + ((finProdFinEquiv.symm (⟨k, hk⟩ : Fin (r * c))).2 : Nat) = k := by
    have := congrArg Fin.val (finProdFinEquiv.apply_symm_apply (⟨k, hk⟩ : Fin (r * c)))
    simp only [finProdFinEquiv_apply_val] at this
    rw [Nat.mul_comm]
    omega
  rw [MNode.get, MTemp.get_eq (t := ⟨f, r, c, l⟩) (Fin.is_lt _) (Fin.is_lt _)
    (v := l[k]) (by simp only [e]; exact List.getElem?_eq_getElem h1)] at this
  simpa using this

/-- The object that a product builds. -/
theorem VExpr.Has.mulMV_node {s : State E} {σ : Store E} (H : Holds s σ) {m : MExpr E} {v : VExpr E} {p : VVal E}
    (h : (VExpr.mulMV m v).Has σ p) : (VExpr.mulMV m v).build s = .ok (.temp false (List.ofFn p.f)) := by
  obtain ⟨n, e1, e2, e3⟩ := h.build H
  rw [e1]
  simp only [VExpr.build, Res.bind_eq_ok] at e1
  obtain ⟨-, -, -, -, t, -, hz⟩ := e1
  simp only [Res.pure_eq, Res.ok.injEq] at hz
  subst hz
  have := e3.fixed
  simp only [VNode.fixed, Res.pure_eq, Res.ok.injEq] at this
  rw [this, e2.temp_list]

@[inherit_doc VExpr.Has.mulMV_node]
theorem VExpr.Has.mulVM_node {s : State E} {σ : Store E} (H : Holds s σ) {m : MExpr E} {v : VExpr E} {p : VVal E}
    (h : (VExpr.mulVM v m).Has σ p) : (VExpr.mulVM v m).build s = .ok (.temp false (List.ofFn p.f)) := by
  obtain ⟨n, e1, e2, e3⟩ := h.build H
  rw [e1]
  simp only [VExpr.build, Res.bind_eq_ok] at e1
  obtain ⟨-, -, -, -, t, -, hz⟩ := e1
  simp only [Res.pure_eq, Res.ok.injEq] at hz
  subst hz
  have := e3.fixed
  simp only [VNode.fixed, Res.pure_eq, Res.ok.injEq] at this
  rw [this, e2.temp_list]

@[inherit_doc VExpr.Has.mulMV_node]
theorem MExpr.Has.mul_node {s : State E} {σ : Store E} (H : Holds s σ) {a b : MExpr E} {p : MVal E}
    (h : (MExpr.mul a b).Has σ p) : (MExpr.mul a b).build s = .ok (.temp ⟨false, p.r, p.c,
      List.ofFn fun k => p.f (finProdFinEquiv.symm k).1 (finProdFinEquiv.symm k).2⟩) := by
  obtain ⟨n, e1, e2, e3⟩ := h.build H
  rw [e1]
  obtain ⟨h1, h2, h3⟩ := h
  simp only [MExpr.den] at h3
  split at h3
  next q r ha hb =>
    split at h3
    next hi =>
      obtain ⟨x, x1, x2, x3⟩ := MExpr.Has.build H (e := a) ⟨h1.1, h2.1, ha⟩
      obtain ⟨y, y1, y2, y3⟩ := MExpr.Has.build H (e := b) ⟨h1.2, h2.2.1, hb⟩
      obtain ⟨l, l1, l2, -⟩ := matMul_ok x2 y2 x3 y3 x3.straight_false y3.straight_false hi
      simp only [MExpr.build, x1, y1, l1, Res.ok_bind, Res.pure_eq, Res.ok.injEq] at e1
      subst e1
      rw [e2.temp_list (by simpa using l2)]
      rfl
    next => cases h3
  next => cases h3

mutual
/-- The stored object is the one that the frozen expression would build later. -/
theorem VExpr.freeze_build {s s' : State E} {σ σ' : Store E} (H : Holds s σ) (H' : Holds s' σ') : ∀ (e : VExpr E)
    (p p' : VVal E), e.Has σ p → (e.freeze σ.env).Has σ' p' → (e.freeze σ.env).build s' = e.build s
  | .var _, _, _, _, _ => rfl
  | .temp _ _, _, _, _, _ => rfl
  | .bin o a b, p, p', h, h' => by
    obtain ⟨n, n1, -⟩ := h.build H
    obtain ⟨n', n1', -⟩ := h'.build H'
    obtain ⟨h1, h2, h3⟩ := h
    obtain ⟨h1', h2', h3'⟩ := h'
    rw [n1', n1]
    simp only [VExpr.freeze] at n1' h1' h2' h3'
    simp only [VExpr.build, Res.bind_eq_ok] at n1 n1'
    obtain ⟨x, x1, y, y1, -, -, z⟩ := n1
    obtain ⟨x', x1', y', y1', -, -, z'⟩ := n1'
    simp only [VExpr.den] at h3 h3'
    split at h3
    next q r ha hb =>
      split at h3'
      next q' r' ha' hb' =>
        have e1 := VExpr.freeze_build H H' a q q' ⟨h1.1, h2.1, ha⟩ ⟨h1'.1, h2'.1, ha'⟩
        have e2 := VExpr.freeze_build H H' b r r' ⟨h1.2, h2.2, hb⟩ ⟨h1'.2, h2'.2, hb'⟩
        rw [x1, x1', Res.ok.injEq] at e1
        rw [y1, y1', Res.ok.injEq] at e2
        subst e1 e2
        exact z'.symm.trans z
      next => cases h3'
    next => cases h3
  | .scal o a c, p, p', h, h' => by
    obtain ⟨h1, h2, h3⟩ := h
    obtain ⟨h1', h2', h3'⟩ := h'
    simp only [VExpr.freeze] at h1' h2' h3'
    simp only [VExpr.den] at h3 h3'
    split at h3
    next q ha =>
      split at h3'
      next q' ha' =>
        simp only [VExpr.freeze, VExpr.build, VExpr.freeze_build H H' a q q' ⟨h1, h2, ha⟩ ⟨h1', h2', ha'⟩]
      next => cases h3'
    next => cases h3
  | .neg a, p, p', h, h' => by
    obtain ⟨h1, h2, h3⟩ := h
    obtain ⟨h1', h2', h3'⟩ := h'
    simp only [VExpr.freeze] at h1' h2' h3'
    simp only [VExpr.den] at h3 h3'
    split at h3
    next q ha =>
      split at h3'
      next q' ha' =>
        simp only [VExpr.freeze, VExpr.build, VExpr.freeze_build H H' a q q' ⟨h1, h2, ha⟩ ⟨h1', h2', ha'⟩]
      next => cases h3'
    next => cases h3
  | .cross a b, p, p', h, h' => by
    obtain ⟨n, n1, -⟩ := h.build H
    obtain ⟨n', n1', -⟩ := h'.build H'
    obtain ⟨h1, h2, h3⟩ := h
    obtain ⟨h1', h2', h3'⟩ := h'
    rw [n1', n1]
    simp only [VExpr.freeze] at n1' h1' h2' h3'
    simp only [VExpr.build, Res.bind_eq_ok] at n1 n1'
    obtain ⟨x, x1, y, y1, -, -, -, -, -, -, -, -, -, -, -, -, z⟩ := n1
    obtain ⟨x', x1', y', y1', -, -, -, -, -, -, -, -, -, -, -, -, z'⟩ := n1'
    simp only [VExpr.den] at h3 h3'
    split at h3
    next q r ha hb =>
      split at h3'
      next q' r' ha' hb' =>
        have e1 := VExpr.freeze_build H H' a _ _ ⟨h1.1.1, h2.1, ha⟩ ⟨h1'.1.1, h2'.1, ha'⟩
        have e2 := VExpr.freeze_build H H' b _ _ ⟨h1.2.1, h2.2, hb⟩ ⟨h1'.2.1, h2'.2, hb'⟩
        rw [x1, x1', Res.ok.injEq] at e1
        rw [y1, y1', Res.ok.injEq] at e2
        subst e1 e2
        exact z'.symm.trans z
      next => cases h3'
    next => cases h3
  | .sub a k, p, p', h, h' => by
    obtain ⟨h1, h2, h3⟩ := h
    obtain ⟨h1', h2', h3'⟩ := h'
    simp only [VExpr.freeze] at h1' h2' h3'
    simp only [VExpr.den] at h3 h3'
    split at h3
    next n q ha =>
      split at h3'
      next n' q' ha' =>
        simp only [VExpr.freeze, VExpr.build, VExpr.freeze_build H H' a _ _ ⟨h1, h2.1, ha⟩ ⟨h1', h2'.1, ha'⟩]
      next => cases h3'
    next => cases h3
  | .row m i, p, p', h, h' => by
    obtain ⟨h1, h2, h3⟩ := h
    obtain ⟨h1', h2', h3'⟩ := h'
    simp only [VExpr.freeze] at h1' h2' h3'
    simp only [VExpr.den] at h3 h3'
    split at h3
    next q ha =>
      split at h3'
      next q' ha' =>
        simp only [VExpr.freeze, VExpr.build, MExpr.freeze_build H H' m _ _ ⟨h1, h2.1, ha⟩ ⟨h1', h2'.1, ha'⟩]
      next => cases h3'
    next => cases h3
  | .col m i, p, p', h, h' => by
    obtain ⟨h1, h2, h3⟩ := h
    obtain ⟨h1', h2', h3'⟩ := h'
    simp only [VExpr.freeze] at h1' h2' h3'
    simp only [VExpr.den] at h3 h3'
    split at h3
    next q ha =>
      split at h3'
      next q' ha' =>
        simp only [VExpr.freeze, VExpr.build, MExpr.freeze_build H H' m _ _ ⟨h1, h2.1, ha⟩ ⟨h1', h2'.1, ha'⟩]
      next => cases h3'
    next => cases h3
  | .mulMV m v, p, p', h, h' => by
    rw [h.mulMV_node H]
    simp only [VExpr.freeze, h.2.2, VVal.lit, VExpr.build, Res.pure_eq]
  | .mulVM v m, p, p', h, h' => by
    rw [h.mulVM_node H]
    simp only [VExpr.freeze, h.2.2, VVal.lit, VExpr.build, Res.pure_eq]
@[inherit_doc VExpr.freeze_build]
theorem MExpr.freeze_build {s s' : State E} {σ σ' : Store E} (H : Holds s σ) (H' : Holds s' σ') : ∀ (e : MExpr E)
    (p p' : MVal E), e.Has σ p → (e.freeze σ.env).Has σ' p' → (e.freeze σ.env).build s' = e.build s
  | .var _, _, _, _, _ => rfl
  | .temp _, _, _, _, _ => rfl
  | .bin o a b, p, p', h, h' => by
    obtain ⟨n, n1, -⟩ := h.build H
    obtain ⟨n', n1', -⟩ := h'.build H'
    obtain ⟨h1, h2, h3⟩ := h
    obtain ⟨h1', h2', h3'⟩ := h'
    rw [n1', n1]
    simp only [MExpr.freeze] at n1' h1' h2' h3'
    simp only [MExpr.build, Res.bind_eq_ok] at n1 n1'
    obtain ⟨x, x1, y, y1, -, -, z⟩ := n1
    obtain ⟨x', x1', y', y1', -, -, z'⟩ := n1'
    simp only [MExpr.den] at h3 h3'
    split at h3
    next q r ha hb =>
      split at h3'
      next q' r' ha' hb' =>
        have e1 := MExpr.freeze_build H H' a q q' ⟨h1.1, h2.1, ha⟩ ⟨h1'.1, h2'.1, ha'⟩
        have e2 := MExpr.freeze_build H H' b r r' ⟨h1.2, h2.2, hb⟩ ⟨h1'.2, h2'.2, hb'⟩
        rw [x1, x1', Res.ok.injEq] at e1
        rw [y1, y1', Res.ok.injEq] at e2
        subst e1 e2
        exact z'.symm.trans z
      next => cases h3'
    next => cases h3
  | .scal o a c, p, p', h, h' => by
    obtain ⟨h1, h2, h3⟩ := h
    obtain ⟨h1', h2', h3'⟩ := h'
    simp only [MExpr.freeze] at h1' h2' h3'
    simp only [MExpr.den] at h3 h3'
    split at h3
    next q ha =>
      split at h3'
      next q' ha' =>
        simp only [MExpr.freeze, MExpr.build, MExpr.freeze_build H H' a q q' ⟨h1, h2, ha⟩ ⟨h1', h2', ha'⟩]
      next => cases h3'
    next => cases h3
  | .neg a, p, p', h, h' => by
    obtain ⟨h1, h2, h3⟩ := h
    obtain ⟨h1', h2', h3'⟩ := h'
    simp only [MExpr.freeze] at h1' h2' h3'
    simp only [MExpr.den] at h3 h3'
    split at h3
    next q ha =>
      split at h3'
      next q' ha' =>
        simp only [MExpr.freeze, MExpr.build, MExpr.freeze_build H H' a q q' ⟨h1, h2, ha⟩ ⟨h1', h2', ha'⟩]
      next => cases h3'
    next => cases h3
  | .transpose a, p, p', h, h' => by
    obtain ⟨h1, h2, h3⟩ := h
    obtain ⟨h1', h2', h3'⟩ := h'
    simp only [MExpr.freeze] at h1' h2' h3'
    simp only [MExpr.den] at h3 h3'
    split at h3
    next q ha =>
      split at h3'
      next q' ha' =>
        simp only [MExpr.freeze, MExpr.build, MExpr.freeze_build H H' a q q' ⟨h1, h2, ha⟩ ⟨h1', h2', ha'⟩]
      next => cases h3'
    next => cases h3
  | .outer a b, p, p', h, h' => by
    obtain ⟨h1, h2, h3⟩ := h
    obtain ⟨h1', h2', h3'⟩ := h'
    simp only [MExpr.freeze] at h1' h2' h3'
    simp only [MExpr.den] at h3 h3'
    split at h3
    next q r ha hb =>
      split at h3'
      next q' r' ha' hb' =>
        simp only [MExpr.freeze, MExpr.build,
          VExpr.freeze_build H H' a q q' ⟨h1.1, h2.1, ha⟩ ⟨h1'.1, h2'.1, ha'⟩,
          VExpr.freeze_build H H' b r r' ⟨h1.2, h2.2, hb⟩ ⟨h1'.2, h2'.2, hb'⟩]
      next => cases h3'
    next => cases h3
  | .mul a b, p, p', h, h' => by
    rw [h.mul_node H]
    simp only [MExpr.freeze, h.2.2, MVal.lit, MExpr.build, Res.pure_eq]
end

end CML
