import Verif.Spec.Program
import Verif.Lemmas.HistorySafe
import Verif.Lemmas.Stable

/-! Programs over dynamic vectors and matrices: expressions over dynamic variables, framing. -/

namespace CML

set_option linter.unusedSectionVars false

variable {E : Type} [Add E] [Sub E] [Mul E] [Div E] [Neg E]

theorem VNode.Typed.any {s : State E} {x : VNode E} {n : Int} (h : x.Typed s false n) (m : Int) :
    x.Typed s false m := ⟨h.fixed, h.csize, h.compiled⟩

theorem MNode.Typed.any {s : State E} {x : MNode E} {n : Int × Int} (h : x.Typed s false n) (m : Int × Int) :
    x.Typed s false m := ⟨h.fixed, h.cdims, h.compiled, h.sdims⟩

theorem MNode.Typed.straight_false {s : State E} {x : MNode E} {n : Int × Int} (h : x.Typed s false n) :
    x.Straight s := by
  intro h'
  rw [h.fixed] at h'
  cases h'

theorem vecMat_dynamic {s : State E} {a : MNode E} {v : VNode E} {t : Bool × List E} {d : Int × Int}
    (h : vecMat s v a = .ok t) (ht : a.Typed s false d) : t.1 = false := by
  unfold vecMat at h
  obtain ⟨_, _, h⟩ := Res.bind_ok h
  obtain ⟨f, hf, h⟩ := Res.bind_ok h
  obtain ⟨_, _, h⟩ := Res.bind_ok h
  obtain ⟨_, _, h⟩ := Res.bind_ok h
  obtain ⟨_, _, h⟩ := Res.bind_ok h
  obtain ⟨_, _, h⟩ := Res.bind_ok h
  obtain ⟨_, _, h⟩ := Res.bind_ok h
  obtain ⟨vc, _, h⟩ := Res.bind_ok h
  obtain ⟨k, hk, h⟩ := Res.bind_ok h
  obtain ⟨k', hk', hk''⟩ := ht.sdims
  rw [hk, Res.ok.injEq] at hk'
  subst hk'
  rw [ht.fixed, Res.ok.injEq] at hf
  subst hf
  have := hk'' rfl
  subst this
  obtain ⟨u, hu, h⟩ := Res.bind_ok h
  simp [productSize] at hu
  subst hu
  obtain ⟨_, _, h⟩ := Res.bind_ok h
  obtain ⟨_, _, h⟩ := Res.bind_ok h
  simp only [Res.pure_eq, Res.ok.injEq] at h
  subst h
  rfl

theorem matMul_dynamic {s : State E} {a b : MNode E} {t : MTemp E} {d d' : Int × Int}
    (h : matMul s a b = .ok t) (ha : a.Typed s false d) (hb : b.Typed s false d') : t.fixed = false := by
  obtain ⟨f, g, ka, kb, da, db, hf, hg, hka, hkb, hu⟩ := matMul_type h
  obtain ⟨k, hk, hk'⟩ := ha.sdims
  rw [hka, Res.ok.injEq] at hk
  subst hk
  rw [ha.fixed, Res.ok.injEq] at hf
  rw [hb.fixed, Res.ok.injEq] at hg
  subst hf hg
  have := hk' rfl
  subst this
  simp [productDims] at hu
  exact hu.1

mutual
theorem VExpr.stable_of_anchored (s : State E) : ∀ e : VExpr E, e.Anchored → e.Stable s
  | .var _, _ => trivial
  | .temp _ _, h => h.elim
  | .bin _ a _, h => VExpr.stable_of_anchored s a h
  | .scal _ a _, h => VExpr.stable_of_anchored s a h
  | .neg a, h => VExpr.stable_of_anchored s a h
  | .cross _ _, _ => trivial
  | .sub a _, h => VExpr.stable_of_anchored s a h
  | .row m _, h => MExpr.stable_of_anchored s m h
  | .col m _, h => MExpr.stable_of_anchored s m h
  | .mulMV _ _, h => h.elim
  | .mulVM _ _, h => h.elim
theorem MExpr.stable_of_anchored (s : State E) : ∀ e : MExpr E, e.Anchored → e.Stable s
  | .var _, _ => trivial
  | .temp _, h => h.elim
  | .bin _ a _, h => MExpr.stable_of_anchored s a h
  | .scal _ a _, h => MExpr.stable_of_anchored s a h
  | .neg a, h => MExpr.stable_of_anchored s a h
  | .transpose a, h => MExpr.stable_of_anchored s a h
  | .outer a b, h => ⟨VExpr.stable_of_anchored s a h.1, VExpr.stable_of_anchored s b h.2⟩
  | .mul _ _, h => h.elim
end

/-- All variables are dynamic. -/
def State.AllDyn (s : State E) : Prop :=
  (∀ x d, s.vec x = some d → d.fixed = false) ∧ ∀ x d, s.mat x = some d → d.fixed = false

theorem Inv.allDyn {s : State E} (I : Inv s) : s.AllDyn :=
  ⟨fun _ _ h => (I.vec_alloc h).2.1, fun _ _ h => (I.mat_alloc h).2.1⟩

theorem vrep_vec {s : State E} {y : Nat} {p : VVal E} (h : VRep s (.var y) p) :
    ∃ w, s.vec y = some w ∧ w.size = p.n := by
  have := h.size
  unfold VNode.size at this
  cases hw : s.vec y with
  | none => simp [State.vobj, hw] at this
  | some w =>
    simp only [State.vobj, hw, Res.ok_bind, Res.pure_eq, Res.ok.injEq] at this
    exact ⟨w, rfl, by omega⟩

theorem mrep_mat {s : State E} {y : Nat} {p : MVal E} (h : MRep s (.var y) p) :
    ∃ w, s.mat y = some w ∧ w.rows = p.r ∧ w.cols = p.c := by
  have := h.dims
  unfold MNode.dims at this
  cases hw : s.mat y with
  | none => simp [State.mobj, hw] at this
  | some w =>
    simp only [State.mobj, hw, Res.ok_bind, Res.pure_eq, Res.ok.injEq, Prod.mk.injEq] at this
    exact ⟨w, rfl, by omega, by omega⟩

mutual
/-- An expression over dynamic variables is supported, and its node has no compile-time size. -/
theorem VExpr.dyn_supported {s : State E} {ρ : Env E} (hA : Agree s ρ) (hD : s.AllDyn) : ∀ e : VExpr E, e.Dyn →
    e.Pre ρ → e.Supported s ∧ ∀ x, e.build s = .ok x → x.Typed s false 0
  | .var y, _, hp => by
    refine ⟨trivial, fun x h => ?_⟩
    simp only [VExpr.build, Res.pure_eq, Res.ok.injEq] at h
    subst h
    obtain ⟨p, hp⟩ := Option.isSome_iff_exists.1 hp
    obtain ⟨w, hw, -⟩ := vrep_vec (hA.v y p hp)
    have := typed_vec (E := E) hw
    rw [hD.1 y w hw] at this
    exact this.any 0
  | .temp f xs, h, _ => by
    refine ⟨trivial, fun x hx => ?_⟩
    simp only [VExpr.build, Res.pure_eq, Res.ok.injEq] at hx
    subst hx
    have h : f = false := h
    subst h
    exact (VNode.Typed.temp rfl).any 0
  | .bin o a b, h, hp => by
    obtain ⟨a1, a2⟩ := VExpr.dyn_supported hA hD a h.1 hp.1
    obtain ⟨b1, b2⟩ := VExpr.dyn_supported hA hD b h.2 hp.2
    refine ⟨⟨a1, b1⟩, fun x hx => ?_⟩
    simp only [VExpr.build] at hx
    obtain ⟨u, hu, hx⟩ := Res.bind_ok hx
    obtain ⟨v, hv, hx⟩ := Res.bind_ok hx
    obtain ⟨_, _, hx⟩ := Res.bind_ok hx
    simp only [Res.pure_eq, Res.ok.injEq] at hx
    subst hx
    exact VNode.Typed.bin o (a2 u hu) (b2 v hv) (by simp)
  | .scal o a c, h, hp => by
    obtain ⟨a1, a2⟩ := VExpr.dyn_supported hA hD a h hp
    refine ⟨a1, fun x hx => ?_⟩
    simp only [VExpr.build] at hx
    obtain ⟨u, hu, hx⟩ := Res.bind_ok hx
    simp only [Res.pure_eq, Res.ok.injEq] at hx
    subst hx
    exact VNode.Typed.scal o c (a2 u hu)
  | .neg a, h, hp => by
    obtain ⟨a1, a2⟩ := VExpr.dyn_supported hA hD a h hp
    refine ⟨a1, fun x hx => ?_⟩
    simp only [VExpr.build] at hx
    obtain ⟨u, hu, hx⟩ := Res.bind_ok hx
    simp only [Res.pure_eq, Res.ok.injEq] at hx
    subst hx
    exact VNode.Typed.neg (a2 u hu)
  | .cross a b, h, hp => by
    obtain ⟨a1, a2⟩ := VExpr.dyn_supported hA hD a h.1.1 hp.1
    obtain ⟨b1, b2⟩ := VExpr.dyn_supported hA hD b h.2.1 hp.2
    refine ⟨⟨a1, b1, fun x hx => crossSafe_operand a x hx (Or.inr (VExpr.stable_of_anchored s a h.1.2)),
      fun x hx => crossSafe_operand b x hx (Or.inr (VExpr.stable_of_anchored s b h.2.2))⟩, fun x hx => ?_⟩
    simp only [VExpr.build] at hx
    obtain ⟨u, hu, hx⟩ := Res.bind_ok hx
    obtain ⟨v, hv, hx⟩ := Res.bind_ok hx
    obtain ⟨_, _, hx⟩ := Res.bind_ok hx
    obtain ⟨_, _, hx⟩ := Res.bind_ok hx
    obtain ⟨_, _, hx⟩ := Res.bind_ok hx
    obtain ⟨_, _, hx⟩ := Res.bind_ok hx
    obtain ⟨_, _, hx⟩ := Res.bind_ok hx
    obtain ⟨_, _, hx⟩ := Res.bind_ok hx
    simp only [Res.pure_eq, Res.ok.injEq] at hx
    subst hx
    exact (VNode.Typed.cross ((a2 u hu).any 3) ((b2 v hv).any 3)).any 0
  | .sub a k, h, hp => by
    obtain ⟨a1, a2⟩ := VExpr.dyn_supported hA hD a h hp.1
    have key : ∀ x, a.build s = .ok x → x.compiled s ≠ .ok true := by
      intro x hx hc
      obtain ⟨c, h1, h2⟩ := (a2 x hx).compiled
      rw [hc, Res.ok.injEq] at h1
      subst h1
      cases h2 rfl
    refine ⟨⟨a1, fun x hx hc => absurd hc (key x hx)⟩, fun x hx => ?_⟩
    simp only [VExpr.build] at hx
    obtain ⟨u, hu, hx⟩ := Res.bind_ok hx
    simp only [Res.pure_eq, Res.ok.injEq] at hx
    subst hx
    exact (VNode.Typed.sub k (a2 u hu) (fun hc => absurd hc (key u hu))).any 0
  | .row m i, h, hp => by
    obtain ⟨a1, a2⟩ := MExpr.dyn_supported hA hD m h hp.1
    refine ⟨a1, fun x hx => ?_⟩
    simp only [VExpr.build] at hx
    obtain ⟨u, hu, hx⟩ := Res.bind_ok hx
    obtain ⟨_, _, hx⟩ := Res.bind_ok hx
    simp only [Res.pure_eq, Res.ok.injEq] at hx
    subst hx
    exact MNode.Typed.row _ (a2 u hu) (by simp)
  | .col m i, h, hp => by
    obtain ⟨a1, a2⟩ := MExpr.dyn_supported hA hD m h hp.1
    refine ⟨a1, fun x hx => ?_⟩
    simp only [VExpr.build] at hx
    obtain ⟨u, hu, hx⟩ := Res.bind_ok hx
    obtain ⟨_, _, hx⟩ := Res.bind_ok hx
    simp only [Res.pure_eq, Res.ok.injEq] at hx
    subst hx
    exact MNode.Typed.col _ (a2 u hu) (by simp)
  | .mulMV m v, h, hp => by
    obtain ⟨a1, a2⟩ := MExpr.dyn_supported hA hD m h.1 hp.1
    obtain ⟨b1, b2⟩ := VExpr.dyn_supported hA hD v h.2 hp.2.1
    refine ⟨⟨a1, b1, fun x hx => (a2 x hx).straight_false⟩, fun x hx => ?_⟩
    simp only [VExpr.build] at hx
    obtain ⟨u, hu, hx⟩ := Res.bind_ok hx
    obtain ⟨w, hw, hx⟩ := Res.bind_ok hx
    obtain ⟨t, ht, hx⟩ := Res.bind_ok hx
    simp only [Res.pure_eq, Res.ok.injEq] at hx
    subst hx
    rw [matVec_dynamic ht (a2 u hu)]
    exact (VNode.Typed.temp rfl).any 0
  | .mulVM v m, h, hp => by
    obtain ⟨b1, b2⟩ := VExpr.dyn_supported hA hD v h.1 hp.1
    obtain ⟨a1, a2⟩ := MExpr.dyn_supported hA hD m h.2 hp.2.1
    refine ⟨⟨b1, a1, fun x hx => (a2 x hx).straight_false⟩, fun x hx => ?_⟩
    simp only [VExpr.build] at hx
    obtain ⟨w, hw, hx⟩ := Res.bind_ok hx
    obtain ⟨u, hu, hx⟩ := Res.bind_ok hx
    obtain ⟨t, ht, hx⟩ := Res.bind_ok hx
    simp only [Res.pure_eq, Res.ok.injEq] at hx
    subst hx
    rw [vecMat_dynamic ht (a2 u hu)]
    exact (VNode.Typed.temp rfl).any 0
theorem MExpr.dyn_supported {s : State E} {ρ : Env E} (hA : Agree s ρ) (hD : s.AllDyn) : ∀ e : MExpr E, e.Dyn →
    e.Pre ρ → e.Supported s ∧ ∀ x, e.build s = .ok x → x.Typed s false (0, 0)
  | .var y, _, hp => by
    refine ⟨trivial, fun x h => ?_⟩
    simp only [MExpr.build, Res.pure_eq, Res.ok.injEq] at h
    subst h
    obtain ⟨p, hp⟩ := Option.isSome_iff_exists.1 hp
    obtain ⟨w, hw, -⟩ := mrep_mat (hA.m y p hp)
    have := typed_mat (E := E) hw
    rw [hD.2 y w hw] at this
    exact this.any _
  | .temp t, h, _ => by
    refine ⟨trivial, fun x hx => ?_⟩
    simp only [MExpr.build, Res.pure_eq, Res.ok.injEq] at hx
    subst hx
    have h : t.fixed = false := h
    have := MNode.Typed.temp (s := s) (t := t)
    rw [h] at this
    exact this.any _
  | .bin o a b, h, hp => by
    obtain ⟨a1, a2⟩ := MExpr.dyn_supported hA hD a h.1 hp.1
    obtain ⟨b1, b2⟩ := MExpr.dyn_supported hA hD b h.2 hp.2
    refine ⟨⟨a1, b1, fun x hx => (a2 x hx).straight_false, fun x hx => (b2 x hx).straight_false⟩, fun x hx => ?_⟩
    simp only [MExpr.build] at hx
    obtain ⟨u, hu, hx⟩ := Res.bind_ok hx
    obtain ⟨v, hv, hx⟩ := Res.bind_ok hx
    obtain ⟨_, _, hx⟩ := Res.bind_ok hx
    simp only [Res.pure_eq, Res.ok.injEq] at hx
    subst hx
    obtain ⟨k, hk, hk'⟩ := (a2 u hu).sdims
    obtain ⟨k2, hl, hl'⟩ := (b2 v hv).sdims
    exact (MNode.Typed.bin o (a2 u hu) (b2 v hv) (by rw [hk, hk' rfl]; rfl) (by rw [hl, hl' rfl]; rfl)
      (by simp)).1
  | .scal o a c, h, hp => by
    obtain ⟨a1, a2⟩ := MExpr.dyn_supported hA hD a h hp
    refine ⟨a1, fun x hx => ?_⟩
    simp only [MExpr.build] at hx
    obtain ⟨u, hu, hx⟩ := Res.bind_ok hx
    simp only [Res.pure_eq, Res.ok.injEq] at hx
    subst hx
    exact MNode.Typed.scal o c (a2 u hu)
  | .neg a, h, hp => by
    obtain ⟨a1, a2⟩ := MExpr.dyn_supported hA hD a h hp
    refine ⟨a1, fun x hx => ?_⟩
    simp only [MExpr.build] at hx
    obtain ⟨u, hu, hx⟩ := Res.bind_ok hx
    simp only [Res.pure_eq, Res.ok.injEq] at hx
    subst hx
    exact MNode.Typed.neg (a2 u hu)
  | .transpose a, h, hp => by
    obtain ⟨a1, a2⟩ := MExpr.dyn_supported hA hD a h hp
    refine ⟨a1, fun x hx => ?_⟩
    simp only [MExpr.build] at hx
    obtain ⟨u, hu, hx⟩ := Res.bind_ok hx
    simp only [Res.pure_eq, Res.ok.injEq] at hx
    subst hx
    exact MNode.Typed.transpose (a2 u hu)
  | .outer a b, h, hp => by
    obtain ⟨a1, a2⟩ := VExpr.dyn_supported hA hD a h.1 hp.1
    obtain ⟨b1, b2⟩ := VExpr.dyn_supported hA hD b h.2 hp.2
    refine ⟨⟨a1, b1, fun x y hx hy => by rw [(a2 x hx).fixed, (b2 y hy).fixed]⟩, fun x hx => ?_⟩
    simp only [MExpr.build] at hx
    obtain ⟨u, hu, hx⟩ := Res.bind_ok hx
    obtain ⟨v, hv, hx⟩ := Res.bind_ok hx
    simp only [Res.pure_eq, Res.ok.injEq] at hx
    subst hx
    exact VNode.Typed.outer (a2 u hu) (b2 v hv)
  | .mul a b, h, hp => by
    obtain ⟨a1, a2⟩ := MExpr.dyn_supported hA hD a h.1 hp.1
    obtain ⟨b1, b2⟩ := MExpr.dyn_supported hA hD b h.2 hp.2.1
    refine ⟨⟨a1, b1, fun x hx => (a2 x hx).straight_false, fun x hx => (b2 x hx).straight_false⟩, fun x hx => ?_⟩
    simp only [MExpr.build] at hx
    obtain ⟨u, hu, hx⟩ := Res.bind_ok hx
    obtain ⟨w, hw, hx⟩ := Res.bind_ok hx
    obtain ⟨t, ht, hx⟩ := Res.bind_ok hx
    simp only [Res.pure_eq, Res.ok.injEq] at hx
    subst hx
    have := MNode.Typed.temp (s := s) (t := t)
    rw [matMul_dynamic ht (a2 u hu) (b2 w hw)] at this
    exact this.any _
end

/-! ### The store and the memory -/

theorem VCont.val?_some {c : VCont E} {p : VVal E} (h : c.val? = some p) :
    ∃ e : p.n = c.n, ∀ i : Fin p.n, c.f (i.cast e) = some (p.f i) := by
  unfold VCont.val? at h
  split at h
  · simp only [Option.some.injEq] at h
    subst h
    exact ⟨rfl, fun i => by simp⟩
  · cases h

theorem MCont.val?_some {c : MCont E} {p : MVal E} (h : c.val? = some p) :
    ∃ (e : p.r = c.r) (e' : p.c = c.c), ∀ (i : Fin p.r) (j : Fin p.c),
      c.f (i.cast e) (j.cast e') = some (p.f i j) := by
  unfold MCont.val? at h
  split at h
  · simp only [Option.some.injEq] at h
    subst h
    exact ⟨rfl, rfl, fun i j => by simp⟩
  · cases h

theorem VHolds.rep {s : State E} {x : Nat} {c : VCont E} (h : VHolds s x (some c)) {p : VVal E}
    (hp : c.val? = some p) : VRep s (.var x) p := by
  obtain ⟨d, h1, h2, h3⟩ := h
  obtain ⟨e, hf⟩ := VCont.val?_some hp
  refine ⟨by simp [VNode.size, State.vobj, h1, h2, e], fun i => ?_⟩
  have := h3 (i.cast e) _ (hf i)
  simpa [VNode.get, State.vobj, h1] using this

theorem MHolds.rep {s : State E} {x : Nat} {c : MCont E} (h : MHolds s x (some c)) {p : MVal E}
    (hp : c.val? = some p) : MRep s (.var x) p := by
  obtain ⟨d, h1, -, -, h2, h2', h3⟩ := h
  obtain ⟨e, e', hf⟩ := MCont.val?_some hp
  refine ⟨by simp [MNode.dims, State.mobj, h1, h2, h2', e, e'], fun i j => ?_⟩
  have := h3 (i.cast e) (j.cast e') _ (hf i j)
  simpa [MNode.get, State.mobj, h1] using this

theorem VHolds.of_rep {s : State E} {x : Nat} {p : VVal E} (h : VRep s (.var x) p) :
    VHolds s x (some (.of p)) := by
  obtain ⟨w, hw, hn⟩ := vrep_vec h
  refine ⟨w, hw, hn, fun i e he => ?_⟩
  have := h.get i
  simp only [VCont.of, Option.some.injEq] at he
  subst he
  simpa [VNode.get, State.vobj, hw] using this

theorem MHolds.of_rep {s : State E} {x : Nat} {p : MVal E} {d : MObj} (h : MRep s (.var x) p)
    (hd : s.mat x = some d) : MHolds s x (some (.of d.colMajor d.colBasis p)) := by
  obtain ⟨w, hw, hr, hc⟩ := mrep_mat h
  rw [hd] at hw
  cases hw
  refine ⟨d, hd, rfl, rfl, hr, hc, fun i j e he => ?_⟩
  have := h.get i j
  simp only [MCont.of, Option.some.injEq] at he
  subst he
  simpa [MNode.get, State.mobj, hd] using this

theorem Holds.agree {s : State E} {σ : Store E} (H : Holds s σ) : Agree s σ.env := by
  refine ⟨fun x p h => ?_, fun x p h => ?_⟩
  · cases hc : σ.v x with
    | none => simp [Store.env, hc] at h
    | some c =>
      have := H.v x
      rw [hc] at this
      exact this.rep (by simpa [Store.env, hc] using h)
  · cases hc : σ.m x with
    | none => simp [Store.env, hc] at h
    | some c =>
      have := H.m x
      rw [hc] at this
      exact this.rep (by simpa [Store.env, hc] using h)

theorem Holds.vec {s : State E} {σ : Store E} (H : Holds s σ) {x : Nat} {c : VCont E} (h : σ.v x = some c) :
    ∃ d, s.vec x = some d ∧ d.size = c.n ∧ ∀ i e, c.f i = some e → d.get s.heap i = .ok e := by
  have := H.v x
  rwa [h] at this

theorem Holds.mat {s : State E} {σ : Store E} (H : Holds s σ) {x : Nat} {c : MCont E} (h : σ.m x = some c) :
    ∃ d, s.mat x = some d ∧ d.colMajor = c.colMajor ∧ d.colBasis = c.colBasis ∧ d.rows = c.r ∧
      d.cols = c.c ∧ ∀ i j e, c.f i j = some e → d.get s.heap i j = .ok e := by
  have := H.m x
  rwa [h] at this

theorem Holds.vnone {s : State E} {σ : Store E} (H : Holds s σ) {x : Nat} (h : σ.v x = none) :
    s.vec x = none := by
  have := H.v x
  rwa [h] at this

theorem Holds.mnone {s : State E} {σ : Store E} (H : Holds s σ) {x : Nat} (h : σ.m x = none) :
    s.mat x = none := by
  have := H.m x
  rwa [h] at this

theorem Holds.read {s : State E} {σ : Store E} (H : Holds s σ) {c : ScalarRef E} {a : E}
    (h : σ.scalar c = some a) : c.read s = .ok a := by
  cases c with
  | val b =>
    simp only [Store.scalar, Option.some.injEq] at h
    subst h
    rfl
  | elem y i =>
    simp only [Store.scalar] at h
    cases hy : σ.v y with
    | none => simp [hy] at h
    | some c =>
      simp only [hy, Option.bind_some] at h
      split at h
      next hi =>
        obtain ⟨d, h1, -, h3⟩ := H.vec hy
        have := h3 _ _ h
        simpa [ScalarRef.read, VNode.get, State.vobj, h1] using this
      next => cases h

theorem Holds.mread {s : State E} {σ : Store E} (H : Holds s σ) {c : MScalarRef E} {a : E}
    (h : σ.mscalar c = some a) : c.read s = .ok a := by
  cases c with
  | val b =>
    simp only [Store.mscalar, Option.some.injEq] at h
    subst h
    rfl
  | elem y i j =>
    simp only [Store.mscalar] at h
    cases hy : σ.m y with
    | none => simp [hy] at h
    | some c =>
      simp only [hy, Option.bind_some] at h
      split at h
      next hi =>
        obtain ⟨d, h1, -, -, -, -, h3⟩ := H.mat hy
        have := h3 _ _ _ h
        simpa [MScalarRef.read, MNode.get, State.mobj, h1] using this
      next => cases h

theorem Keeps.vholds {s s' : State E} {y : Nat} (K : Keeps (.inl y) s s') {c : Option (VCont E)}
    (h : VHolds s y c) : VHolds s' y c := by
  cases c with
  | none => exact (K.vec y rfl).trans h
  | some c =>
    obtain ⟨d, h1, h2, h3⟩ := h
    refine ⟨d, (K.vec y rfl).trans h1, h2, fun i e he => ?_⟩
    rw [← h3 i e he]
    unfold VObj.get
    cases hd : d.data with
    | none => rfl
    | some b => simp only [Heap.read, K.blk d b h1 hd]

theorem Keeps.mholds {s s' : State E} {y : Nat} (K : Keeps (.inr y) s s') {c : Option (MCont E)}
    (h : MHolds s y c) : MHolds s' y c := by
  cases c with
  | none => exact (K.mat y rfl).trans h
  | some c =>
    obtain ⟨d, h1, a, b, a', b', h3⟩ := h
    refine ⟨d, (K.mat y rfl).trans h1, a, b, a', b', fun i j e he => ?_⟩
    rw [← h3 i j e he]
    unfold MObj.get
    cases hd : d.data with
    | none => rfl
    | some b => simp only [Heap.read, K.blk d.flat b (by simp [State.owner, h1]) hd]

/-- A statement that ended normally: only the targets have to be looked at. -/
theorem Holds.step {s s' : State E} {σ σ' : Store E} (H : Holds s σ) {o : Op E} (hf : o.NameFree s)
    (e : o.run true s = .ok s')
    (hv : ∀ y, o.Targets (.inl y) → VHolds s' y (σ'.v y)) (hv' : ∀ y, ¬ o.Targets (.inl y) → σ'.v y = σ.v y)
    (hm : ∀ y, o.Targets (.inr y) → MHolds s' y (σ'.m y)) (hm' : ∀ y, ¬ o.Targets (.inr y) → σ'.m y = σ.m y) :
    Holds s' σ' := by
  refine ⟨?_, fun y => ?_, fun y => ?_⟩
  · have := Op.run_post (triv := true) H.inv o hf
    rw [e] at this
    exact this
  · by_cases ht : o.Targets (.inl y)
    · exact hv y ht
    · have := Op.run_keeps (triv := true) H.inv o hf ht
      rw [e] at this
      rw [hv' y ht]
      exact this.2.vholds (H.v y)
  · by_cases ht : o.Targets (.inr y)
    · exact hm y ht
    · have := Op.run_keeps (triv := true) H.inv o hf ht
      rw [e] at this
      rw [hm' y ht]
      exact this.2.mholds (H.m y)

/-- A statement with one vector as target. -/
theorem Holds.stepV {s s' : State E} {σ : Store E} (H : Holds s σ) {o : Op E} (hf : o.NameFree s)
    (e : o.run true s = .ok s') {x : Nat} {c : Option (VCont E)} (ht : ∀ k, o.Targets k ↔ k = .inl x)
    (hx : VHolds s' x c) : Holds s' (σ.setV x c) := by
  refine H.step hf e (fun y hy => ?_) (fun y hy => ?_) (fun y hy => ?_) (fun y hy => rfl)
  · rw [ht] at hy
    simp only [Sum.inl.injEq] at hy
    subst hy
    simpa [Store.setV] using hx
  · rw [ht] at hy
    simp only [Sum.inl.injEq] at hy
    simp [Store.setV, hy]
  · rw [ht] at hy
    cases hy

/-- A statement with one matrix as target. -/
theorem Holds.stepM {s s' : State E} {σ : Store E} (H : Holds s σ) {o : Op E} (hf : o.NameFree s)
    (e : o.run true s = .ok s') {x : Nat} {c : Option (MCont E)} (ht : ∀ k, o.Targets k ↔ k = .inr x)
    (hx : MHolds s' x c) : Holds s' (σ.setM x c) := by
  refine H.step hf e (fun y hy => ?_) (fun y hy => rfl) (fun y hy => ?_) (fun y hy => ?_)
  · rw [ht] at hy
    cases hy
  · rw [ht] at hy
    simp only [Sum.inr.injEq] at hy
    subst hy
    simpa [Store.setM] using hx
  · rw [ht] at hy
    simp only [Sum.inr.injEq] at hy
    simp [Store.setM, hy]

/-- A statement that threw: nothing has changed. -/
theorem Holds.thrown {s s' : State E} {σ : Store E} (H : Holds s σ) {o : Op E} (hf : o.NameFree s) {er : Err}
    (e : o.run true s = .throw er s') : Holds s' σ := by
  have := Op.run_post (triv := true) H.inv o hf
  rw [e] at this
  have U : Untouched s s' := this
  exact ⟨U.inv H.inv, fun y => (U.keeps (.inl y)).vholds (H.v y), fun y => (U.keeps (.inr y)).mholds (H.m y)⟩

/-- Different variables occupy different memory. -/
theorem Inv.disjoint {s : State E} (I : Inv s) {k k' : Nat ⊕ Nat} (hk : k ≠ k') {w d : VObj}
    (hw : s.owner k = some w) (hd : s.owner k' = some d) : w.Disjoint d := by
  cases hb : w.data with
  | some b =>
    left
    rw [hb]
    exact I.ne_data hk hw hd hb
  | none =>
    obtain ⟨-, -, a3, a4⟩ := I.own k w hw
    obtain ⟨-, -, b3, -⟩ := I.own k' d hd
    rcases a4 with ⟨-, hz⟩ | ⟨b, l, h1, -⟩
    · right; left; omega
    · rw [hb] at h1; cases h1

theorem Inv.vdisj' {s : State E} (I : Inv s) {x y : Nat} {d : VObj} (hx : s.vec x = some d) (h : y ≠ x) :
    VDisj s d y := fun _ hw =>
  I.disjoint (k := .inl y) (k' := .inl x) (by simpa using h) hw hx

theorem Inv.mdisjV {s : State E} (I : Inv s) {x : Nat} {d : VObj} (hx : s.vec x = some d) (y : Nat) :
    MDisj s d y := fun w hw =>
  I.disjoint (k := .inr y) (k' := .inl x) (w := w.flat) (by simp) (by simp [State.owner, hw]) hx

theorem Inv.vahead {s : State E} (I : Inv s) {x : Nat} {d : VObj} (hx : s.vec x = some d) (y : Nat) :
    VAhead s d y := by
  intro w hw
  by_cases h : y = x
  · subst h
    rw [hx] at hw
    cases hw
    exact Or.inr ⟨rfl, le_refl _⟩
  · exact Or.inl (I.vdisj' hx h w hw)

theorem Inv.mdisj' {s : State E} (I : Inv s) {x y : Nat} {d : MObj} (hx : s.mat x = some d) (h : y ≠ x) :
    MDisj s d.flat y := fun w hw =>
  I.disjoint (k := .inr y) (k' := .inr x) (w := w.flat) (by simpa using h) (by simp [State.owner, hw])
    (by simp [State.owner, hx])

theorem Inv.vdisjM {s : State E} (I : Inv s) {x : Nat} {d : MObj} (hx : s.mat x = some d) (y : Nat) :
    VDisj s d.flat y := fun w hw =>
  I.disjoint (k := .inl y) (k' := .inr x) (by simp) hw (by simp [State.owner, hx])

theorem Inv.mahead {s : State E} (I : Inv s) {x : Nat} {d : MObj} (hx : s.mat x = some d) (y : Nat) :
    MAhead s d y := by
  intro w hw
  by_cases h : y = x
  · subst h
    rw [hx] at hw
    cases hw
    exact Or.inr ⟨rfl, le_refl _, rfl, rfl, rfl⟩
  · exact Or.inl (I.mdisj' hx h w hw)

theorem Inv.vkept {s : State E} (I : Inv s) {x y : Nat} {d : VObj} (hx : s.vec x = some d) (h : y ≠ x) :
    VKept s x d y := ⟨h, fun _ hw => I.vdisj h hx hw⟩

theorem Inv.mkept {s : State E} (I : Inv s) {x : Nat} {d : VObj} (hx : s.vec x = some d) (y : Nat) :
    MKept s d y := by
  intro w hw
  cases hd : w.data with
  | none => exact Or.inl rfl
  | some b =>
    right
    exact I.ne_data (k := .inr y) (k' := .inl x) (v := w.flat) (by simp) (by simp [State.owner, hw]) hx hd

mutual
theorem VExpr.Leaves.imp {PV PM QV QM : Nat → Prop} (hv : ∀ y, PV y → QV y) (hm : ∀ y, PM y → QM y) :
    ∀ e : VExpr E, e.Leaves PV PM → e.Leaves QV QM
  | .var y, h => hv y h
  | .temp _ _, _ => trivial
  | .bin _ a b, h => ⟨VExpr.Leaves.imp hv hm a h.1, VExpr.Leaves.imp hv hm b h.2⟩
  | .scal _ a _, h => VExpr.Leaves.imp hv hm a h
  | .neg a, h => VExpr.Leaves.imp hv hm a h
  | .cross a b, h => ⟨VExpr.Leaves.imp hv hm a h.1, VExpr.Leaves.imp hv hm b h.2⟩
  | .sub a _, h => VExpr.Leaves.imp hv hm a h
  | .row m _, h => MExpr.Leaves.imp hv hm m h
  | .col m _, h => MExpr.Leaves.imp hv hm m h
  | .mulMV _ _, _ => trivial
  | .mulVM _ _, _ => trivial
theorem MExpr.Leaves.imp {PV PM QV QM : Nat → Prop} (hv : ∀ y, PV y → QV y) (hm : ∀ y, PM y → QM y) :
    ∀ e : MExpr E, e.Leaves PV PM → e.Leaves QV QM
  | .var y, h => hm y h
  | .temp _, _ => trivial
  | .bin _ a b, h => ⟨MExpr.Leaves.imp hv hm a h.1, MExpr.Leaves.imp hv hm b h.2⟩
  | .scal _ a _, h => MExpr.Leaves.imp hv hm a h
  | .neg a, h => MExpr.Leaves.imp hv hm a h
  | .transpose a, h => MExpr.Leaves.imp hv hm a h
  | .outer a b, h => ⟨VExpr.Leaves.imp hv hm a h.1, VExpr.Leaves.imp hv hm b h.2⟩
  | .mul _ _, _ => trivial
end

theorem VExpr.Ahead.imp {PA PV PM QA QV QM : Nat → Prop} (ha : ∀ y, PA y → QA y) (hv : ∀ y, PV y → QV y)
    (hm : ∀ y, PM y → QM y) : ∀ e : VExpr E, e.Ahead PA PV PM → e.Ahead QA QV QM
  | .var y, h => ha y h
  | .temp _ _, _ => trivial
  | .bin _ a b, h => ⟨VExpr.Ahead.imp ha hv hm a h.1, VExpr.Ahead.imp ha hv hm b h.2⟩
  | .scal _ a _, h => VExpr.Ahead.imp ha hv hm a h
  | .neg a, h => VExpr.Ahead.imp ha hv hm a h
  | .cross a b, h => ⟨VExpr.Leaves.imp hv hm a h.1, VExpr.Leaves.imp hv hm b h.2⟩
  | .sub a _, h => VExpr.Ahead.imp ha hv hm a h
  | .row m _, h => MExpr.Leaves.imp hv hm m h
  | .col m _, h => MExpr.Leaves.imp hv hm m h
  | .mulMV _ _, _ => trivial
  | .mulVM _ _, _ => trivial

theorem MExpr.Ahead.imp {PA PV PM QA QV QM : Nat → Prop} (ha : ∀ y, PA y → QA y) (hv : ∀ y, PV y → QV y)
    (hm : ∀ y, PM y → QM y) : ∀ e : MExpr E, e.Ahead PA PV PM → e.Ahead QA QV QM
  | .var y, h => ha y h
  | .temp _, _ => trivial
  | .bin _ a b, h => ⟨MExpr.Ahead.imp ha hv hm a h.1, MExpr.Ahead.imp ha hv hm b h.2⟩
  | .scal _ a _, h => MExpr.Ahead.imp ha hv hm a h
  | .neg a, h => MExpr.Ahead.imp ha hv hm a h
  | .transpose a, h => MExpr.Leaves.imp hv hm a h
  | .outer a b, h => ⟨VExpr.Leaves.imp hv hm a h.1, VExpr.Leaves.imp hv hm b h.2⟩
  | .mul _ _, _ => trivial

mutual
/-- A well-formed expression only reads variables that are in scope. -/
theorem VExpr.leaves_of_pre {ρ : Env E} : ∀ e : VExpr E, e.Pre ρ →
    e.Leaves (fun y => (ρ.v y).isSome) (fun y => (ρ.m y).isSome)
  | .var _, h => h
  | .temp _ _, _ => trivial
  | .bin _ a b, h => ⟨VExpr.leaves_of_pre a h.1, VExpr.leaves_of_pre b h.2⟩
  | .scal _ a _, h => VExpr.leaves_of_pre a h
  | .neg a, h => VExpr.leaves_of_pre a h
  | .cross a b, h => ⟨VExpr.leaves_of_pre a h.1, VExpr.leaves_of_pre b h.2⟩
  | .sub a _, h => VExpr.leaves_of_pre a h.1
  | .row m _, h => MExpr.leaves_of_pre m h.1
  | .col m _, h => MExpr.leaves_of_pre m h.1
  | .mulMV _ _, _ => trivial
  | .mulVM _ _, _ => trivial
theorem MExpr.leaves_of_pre {ρ : Env E} : ∀ e : MExpr E, e.Pre ρ →
    e.Leaves (fun y => (ρ.v y).isSome) (fun y => (ρ.m y).isSome)
  | .var _, h => h
  | .temp _, _ => trivial
  | .bin _ a b, h => ⟨MExpr.leaves_of_pre a h.1, MExpr.leaves_of_pre b h.2⟩
  | .scal _ a _, h => MExpr.leaves_of_pre a h
  | .neg a, h => MExpr.leaves_of_pre a h
  | .transpose a, h => MExpr.leaves_of_pre a h
  | .outer a b, h => ⟨VExpr.leaves_of_pre a h.1, VExpr.leaves_of_pre b h.2⟩
  | .mul _ _, _ => trivial
end

/-- Evaluation of a well-formed expression. -/
theorem VExpr.Has.build {s : State E} {σ : Store E} (H : Holds s σ) {e : VExpr E} {p : VVal E}
    (h : e.Has σ p) : ∃ n, e.build s = .ok n ∧ VRep s n p ∧ n.Typed s false p.n := by
  obtain ⟨h1, h2, h3⟩ := h
  obtain ⟨a1, a2⟩ := VExpr.dyn_supported H.agree H.inv.allDyn e h1 h2
  obtain ⟨n, e1, e2, -⟩ := VExpr.build_ok H.agree e a1 p h3
  exact ⟨n, e1, e2, (a2 n e1).any _⟩

theorem MExpr.Has.build {s : State E} {σ : Store E} (H : Holds s σ) {e : MExpr E} {p : MVal E}
    (h : e.Has σ p) : ∃ n, e.build s = .ok n ∧ MRep s n p ∧ n.Typed s false ((p.r : Int), (p.c : Int)) := by
  obtain ⟨h1, h2, h3⟩ := h
  obtain ⟨a1, a2⟩ := MExpr.dyn_supported H.agree H.inv.allDyn e h1 h2
  obtain ⟨n, e1, e2, -⟩ := MExpr.build_ok H.agree e a1 p h3
  exact ⟨n, e1, e2, (a2 n e1).any _⟩

theorem VExpr.Bad.build {s : State E} {σ : Store E} (H : Holds s σ) {e : VExpr E} (h : e.Bad σ) :
    ∃ er, e.build s = .throw er ∧ (er.IsSize ∨ er = .invalidArgument ∧ e.NegLine) := by
  obtain ⟨h1, h2, h3⟩ := h
  exact VExpr.build_throw H.agree e (VExpr.dyn_supported H.agree H.inv.allDyn e h1 h2).1 h2 h3

theorem MExpr.Bad.build {s : State E} {σ : Store E} (H : Holds s σ) {e : MExpr E} (h : e.Bad σ) :
    ∃ er, e.build s = .throw er ∧ (er.IsSize ∨ er = .invalidArgument ∧ e.NegLine) := by
  obtain ⟨h1, h2, h3⟩ := h
  exact MExpr.build_throw H.agree e (MExpr.dyn_supported H.agree H.inv.allDyn e h1 h2).1 h2 h3

end CML
