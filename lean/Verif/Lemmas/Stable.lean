import Verif.Spec.Stable
import Verif.Lemmas.StaticSize

/-! `Regular` expressions are `Supported`. -/

set_option linter.unusedSectionVars false

namespace CML

variable {E : Type} [Add E] [Sub E] [Mul E] [Div E] [Neg E]

/-- A loop that appends one value per iteration. -/
theorem loop_append_length {body : Nat → Res E} : ∀ (n lo : Nat) (acc l : List E),
    Res.loop (fun i acc => do let m ← body i; pure (acc ++ [m])) lo n acc = .ok l →
      l.length = acc.length + n
  | 0, lo, acc, l, h => by
    simp only [Res.loop, Res.ok.injEq] at h
    simp [h]
  | n + 1, lo, acc, l, h => by
    simp only [Res.loop] at h
    obtain ⟨acc', h1, h⟩ := Res.bind_ok h
    obtain ⟨m, hm, h1⟩ := Res.bind_ok h1
    simp only [Res.pure_eq, Res.ok.injEq] at h1
    subst h1
    rw [loop_append_length n _ _ _ h]
    simp
    omega

theorem productRoom_inv {N n : Int} {u : Unit} (h : productRoom N n = .ok u) : n = N := by
  unfold productRoom at h
  split at h
  · cases h
  · split at h
    · cases h
    · omega

theorem productSize_pos {vc f : Bool} {N n : Int} {t : Bool × Int} (h : productSize vc f N n = .ok t)
    (hN : 0 < N) : t = (true, N) := by
  unfold productSize at h
  rw [if_pos hN, Res.ok.injEq] at h
  exact h.symm

theorem productDims_pos {f g : Bool} {r c r' c' : Int} {t : Bool × Nat × Nat}
    (h : productDims f g r c r' c' = .ok t) (ht : t.1 = true) : 0 < t.2.1 ∧ 0 < t.2.2 := by
  unfold productDims at h
  split at h
  · simp only [Res.ok.injEq] at h
    subst h
    simp only
    omega
  · split at h
    · cases h
    · simp only [Res.ok.injEq] at h
      subst h
      cases ht

theorem matVec_fixed {s : State E} {a : MNode E} {v : VNode E} {t : Bool × List E} {k : Int × Int}
    (h : matVec s a v = .ok t) (hk : a.sdims s = .ok k) (hp : 0 < k.1) :
    t.1 = true ∧ 0 < t.2.length := by
  unfold matVec at h
  obtain ⟨f, hf, h⟩ := Res.bind_ok h
  obtain ⟨_, _, h⟩ := Res.bind_ok h
  obtain ⟨_, _, h⟩ := Res.bind_ok h
  obtain ⟨_, _, h⟩ := Res.bind_ok h
  obtain ⟨_, _, h⟩ := Res.bind_ok h
  obtain ⟨da, _, h⟩ := Res.bind_ok h
  obtain ⟨_, _, h⟩ := Res.bind_ok h
  obtain ⟨_, _, h⟩ := Res.bind_ok h
  obtain ⟨_, hk', h⟩ := Res.bind_ok h
  rw [hk, Res.ok.injEq] at hk'
  subst hk'
  obtain ⟨u, hu, h⟩ := Res.bind_ok h
  have := productSize_pos hu hp
  subst this
  obtain ⟨_, hr, h⟩ := Res.bind_ok h
  obtain ⟨l, hl, h⟩ := Res.bind_ok h
  simp only [Res.pure_eq, Res.ok.injEq] at h
  subst h
  have e := productRoom_inv hr
  have e2 := loop_append_length _ _ _ _ hl
  simp only at e
  simp only [List.length_nil, Nat.zero_add] at e2
  exact ⟨rfl, by simp only; omega⟩

theorem vecMat_fixed {s : State E} {v : VNode E} {a : MNode E} {t : Bool × List E} {k : Int × Int}
    (h : vecMat s v a = .ok t) (hk : a.sdims s = .ok k) (hp : 0 < k.2) :
    t.1 = true ∧ 0 < t.2.length := by
  unfold vecMat at h
  obtain ⟨f, hf, h⟩ := Res.bind_ok h
  obtain ⟨_, _, h⟩ := Res.bind_ok h
  obtain ⟨_, _, h⟩ := Res.bind_ok h
  obtain ⟨_, _, h⟩ := Res.bind_ok h
  obtain ⟨_, _, h⟩ := Res.bind_ok h
  obtain ⟨_, _, h⟩ := Res.bind_ok h
  obtain ⟨_, _, h⟩ := Res.bind_ok h
  obtain ⟨_, _, h⟩ := Res.bind_ok h
  obtain ⟨_, hk', h⟩ := Res.bind_ok h
  rw [hk, Res.ok.injEq] at hk'
  subst hk'
  obtain ⟨u, hu, h⟩ := Res.bind_ok h
  have := productSize_pos hu hp
  subst this
  obtain ⟨_, hr, h⟩ := Res.bind_ok h
  obtain ⟨l, hl, h⟩ := Res.bind_ok h
  simp only [Res.pure_eq, Res.ok.injEq] at h
  subst h
  have e := productRoom_inv hr
  have e2 := loop_append_length _ _ _ _ hl
  simp only at e
  simp only [List.length_nil, Nat.zero_add] at e2
  exact ⟨rfl, by simp only; omega⟩

/-- The product of a dynamic matrix and a vector is a dynamic vector. -/
theorem matVec_dynamic {s : State E} {a : MNode E} {v : VNode E} {t : Bool × List E} {d : Int × Int}
    (h : matVec s a v = .ok t) (ht : a.Typed s false d) : t.1 = false := by
  unfold matVec at h
  obtain ⟨f, hf, h⟩ := Res.bind_ok h
  obtain ⟨_, _, h⟩ := Res.bind_ok h
  obtain ⟨_, _, h⟩ := Res.bind_ok h
  obtain ⟨_, _, h⟩ := Res.bind_ok h
  obtain ⟨_, _, h⟩ := Res.bind_ok h
  obtain ⟨_, _, h⟩ := Res.bind_ok h
  obtain ⟨_, _, h⟩ := Res.bind_ok h
  obtain ⟨vc, _, h⟩ := Res.bind_ok h
  obtain ⟨k, hk, h⟩ := Res.bind_ok h
  obtain ⟨k', hk', hk''⟩ := ht.sdims
  rw [hk, Res.ok.injEq] at hk'
  subst hk'
  rw [ht.fixed, Res.ok.injEq] at hf
  subst hf
  have := hk'' rfl
  subst this
  obtain ⟨u, hu, h⟩ := Res.bind_ok h
  simp [productSize] at hu
  subst hu
  obtain ⟨_, _, h⟩ := Res.bind_ok h
  obtain ⟨_, _, h⟩ := Res.bind_ok h
  simp only [Res.pure_eq, Res.ok.injEq] at h
  subst h
  rfl

theorem matVec_sdims {s : State E} {a : MNode E} {v : VNode E} {t : Bool × List E}
    (h : matVec s a v = .ok t) : ∃ k, a.sdims s = .ok k := by
  unfold matVec at h
  obtain ⟨f, hf, h⟩ := Res.bind_ok h
  obtain ⟨_, _, h⟩ := Res.bind_ok h
  obtain ⟨_, _, h⟩ := Res.bind_ok h
  obtain ⟨_, _, h⟩ := Res.bind_ok h
  obtain ⟨_, _, h⟩ := Res.bind_ok h
  obtain ⟨_, _, h⟩ := Res.bind_ok h
  obtain ⟨_, _, h⟩ := Res.bind_ok h
  obtain ⟨_, _, h⟩ := Res.bind_ok h
  obtain ⟨k, hk', h⟩ := Res.bind_ok h
  exact ⟨k, hk'⟩

theorem vecMat_sdims {s : State E} {a : MNode E} {v : VNode E} {t : Bool × List E}
    (h : vecMat s v a = .ok t) : ∃ k, a.sdims s = .ok k := by
  unfold vecMat at h
  obtain ⟨f, hf, h⟩ := Res.bind_ok h
  obtain ⟨_, _, h⟩ := Res.bind_ok h
  obtain ⟨_, _, h⟩ := Res.bind_ok h
  obtain ⟨_, _, h⟩ := Res.bind_ok h
  obtain ⟨_, _, h⟩ := Res.bind_ok h
  obtain ⟨_, _, h⟩ := Res.bind_ok h
  obtain ⟨_, _, h⟩ := Res.bind_ok h
  obtain ⟨_, _, h⟩ := Res.bind_ok h
  obtain ⟨k, hk', h⟩ := Res.bind_ok h
  exact ⟨k, hk'⟩

theorem matMul_type {s : State E} {a b : MNode E} {t : MTemp E} (h : matMul s a b = .ok t) :
    ∃ f g ka kb da db, a.fixed s = .ok f ∧ b.fixed s = .ok g ∧ a.sdims s = .ok ka ∧
      b.sdims s = .ok kb ∧
      productDims f g ka.1 kb.2 da db = .ok (t.fixed, t.rows, t.cols) := by
  unfold matMul at h
  obtain ⟨f, hf, h⟩ := Res.bind_ok h
  obtain ⟨g, hg, h⟩ := Res.bind_ok h
  obtain ⟨_, _, h⟩ := Res.bind_ok h
  obtain ⟨_, _, h⟩ := Res.bind_ok h
  obtain ⟨_, _, h⟩ := Res.bind_ok h
  obtain ⟨da, _, h⟩ := Res.bind_ok h
  obtain ⟨db, _, h⟩ := Res.bind_ok h
  obtain ⟨ka, hka, h⟩ := Res.bind_ok h
  obtain ⟨kb, hkb, h⟩ := Res.bind_ok h
  obtain ⟨u, hu, h⟩ := Res.bind_ok h
  obtain ⟨l, hl, h⟩ := Res.bind_ok h
  simp only [Res.pure_eq, Res.ok.injEq] at h
  subst h
  exact ⟨f, g, ka, kb, _, _, hf, hg, hka, hkb, hu⟩

theorem matMul_pos {s : State E} {a b : MNode E} {t : MTemp E} (h : matMul s a b = .ok t)
    (ht : t.fixed = true) : 0 < t.rows ∧ 0 < t.cols := by
  obtain ⟨f, g, ka, kb, da, db, -, -, -, -, hu⟩ := matMul_type h
  exact productDims_pos hu ht

theorem matMul_fixed {s : State E} {a b : MNode E} {t : MTemp E} (h : matMul s a b = .ok t)
    (ha : ∀ k, a.sdims s = .ok k → 0 < k.1) (hb : ∀ k, b.sdims s = .ok k → 0 < k.2) :
    t.fixed = true := by
  obtain ⟨f, g, ka, kb, da, db, -, -, hka, hkb, hu⟩ := matMul_type h
  unfold productDims at hu
  rw [if_pos ⟨ha _ hka, hb _ hkb⟩, Res.ok.injEq, Prod.mk.injEq] at hu
  exact hu.1.symm

mutual
theorem VExpr.fixed_and_pos {s : State E} : ∀ (e : VExpr E) (n : VNode E),
    e.build s = .ok n → e.IsFixed s →
      (∀ b, n.fixed s = .ok b → b = true) ∧ (∀ k, n.csize s = .ok k → 0 < k)
  | .var y, n, h, hl => by
    simp only [VExpr.build, Res.pure_eq, Res.ok.injEq] at h; subst h
    simp only [VExpr.IsFixed] at hl
    simp only [VNode.fixed, VNode.csize, State.vobj]
    cases hv : s.vec y with
    | none => simp
    | some v =>
      obtain ⟨h1, h2⟩ := hl v hv
      simp [h1, h2]
  | .temp f xs, n, h, hl => by
    simp only [VExpr.build, Res.pure_eq, Res.ok.injEq] at h; subst h
    simp only [VExpr.IsFixed] at hl
    have := List.length_pos_of_ne_nil hl.2
    simp [VNode.fixed, VNode.csize, hl.1, this]
  | .bin o a b, n, h, hl => by
    simp only [VExpr.build] at h
    obtain ⟨x, hx, h⟩ := Res.bind_ok h
    obtain ⟨y, hy, h⟩ := Res.bind_ok h
    obtain ⟨_, _, h⟩ := Res.bind_ok h
    simp only [Res.pure_eq, Res.ok.injEq] at h; subst h
    refine ⟨fun q hq => ?_, fun q hq => ?_⟩
    · simp only [VNode.fixed] at hq
      obtain ⟨f, hf, hq⟩ := Res.bind_ok hq
      obtain ⟨g, hg, hq⟩ := Res.bind_ok hq
      simp only [Res.pure_eq, Res.ok.injEq] at hq
      subst hq
      rcases hl with hl | hl
      · rw [(VExpr.fixed_and_pos a x hx hl).1 f hf]; rfl
      · rw [(VExpr.fixed_and_pos b y hy hl).1 g hg]; simp
    · simp only [VNode.csize] at hq
      obtain ⟨f, hf, hq⟩ := Res.bind_ok hq
      obtain ⟨g, hg, hq⟩ := Res.bind_ok hq
      simp only [Res.pure_eq, Res.ok.injEq] at hq
      subst hq
      rcases hl with hl | hl
      · have := (VExpr.fixed_and_pos a x hx hl).2 f hf; split <;> omega
      · have := (VExpr.fixed_and_pos b y hy hl).2 g hg; split <;> omega
  | .scal o a c, n, h, hl => by
    simp only [VExpr.build] at h
    obtain ⟨x, hx, h⟩ := Res.bind_ok h
    simp only [Res.pure_eq, Res.ok.injEq] at h; subst h
    simpa [VNode.fixed, VNode.csize] using VExpr.fixed_and_pos a x hx hl
  | .neg a, n, h, hl => by
    simp only [VExpr.build] at h
    obtain ⟨x, hx, h⟩ := Res.bind_ok h
    simp only [Res.pure_eq, Res.ok.injEq] at h; subst h
    simpa [VNode.fixed, VNode.csize] using VExpr.fixed_and_pos a x hx hl
  | .cross a b, n, h, hl => by
    simp only [VExpr.build] at h
    obtain ⟨x, hx, h⟩ := Res.bind_ok h
    obtain ⟨y, hy, h⟩ := Res.bind_ok h
    obtain ⟨_, _, h⟩ := Res.bind_ok h
    obtain ⟨_, _, h⟩ := Res.bind_ok h
    obtain ⟨_, _, h⟩ := Res.bind_ok h
    obtain ⟨_, _, h⟩ := Res.bind_ok h
    obtain ⟨_, _, h⟩ := Res.bind_ok h
    obtain ⟨_, _, h⟩ := Res.bind_ok h
    simp only [Res.pure_eq, Res.ok.injEq] at h; subst h
    refine ⟨fun q hq => ?_, fun q hq => ?_⟩
    · simp only [VNode.fixed] at hq
      obtain ⟨f, hf, hq⟩ := Res.bind_ok hq
      obtain ⟨g, hg, hq⟩ := Res.bind_ok hq
      simp only [Res.pure_eq, Res.ok.injEq] at hq
      subst hq
      rcases hl with hl | hl
      · rw [(VExpr.fixed_and_pos a x hx hl).1 f hf]; rfl
      · rw [(VExpr.fixed_and_pos b y hy hl).1 g hg]; simp
    · simp only [VNode.csize] at hq
      obtain ⟨f, hf, hq⟩ := Res.bind_ok hq
      obtain ⟨g, hg, hq⟩ := Res.bind_ok hq
      simp only [Res.pure_eq, Res.ok.injEq] at hq
      subst hq
      rcases hl with hl | hl
      · have := (VExpr.fixed_and_pos a x hx hl).2 f hf; split <;> omega
      · have := (VExpr.fixed_and_pos b y hy hl).2 g hg; split <;> omega
  | .sub a k, n, h, hl => by cases hl
  | .row m i, n, h, hl => by
    simp only [VExpr.build] at h
    obtain ⟨x, hx, h⟩ := Res.bind_ok h
    obtain ⟨_, _, h⟩ := Res.bind_ok h
    simp only [Res.pure_eq, Res.ok.injEq] at h; subst h
    obtain ⟨-, h2, -⟩ := MExpr.fixed_and_pos m x hx hl
    refine ⟨fun q hq => ?_, fun q hq => ?_⟩
    · simp only [VNode.fixed] at hq
      obtain ⟨c, hc, hq⟩ := Res.bind_ok hq
      obtain ⟨d, hd, hq⟩ := Res.bind_ok hq
      simp only [Res.pure_eq, Res.ok.injEq] at hq
      have := h2 d hd
      subst hq
      simp only [Bool.or_eq_true, decide_eq_true_eq]
      omega
    · simp only [VNode.csize] at hq
      obtain ⟨d, hd, hq⟩ := Res.bind_ok hq
      simp only [Res.pure_eq, Res.ok.injEq] at hq
      subst hq
      exact (h2 d hd).2
  | .col m i, n, h, hl => by
    simp only [VExpr.build] at h
    obtain ⟨x, hx, h⟩ := Res.bind_ok h
    obtain ⟨_, _, h⟩ := Res.bind_ok h
    simp only [Res.pure_eq, Res.ok.injEq] at h; subst h
    obtain ⟨-, h2, -⟩ := MExpr.fixed_and_pos m x hx hl
    refine ⟨fun q hq => ?_, fun q hq => ?_⟩
    · simp only [VNode.fixed] at hq
      obtain ⟨c, hc, hq⟩ := Res.bind_ok hq
      obtain ⟨d, hd, hq⟩ := Res.bind_ok hq
      simp only [Res.pure_eq, Res.ok.injEq] at hq
      have := h2 d hd
      subst hq
      simp only [Bool.or_eq_true, decide_eq_true_eq]
      omega
    · simp only [VNode.csize] at hq
      obtain ⟨d, hd, hq⟩ := Res.bind_ok hq
      simp only [Res.pure_eq, Res.ok.injEq] at hq
      subst hq
      exact (h2 d hd).1
  | .mulMV m v, n, h, hl => by
    simp only [VExpr.build] at h
    obtain ⟨x, hx, h⟩ := Res.bind_ok h
    obtain ⟨y, hy, h⟩ := Res.bind_ok h
    obtain ⟨t, ht, h⟩ := Res.bind_ok h
    simp only [Res.pure_eq, Res.ok.injEq] at h; subst h
    obtain ⟨-, -, h3⟩ := MExpr.fixed_and_pos m x hx hl
    obtain ⟨k, hk⟩ := matVec_sdims ht
    obtain ⟨e1, e2⟩ := matVec_fixed ht hk (h3 k hk).1
    simp [VNode.fixed, VNode.csize, e1, e2]
  | .mulVM v m, n, h, hl => by
    simp only [VExpr.build] at h
    obtain ⟨x, hx, h⟩ := Res.bind_ok h
    obtain ⟨y, hy, h⟩ := Res.bind_ok h
    obtain ⟨t, ht, h⟩ := Res.bind_ok h
    simp only [Res.pure_eq, Res.ok.injEq] at h; subst h
    obtain ⟨-, -, h3⟩ := MExpr.fixed_and_pos m y hy hl
    obtain ⟨k, hk⟩ := vecMat_sdims ht
    obtain ⟨e1, e2⟩ := vecMat_fixed ht hk (h3 k hk).2
    simp [VNode.fixed, VNode.csize, e1, e2]
theorem MExpr.fixed_and_pos {s : State E} : ∀ (e : MExpr E) (n : MNode E),
    e.build s = .ok n → e.IsFixed s →
      (∀ b, n.fixed s = .ok b → b = true) ∧ (∀ k, n.cdims s = .ok k → 0 < k.1 ∧ 0 < k.2) ∧
        (∀ k, n.sdims s = .ok k → 0 < k.1 ∧ 0 < k.2)
  | .var y, n, h, hl => by
    simp only [MExpr.build, Res.pure_eq, Res.ok.injEq] at h; subst h
    simp only [MExpr.IsFixed] at hl
    simp only [MNode.fixed, MNode.cdims, MNode.sdims, State.mobj]
    cases hv : s.mat y with
    | none => simp
    | some v =>
      obtain ⟨h1, h2, h3⟩ := hl v hv
      simp [h1, h2, h3]
  | .temp t, n, h, hl => by
    simp only [MExpr.build, Res.pure_eq, Res.ok.injEq] at h; subst h
    simp only [MExpr.IsFixed] at hl
    simp [MNode.fixed, MNode.cdims, MNode.sdims, hl]
  | .bin o a b, n, h, hl => by
    simp only [MExpr.build] at h
    obtain ⟨x, hx, h⟩ := Res.bind_ok h
    obtain ⟨y, hy, h⟩ := Res.bind_ok h
    obtain ⟨_, _, h⟩ := Res.bind_ok h
    simp only [Res.pure_eq, Res.ok.injEq] at h; subst h
    have key : ∀ q, (MNode.bin o x y).sdims s = .ok q → 0 < q.1 ∧ 0 < q.2 := by
      intro q hq
      simp only [MNode.sdims] at hq
      obtain ⟨f, hf, hq⟩ := Res.bind_ok hq
      obtain ⟨g, hg, hq⟩ := Res.bind_ok hq
      simp only [Res.pure_eq, Res.ok.injEq] at hq
      subst hq
      rcases hl with hl | hl
      · have := (MExpr.fixed_and_pos a x hx hl).2.2 f hf
        constructor <;> split <;> omega
      · have := (MExpr.fixed_and_pos b y hy hl).2.2 g hg
        constructor <;> split <;> omega
    refine ⟨fun q hq => ?_, ?_, key⟩
    · simp only [MNode.fixed] at hq
      obtain ⟨f, hf, hq⟩ := Res.bind_ok hq
      obtain ⟨g, hg, hq⟩ := Res.bind_ok hq
      simp only [Res.pure_eq, Res.ok.injEq] at hq
      subst hq
      rcases hl with hl | hl
      · rw [(MExpr.fixed_and_pos a x hx hl).1 f hf]; rfl
      · rw [(MExpr.fixed_and_pos b y hy hl).1 g hg]; simp
    · simpa only [MNode.cdims, MNode.sdims] using key
  | .scal o a c, n, h, hl => by
    simp only [MExpr.build] at h
    obtain ⟨x, hx, h⟩ := Res.bind_ok h
    simp only [Res.pure_eq, Res.ok.injEq] at h; subst h
    simpa only [MNode.fixed, MNode.cdims, MNode.sdims] using MExpr.fixed_and_pos a x hx hl
  | .neg a, n, h, hl => by
    simp only [MExpr.build] at h
    obtain ⟨x, hx, h⟩ := Res.bind_ok h
    simp only [Res.pure_eq, Res.ok.injEq] at h; subst h
    simpa only [MNode.fixed, MNode.cdims, MNode.sdims] using MExpr.fixed_and_pos a x hx hl
  | .transpose a, n, h, hl => by
    simp only [MExpr.build] at h
    obtain ⟨x, hx, h⟩ := Res.bind_ok h
    simp only [Res.pure_eq, Res.ok.injEq] at h; subst h
    obtain ⟨h1, h2, h3⟩ := MExpr.fixed_and_pos a x hx hl
    refine ⟨by simpa only [MNode.fixed] using h1, fun q hq => ?_, by simpa only [MNode.sdims] using h3⟩
    simp only [MNode.cdims] at hq
    obtain ⟨d, hd, hq⟩ := Res.bind_ok hq
    simp only [Res.pure_eq, Res.ok.injEq] at hq
    subst hq
    exact (h2 d hd).symm
  | .outer a b, n, h, hl => by
    simp only [MExpr.build] at h
    obtain ⟨x, hx, h⟩ := Res.bind_ok h
    obtain ⟨y, hy, h⟩ := Res.bind_ok h
    simp only [Res.pure_eq, Res.ok.injEq] at h; subst h
    obtain ⟨a1, a2⟩ := VExpr.fixed_and_pos a x hx hl.1
    obtain ⟨b1, b2⟩ := VExpr.fixed_and_pos b y hy hl.2
    have key : ∀ q, (MNode.outer x y).sdims s = .ok q → 0 < q.1 ∧ 0 < q.2 := by
      intro q hq
      simp only [MNode.sdims] at hq
      obtain ⟨f, hf, hq⟩ := Res.bind_ok hq
      obtain ⟨g, hg, hq⟩ := Res.bind_ok hq
      simp only [Res.pure_eq, Res.ok.injEq] at hq
      subst hq
      exact ⟨a2 f hf, b2 g hg⟩
    refine ⟨fun q hq => ?_, ?_, key⟩
    · simp only [MNode.fixed] at hq
      obtain ⟨f, hf, hq⟩ := Res.bind_ok hq
      obtain ⟨g, hg, hq⟩ := Res.bind_ok hq
      simp only [Res.pure_eq, Res.ok.injEq] at hq
      subst hq
      rw [a1 f hf]; rfl
    · simpa only [MNode.cdims, MNode.sdims] using key
  | .mul a b, n, h, hl => by
    simp only [MExpr.build] at h
    obtain ⟨x, hx, h⟩ := Res.bind_ok h
    obtain ⟨y, hy, h⟩ := Res.bind_ok h
    obtain ⟨t, ht, h⟩ := Res.bind_ok h
    simp only [Res.pure_eq, Res.ok.injEq] at h; subst h
    have hf : t.fixed = true := matMul_fixed ht
      (fun k hk => ((MExpr.fixed_and_pos a x hx hl.1).2.2 k hk).1)
      (fun k hk => ((MExpr.fixed_and_pos b y hy hl.2).2.2 k hk).2)
    have hp := matMul_pos ht hf
    simp [MNode.fixed, MNode.cdims, MNode.sdims, hf, hp]
end

mutual
theorem VExpr.movedSize_of_stable {s : State E} : ∀ (e : VExpr E) (n : VNode E),
    e.build s = .ok n → e.Stable s → n.movedSize s = n.size s
  | .var y, n, h, hl => by
    simp only [VExpr.build, Res.pure_eq, Res.ok.injEq] at h; subst h
    simp [VNode.movedSize, VNode.size]
  | .temp f xs, n, h, hl => by
    simp only [VExpr.build, Res.pure_eq, Res.ok.injEq] at h; subst h
    simp only [VExpr.Stable] at hl
    simp [VNode.movedSize, VNode.size, hl]
  | .bin o a b, n, h, hl => by
    simp only [VExpr.build] at h
    obtain ⟨x, hx, h⟩ := Res.bind_ok h
    obtain ⟨y, hy, h⟩ := Res.bind_ok h
    obtain ⟨_, _, h⟩ := Res.bind_ok h
    simp only [Res.pure_eq, Res.ok.injEq] at h; subst h
    simpa [VNode.movedSize, VNode.size] using VExpr.movedSize_of_stable a x hx hl
  | .scal o a c, n, h, hl => by
    simp only [VExpr.build] at h
    obtain ⟨x, hx, h⟩ := Res.bind_ok h
    simp only [Res.pure_eq, Res.ok.injEq] at h; subst h
    simpa [VNode.movedSize, VNode.size] using VExpr.movedSize_of_stable a x hx hl
  | .neg a, n, h, hl => by
    simp only [VExpr.build] at h
    obtain ⟨x, hx, h⟩ := Res.bind_ok h
    simp only [Res.pure_eq, Res.ok.injEq] at h; subst h
    simpa [VNode.movedSize, VNode.size] using VExpr.movedSize_of_stable a x hx hl
  | .cross a b, n, h, hl => by
    simp only [VExpr.build] at h
    obtain ⟨x, hx, h⟩ := Res.bind_ok h
    obtain ⟨y, hy, h⟩ := Res.bind_ok h
    obtain ⟨_, _, h⟩ := Res.bind_ok h
    obtain ⟨_, _, h⟩ := Res.bind_ok h
    obtain ⟨_, _, h⟩ := Res.bind_ok h
    obtain ⟨_, _, h⟩ := Res.bind_ok h
    obtain ⟨_, _, h⟩ := Res.bind_ok h
    obtain ⟨_, _, h⟩ := Res.bind_ok h
    simp only [Res.pure_eq, Res.ok.injEq] at h; subst h
    simp [VNode.movedSize, VNode.size]
  | .sub a k, n, h, hl => by
    simp only [VExpr.build] at h
    obtain ⟨x, hx, h⟩ := Res.bind_ok h
    simp only [Res.pure_eq, Res.ok.injEq] at h; subst h
    simp [VNode.movedSize, VNode.size, VExpr.movedSize_of_stable a x hx hl]
  | .row m i, n, h, hl => by
    simp only [VExpr.build] at h
    obtain ⟨x, hx, h⟩ := Res.bind_ok h
    obtain ⟨_, _, h⟩ := Res.bind_ok h
    simp only [Res.pure_eq, Res.ok.injEq] at h; subst h
    simp [VNode.movedSize, VNode.size, MExpr.movedDims_of_stable m x hx hl]
  | .col m i, n, h, hl => by
    simp only [VExpr.build] at h
    obtain ⟨x, hx, h⟩ := Res.bind_ok h
    obtain ⟨_, _, h⟩ := Res.bind_ok h
    simp only [Res.pure_eq, Res.ok.injEq] at h; subst h
    simp [VNode.movedSize, VNode.size, MExpr.movedDims_of_stable m x hx hl]
  | .mulMV m v, n, h, hl => by
    simp only [VExpr.build] at h
    obtain ⟨x, hx, h⟩ := Res.bind_ok h
    obtain ⟨y, hy, h⟩ := Res.bind_ok h
    obtain ⟨t, ht, h⟩ := Res.bind_ok h
    simp only [Res.pure_eq, Res.ok.injEq] at h; subst h
    obtain ⟨k, hk⟩ := matVec_sdims ht
    have := (matVec_fixed ht hk ((MExpr.fixed_and_pos m x hx hl).2.2 k hk).1).1
    simp [VNode.movedSize, VNode.size, this]
  | .mulVM v m, n, h, hl => by
    simp only [VExpr.build] at h
    obtain ⟨x, hx, h⟩ := Res.bind_ok h
    obtain ⟨y, hy, h⟩ := Res.bind_ok h
    obtain ⟨t, ht, h⟩ := Res.bind_ok h
    simp only [Res.pure_eq, Res.ok.injEq] at h; subst h
    obtain ⟨k, hk⟩ := vecMat_sdims ht
    have := (vecMat_fixed ht hk ((MExpr.fixed_and_pos m y hy hl).2.2 k hk).2).1
    simp [VNode.movedSize, VNode.size, this]
theorem MExpr.movedDims_of_stable {s : State E} : ∀ (e : MExpr E) (n : MNode E),
    e.build s = .ok n → e.Stable s → n.movedDims s = n.dims s
  | .var y, n, h, hl => by
    simp only [MExpr.build, Res.pure_eq, Res.ok.injEq] at h; subst h
    simp [MNode.movedDims, MNode.dims]
  | .temp t, n, h, hl => by
    simp only [MExpr.build, Res.pure_eq, Res.ok.injEq] at h; subst h
    simp only [MExpr.Stable] at hl
    simp [MNode.movedDims, MNode.dims, hl]
  | .bin o a b, n, h, hl => by
    simp only [MExpr.build] at h
    obtain ⟨x, hx, h⟩ := Res.bind_ok h
    obtain ⟨y, hy, h⟩ := Res.bind_ok h
    obtain ⟨_, _, h⟩ := Res.bind_ok h
    simp only [Res.pure_eq, Res.ok.injEq] at h; subst h
    simpa [MNode.movedDims, MNode.dims] using MExpr.movedDims_of_stable a x hx hl
  | .scal o a c, n, h, hl => by
    simp only [MExpr.build] at h
    obtain ⟨x, hx, h⟩ := Res.bind_ok h
    simp only [Res.pure_eq, Res.ok.injEq] at h; subst h
    simpa [MNode.movedDims, MNode.dims] using MExpr.movedDims_of_stable a x hx hl
  | .neg a, n, h, hl => by
    simp only [MExpr.build] at h
    obtain ⟨x, hx, h⟩ := Res.bind_ok h
    simp only [Res.pure_eq, Res.ok.injEq] at h; subst h
    simpa [MNode.movedDims, MNode.dims] using MExpr.movedDims_of_stable a x hx hl
  | .transpose a, n, h, hl => by
    simp only [MExpr.build] at h
    obtain ⟨x, hx, h⟩ := Res.bind_ok h
    simp only [Res.pure_eq, Res.ok.injEq] at h; subst h
    simp [MNode.movedDims, MNode.dims, MExpr.movedDims_of_stable a x hx hl]
  | .outer a b, n, h, hl => by
    simp only [MExpr.build] at h
    obtain ⟨x, hx, h⟩ := Res.bind_ok h
    obtain ⟨y, hy, h⟩ := Res.bind_ok h
    simp only [Res.pure_eq, Res.ok.injEq] at h; subst h
    simp [MNode.movedDims, MNode.dims, VExpr.movedSize_of_stable a x hx hl.1,
      VExpr.movedSize_of_stable b y hy hl.2]
  | .mul a b, n, h, hl => by
    simp only [MExpr.build] at h
    obtain ⟨x, hx, h⟩ := Res.bind_ok h
    obtain ⟨y, hy, h⟩ := Res.bind_ok h
    obtain ⟨t, ht, h⟩ := Res.bind_ok h
    simp only [Res.pure_eq, Res.ok.injEq] at h; subst h
    have : t.fixed = true := matMul_fixed ht
      (fun k hk => ((MExpr.fixed_and_pos a x hx hl.1).2.2 k hk).1)
      (fun k hk => ((MExpr.fixed_and_pos b y hy hl.2).2.2 k hk).2)
    simp [MNode.movedDims, MNode.dims, this]
end

theorem crossSafe_operand {s : State E} (e : VExpr E) (x : VNode E) (hx : e.build s = .ok x)
    (h : e.IsFixed s ∨ e.Stable s) :
    (∀ f, x.fixed s = .ok f → f = true) ∨ x.movedSize s = x.size s :=
  h.imp (fun h => (VExpr.fixed_and_pos e x hx h).1) (VExpr.movedSize_of_stable e x hx)

/-- Upright expressions have upright storage types. -/
theorem MExpr.straight_of_upright {s : State E} : ∀ e : MExpr E, e.Supported s → e.Upright s →
    e.Straight s
  | .var y, _, hu, x, hx => by
    simp only [MExpr.build, Res.pure_eq, Res.ok.injEq] at hx; subst hx
    simp only [MExpr.Upright] at hu
    intro hf
    simp only [MNode.fixed, State.mobj] at hf
    cases hv : s.mat y with
    | none => simp [hv] at hf
    | some m =>
      have hf' : m.fixed = true := by simpa [hv] using hf
      have := hu m hv hf'
      exact ⟨((m.rows : Int), (m.cols : Int)), by simp [MNode.dims, State.mobj, hv],
        by simp [MNode.sdims, State.mobj, hv, hf'], by simpa using this⟩
  | .temp t, _, hu, x, hx => by
    simp only [MExpr.build, Res.pure_eq, Res.ok.injEq] at hx; subst hx
    simp only [MExpr.Upright] at hu
    intro hf
    have hf' : t.fixed = true := by simpa [MNode.fixed] using hf
    exact ⟨((t.rows : Int), (t.cols : Int)), rfl, by simp [MNode.sdims, hf'], by simpa using hu hf'⟩
  | .bin o a b, hs, hu, x, h => by
    intro hf
    have hs' := hs
    simp only [MExpr.Supported] at hs
    simp only [MExpr.build] at h
    obtain ⟨p, hp, h⟩ := Res.bind_ok h
    obtain ⟨q, hq, h⟩ := Res.bind_ok h
    obtain ⟨_, hc, h⟩ := Res.bind_ok h
    simp only [Res.pure_eq, Res.ok.injEq] at h; subst h
    simp only [MNode.fixed] at hf
    obtain ⟨f1, hf1, hf⟩ := Res.bind_ok hf
    obtain ⟨f2, hf2, hf⟩ := Res.bind_ok hf
    simp only [Res.pure_eq, Res.ok.injEq] at hf
    obtain ⟨n, hn, t1, z1⟩ := MExpr.typed a hs.1 p hp f1 hf1
    obtain ⟨k, hk, t2, z2⟩ := MExpr.typed b hs.2.1 q hq f2 hf2
    have := checkSameDims_inv hc t1 t2 hn hk
    subst this
    obtain ⟨s1, p1⟩ := t1.straight hn (hs.2.2.1 p hp)
    obtain ⟨s2, p2⟩ := t2.straight hk (hs.2.2.2 q hq)
    have hz : (f1 || f2) = true → 0 < n.1 ∧ 0 < n.2 := by
      intro h
      simp only [Bool.or_eq_true] at h
      exact h.elim p1 p2
    have := (t1.bin o t2 s1 s2 (fun h => ⟨(hz h).1.le, (hz h).2.le⟩)).2
    rw [hf] at this hz
    exact ⟨n, by simp [MNode.dims, hn], by simpa using this, hz rfl⟩
  | .scal o a c, hs, hu, x, h => by
    simp only [MExpr.build] at h
    obtain ⟨p, hp, h⟩ := Res.bind_ok h
    simp only [Res.pure_eq, Res.ok.injEq] at h; subst h
    simpa only [MNode.Straight, MNode.fixed, MNode.dims, MNode.sdims]
      using MExpr.straight_of_upright a hs hu p hp
  | .neg a, hs, hu, x, h => by
    simp only [MExpr.build] at h
    obtain ⟨p, hp, h⟩ := Res.bind_ok h
    simp only [Res.pure_eq, Res.ok.injEq] at h; subst h
    simpa only [MNode.Straight, MNode.fixed, MNode.dims, MNode.sdims]
      using MExpr.straight_of_upright a hs hu p hp
  | .transpose a, hs, hu, x, h => by
    simp only [MExpr.build] at h
    obtain ⟨p, hp, h⟩ := Res.bind_ok h
    simp only [Res.pure_eq, Res.ok.injEq] at h; subst h
    intro hf
    simp only [MExpr.Upright] at hu
    simp only [MNode.fixed] at hf
    rcases hu.2 p hp with h | ⟨n, hn⟩
    · rw [hf] at h; simp at h
    · obtain ⟨d, h1, h2, h3⟩ := MExpr.straight_of_upright a hs hu.1 p hp hf
      rw [hn, Res.ok.injEq] at h1
      subst h1
      exact ⟨(n, n), by simp [MNode.dims, hn], by simp [MNode.sdims, h2], h3⟩
  | .outer a b, hs, hu, x, h => by
    simp only [MExpr.Supported] at hs
    simp only [MExpr.Upright] at hu
    simp only [MExpr.build] at h
    obtain ⟨p, hp, h⟩ := Res.bind_ok h
    obtain ⟨q, hq, h⟩ := Res.bind_ok h
    simp only [Res.pure_eq, Res.ok.injEq] at h; subst h
    intro hf
    simp only [MNode.fixed] at hf
    obtain ⟨f1, hf1, hf⟩ := Res.bind_ok hf
    obtain ⟨f2, hf2, hf⟩ := Res.bind_ok hf
    simp only [Res.pure_eq, Res.ok.injEq] at hf
    have e := hs.2.2 p q hp hq
    rw [hf1, hf2, Res.ok.injEq] at e
    subst e
    obtain ⟨n, hn, t1, z1⟩ := VExpr.typed a hs.1 p hp f1 hf1
    obtain ⟨k, hk, t2, z2⟩ := VExpr.typed b hs.2.1 q hq f1 hf2
    rw [Bool.or_self] at hf
    subst hf
    exact ⟨(n, k), by simp [MNode.dims, hn, hk], by simp [MNode.sdims, t1.csize, t2.csize],
      hu.1 p n hp hn, hu.2 q k hq hk⟩
  | .mul a b, hs, hu, x, h => by
    simp only [MExpr.build] at h
    obtain ⟨p, hp, h⟩ := Res.bind_ok h
    obtain ⟨q, hq, h⟩ := Res.bind_ok h
    obtain ⟨t, ht, h⟩ := Res.bind_ok h
    simp only [Res.pure_eq, Res.ok.injEq] at h; subst h
    intro hf
    have hf' : t.fixed = true := by simpa [MNode.fixed] using hf
    exact ⟨((t.rows : Int), (t.cols : Int)), rfl, by simp [MNode.sdims, hf'],
      by simpa using matMul_pos ht hf'⟩

mutual
theorem VExpr.supported_of_regular {s : State E} : ∀ e : VExpr E, e.Regular s → e.Supported s
  | .var _, _ => trivial
  | .temp _ _, _ => trivial
  | .bin _ a b, h => ⟨VExpr.supported_of_regular a h.1, VExpr.supported_of_regular b h.2⟩
  | .scal _ a _, h => VExpr.supported_of_regular a h
  | .neg a, h => VExpr.supported_of_regular a h
  | .cross a b, h => ⟨VExpr.supported_of_regular a h.1, VExpr.supported_of_regular b h.2.1,
      fun x hx => crossSafe_operand a x hx h.2.2.1, fun x hx => crossSafe_operand b x hx h.2.2.2⟩
  | .sub a _, h => ⟨VExpr.supported_of_regular a h.1, h.2⟩
  | .row m _, h => MExpr.supported_of_regular m h
  | .col m _, h => MExpr.supported_of_regular m h
  | .mulMV m v, h => ⟨MExpr.supported_of_regular m h.1, VExpr.supported_of_regular v h.2.1,
      MExpr.straight_of_upright m (MExpr.supported_of_regular m h.1) h.2.2⟩
  | .mulVM v m, h => ⟨VExpr.supported_of_regular v h.1, MExpr.supported_of_regular m h.2.1,
      MExpr.straight_of_upright m (MExpr.supported_of_regular m h.2.1) h.2.2⟩
theorem MExpr.supported_of_regular {s : State E} : ∀ e : MExpr E, e.Regular s → e.Supported s
  | .var _, _ => trivial
  | .temp _, _ => trivial
  | .bin _ a b, h => ⟨MExpr.supported_of_regular a h.1, MExpr.supported_of_regular b h.2.1,
      MExpr.straight_of_upright a (MExpr.supported_of_regular a h.1) h.2.2.1,
      MExpr.straight_of_upright b (MExpr.supported_of_regular b h.2.1) h.2.2.2⟩
  | .scal _ a _, h => MExpr.supported_of_regular a h
  | .neg a, h => MExpr.supported_of_regular a h
  | .transpose a, h => MExpr.supported_of_regular a h
  | .outer a b, h => ⟨VExpr.supported_of_regular a h.1, VExpr.supported_of_regular b h.2.1, h.2.2⟩
  | .mul a b, h => ⟨MExpr.supported_of_regular a h.1, MExpr.supported_of_regular b h.2.1,
      MExpr.straight_of_upright a (MExpr.supported_of_regular a h.1) h.2.2.1,
      MExpr.straight_of_upright b (MExpr.supported_of_regular b h.2.1) h.2.2.2⟩
end

end CML
