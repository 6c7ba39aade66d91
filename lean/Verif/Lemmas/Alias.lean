import Verif.Spec.Alias
import Verif.Lemmas.ExprBuild
import Verif.Lemmas.Resize

/-! Reads that are unaffected by earlier writes. -/

set_option linter.unusedSectionVars false

namespace CML

variable {E : Type} [Add E] [Sub E] [Mul E] [Div E] [Neg E]

theorem Res.bind_ok {α β : Type} {x : Res α} {f : α → Res β} {b : β} (h : (x >>= f) = .ok b) :
    ∃ a, x = .ok a ∧ f a = .ok b := by
  cases x with
  | ok a => exact ⟨a, rfl, h⟩
  | throw e => cases h
  | ub u => cases h

mutual
theorem VNode.get_mono {s s' : State E} {PV PM : Nat → Prop}
    (hV : ∀ y, PV y → ∀ j v, (VNode.var y : VNode E).get s j = .ok v → (VNode.var y : VNode E).get s' j = .ok v)
    (hM : ∀ y, PM y → ∀ i j v, (MNode.var y : MNode E).get s i j = .ok v → (MNode.var y : MNode E).get s' i j = .ok v) :
    ∀ n : VNode E, n.Leaves PV PM → ∀ j v, n.get s j = .ok v → n.get s' j = .ok v
  | .var y, hl, j, v, h => hV y hl j v h
  | .temp _ xs, _, j, v, h => by simpa [VNode.get] using h
  | .bin o a b, hl, j, v, h => by
    simp only [VNode.Leaves] at hl
    simp only [VNode.get] at h ⊢
    obtain ⟨p, hp, h⟩ := Res.bind_ok h
    obtain ⟨q, hq, h⟩ := Res.bind_ok h
    simp [VNode.get_mono hV hM a hl.1 j p hp, VNode.get_mono hV hM b hl.2 j q hq] at h ⊢
    exact h
  | .scal o a c, hl, j, v, h => by
    simp only [VNode.Leaves] at hl
    simp only [VNode.get] at h ⊢
    obtain ⟨p, hp, h⟩ := Res.bind_ok h
    simp [VNode.get_mono hV hM a hl j p hp] at h ⊢
    exact h
  | .neg a, hl, j, v, h => by
    simp only [VNode.Leaves] at hl
    simp only [VNode.get] at h ⊢
    obtain ⟨p, hp, h⟩ := Res.bind_ok h
    simp [VNode.get_mono hV hM a hl j p hp] at h ⊢
    exact h
  | .cross a b, hl, j, v, h => by
    simp only [VNode.Leaves] at hl
    simp only [VNode.get] at h ⊢
    obtain ⟨p, hp, h⟩ := Res.bind_ok h
    obtain ⟨q, hq, h⟩ := Res.bind_ok h
    obtain ⟨p', hp', h⟩ := Res.bind_ok h
    obtain ⟨q', hq', h⟩ := Res.bind_ok h
    simp [VNode.get_mono hV hM a hl.1 _ p hp, VNode.get_mono hV hM b hl.2 _ q hq,
      VNode.get_mono hV hM a hl.1 _ p' hp', VNode.get_mono hV hM b hl.2 _ q' hq'] at h ⊢
    exact h
  | .sub a k, hl, j, v, h => by
    simp only [VNode.Leaves] at hl
    simp only [VNode.get] at h ⊢
    exact VNode.get_mono hV hM a hl _ v h
  | .row m i, hl, j, v, h => by
    simp only [VNode.Leaves] at hl
    simp only [VNode.get] at h ⊢
    exact MNode.get_mono hV hM m hl _ _ v h
  | .col m i, hl, j, v, h => by
    simp only [VNode.Leaves] at hl
    simp only [VNode.get] at h ⊢
    exact MNode.get_mono hV hM m hl _ _ v h
theorem MNode.get_mono {s s' : State E} {PV PM : Nat → Prop}
    (hV : ∀ y, PV y → ∀ j v, (VNode.var y : VNode E).get s j = .ok v → (VNode.var y : VNode E).get s' j = .ok v)
    (hM : ∀ y, PM y → ∀ i j v, (MNode.var y : MNode E).get s i j = .ok v → (MNode.var y : MNode E).get s' i j = .ok v) :
    ∀ n : MNode E, n.Leaves PV PM → ∀ i j v, n.get s i j = .ok v → n.get s' i j = .ok v
  | .var y, hl, i, j, v, h => hM y hl i j v h
  | .temp t, _, i, j, v, h => by simpa [MNode.get] using h
  | .bin o a b, hl, i, j, v, h => by
    simp only [MNode.Leaves] at hl
    simp only [MNode.get] at h ⊢
    obtain ⟨p, hp, h⟩ := Res.bind_ok h
    obtain ⟨q, hq, h⟩ := Res.bind_ok h
    simp [MNode.get_mono hV hM a hl.1 i j p hp, MNode.get_mono hV hM b hl.2 i j q hq] at h ⊢
    exact h
  | .scal o a c, hl, i, j, v, h => by
    simp only [MNode.Leaves] at hl
    simp only [MNode.get] at h ⊢
    obtain ⟨p, hp, h⟩ := Res.bind_ok h
    simp [MNode.get_mono hV hM a hl i j p hp] at h ⊢
    exact h
  | .neg a, hl, i, j, v, h => by
    simp only [MNode.Leaves] at hl
    simp only [MNode.get] at h ⊢
    obtain ⟨p, hp, h⟩ := Res.bind_ok h
    simp [MNode.get_mono hV hM a hl i j p hp] at h ⊢
    exact h
  | .transpose a, hl, i, j, v, h => by
    simp only [MNode.Leaves] at hl
    simp only [MNode.get] at h ⊢
    exact MNode.get_mono hV hM a hl _ _ v h
  | .outer a b, hl, i, j, v, h => by
    simp only [MNode.Leaves] at hl
    simp only [MNode.get] at h ⊢
    obtain ⟨p, hp, h⟩ := Res.bind_ok h
    obtain ⟨q, hq, h⟩ := Res.bind_ok h
    simp [VNode.get_mono hV hM a hl.1 i p hp, VNode.get_mono hV hM b hl.2 j q hq] at h ⊢
    exact h
end

theorem VNode.get_ahead {s s' : State E} {PA PV PM : Nat → Prop} {k : Nat}
    (hA : ∀ y, PA y → ∀ j v, k ≤ j → (VNode.var y : VNode E).get s j = .ok v → (VNode.var y : VNode E).get s' j = .ok v)
    (hV : ∀ y, PV y → ∀ j v, (VNode.var y : VNode E).get s j = .ok v → (VNode.var y : VNode E).get s' j = .ok v)
    (hM : ∀ y, PM y → ∀ i j v, (MNode.var y : MNode E).get s i j = .ok v → (MNode.var y : MNode E).get s' i j = .ok v) :
    ∀ n : VNode E, n.Ahead PA PV PM → ∀ j v, k ≤ j → n.get s j = .ok v → n.get s' j = .ok v
  | .var y, hl, j, v, hk, h => hA y hl j v hk h
  | .temp _ xs, _, j, v, hk, h => by simpa [VNode.get] using h
  | .bin o a b, hl, j, v, hk, h => by
    simp only [VNode.Ahead] at hl
    simp only [VNode.get] at h ⊢
    obtain ⟨p, hp, h⟩ := Res.bind_ok h
    obtain ⟨q, hq, h⟩ := Res.bind_ok h
    simp [VNode.get_ahead hA hV hM a hl.1 j p hk hp, VNode.get_ahead hA hV hM b hl.2 j q hk hq] at h ⊢
    exact h
  | .scal o a c, hl, j, v, hk, h => by
    simp only [VNode.Ahead] at hl
    simp only [VNode.get] at h ⊢
    obtain ⟨p, hp, h⟩ := Res.bind_ok h
    simp [VNode.get_ahead hA hV hM a hl j p hk hp] at h ⊢
    exact h
  | .neg a, hl, j, v, hk, h => by
    simp only [VNode.Ahead] at hl
    simp only [VNode.get] at h ⊢
    obtain ⟨p, hp, h⟩ := Res.bind_ok h
    simp [VNode.get_ahead hA hV hM a hl j p hk hp] at h ⊢
    exact h
  | .cross a b, hl, j, v, _, h => by
    simp only [VNode.Ahead] at hl
    exact VNode.get_mono hV hM (.cross a b) hl j v h
  | .sub a q, hl, j, v, hk, h => by
    simp only [VNode.Ahead] at hl
    simp only [VNode.get] at h ⊢
    exact VNode.get_ahead hA hV hM a hl _ v (by split <;> omega) h
  | .row m i, hl, j, v, _, h => by
    simp only [VNode.Ahead] at hl
    exact VNode.get_mono hV hM (.row m i) hl j v h
  | .col m i, hl, j, v, _, h => by
    simp only [VNode.Ahead] at hl
    exact VNode.get_mono hV hM (.col m i) hl j v h

mutual
theorem VExpr.build_leaves {s : State E} {PV PM : Nat → Prop} : ∀ (e : VExpr E) (n : VNode E),
    e.build s = .ok n → e.Leaves PV PM → n.Leaves PV PM
  | .var y, n, h, hl => by
    simp only [VExpr.build, Res.pure_eq, Res.ok.injEq] at h; subst h; exact hl
  | .temp _ xs, n, h, hl => by
    simp only [VExpr.build, Res.pure_eq, Res.ok.injEq] at h; subst h; simp [VNode.Leaves]
  | .bin o a b, n, h, hl => by
    simp only [VExpr.build] at h
    obtain ⟨x, hx, h⟩ := Res.bind_ok h
    obtain ⟨y, hy, h⟩ := Res.bind_ok h
    obtain ⟨_, _, h⟩ := Res.bind_ok h
    simp only [Res.pure_eq, Res.ok.injEq] at h; subst h
    exact ⟨VExpr.build_leaves a x hx hl.1, VExpr.build_leaves b y hy hl.2⟩
  | .scal o a c, n, h, hl => by
    simp only [VExpr.build] at h
    obtain ⟨x, hx, h⟩ := Res.bind_ok h
    simp only [Res.pure_eq, Res.ok.injEq] at h; subst h
    exact VExpr.build_leaves a x hx hl
  | .neg a, n, h, hl => by
    simp only [VExpr.build] at h
    obtain ⟨x, hx, h⟩ := Res.bind_ok h
    simp only [Res.pure_eq, Res.ok.injEq] at h; subst h
    exact VExpr.build_leaves a x hx hl
  | .cross a b, n, h, hl => by
    simp only [VExpr.build] at h
    obtain ⟨x, hx, h⟩ := Res.bind_ok h
    obtain ⟨y, hy, h⟩ := Res.bind_ok h
    obtain ⟨_, _, h⟩ := Res.bind_ok h
    obtain ⟨_, _, h⟩ := Res.bind_ok h
    obtain ⟨_, _, h⟩ := Res.bind_ok h
    obtain ⟨_, _, h⟩ := Res.bind_ok h
    obtain ⟨_, _, h⟩ := Res.bind_ok h
    obtain ⟨_, _, h⟩ := Res.bind_ok h
    simp only [Res.pure_eq, Res.ok.injEq] at h; subst h
    exact ⟨VExpr.build_leaves a x hx hl.1, VExpr.build_leaves b y hy hl.2⟩
  | .sub a k, n, h, hl => by
    simp only [VExpr.build] at h
    obtain ⟨x, hx, h⟩ := Res.bind_ok h
    simp only [Res.pure_eq, Res.ok.injEq] at h; subst h
    exact VExpr.build_leaves a x hx hl
  | .row m i, n, h, hl => by
    simp only [VExpr.build] at h
    obtain ⟨x, hx, h⟩ := Res.bind_ok h
    obtain ⟨_, _, h⟩ := Res.bind_ok h
    simp only [Res.pure_eq, Res.ok.injEq] at h; subst h
    exact MExpr.build_leaves m x hx hl
  | .col m i, n, h, hl => by
    simp only [VExpr.build] at h
    obtain ⟨x, hx, h⟩ := Res.bind_ok h
    obtain ⟨_, _, h⟩ := Res.bind_ok h
    simp only [Res.pure_eq, Res.ok.injEq] at h; subst h
    exact MExpr.build_leaves m x hx hl
  | .mulMV m v, n, h, _ => by
    simp only [VExpr.build] at h
    obtain ⟨x, hx, h⟩ := Res.bind_ok h
    obtain ⟨y, hy, h⟩ := Res.bind_ok h
    obtain ⟨t, _, h⟩ := Res.bind_ok h
    simp only [Res.pure_eq, Res.ok.injEq] at h; subst h; simp [VNode.Leaves]
  | .mulVM v m, n, h, _ => by
    simp only [VExpr.build] at h
    obtain ⟨x, hx, h⟩ := Res.bind_ok h
    obtain ⟨y, hy, h⟩ := Res.bind_ok h
    obtain ⟨t, _, h⟩ := Res.bind_ok h
    simp only [Res.pure_eq, Res.ok.injEq] at h; subst h; simp [VNode.Leaves]
theorem MExpr.build_leaves {s : State E} {PV PM : Nat → Prop} : ∀ (e : MExpr E) (n : MNode E),
    e.build s = .ok n → e.Leaves PV PM → n.Leaves PV PM
  | .var y, n, h, hl => by
    simp only [MExpr.build, Res.pure_eq, Res.ok.injEq] at h; subst h; exact hl
  | .temp t, n, h, hl => by
    simp only [MExpr.build, Res.pure_eq, Res.ok.injEq] at h; subst h; simp [MNode.Leaves]
  | .bin o a b, n, h, hl => by
    simp only [MExpr.build] at h
    obtain ⟨x, hx, h⟩ := Res.bind_ok h
    obtain ⟨y, hy, h⟩ := Res.bind_ok h
    obtain ⟨_, _, h⟩ := Res.bind_ok h
    simp only [Res.pure_eq, Res.ok.injEq] at h; subst h
    exact ⟨MExpr.build_leaves a x hx hl.1, MExpr.build_leaves b y hy hl.2⟩
  | .scal o a c, n, h, hl => by
    simp only [MExpr.build] at h
    obtain ⟨x, hx, h⟩ := Res.bind_ok h
    simp only [Res.pure_eq, Res.ok.injEq] at h; subst h
    exact MExpr.build_leaves a x hx hl
  | .neg a, n, h, hl => by
    simp only [MExpr.build] at h
    obtain ⟨x, hx, h⟩ := Res.bind_ok h
    simp only [Res.pure_eq, Res.ok.injEq] at h; subst h
    exact MExpr.build_leaves a x hx hl
  | .transpose a, n, h, hl => by
    simp only [MExpr.build] at h
    obtain ⟨x, hx, h⟩ := Res.bind_ok h
    simp only [Res.pure_eq, Res.ok.injEq] at h; subst h
    exact MExpr.build_leaves a x hx hl
  | .outer a b, n, h, hl => by
    simp only [MExpr.build] at h
    obtain ⟨x, hx, h⟩ := Res.bind_ok h
    obtain ⟨y, hy, h⟩ := Res.bind_ok h
    simp only [Res.pure_eq, Res.ok.injEq] at h; subst h
    exact ⟨VExpr.build_leaves a x hx hl.1, VExpr.build_leaves b y hy hl.2⟩
  | .mul a b, n, h, _ => by
    simp only [MExpr.build] at h
    obtain ⟨x, hx, h⟩ := Res.bind_ok h
    obtain ⟨y, hy, h⟩ := Res.bind_ok h
    obtain ⟨t, _, h⟩ := Res.bind_ok h
    simp only [Res.pure_eq, Res.ok.injEq] at h; subst h; simp [MNode.Leaves]
end

theorem VExpr.build_ahead {s : State E} {PA PV PM : Nat → Prop} : ∀ (e : VExpr E) (n : VNode E),
    e.build s = .ok n → e.Ahead PA PV PM → n.Ahead PA PV PM
  | .var y, n, h, hl => by
    simp only [VExpr.build, Res.pure_eq, Res.ok.injEq] at h; subst h; exact hl
  | .temp _ xs, n, h, hl => by
    simp only [VExpr.build, Res.pure_eq, Res.ok.injEq] at h; subst h; simp [VNode.Ahead]
  | .bin o a b, n, h, hl => by
    simp only [VExpr.build] at h
    obtain ⟨x, hx, h⟩ := Res.bind_ok h
    obtain ⟨y, hy, h⟩ := Res.bind_ok h
    obtain ⟨_, _, h⟩ := Res.bind_ok h
    simp only [Res.pure_eq, Res.ok.injEq] at h; subst h
    exact ⟨VExpr.build_ahead a x hx hl.1, VExpr.build_ahead b y hy hl.2⟩
  | .scal o a c, n, h, hl => by
    simp only [VExpr.build] at h
    obtain ⟨x, hx, h⟩ := Res.bind_ok h
    simp only [Res.pure_eq, Res.ok.injEq] at h; subst h
    exact VExpr.build_ahead a x hx hl
  | .neg a, n, h, hl => by
    simp only [VExpr.build] at h
    obtain ⟨x, hx, h⟩ := Res.bind_ok h
    simp only [Res.pure_eq, Res.ok.injEq] at h; subst h
    exact VExpr.build_ahead a x hx hl
  | .cross a b, n, h, hl => by
    simp only [VExpr.build] at h
    obtain ⟨x, hx, h⟩ := Res.bind_ok h
    obtain ⟨y, hy, h⟩ := Res.bind_ok h
    obtain ⟨_, _, h⟩ := Res.bind_ok h
    obtain ⟨_, _, h⟩ := Res.bind_ok h
    obtain ⟨_, _, h⟩ := Res.bind_ok h
    obtain ⟨_, _, h⟩ := Res.bind_ok h
    obtain ⟨_, _, h⟩ := Res.bind_ok h
    obtain ⟨_, _, h⟩ := Res.bind_ok h
    simp only [Res.pure_eq, Res.ok.injEq] at h; subst h
    exact ⟨VExpr.build_leaves a x hx hl.1, VExpr.build_leaves b y hy hl.2⟩
  | .sub a k, n, h, hl => by
    simp only [VExpr.build] at h
    obtain ⟨x, hx, h⟩ := Res.bind_ok h
    simp only [Res.pure_eq, Res.ok.injEq] at h; subst h
    exact VExpr.build_ahead a x hx hl
  | .row m i, n, h, hl => by
    simp only [VExpr.build] at h
    obtain ⟨x, hx, h⟩ := Res.bind_ok h
    obtain ⟨_, _, h⟩ := Res.bind_ok h
    simp only [Res.pure_eq, Res.ok.injEq] at h; subst h
    exact MExpr.build_leaves m x hx hl
  | .col m i, n, h, hl => by
    simp only [VExpr.build] at h
    obtain ⟨x, hx, h⟩ := Res.bind_ok h
    obtain ⟨_, _, h⟩ := Res.bind_ok h
    simp only [Res.pure_eq, Res.ok.injEq] at h; subst h
    exact MExpr.build_leaves m x hx hl
  | .mulMV m v, n, h, _ => by
    simp only [VExpr.build] at h
    obtain ⟨x, hx, h⟩ := Res.bind_ok h
    obtain ⟨y, hy, h⟩ := Res.bind_ok h
    obtain ⟨t, _, h⟩ := Res.bind_ok h
    simp only [Res.pure_eq, Res.ok.injEq] at h; subst h; simp [VNode.Ahead]
  | .mulVM v m, n, h, _ => by
    simp only [VExpr.build] at h
    obtain ⟨x, hx, h⟩ := Res.bind_ok h
    obtain ⟨y, hy, h⟩ := Res.bind_ok h
    obtain ⟨t, _, h⟩ := Res.bind_ok h
    simp only [Res.pure_eq, Res.ok.injEq] at h; subst h; simp [VNode.Ahead]

/-! ### Reads of variables after a partial store -/

theorem VNode.var_get {s : State E} {y j : Nat} {v : E} :
    (VNode.var y : VNode E).get s j = .ok v ↔
      ∃ w b, s.vec y = some w ∧ w.data = some b ∧ j < w.size ∧
        s.heap.cell b (w.off + j) = some (some v) := by
  unfold VNode.get State.vobj
  cases hv : s.vec y with
  | none => simp
  | some w =>
    simp only [Res.ok_bind, Option.some.injEq, exists_and_left, exists_eq_left', VObj.get]
    cases hd : w.data with
    | none => simp
    | some b =>
      by_cases hj : j < w.size
      · simp only [hj, if_true, Heap.read_eq_ok, Option.some.injEq, true_and, exists_eq_left']
      · simp [hj]

theorem MNode.var_get {s : State E} {y i j : Nat} {v : E} :
    (MNode.var y : MNode E).get s i j = .ok v ↔
      ∃ w b, s.mat y = some w ∧ w.data = some b ∧ i < w.rows ∧ j < w.cols ∧
        s.heap.cell b (w.off + w.index i j) = some (some v) := by
  unfold MNode.get State.mobj
  cases hv : s.mat y with
  | none => simp
  | some w =>
    simp only [Res.ok_bind, Option.some.injEq, exists_and_left, exists_eq_left', MObj.get]
    cases hd : w.data with
    | none => simp
    | some b =>
      by_cases hj : i < w.rows ∧ j < w.cols
      · simp only [hj, and_self, if_true, Heap.read_eq_ok, Option.some.injEq, true_and,
          exists_eq_left']
      · simp only [if_neg hj, Option.some.injEq, exists_eq_left']
        constructor
        · intro h; cases h
        · rintro ⟨h1, h2, -⟩; exact absurd ⟨h1, h2⟩ hj

/-- The linear index of an existing element lies inside the matrix. -/
theorem MObj.index_lt {m : MObj} {i j : Nat} (hi : i < m.rows) (hj : j < m.cols) :
    m.index i j < m.rows * m.cols := by
  unfold MObj.index
  split
  · have : (j + 1) * m.rows ≤ m.cols * m.rows := Nat.mul_le_mul_right _ hj
    rw [Nat.add_mul, Nat.mul_comm m.cols] at this
    omega
  · have : (i + 1) * m.cols ≤ m.rows * m.cols := Nat.mul_le_mul_right _ hi
    rw [Nat.add_mul] at this
    omega

section Stored
variable {s s' : State E} {d : VObj} {b k : Nat} {g : Nat → E}

theorem var_get_disj (hv : s'.vec = s.vec) (hb : d.data = some b) (hk : k ≤ d.size)
    (hst : Stored s.heap s'.heap b d.off k g) {y : Nat} (hy : VDisj s d y) {j : Nat} {v : E}
    (h : (VNode.var y : VNode E).get s j = .ok v) : (VNode.var y : VNode E).get s' j = .ok v := by
  rw [VNode.var_get] at h ⊢
  obtain ⟨w, b', h1, h2, h3, h4⟩ := h
  refine ⟨w, b', by rw [hv, h1], h2, h3, ?_⟩
  rw [hst.frame, h4]
  rcases hy w h1 with h | h | h
  · left; rintro rfl; exact h (by rw [h2, hb])
  · omega
  · omega

theorem var_get_ahead (hv : s'.vec = s.vec) (hb : d.data = some b) (hk : k ≤ d.size)
    (hst : Stored s.heap s'.heap b d.off k g) {y : Nat} (hy : VAhead s d y) {j : Nat} {v : E}
    (hj : k ≤ j)
    (h : (VNode.var y : VNode E).get s j = .ok v) : (VNode.var y : VNode E).get s' j = .ok v := by
  rw [VNode.var_get] at h ⊢
  obtain ⟨w, b', h1, h2, h3, h4⟩ := h
  refine ⟨w, b', by rw [hv, h1], h2, h3, ?_⟩
  rw [hst.frame, h4]
  rcases hy w h1 with (h | h | h) | h
  · left; rintro rfl; exact h (by rw [h2, hb])
  · omega
  · omega
  · omega

theorem mvar_get_disj (hm : s'.mat = s.mat) (hb : d.data = some b) (hk : k ≤ d.size)
    (hst : Stored s.heap s'.heap b d.off k g) {y : Nat} (hy : MDisj s d y) {i j : Nat} {v : E}
    (h : (MNode.var y : MNode E).get s i j = .ok v) : (MNode.var y : MNode E).get s' i j = .ok v := by
  rw [MNode.var_get] at h ⊢
  obtain ⟨w, b', h1, h2, h3, h3', h4⟩ := h
  refine ⟨w, b', by rw [hm, h1], h2, h3, h3', ?_⟩
  rw [hst.frame, h4]
  have := MObj.index_lt h3 h3'
  rcases hy w h1 with h | h | h
  · left; rintro rfl; exact h (by rw [h2, hb])
  · omega
  · omega

end Stored

end CML
