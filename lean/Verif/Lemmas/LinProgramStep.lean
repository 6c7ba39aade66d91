import Verif.Lemmas.LinProgram

/-! Programs with linear algebra: the element-wise mutators and the transpose. -/

namespace CML

set_option linter.unusedSectionVars false

section
variable {E : Type} [Add E] [Sub E] [Mul E] [Div E] [Neg E]

theorem Out.Post.content {s s' : State E} {o : Out (State E)} {Q : State E → Prop} (h : o.Post (Content s) Q)
    (e : o = .ok s') : Content s s' := by
  rw [e] at h
  exact h

theorem Out.Quiet.weak {s : State E} {o : Out (State E)} (h : o.Quiet s) : o.Post (Content s) (fun _ => True) :=
  h.mono (fun _ h => h) (fun _ _ => trivial)

theorem does_vZero [Zero E] {s : State E} {σ : Store E} (H : Holds s σ) {x : Nat} {c : VCont E}
    (hx : σ.v x = some c) : (CML.vZero true s x).Does s σ (σ.setV x (some (.of ⟨c.n, fun _ => 0⟩))) :=
  (does_vFill H (r := .val 0) hx rfl).out

theorem does_mZero [Zero E] {s : State E} {σ : Store E} (H : Holds s σ) {x : Nat} {c : MCont E}
    (hx : σ.m x = some c) :
    (CML.mZero true s x).Does s σ (σ.setM x (some (.of c.colMajor c.colBasis ⟨c.r, c.c, fun _ _ => 0⟩))) :=
  (does_mFill H (r := .val 0) hx rfl).out

theorem does_vCardinal [Zero E] [One E] {s : State E} {σ : Store E} (H : Holds s σ) {x i : Nat} {c : VCont E}
    (hi : i < c.n) (hx : σ.v x = some c) :
    (CML.vCardinal true s x i).Does s σ (σ.setV x (some (.of ⟨c.n, Pi.single ⟨i, hi⟩ 1⟩))) := by
  obtain ⟨d, d1, d2, -⟩ := H.vec hx
  obtain ⟨a1, a2, a3, a4⟩ := H.inv.vec_alloc d1
  obtain ⟨n, f⟩ := c
  simp only at d2 hi
  subst d2
  obtain ⟨h', e1, e2, e3⟩ := vcardinal_spec (triv := true) d1 (Owned.ready a4 a3) ⟨i, hi⟩
  have hq : (CML.vCardinal true s x i).Post (Content s) (fun _ => True) :=
    (storeLoop_quiet (.refl s) fun _ _ => .ok _).weak.andThen fun s' hs => (vPut_quiet true s s' hs x i 1).weak
  exact .okV H d1 e1 ((hq.content e1).touches e3) (.of_rep e2)

theorem does_mIdentity [Zero E] [One E] {s : State E} {σ : Store E} (H : Holds s σ) {x : Nat} {c : MCont E}
    (hx : σ.m x = some c) :
    (CML.mIdentity true s x).Does s σ (σ.setM x (some (.of c.colMajor c.colBasis
      ⟨c.r, c.c, fun i j => if (i : Nat) = j then 1 else 0⟩))) := by
  obtain ⟨d, d1, d2, d3, d4, d5, -⟩ := H.mat hx
  obtain ⟨a1, a2, a3, a4⟩ := H.inv.mat_alloc d1
  obtain ⟨cm, cb, r, k, f⟩ := c
  simp only at d2 d3 d4 d5
  subst d2; subst d3; subst d4; subst d5
  obtain ⟨h', e1, e2, e3⟩ := midentity_spec (triv := true) d1 (Owned.ready (d := d.flat) a4 a3)
  have hq : (CML.mIdentity true s x).Post (Content s) (fun _ => True) :=
    (mStore_quiet (.refl s) fun _ _ _ => .ok _).weak
  exact .okM H d1 e1 ((hq.content e1).touches e3) (.of_rep e2 d1)

theorem does_vExtremize [LinearOrder E] {lower : Bool} {s : State E} {σ : Store E} (H : Holds s σ) {x n : Nat}
    {e : VExpr E} {c : VCont E} {q p : Fin n → E} (hx : σ.v x = some c) (hq : c.val? = some ⟨n, q⟩)
    (he : e.Has σ ⟨n, p⟩) (ha : e.Ahead (fun _ => True) (· ≠ x) (fun _ => True)) :
    (stmtExtremize true lower s x e).Does s σ (σ.setV x (some (.of
      ⟨n, fun i => if lower then min (q i) (p i) else max (q i) (p i)⟩))) := by
  obtain ⟨d, d1, d2, -⟩ := H.vec hx
  obtain ⟨a1, a2, a3, a4⟩ := H.inv.vec_alloc d1
  obtain ⟨m, b1, b2, b3⟩ := he.build H
  have hq' : VRep s (.var x) ⟨n, q⟩ := by
    have := H.v x
    rw [hx] at this
    exact this.rep hq
  have hal : m.Ahead (VAhead s d) (VDisj s d) (MDisj s d) :=
    VExpr.build_ahead e m b1 (VExpr.Ahead.imp (fun y _ => H.inv.vahead d1 y) (fun y hy => H.inv.vdisj' d1 hy)
      (fun y _ => H.inv.mdisjV d1 y) e ha)
  obtain ⟨h', e1, e2, e3⟩ := vExtremize_ok (triv := true) (lower := lower) d1 b2 hq' b3 rfl (Owned.ready a4 a3) hal
  have hst : stmtExtremize true lower s x e = vExtremize true lower s x m := by simp [stmtExtremize, b1]
  have hpost : (vExtremize true lower s x m).Post (Content s) (fun _ => True) := by
    refine .withVal (fun _ _ => (storeLoop_quiet (.refl s) fun s i => ?_).weak) fun _ _ => trivial
    exact .bind (VNode.get_noThrow s _ i) fun _ => .bind (VNode.get_noThrow s _ i) fun _ => .ok _
  rw [hst]
  refine .okV H d1 e1 ((hpost.content e1).touches e3) (.of_rep ⟨?_, fun i => ?_⟩)
  · have := hq'.size
    simpa [VNode.size, State.vobj, d1] using this
  · have := e2 i
    simpa [VNode.get, State.vobj, d1] using this

theorem does_mSetRow [Zero E] {s : State E} {σ : Store E} (H : Holds s σ) {x i : Nat} {e : VExpr E} {c : MCont E}
    {p : Fin c.c → E} (hi : i < c.r) (hx : σ.m x = some c) (he : e.Has σ ⟨c.c, p⟩)
    (hl : e.Leaves (fun _ => True) (· ≠ x) ∨ ∃ k, e = .row (.var x) k) :
    (Out.withVal (e.build s) s fun n => CML.mSetRow true s x i n).Does s σ
      (σ.setM x (some ⟨c.colMajor, c.colBasis, c.r, c.c, fun i' j =>
        if (i' : Nat) = i then some (p j) else c.f i' j⟩)) := by
  obtain ⟨d, d1, d2, d3, d4, d5, d6⟩ := H.mat hx
  obtain ⟨a1, a2, a3, a4⟩ := H.inv.mat_alloc d1
  obtain ⟨m, b1, b2, b3⟩ := he.build H
  obtain ⟨cm, cb, r, k, f⟩ := c
  simp only at d2 d3 d4 d5 p hi d6 he b2 b3 ⊢
  subst d2; subst d3; subst d4; subst d5
  have hl' : m.Leaves (VDisj s d.flat) (MDisj s d.flat) ∨ ∃ i', m = .row (.var x) i' := by
    rcases hl with hl | ⟨k, rfl⟩
    · exact Or.inl (VExpr.build_leaves e m b1 (VExpr.Leaves.imp (fun y _ => H.inv.vdisjM d1 y)
        (fun y hy => H.inv.mdisj' d1 hy) e hl))
    · right
      simp only [VExpr.build, MExpr.build] at b1
      obtain ⟨_, h1, b1⟩ := Res.bind_ok b1
      obtain ⟨_, h2, b1⟩ := Res.bind_ok b1
      cases h1
      cases b1
      exact ⟨_, rfl⟩
  obtain ⟨s', e1, e2⟩ := set_row_spec (triv := true) d1 (Owned.ready (d := d.flat) a4 a3) hi p ⟨false, b3⟩ b2 hl'
  have W := e2 (fun _ j => if hj : j < d.cols then p ⟨j, hj⟩ else 0) (fun j => by simp)
  have hq : (CML.mSetRow true s x i m).Post (Content s) (fun _ => True) := by
    refine .withVal (fun _ _ => .withVal (fun _ _ => .withVal (fun _ _ => .withVal (fun _ _ =>
      .loop (fun k s' h' => ?_) (.refl s)) fun _ _ => trivial) fun _ _ => trivial) fun _ _ => trivial)
      fun _ _ => trivial
    exact .withVal (fun a _ => (mPut_quiet true s s' h' x i k a).weak) fun _ _ => trivial
  have T := (hq.content e1).touches W.outside
  have hm : s'.mat x = some d := (congrFun T.mat x).trans d1
  refine .okM H d1 (by rw [b1, Out.withVal_ok, e1]) T ⟨d, hm, rfl, rfl, rfl, rfl, fun i' j e he => ?_⟩
  simp only at he
  · split at he <;> rename_i hi'
    · cases he
      have := W.wrote i' j hi' i'.2 j.2
      rw [MNode.var_get_eq hm] at this
      simpa using this
    · have := W.kept i' j hi' i'.2 j.2
      rw [MNode.var_get_eq hm, MNode.var_get_eq d1] at this
      exact this.trans (d6 i' j e he)

theorem does_mSetCol [Zero E] {s : State E} {σ : Store E} (H : Holds s σ) {x j : Nat} {e : VExpr E} {c : MCont E}
    {p : Fin c.r → E} (hj : j < c.c) (hx : σ.m x = some c) (he : e.Has σ ⟨c.r, p⟩)
    (hl : e.Leaves (fun _ => True) (· ≠ x) ∨ ∃ k, e = .col (.var x) k) :
    (Out.withVal (e.build s) s fun n => CML.mSetCol true s x j n).Does s σ
      (σ.setM x (some ⟨c.colMajor, c.colBasis, c.r, c.c, fun i j' =>
        if (j' : Nat) = j then some (p i) else c.f i j'⟩)) := by
  obtain ⟨d, d1, d2, d3, d4, d5, d6⟩ := H.mat hx
  obtain ⟨a1, a2, a3, a4⟩ := H.inv.mat_alloc d1
  obtain ⟨m, b1, b2, b3⟩ := he.build H
  obtain ⟨cm, cb, r, k, f⟩ := c
  simp only at d2 d3 d4 d5 p hj d6 he b2 b3 ⊢
  subst d2; subst d3; subst d4; subst d5
  have hl' : m.Leaves (VDisj s d.flat) (MDisj s d.flat) ∨ ∃ i', m = .col (.var x) i' := by
    rcases hl with hl | ⟨k, rfl⟩
    · exact Or.inl (VExpr.build_leaves e m b1 (VExpr.Leaves.imp (fun y _ => H.inv.vdisjM d1 y)
        (fun y hy => H.inv.mdisj' d1 hy) e hl))
    · right
      simp only [VExpr.build, MExpr.build] at b1
      obtain ⟨_, h1, b1⟩ := Res.bind_ok b1
      obtain ⟨_, h2, b1⟩ := Res.bind_ok b1
      cases h1
      cases b1
      exact ⟨_, rfl⟩
  obtain ⟨s', e1, e2⟩ := set_col_spec (triv := true) d1 (Owned.ready (d := d.flat) a4 a3) hj p ⟨false, b3⟩ b2 hl'
  have W := e2 (fun i _ => if hi : i < d.rows then p ⟨i, hi⟩ else 0) (fun j => by simp)
  have hq : (CML.mSetCol true s x j m).Post (Content s) (fun _ => True) := by
    refine .withVal (fun _ _ => .withVal (fun _ _ => .withVal (fun _ _ => .withVal (fun _ _ =>
      .loop (fun k s' h' => ?_) (.refl s)) fun _ _ => trivial) fun _ _ => trivial) fun _ _ => trivial)
      fun _ _ => trivial
    exact .withVal (fun a _ => (mPut_quiet true s s' h' x k j a).weak) fun _ _ => trivial
  have T := (hq.content e1).touches W.outside
  have hm : s'.mat x = some d := (congrFun T.mat x).trans d1
  refine .okM H d1 (by rw [b1, Out.withVal_ok, e1]) T ⟨d, hm, rfl, rfl, rfl, rfl, fun i' j e he => ?_⟩
  simp only at he
  · split at he <;> rename_i hi'
    · cases he
      have := W.wrote i' j hi' i'.2 j.2
      rw [MNode.var_get_eq hm] at this
      simpa using this
    · have := W.kept i' j hi' i'.2 j.2
      rw [MNode.var_get_eq hm, MNode.var_get_eq d1] at this
      exact this.trans (d6 i' j e he)

end

end CML
