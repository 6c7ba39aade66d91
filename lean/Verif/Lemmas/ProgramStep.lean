import Verif.Lemmas.Program
import Verif.Lemmas.Append
import Verif.Props.VecConst
import Verif.Props.Storage
import Verif.Props.Assign

/-! Every statement of a program does to the memory what it means for the store. -/

namespace CML

set_option linter.unusedSectionVars false

variable {E : Type} [Add E] [Sub E] [Mul E] [Div E] [Neg E]

/-- The statement does what it means, or stops because there is no memory, with nothing changed. -/
def Op.Does (s : State E) (σ : Store E) (o : Op E) (σ' : Store E) : Prop :=
  (∃ s', o.run true s = .ok s' ∧ Holds s' σ') ∨
    (s.heap.fail s.heap.tick = true ∧ ∃ s', o.run true s = .throw .badAlloc s' ∧ Holds s' σ)

theorem Holds.doesV {s : State E} {σ : Store E} (H : Holds s σ) {o : Op E} (hf : o.NameFree s) {x : Nat}
    {c : Option (VCont E)} (ht : ∀ k, o.Targets k ↔ k = .inl x)
    (h : (∃ s', o.run true s = .ok s' ∧ VHolds s' x c) ∨
      (s.heap.fail s.heap.tick = true ∧ ∃ s', o.run true s = .throw .badAlloc s')) :
    o.Does s σ (σ.setV x c) := by
  rcases h with ⟨s', e, hx⟩ | ⟨hal, s', e⟩
  · exact Or.inl ⟨s', e, H.stepV hf e ht hx⟩
  · exact Or.inr ⟨hal, s', e, H.thrown hf e⟩

theorem Holds.doesM {s : State E} {σ : Store E} (H : Holds s σ) {o : Op E} (hf : o.NameFree s) {x : Nat}
    {c : Option (MCont E)} (ht : ∀ k, o.Targets k ↔ k = .inr x)
    (h : (∃ s', o.run true s = .ok s' ∧ MHolds s' x c) ∨
      (s.heap.fail s.heap.tick = true ∧ ∃ s', o.run true s = .throw .badAlloc s')) :
    o.Does s σ (σ.setM x c) := by
  rcases h with ⟨s', e, hx⟩ | ⟨hal, s', e⟩
  · exact Or.inl ⟨s', e, H.stepM hf e ht hx⟩
  · exact Or.inr ⟨hal, s', e, H.thrown hf e⟩

/-! ### Vectors -/

/-- `resize`, `resize_fast`: what the array holds afterwards. -/
theorem vResizeWith_does {copy : Bool} {s : State E} (I : Inv s) {x : Nat} {d : VObj} (hx : s.vec x = some d)
    (n : Nat) :
    (∃ s' d', vResizeWith copy true s x n = .ok s' ∧ s'.vec x = some d' ∧ d'.size = n ∧
      ∀ i e, i < n → (copy = true ∨ n = d.size) → d.get s.heap i = .ok e → d'.get s'.heap i = .ok e) ∨
    (s.heap.fail s.heap.tick = true ∧ ∃ s', vResizeWith copy true s x n = .throw .badAlloc s') := by
  obtain ⟨a1, a2, a3, a4⟩ := I.vec_alloc hx
  have h0 : ¬ ((n : Int) < 0) := by omega
  by_cases hne : n = d.size
  · left
    refine ⟨s, d, ?_, hx, hne.symm, fun i e _ _ h => h⟩
    simp only [vResizeWith, State.vobj, hx, Out.withVal_ok, if_neg h0, Int.toNat_natCast, if_pos hne]
  · cases hal : s.heap.fail s.heap.tick with
    | true =>
      right
      refine ⟨rfl, s.tickd, ?_⟩
      simp only [vResizeWith, State.vobj, hx, Out.withVal_ok, if_neg h0, Int.toNat_natCast, if_neg hne,
        Heap.alloc, hal]
      rfl
    | false =>
      left
      obtain ⟨h', l', e, e1, e2, e3, -⟩ := vResizeWith_ok (copy := copy) (triv := true)
        (n := (n : Int)) hx (by omega) (by simpa using hne) hal (I.fresh _ (le_refl _)) a4
        (fun _ => Or.inl rfl)
      rw [Int.toNat_natCast] at e e2 e3
      refine ⟨_, { d with data := some s.heap.next, size := n }, e, by simp [State.setVec], rfl, ?_⟩
      intro i v hi hc hg
      rcases hc with rfl | hc
      · have hid : i < d.size := by
          by_contra hid
          unfold VObj.get at hg
          cases hd : d.data <;> simp [hd, hid] at hg
        rcases a4 with ⟨-, hz⟩ | ⟨b, l, h1, h2, h3⟩
        · omega
        · have hil : i < l.length := by omega
          have := e3 i hi
          simp only [hid, and_self, if_true, h1, Option.bind_some, Heap.cell, h2, hil,
            List.getElem?_eq_getElem, Option.getD_some] at this
          rw [← hg]
          simp only [VObj.get, h1, hi, hid, if_true, State.setVec_heap, a3, Nat.zero_add, Heap.read, e1, this, h2,
            hil, List.getElem?_eq_getElem]
      · exact absurd hc hne

theorem ctor_ok_iff {x : Nat} {o : Out (State E)} {s' : State E} (h : o = .ok s') : ctor x o = .ok s' := by
  subst h; rfl

theorem ctor_throw {x : Nat} {o : Out (State E)} {s' : State E} {e : Err} (h : o = .throw e s') :
    ctor x o = .throw e (s'.setVec x none) := by subst h; rfl

theorem mctor_ok_iff {x : Nat} {o : Out (State E)} {s' : State E} (h : o = .ok s') : mctor x o = .ok s' := by
  subst h; rfl

theorem mctor_throw {x : Nat} {o : Out (State E)} {s' : State E} {e : Err} (h : o = .throw e s') :
    mctor x o = .throw e (s'.setMat x none) := by subst h; rfl

theorem does_vDefault {s : State E} {σ : Store E} (H : Holds s σ) {x : Nat} (hx : σ.v x = none) :
    (Op.vDefault x).Does s σ (σ.setV x (some ⟨0, fun _ => none⟩)) :=
  H.doesV (o := .vDefault x) (H.vnone hx) (fun _ => Iff.rfl)
    (Or.inl ⟨_, rfl, _, vDefault_vec s x, rfl, fun i => i.elim0⟩)

theorem does_vNew {s : State E} {σ : Store E} (H : Holds s σ) {x n : Nat} (hx : σ.v x = none) :
    (Op.vNew x n).Does s σ (σ.setV x (some ⟨n, fun _ => none⟩)) := by
  refine H.doesV (o := .vNew x n) (H.vnone hx) (fun _ => Iff.rfl) ?_
  rcases vResizeWith_does (copy := false) (vDefault_inv H.inv (H.vnone hx)) (vDefault_vec s x) n with
    ⟨s', d', e1, e2, e3, -⟩ | ⟨hal, s', e⟩
  · exact Or.inl ⟨s', ctor_ok_iff e1, d', e2, e3, fun i e he => by cases he⟩
  · exact Or.inr ⟨hal, _, ctor_throw e⟩

/-- Assignment to a dynamic vector. -/
theorem vAssign_does {s : State E} (I : Inv s) {x : Nat} {d : VObj} (hx : s.vec x = some d) {n : VNode E}
    {p : VVal E} (hr : VRep s n p)
    (hsame : p.n = d.size → n.Typed s false p.n ∧ n.Ahead (VAhead s d) (VDisj s d) (MDisj s d))
    (hl : p.n ≠ d.size → n.Leaves (VKept s x d) (MKept s d)) :
    (∃ s', vAssign true s x n = .ok s' ∧ VRep s' (.var x) p) ∨
    (s.heap.fail s.heap.tick = true ∧ ∃ s', vAssign true s x n = .throw .badAlloc s') := by
  obtain ⟨a1, a2, a3, a4⟩ := I.vec_alloc hx
  by_cases hsz : p.n = d.size
  · left
    obtain ⟨h', e1, e2, -⟩ := vAssign_ok (triv := true) hx hr (hsame hsz).1 hsz (Owned.ready a4 a3) (hsame hsz).2
    refine ⟨_, e1, by simp [VNode.size, State.vobj, hx, hsz], fun i => ?_⟩
    simpa [VNode.get, State.vobj, hx] using e2 i
  · cases hal : s.heap.fail s.heap.tick with
    | true => exact Or.inr ⟨rfl, _, vAssign_fail hx a1 hr.size hal hsz⟩
    | false =>
      left
      obtain ⟨h', e1, e2, -⟩ := vAssign_resize_ok hx a1 a3 a4 hal (I.fresh _ (le_refl _)) hr hsz (hl hsz)
      refine ⟨_, e1, by simp [VNode.size, State.vobj, State.setVec], fun i => ?_⟩
      simpa [VNode.get, State.vobj, State.setVec] using e2 i

/-- A new variable does not disturb expressions over the old ones. -/
theorem vrep_vDefault {s : State E} {x : Nat} {n : VNode E} {p : VVal E} (hl : n.Leaves (· ≠ x) (fun _ => True))
    (hr : VRep s n p) : VRep (vDefault s x) n p := by
  refine ⟨?_, fun i => ?_⟩
  · rw [VNode.size_congr (s := s) (PV := (· ≠ x)) (PM := fun _ => True) _ _ n hl]
    · exact hr.size
    · intro y hy
      simp [State.vobj, vDefault, State.setVec, hy]
    · intro y _
      rfl
  · refine VNode.get_mono (s := s) (PV := (· ≠ x)) (PM := fun _ => True) ?_ ?_ n hl i _ (hr.get i)
    · intro y hy j v h
      simpa [VNode.get, State.vobj, vDefault, State.setVec, hy] using h
    · intro y _ i j v h
      exact h

theorem mrep_mDefault {cm cb : Bool} {s : State E} {x : Nat} {n : MNode E} {p : MVal E}
    (hl : n.Leaves (fun _ => True) (· ≠ x)) (hr : MRep s n p) : MRep (mDefault cm cb s x) n p := by
  refine ⟨?_, fun i j => ?_⟩
  · rw [MNode.dims_congr (s := s) (PV := fun _ => True) (PM := (· ≠ x)) _ _ n hl]
    · exact hr.dims
    · intro y _
      rfl
    · intro y hy
      simp [State.mobj, mDefault, State.setMat, hy]
  · refine MNode.get_mono (s := s) (PV := fun _ => True) (PM := (· ≠ x)) ?_ ?_ n hl i j _ (hr.get i j)
    · intro y _ j v h
      exact h
    · intro y hy i j v h
      simpa [MNode.get, State.mobj, mDefault, State.setMat, hy] using h

theorem Store.env_none {σ : Store E} {x : Nat} (h : σ.v x = none) : ¬ (σ.env.v x).isSome := by
  simp [Store.env, h]

theorem Store.menv_none {σ : Store E} {x : Nat} (h : σ.m x = none) : ¬ (σ.env.m x).isSome := by
  simp [Store.env, h]

mutual
theorem VNode.Leaves.imp {PV PM QV QM : Nat → Prop} (hv : ∀ y, PV y → QV y) (hm : ∀ y, PM y → QM y) :
    ∀ e : VNode E, e.Leaves PV PM → e.Leaves QV QM
  | .var y, h => hv y h
  | .temp _ _, _ => trivial
  | .bin _ a b, h => ⟨VNode.Leaves.imp hv hm a h.1, VNode.Leaves.imp hv hm b h.2⟩
  | .scal _ a _, h => VNode.Leaves.imp hv hm a h
  | .neg a, h => VNode.Leaves.imp hv hm a h
  | .cross a b, h => ⟨VNode.Leaves.imp hv hm a h.1, VNode.Leaves.imp hv hm b h.2⟩
  | .sub a _, h => VNode.Leaves.imp hv hm a h
  | .row m _, h => MNode.Leaves.imp hv hm m h
  | .col m _, h => MNode.Leaves.imp hv hm m h
theorem MNode.Leaves.imp {PV PM QV QM : Nat → Prop} (hv : ∀ y, PV y → QV y) (hm : ∀ y, PM y → QM y) :
    ∀ e : MNode E, e.Leaves PV PM → e.Leaves QV QM
  | .var y, h => hm y h
  | .temp _, _ => trivial
  | .bin _ a b, h => ⟨MNode.Leaves.imp hv hm a h.1, MNode.Leaves.imp hv hm b h.2⟩
  | .scal _ a _, h => MNode.Leaves.imp hv hm a h
  | .neg a, h => MNode.Leaves.imp hv hm a h
  | .transpose a, h => MNode.Leaves.imp hv hm a h
  | .outer a b, h => ⟨VNode.Leaves.imp hv hm a h.1, VNode.Leaves.imp hv hm b h.2⟩
end

theorem does_vCopyNew {s : State E} {σ : Store E} (H : Holds s σ) {x : Nat} {e : VExpr E} {p : VVal E}
    (hx : σ.v x = none) (he : e.Has σ p) : (Op.vCopyNew x e).Does s σ (σ.setV x (some (.of p))) := by
  have hsx := H.vnone hx
  refine H.doesV (o := .vCopyNew x e) hsx (fun _ => Iff.rfl) ?_
  obtain ⟨n, b1, b2, -⟩ := he.build H
  have hlv : n.Leaves (· ≠ x) (fun _ => True) :=
    VExpr.build_leaves e n b1 (VExpr.Leaves.imp (fun y hy => by
      rintro rfl; exact Store.env_none hx hy) (fun _ _ => trivial) e (VExpr.leaves_of_pre e he.2.1))
  have I0 := vDefault_inv H.inv hsx
  have hr0 := vrep_vDefault hlv b2
  have hrun : (Op.vCopyNew x e).run true s = ctor x (vAssign true (vDefault s x) x n) := by
    simp only [Op.run, b1, Out.withVal_ok, CML.vCopyNew]
  rw [hrun]
  by_cases hp : p.n = 0
  · left
    refine ⟨vDefault s x, ctor_ok_iff ?_, _, vDefault_vec s x, hp.symm, fun i => by
      have := i.2; simp only [VCont.of] at this; omega⟩
    have hsz := hr0.size
    rw [hp] at hsz
    have hv : (vDefault s x).vec x = some ⟨.allocated, false, none, 0, 0⟩ := vDefault_vec s x
    simp [vAssign, checkOrResize, State.vobj, hv, hsz, vResize, vResizeWith, storeLoop, Out.loop]
  · rcases vAssign_does I0 (vDefault_vec s x) hr0 (fun h => absurd h hp)
      (fun _ => VNode.Leaves.imp (fun y hy => I0.vkept (vDefault_vec s x) hy)
        (fun y _ => I0.mkept (vDefault_vec s x) y) n hlv) with ⟨s', e1, e2⟩ | ⟨hal, s', e1⟩
    · exact Or.inl ⟨s', ctor_ok_iff e1, .of_rep e2⟩
    · exact Or.inr ⟨hal, _, ctor_throw e1⟩

theorem vMoveAssign_eq {s : State E} (I : Inv s) {x y : Nat} {v w : VObj} (hx : s.vec x = some v)
    (hy : s.vec y = some w) : vMoveAssign s x y = .ok ((s.setVec x (some w)).setVec y (some v)) := by
  obtain ⟨a1, a2, a3, -⟩ := I.vec_alloc hx
  obtain ⟨b1, b2, b3, -⟩ := I.vec_alloc hy
  have e1 : ({ v with data := w.data, size := w.size } : VObj) = w := by cases v; cases w; simp_all
  have e2 : ({ w with data := v.data, size := v.size } : VObj) = v := by cases v; cases w; simp_all
  simp [vMoveAssign, State.vobj, hx, hy, e1, e2]

theorem mMoveAssign_eq {s : State E} (I : Inv s) {x y : Nat} {v w : MObj} (hx : s.mat x = some v)
    (hy : s.mat y = some w) (hm : v.colMajor = w.colMajor) (hb : v.colBasis = w.colBasis) :
    mMoveAssign s x y = .ok ((s.setMat x (some w)).setMat y (some v)) := by
  obtain ⟨a1, a2, a3, -⟩ := I.mat_alloc hx
  obtain ⟨b1, b2, b3, -⟩ := I.mat_alloc hy
  have e1 : ({ v with data := w.data, rows := w.rows, cols := w.cols } : MObj) = w := by
    cases v; cases w; simp_all
  have e2 : ({ w with data := v.data, rows := v.rows, cols := v.cols } : MObj) = v := by
    cases v; cases w; simp_all
  simp [mMoveAssign, State.mobj, hx, hy, e1, e2]

theorem does_vMove {s : State E} {σ : Store E} (H : Holds s σ) {x y : Nat} {c c' : VCont E}
    (hx : σ.v x = some c) (hy : σ.v y = some c') :
    (Op.vMove x y).Does s σ ((σ.setV x (some c')).setV y (some c)) := by
  obtain ⟨v, v1, v2, v3⟩ := H.vec hx
  obtain ⟨w, w1, w2, w3⟩ := H.vec hy
  have e := vMoveAssign_eq H.inv v1 w1
  refine Or.inl ⟨_, e, H.step (o := .vMove x y) trivial e (fun z hz => ?_) (fun z hz => ?_) (fun z hz => ?_)
    (fun z hz => rfl)⟩
  · by_cases hzy : z = y
    · subst hzy
      simp only [Store.setV, if_true]
      exact ⟨v, by simp [State.setVec], v2, v3⟩
    · have : z = x := by
        rcases hz with hz | hz
        · simpa using hz
        · exact absurd (by simpa using hz) hzy
      subst this
      simp only [Store.setV, hzy, if_true, if_false]
      exact ⟨w, by simp [State.setVec, hzy], w2, w3⟩
  · have h1 : z ≠ x := fun h => hz (Or.inl (by rw [h]))
    have h2 : z ≠ y := fun h => hz (Or.inr (by rw [h]))
    simp [Store.setV, h1, h2]
  · rcases hz with hz | hz <;> cases hz

theorem does_vMoveNew {s : State E} {σ : Store E} (H : Holds s σ) {x y : Nat} {c : VCont E}
    (hx : σ.v x = none) (hy : σ.v y = some c) :
    (Op.vMoveNew x y).Does s σ ((σ.setV x (some c)).setV y (some ⟨0, fun _ => none⟩)) := by
  have hsx := H.vnone hx
  obtain ⟨w, w1, w2, w3⟩ := H.vec hy
  have hyx : y ≠ x := by rintro rfl; rw [hx] at hy; cases hy
  have hw0 : (vDefault s x).vec y = some w := by simp [vDefault, State.setVec, hyx, w1]
  have e : (Op.vMoveNew x y).run true s = .ok _ :=
    ctor_ok_iff (x := x) (vMoveAssign_eq (vDefault_inv H.inv hsx) (vDefault_vec s x) hw0)
  refine Or.inl ⟨_, e, H.step (o := .vMoveNew x y) hsx e (fun z hz => ?_) (fun z hz => ?_) (fun z hz => ?_)
    (fun z hz => rfl)⟩
  · by_cases hzy : z = y
    · subst hzy
      simp only [Store.setV, if_true]
      exact ⟨⟨.allocated, false, none, 0, 0⟩, by simp [State.setVec], rfl, fun i => i.elim0⟩
    · have : z = x := by
        rcases hz with hz | hz
        · simpa using hz
        · exact absurd (by simpa using hz) hzy
      subst this
      simp only [Store.setV, hzy, if_true, if_false]
      exact ⟨w, by simp [State.setVec, hzy], w2, w3⟩
  · have h1 : z ≠ x := fun h => hz (Or.inl (by rw [h]))
    have h2 : z ≠ y := fun h => hz (Or.inr (by rw [h]))
    simp [Store.setV, h1, h2]
  · rcases hz with hz | hz <;> cases hz

theorem does_vResize {s : State E} {σ : Store E} (H : Holds s σ) {fast : Bool} {x n : Nat} {c : VCont E}
    (hx : σ.v x = some c) : (Op.vResize fast x n).Does s σ (σ.setV x (some ⟨n, fun i =>
        if h : i < c.n then (if fast ∧ n ≠ c.n then none else c.f ⟨i, h⟩) else none⟩)) := by
  obtain ⟨d, d1, d2, d3⟩ := H.vec hx
  refine H.doesV (o := .vResize fast x n) trivial (fun _ => Iff.rfl) ?_
  have hrun : (Op.vResize fast x n).run true s = vResizeWith (!fast) true s x n := by
    cases fast <;> rfl
  rw [hrun]
  rcases vResizeWith_does (copy := !fast) H.inv d1 n with ⟨s', d', e1, e2, e3, e4⟩ | ⟨hal, s', e⟩
  · refine Or.inl ⟨s', e1, d', e2, e3, fun i e he => ?_⟩
    dsimp only at he
    split at he
    next hi =>
      split at he
      next => cases he
      next hc =>
        refine e4 i e i.2 ?_ (d3 _ _ he)
        cases fast
        · exact Or.inl rfl
        · right
          by_contra hne
          exact hc ⟨rfl, by omega⟩
    next => cases he
  · exact Or.inr ⟨hal, s', e⟩

theorem does_vPut {s : State E} {σ : Store E} (H : Holds s σ) {x i : Nat} {e : E} {c : VCont E} (hi : i < c.n)
    (hx : σ.v x = some c) :
    (Op.vPut x i e).Does s σ (σ.setV x (some ⟨c.n, Function.update c.f ⟨i, hi⟩ (some e)⟩)) := by
  obtain ⟨d, d1, d2, d3⟩ := H.vec hx
  obtain ⟨a1, a2, a3, a4⟩ := H.inv.vec_alloc d1
  refine H.doesV (o := .vPut x i e) trivial (fun _ => Iff.rfl) (Or.inl ?_)
  obtain ⟨b, hb, hw⟩ := Owned.ready a4 a3 i (by omega)
  obtain ⟨h', w1, w2, w3, -⟩ := Heap.write_ok (v := e) hw
  have hid : i < d.size := by omega
  refine ⟨{ s with heap := h' }, by simp [Op.run, CML.vPut, State.vobj, d1, VObj.put, hb, hid, w1], d, d1, d2,
    fun j v hv => ?_⟩
  have hj : (j : Nat) < d.size := by have := j.2; simp only at this; omega
  simp only [VObj.get, hb, hj, if_true, Heap.read_eq_ok]
  by_cases hji : j = ⟨i, hi⟩
  · subst hji
    simp only [Function.update_self, Option.some.injEq] at hv
    subst hv
    exact w2
  · dsimp only at hv
    rw [Function.update_of_ne hji] at hv
    have h0 := d3 j v hv
    simp only [VObj.get, hb, hj, if_true, Heap.read_eq_ok] at h0
    have hne : (j : Nat) ≠ i := fun h => hji (Fin.ext h)
    rw [← h0]
    exact w3 b _ (by simp only [ne_eq, Prod.mk.injEq, not_and]; omega)

theorem does_vAssign {s : State E} {σ : Store E} (H : Holds s σ) {x : Nat} {e : VExpr E} {c : VCont E}
    {p : VVal E} (hx : σ.v x = some c) (he : e.Has σ p)
    (h1 : p.n = c.n → e.Ahead (fun _ => True) (· ≠ x) (fun _ => True))
    (h2 : p.n ≠ c.n → e.Leaves (· ≠ x) (fun _ => True)) :
    (Op.vAssign x e).Does s σ (σ.setV x (some (.of p))) := by
  obtain ⟨d, d1, d2, d3⟩ := H.vec hx
  obtain ⟨n, b1, b2, b3⟩ := he.build H
  refine H.doesV (o := .vAssign x e) trivial (fun _ => Iff.rfl) ?_
  have hrun : (Op.vAssign x e).run true s = vAssign true s x n := by
    simp only [Op.run, stmtAssign, b1, Out.withVal_ok]
  rw [hrun]
  rcases vAssign_does H.inv d1 b2
    (fun h => ⟨b3, VExpr.build_ahead e n b1 (VExpr.Ahead.imp (fun y _ => H.inv.vahead d1 y)
      (fun y hy => H.inv.vdisj' d1 hy) (fun y _ => H.inv.mdisjV d1 y) e (h1 (by omega)))⟩)
    (fun h => VExpr.build_leaves e n b1 (VExpr.Leaves.imp (fun y hy => H.inv.vkept d1 hy)
      (fun y _ => H.inv.mkept d1 y) e (h2 (by omega)))) with ⟨s', e1, e2⟩ | ⟨hal, s', e1⟩
  · exact Or.inl ⟨s', e1, .of_rep e2⟩
  · exact Or.inr ⟨hal, s', e1⟩

theorem does_vOp {s : State E} {σ : Store E} (H : Holds s σ) {o : BinOp} {x : Nat} {e : VExpr E}
    {q p : VVal E} (h : q.n = p.n) (hx : σ.env.v x = some q) (he : e.Has σ p)
    (ha : e.Ahead (fun _ => True) (· ≠ x) (fun _ => True)) :
    (Op.vOp o x e).Does s σ
      (σ.setV x (some (.of ⟨q.n, fun i => o.den (q.f i) (p.f (i.cast h))⟩))) := by
  have hq := H.agree.v x q hx
  obtain ⟨d, d1, d2⟩ := vrep_vec hq
  obtain ⟨a1, a2, a3, a4⟩ := H.inv.vec_alloc d1
  obtain ⟨n, b1, b2, b3⟩ := he.build H
  refine H.doesV (o := .vOp o x e) trivial (fun _ => Iff.rfl) (Or.inl ?_)
  obtain ⟨h', e1, e2, -⟩ := vOpAssign_ok (triv := true) (o := o) d1 b2 hq b3 h (Owned.ready a4 a3)
    (VExpr.build_ahead e n b1 (VExpr.Ahead.imp (fun y _ => H.inv.vahead d1 y)
      (fun y hy => H.inv.vdisj' d1 hy) (fun y _ => H.inv.mdisjV d1 y) e ha))
  have hrun : (Op.vOp o x e).run true s = vOpAssign true o s x n := by
    simp only [Op.run, stmtOpAssign, b1, Out.withVal_ok]
  refine ⟨_, hrun.trans e1, .of_rep ⟨?_, fun i => ?_⟩⟩
  · simp [VNode.size, State.vobj, d1, d2]
  · simpa [VNode.get, State.vobj, d1] using e2 (i.cast h)

theorem does_vScal {s : State E} {σ : Store E} (H : Holds s σ) {o : ScalOp} {x : Nat} {r : ScalarRef E} {a : E}
    {q : VVal E} (hx : σ.env.v x = some q) (hr : σ.scalar r = some a) (hne : ∀ i, r ≠ .elem x i) :
    (Op.vScal o x r).Does s σ (σ.setV x (some (.of ⟨q.n, fun i => o.den (q.f i) a⟩))) := by
  have hq := H.agree.v x q hx
  obtain ⟨d, d1, d2⟩ := vrep_vec hq
  refine H.doesV (o := .vScal o x r) trivial (fun _ => Iff.rfl) (Or.inl ?_)
  obtain ⟨h', e1, e2, -⟩ := scalAssign_partial (triv := true) (o := o) d1 q hq r a (H.read hr)
    (fun y i hy => H.inv.vdisj' d1 (by rintro rfl; exact hne i hy))
  exact ⟨_, e1, .of_rep e2⟩

theorem does_vFill {s : State E} {σ : Store E} (H : Holds s σ) {x : Nat} {r : ScalarRef E} {a : E} {c : VCont E}
    (hx : σ.v x = some c) (hr : σ.scalar r = some a) :
    (Op.vFill x r).Does s σ (σ.setV x (some (.of ⟨c.n, fun _ => a⟩))) := by
  obtain ⟨d, d1, d2, d3⟩ := H.vec hx
  obtain ⟨a1, a2, a3, a4⟩ := H.inv.vec_alloc d1
  refine H.doesV (o := .vFill x r) trivial (fun _ => Iff.rfl) (Or.inl ?_)
  obtain ⟨h', e1, e2, -⟩ := vfill_spec (triv := true) d1 (Owned.ready a4 a3) r a (H.read hr)
    (fun y i _ => by
      by_cases h : y = x
      · exact Or.inl h
      · exact Or.inr (H.inv.vdisj' d1 h))
  rw [← d2]
  exact ⟨_, e1, .of_rep e2⟩

theorem does_vList {s : State E} {σ : Store E} (H : Holds s σ) {cst : Bool} {x : Nat} {xs : List E} {c : VCont E}
    (hx : σ.v x = some c) :
    (Op.vList cst x xs).Does s σ (σ.setV x (some (.of ⟨xs.length, fun i => xs[i]⟩))) := by
  obtain ⟨d, d1, d2, d3⟩ := H.vec hx
  obtain ⟨a1, a2, a3, a4⟩ := H.inv.vec_alloc d1
  refine H.doesV (o := .vList cst x xs) trivial (fun _ => Iff.rfl) ?_
  by_cases hl : xs.length = d.size
  · obtain ⟨h', e1, e2, -⟩ := vlist_spec (triv := true) (cst := cst) d1 (Owned.ready a4 a3) xs hl
    exact Or.inl ⟨_, e1, .of_rep e2⟩
  · cases hal : s.heap.fail s.heap.tick with
    | true =>
      right
      refine ⟨rfl, s.tickd, ?_⟩
      have h0 : ¬ ((xs.length : Int) < 0) := by omega
      simp [Op.run, CML.vAssignList, checkOrResizeN, State.vobj, d1, a1, CML.vResize, vResizeWith, hl, h0,
        Heap.alloc, hal, State.tickd]
    | false =>
      obtain ⟨h', e1, e2, -⟩ := vlist_resizing (cst := cst) d1 a1 a3 a4 hal (H.inv.fresh _ (le_refl _)) xs hl
      exact Or.inl ⟨_, e1, .of_rep e2⟩

theorem does_vDestroy {s : State E} {σ : Store E} (H : Holds s σ) {x : Nat} {c : VCont E} (hx : σ.v x = some c) :
    (Op.vDestroy x).Does s σ (σ.setV x none) := by
  obtain ⟨d, d1, -⟩ := H.vec hx
  obtain ⟨h', e⟩ := destroy_ok (triv := true) (H.inv.vec_alloc d1).2.2.2
  refine H.doesV (o := .vDestroy x) trivial (fun _ => Iff.rfl) (Or.inl
    ⟨{ s with heap := h' }.setVec x none, ?_, ?_⟩)
  · simp [Op.run, CML.vDestroy, State.vobj, d1, e]
  · show _ = _
    simp [State.setVec]

/-! ### Matrices -/

/-- `resize`, `resize_fast` of matrices. -/
theorem mResizeWith_does {copy : Bool} {s : State E} (I : Inv s) {x : Nat} {d : MObj} (hx : s.mat x = some d)
    (r k : Nat) :
    (∃ s' d', mResizeWith copy true s x r k = .ok s' ∧ s'.mat x = some d' ∧ d'.colMajor = d.colMajor ∧
      d'.colBasis = d.colBasis ∧ d'.rows = r ∧ d'.cols = k ∧
      (r = d.rows → k = d.cols → ∀ i j, d'.get s'.heap i j = d.get s.heap i j)) ∨
    (s.heap.fail s.heap.tick = true ∧ ∃ s', mResizeWith copy true s x r k = .throw .badAlloc s') := by
  obtain ⟨a1, a2, a3, a4⟩ := I.mat_alloc hx
  have h0 : ¬ ((r : Int) < 0) := by omega
  have h1 : ¬ ((k : Int) < 0) := by omega
  by_cases hne : r * k = d.rows * d.cols
  · left
    refine ⟨_, { d with rows := r, cols := k }, mResizeWith_relabel hx hne, by simp [State.setMat], rfl, rfl, rfl,
      rfl, ?_⟩
    rintro rfl rfl i j
    rfl
  · cases hal : s.heap.fail s.heap.tick with
    | true =>
      right
      refine ⟨rfl, s.tickd, ?_⟩
      simp only [mResizeWith, State.mobj, hx, Out.withVal_ok, if_neg h0, if_neg h1, Int.toNat_natCast, if_neg hne,
        Heap.alloc, hal]
      rfl
    | false =>
      left
      obtain ⟨h', l', e, -⟩ := mResizeWith_ok (copy := copy) (triv := true) hx hne hal
        (I.fresh _ (le_refl _)) a4 (fun _ => Or.inl rfl)
      refine ⟨_, { d with data := some s.heap.next, rows := r, cols := k }, e, by simp [State.setMat], rfl, rfl,
        rfl, rfl, ?_⟩
      rintro rfl rfl
      exact absurd rfl hne

theorem does_mDefault {s : State E} {σ : Store E} (H : Holds s σ) {cm cb : Bool} {x : Nat} (hx : σ.m x = none) :
    (Op.mDefault cm cb x).Does s σ (σ.setM x (some ⟨cm, cb, 0, 0, fun _ _ => none⟩)) :=
  H.doesM (o := .mDefault cm cb x) (H.mnone hx) (fun _ => Iff.rfl)
    (Or.inl ⟨_, rfl, _, mDefault_mat cm cb s x, rfl, rfl, rfl, rfl, fun i => i.elim0⟩)

theorem does_mNew {s : State E} {σ : Store E} (H : Holds s σ) {cm cb : Bool} {x r c : Nat} (hx : σ.m x = none) :
    (Op.mNew cm cb x r c).Does s σ (σ.setM x (some ⟨cm, cb, r, c, fun _ _ => none⟩)) := by
  refine H.doesM (o := .mNew cm cb x r c) (H.mnone hx) (fun _ => Iff.rfl) ?_
  rcases mResizeWith_does (copy := false) (mDefault_inv H.inv (H.mnone hx)) (mDefault_mat cm cb s x) r c with
    ⟨s', d', e1, e2, e3, e4, e5, e6, -⟩ | ⟨hal, s', e⟩
  · exact Or.inl ⟨s', mctor_ok_iff e1, d', e2, e3, e4, e5, e6, fun i j e he => by cases he⟩
  · exact Or.inr ⟨hal, _, mctor_throw e⟩

theorem Inv.mvkept {s : State E} (I : Inv s) {x : Nat} {d : MObj} (hx : s.mat x = some d) (y : Nat) :
    ∀ w, s.vec y = some w → w.data = none ∨ w.data ≠ d.data := by
  intro w hw
  cases hd : w.data with
  | none => exact Or.inl rfl
  | some b =>
    right
    exact I.ne_data (k := .inl y) (k' := .inr x) (w := d.flat) (by simp) hw (by simp [State.owner, hx]) hd

/-- Assignment to a dynamic matrix with other dimensions. -/
theorem mAssign_does {s : State E} (I : Inv s) {x : Nat} {d : MObj} (hx : s.mat x = some d) {n : MNode E}
    {p : MVal E} (hr : MRep s n p) (hl : n.Leaves (fun _ => True) (· ≠ x)) :
    (∃ s' d', mAssign true s x n = .ok s' ∧ MRep s' (.var x) p ∧ s'.mat x = some d' ∧
      d'.colMajor = d.colMajor ∧ d'.colBasis = d.colBasis) ∨
    (s.heap.fail s.heap.tick = true ∧ ∃ s', mAssign true s x n = .throw .badAlloc s') := by
  obtain ⟨a1, a2, a3, a4⟩ := I.mat_alloc hx
  by_cases hc : p.r * p.c ≠ d.rows * d.cols ∧ s.heap.fail s.heap.tick = true
  · exact Or.inr ⟨hc.2, _, mAssign_fail hx a1 hr.dims hc.2 hc.1⟩
  · left
    have hal : p.r * p.c ≠ d.rows * d.cols → s.heap.fail s.heap.tick = false := by
      intro h
      cases h2 : s.heap.fail s.heap.tick with
      | false => rfl
      | true => exact absurd ⟨h, h2⟩ hc
    obtain ⟨h', d', e1, ⟨-, -, -, e2, e3, -⟩, -, e4, -⟩ := mAssign_resize_ok hx a1 a3 a4 hal
      (I.fresh _ (le_refl _)) hr (MNode.Leaves.imp (fun y _ => I.mvkept hx y)
        (fun y hy => ⟨hy, fun w hw => I.mdisj hy hx hw⟩) n hl)
    exact ⟨_, d', e1, e4, by simp [State.setMat], e2, e3⟩

theorem MHolds.of_rep' {s : State E} {x : Nat} {p : MVal E} {d : MObj} (h : MRep s (.var x) p)
    (hd : s.mat x = some d) {cm cb : Bool} (h1 : d.colMajor = cm) (h2 : d.colBasis = cb) :
    MHolds s x (some (.of cm cb p)) := by
  subst h1 h2
  exact .of_rep h hd

theorem does_mCopyNew {s : State E} {σ : Store E} (H : Holds s σ) {cm cb : Bool} {x : Nat} {e : MExpr E}
    {p : MVal E} (hx : σ.m x = none) (he : e.Has σ p) :
    (Op.mCopyNew cm cb x e).Does s σ (σ.setM x (some (.of cm cb p))) := by
  have hsx := H.mnone hx
  refine H.doesM (o := .mCopyNew cm cb x e) hsx (fun _ => Iff.rfl) ?_
  obtain ⟨n, b1, b2, -⟩ := he.build H
  have hlv : n.Leaves (fun _ => True) (· ≠ x) :=
    MExpr.build_leaves e n b1 (MExpr.Leaves.imp (fun _ _ => trivial) (fun y hy => by
      rintro rfl; exact Store.menv_none hx hy) e (MExpr.leaves_of_pre e he.2.1))
  have hrun : (Op.mCopyNew cm cb x e).run true s = mctor x (mAssign true (mDefault cm cb s x) x n) := by
    simp only [Op.run, b1, Out.withVal_ok, CML.mCopyNew]
  rw [hrun]
  rcases mAssign_does (mDefault_inv H.inv hsx) (mDefault_mat cm cb s x) (mrep_mDefault hlv b2) hlv with
    ⟨s', d', e1, e2, e3, e4, e5⟩ | ⟨hal, s', e1⟩
  · exact Or.inl ⟨s', mctor_ok_iff e1, .of_rep' e2 e3 e4 e5⟩
  · exact Or.inr ⟨hal, _, mctor_throw e1⟩

theorem does_mMove {s : State E} {σ : Store E} (H : Holds s σ) {x y : Nat} {c c' : MCont E}
    (hx : σ.m x = some c) (hy : σ.m y = some c') (hm : c.colMajor = c'.colMajor) (hb : c.colBasis = c'.colBasis) :
    (Op.mMove x y).Does s σ ((σ.setM x (some c')).setM y (some c)) := by
  obtain ⟨v, v1, v2, v3, v4⟩ := H.mat hx
  obtain ⟨w, w1, w2, w3, w4⟩ := H.mat hy
  have e := mMoveAssign_eq H.inv v1 w1 (by rw [v2, w2, hm]) (by rw [v3, w3, hb])
  refine Or.inl ⟨_, e, H.step (o := .mMove x y) trivial e (fun z hz => ?_) (fun z hz => rfl) (fun z hz => ?_)
    (fun z hz => ?_)⟩
  · rcases hz with hz | hz <;> cases hz
  · by_cases hzy : z = y
    · subst hzy
      simp only [Store.setM, if_true]
      exact ⟨v, by simp [State.setMat], v2, v3, v4⟩
    · have : z = x := by
        rcases hz with hz | hz
        · simpa using hz
        · exact absurd (by simpa using hz) hzy
      subst this
      simp only [Store.setM, hzy, if_true, if_false]
      exact ⟨w, by simp [State.setMat, hzy], w2, w3, w4⟩
  · have h1 : z ≠ x := fun h => hz (Or.inl (by rw [h]))
    have h2 : z ≠ y := fun h => hz (Or.inr (by rw [h]))
    simp [Store.setM, h1, h2]

theorem does_mMoveNew {s : State E} {σ : Store E} (H : Holds s σ) {x y : Nat} {c : MCont E}
    (hx : σ.m x = none) (hy : σ.m y = some c) :
    (Op.mMoveNew x y).Does s σ
      ((σ.setM x (some c)).setM y (some ⟨c.colMajor, c.colBasis, 0, 0, fun _ _ => none⟩)) := by
  have hsx := H.mnone hx
  obtain ⟨w, w1, w2, w3, w4⟩ := H.mat hy
  have hyx : y ≠ x := by rintro rfl; rw [hx] at hy; cases hy
  have hw0 : (mDefault w.colMajor w.colBasis s x).mat y = some w := by simp [mDefault, State.setMat, hyx, w1]
  have e : (Op.mMoveNew x y).run true s = .ok (((mDefault w.colMajor w.colBasis s x).setMat x (some w)).setMat y
      (some ⟨.allocated, false, none, 0, 0, 0, w.colMajor, w.colBasis⟩)) := by
    have := mctor_ok_iff (x := x)
      (mMoveAssign_eq (mDefault_inv H.inv hsx) (mDefault_mat w.colMajor w.colBasis s x) hw0 rfl rfl)
    simp only [Op.run, CML.mMoveNew, State.mobj, w1, Out.withVal_ok]
    exact this
  refine Or.inl ⟨_, e, H.step (o := .mMoveNew x y) hsx e (fun z hz => ?_) (fun z hz => rfl) (fun z hz => ?_)
    (fun z hz => ?_)⟩
  · rcases hz with hz | hz <;> cases hz
  · by_cases hzy : z = y
    · subst hzy
      simp only [Store.setM, if_true]
      exact ⟨⟨.allocated, false, none, 0, 0, 0, w.colMajor, w.colBasis⟩, by simp [State.setMat], w2, w3, rfl, rfl,
        fun i => i.elim0⟩
    · have : z = x := by
        rcases hz with hz | hz
        · simpa using hz
        · exact absurd (by simpa using hz) hzy
      subst this
      simp only [Store.setM, hzy, if_true, if_false]
      exact ⟨w, by simp [State.setMat, hzy], w2, w3, w4⟩
  · have h1 : z ≠ x := fun h => hz (Or.inl (by rw [h]))
    have h2 : z ≠ y := fun h => hz (Or.inr (by rw [h]))
    simp [Store.setM, h1, h2]

theorem does_mResize {s : State E} {σ : Store E} (H : Holds s σ) {fast : Bool} {x r k : Nat} {c : MCont E}
    (hx : σ.m x = some c) : (Op.mResize fast x r k).Does s σ (σ.setM x (some ⟨c.colMajor, c.colBasis, r, k,
        fun i j => if h : r = c.r ∧ k = c.c then c.f (i.cast h.1) (j.cast h.2) else none⟩)) := by
  obtain ⟨d, d1, d2, d3, d4, d5, d6⟩ := H.mat hx
  refine H.doesM (o := .mResize fast x r k) trivial (fun _ => Iff.rfl) ?_
  have hrun : (Op.mResize fast x r k).run true s = mResizeWith (!fast) true s x r k := by
    cases fast <;> rfl
  rw [hrun]
  rcases mResizeWith_does (copy := !fast) H.inv d1 r k with ⟨s', d', e1, e2, e3, e4, e5, e6, e7⟩ | ⟨hal, s', e⟩
  · refine Or.inl ⟨s', e1, d', e2, e3.trans d2, e4.trans d3, e5, e6, fun i j e he => ?_⟩
    dsimp only at he
    split at he
    next h =>
      rw [e7 (by omega) (by omega)]
      exact d6 _ _ _ he
    next => cases he
  · exact Or.inr ⟨hal, s', e⟩

theorem does_mPut {s : State E} {σ : Store E} (H : Holds s σ) {x i j : Nat} {e : E} {c : MCont E} (hi : i < c.r)
    (hj : j < c.c) (hx : σ.m x = some c) :
    (Op.mPut x i j e).Does s σ (σ.setM x (some ⟨c.colMajor, c.colBasis, c.r, c.c, fun i' j' =>
        if i' = ⟨i, hi⟩ ∧ j' = ⟨j, hj⟩ then some e else c.f i' j'⟩)) := by
  obtain ⟨d, d1, d2, d3, d4, d5, d6⟩ := H.mat hx
  obtain ⟨a1, a2, a3, a4⟩ := H.inv.mat_alloc d1
  refine H.doesM (o := .mPut x i j e) trivial (fun _ => Iff.rfl) (Or.inl ?_)
  have hid : i < d.rows := by omega
  have hjd : j < d.cols := by omega
  obtain ⟨b, hb, hw⟩ := Owned.ready (d := d.flat) a4 a3 (d.index i j) (MObj.index_lt hid hjd)
  have hb : d.data = some b := hb
  obtain ⟨h', w1, w2, w3, -⟩ := Heap.write_ok (v := e) hw
  have w1 : s.heap.write true b (d.off + d.index i j) e = .ok h' := w1
  refine ⟨{ s with heap := h' }, by simp [Op.run, CML.mPut, State.mobj, d1, MObj.put, hb, hid, hjd, w1], d, d1, d2,
    d3, d4, d5, fun i' j' v hv => ?_⟩
  have hi' : (i' : Nat) < d.rows := by have := i'.2; simp only at this; omega
  have hj' : (j' : Nat) < d.cols := by have := j'.2; simp only at this; omega
  simp only [MObj.get, hb, hi', hj', and_self, if_true, Heap.read_eq_ok]
  dsimp only at hv
  split at hv
  next h =>
    obtain ⟨rfl, rfl⟩ := h
    simp only [Option.some.injEq] at hv
    subst hv
    exact w2
  next h =>
    have h0 := d6 i' j' v hv
    simp only [MObj.get, hb, hi', hj', and_self, if_true, Heap.read_eq_ok] at h0
    rw [← h0]
    refine w3 b _ ?_
    intro heq
    simp only [Prod.mk.injEq, true_and] at heq
    have := MObj.index_inj hi' hj' hid hjd (by have : d.flat.off = d.off := rfl; omega)
    exact h ⟨Fin.ext this.1, Fin.ext this.2⟩

theorem does_mAssign {s : State E} {σ : Store E} (H : Holds s σ) {x : Nat} {e : MExpr E} {c : MCont E}
    {p : MVal E} (hx : σ.m x = some c) (he : e.Has σ p)
    (h1 : p.r = c.r ∧ p.c = c.c → e.Ahead (fun _ => True) (fun _ => True) (· ≠ x))
    (h2 : ¬ (p.r = c.r ∧ p.c = c.c) → e.Leaves (fun _ => True) (· ≠ x)) :
    (Op.mAssign x e).Does s σ (σ.setM x (some (.of c.colMajor c.colBasis p))) := by
  obtain ⟨d, d1, d2, d3, d4, d5, -⟩ := H.mat hx
  obtain ⟨a1, a2, a3, a4⟩ := H.inv.mat_alloc d1
  obtain ⟨n, b1, b2, b3⟩ := he.build H
  refine H.doesM (o := .mAssign x e) trivial (fun _ => Iff.rfl) ?_
  have hrun : (Op.mAssign x e).run true s = mAssign true s x n := by
    simp only [Op.run, mstmtAssign, b1, Out.withVal_ok]
  rw [hrun]
  by_cases hd : p.r = c.r ∧ p.c = c.c
  · left
    have hal := MExpr.build_ahead e n b1 (MExpr.Ahead.imp (fun y _ => H.inv.mahead d1 y)
      (fun y _ => H.inv.vdisjM d1 y) (fun y hy => H.inv.mdisj' d1 hy) e (h1 hd))
    obtain ⟨pr, pc, pf⟩ := p
    obtain ⟨hd1, hd2⟩ := hd
    simp only at hd1 hd2
    obtain rfl : pr = d.rows := by omega
    obtain rfl : pc = d.cols := by omega
    obtain ⟨h', e1, e2, -⟩ := mAssign_ok (triv := true) d1 b2 b3 (Owned.ready (d := d.flat) a4 a3) hal
    exact ⟨_, e1, .of_rep' e2 d1 d2 d3⟩
  · rcases mAssign_does H.inv d1 b2 (MExpr.build_leaves e n b1 (h2 hd)) with
      ⟨s', d', e1, e2, e3, e4, e5⟩ | ⟨hal, s', e1⟩
    · exact Or.inl ⟨s', e1, .of_rep' e2 e3 (e4.trans d2) (e5.trans d3)⟩
    · exact Or.inr ⟨hal, s', e1⟩

theorem does_mOp {s : State E} {σ : Store E} (H : Holds s σ) {o : BinOp} {x : Nat} {e : MExpr E} {c : MCont E}
    {q p : MVal E} (h : q.r = p.r ∧ q.c = p.c) (hx : σ.m x = some c) (hq : c.val? = some q) (he : e.Has σ p)
    (ha : e.Ahead (fun _ => True) (fun _ => True) (· ≠ x)) :
    (Op.mOp o x e).Does s σ (σ.setM x (some (.of c.colMajor c.colBasis
        ⟨q.r, q.c, fun i j => o.den (q.f i j) (p.f (i.cast h.1) (j.cast h.2))⟩))) := by
  obtain ⟨d, d1, d2, d3, -⟩ := H.mat hx
  have hrq : MRep s (.var x) q := by
    have := H.m x
    rw [hx] at this
    exact this.rep hq
  obtain ⟨n, b1, b2, b3⟩ := he.build H
  refine H.doesM (o := .mOp o x e) trivial (fun _ => Iff.rfl) (Or.inl ?_)
  have hal := MExpr.build_ahead e n b1 (MExpr.Ahead.imp (fun y _ => H.inv.mahead d1 y)
    (fun y _ => H.inv.vdisjM d1 y) (fun y hy => H.inv.mdisj' d1 hy) e ha)
  obtain ⟨hqr, hqc⟩ := mrep_dims d1 hrq
  obtain ⟨pr, pc, pf⟩ := p
  obtain ⟨qr, qc, qf⟩ := q
  simp only at hqr hqc h
  obtain ⟨rfl, rfl⟩ := h
  subst hqr hqc
  obtain ⟨h', e1, e2, -⟩ := mOpAssign_ok (triv := true) (o := o) d1 b2 hrq b3 hal
  exact ⟨_, by simp only [Op.run, mstmtOpAssign, b1, Out.withVal_ok, e1], .of_rep' e2 d1 d2 d3⟩

theorem does_mScal {s : State E} {σ : Store E} (H : Holds s σ) {o : ScalOp} {x : Nat} {r : MScalarRef E} {a : E}
    {c : MCont E} {q : MVal E} (hx : σ.m x = some c) (hq : c.val? = some q) (hr : σ.mscalar r = some a)
    (hne : ∀ i j, r ≠ .elem x i j) :
    (Op.mScal o x r).Does s σ (σ.setM x (some (.of c.colMajor c.colBasis
        ⟨q.r, q.c, fun i j => o.den (q.f i j) a⟩))) := by
  obtain ⟨d, d1, d2, d3, -⟩ := H.mat hx
  have hrq : MRep s (.var x) q := by
    have := H.m x
    rw [hx] at this
    exact this.rep hq
  refine H.doesM (o := .mScal o x r) trivial (fun _ => Iff.rfl) (Or.inl ?_)
  obtain ⟨hqr, hqc⟩ := mrep_dims d1 hrq
  obtain ⟨qr, qc, qf⟩ := q
  simp only at hqr hqc
  subst hqr hqc
  obtain ⟨h', e1, e2, -⟩ := mscalAssign_partial (triv := true) (o := o) d1 qf hrq r a (H.mread hr)
    (fun y i j hy => H.inv.mdisj' d1 (by rintro rfl; exact hne i j hy))
  exact ⟨_, e1, .of_rep' e2 d1 d2 d3⟩

theorem does_mFill {s : State E} {σ : Store E} (H : Holds s σ) {x : Nat} {r : MScalarRef E} {a : E} {c : MCont E}
    (hx : σ.m x = some c) (hr : σ.mscalar r = some a) :
    (Op.mFill x r).Does s σ (σ.setM x (some (.of c.colMajor c.colBasis ⟨c.r, c.c, fun _ _ => a⟩))) := by
  obtain ⟨d, d1, d2, d3, d4, d5, -⟩ := H.mat hx
  obtain ⟨a1, a2, a3, a4⟩ := H.inv.mat_alloc d1
  refine H.doesM (o := .mFill x r) trivial (fun _ => Iff.rfl) (Or.inl ?_)
  obtain ⟨h', e1, e2, -⟩ := mfill_spec (triv := true) d1 (Owned.ready (d := d.flat) a4 a3) r a (H.mread hr)
    (fun y k l _ => by
      by_cases h : y = x
      · exact Or.inl h
      · exact Or.inr (H.inv.mdisj' d1 h))
  rw [← d4, ← d5]
  exact ⟨_, e1, .of_rep' e2 d1 d2 d3⟩

theorem does_mList {s : State E} {σ : Store E} (H : Holds s σ) {kind : ListKind} {x : Nat} {xs : List E}
    {c : MCont E} (h : xs.length = c.r * c.c) (hx : σ.m x = some c) :
    (Op.mList kind x xs).Does s σ (σ.setM x (some (.of c.colMajor c.colBasis
        ⟨c.r, c.c, fun i j => xs[(finProdFinEquiv (i, j)).cast h.symm]⟩))) := by
  obtain ⟨d, d1, d2, d3, d4, d5, -⟩ := H.mat hx
  obtain ⟨a1, a2, a3, a4⟩ := H.inv.mat_alloc d1
  refine H.doesM (o := .mList kind x xs) trivial (fun _ => Iff.rfl) (Or.inl ?_)
  obtain ⟨cm, cb, cr, cc, cf⟩ := c
  simp only at d2 d3 d4 d5 h
  subst d2 d3 d4 d5
  obtain ⟨h', e1, e2, -⟩ := massign_list (triv := true) (kind := kind) d1 (Owned.ready (d := d.flat) a4 a3) xs h
  have e3 : MRep { s with heap := h' } (.var x)
      ⟨d.rows, d.cols, fun i j => xs[(finProdFinEquiv (i, j)).cast h.symm]⟩ := ⟨e2.dims, fun i j => ?_⟩
  · exact ⟨_, e1, .of_rep' e3 d1 rfl rfl⟩
  rw [e2.get i j]
  congr 1
  simp only [Fin.getElem_fin, Fin.val_cast, finProdFinEquiv_apply_val]
  congr 1
  rw [Nat.mul_comm, Nat.add_comm]

theorem does_mDestroy {s : State E} {σ : Store E} (H : Holds s σ) {x : Nat} {c : MCont E} (hx : σ.m x = some c) :
    (Op.mDestroy x).Does s σ (σ.setM x none) := by
  obtain ⟨d, d1, -⟩ := H.mat hx
  obtain ⟨h', e⟩ := destroy_ok (triv := true) (v := d.flat) (H.inv.mat_alloc d1).2.2.2
  have e : (s.heap.destruct true d.data).free d.data (d.rows * d.cols) = .ok h' := e
  refine H.doesM (o := .mDestroy x) trivial (fun _ => Iff.rfl) (Or.inl
    ⟨{ s with heap := h' }.setMat x none, ?_, ?_⟩)
  · simp [Op.run, CML.mDestroy, State.mobj, d1, e]
  · show _ = _
    simp [State.setMat]

/-- Every statement does what it means. -/
theorem Op.Means.does {s : State E} {σ σ' : Store E} (H : Holds s σ) {o : Op E} (h : o.Means σ σ') :
    o.Does s σ σ' := by
  cases h with
  | vDefault h => exact does_vDefault H h
  | vNew h => exact does_vNew H h
  | vCopyNew h h' => exact does_vCopyNew H h h'
  | vMoveNew h h' => exact does_vMoveNew H h h'
  | vResize h => exact does_vResize H h
  | vPut hi h => exact does_vPut H hi h
  | vAssign h h1 h2 h3 => exact does_vAssign H h h1 h2 h3
  | vOp h h1 h2 h3 => exact does_vOp H h h1 h2 h3
  | vScal h1 h2 h3 => exact does_vScal H h1 h2 h3
  | vFill h1 h2 => exact does_vFill H h1 h2
  | vList h => exact does_vList H h
  | vMove h h' => exact does_vMove H h h'
  | vDestroy h => exact does_vDestroy H h
  | mDefault h => exact does_mDefault H h
  | mNew h => exact does_mNew H h
  | mCopyNew h h' => exact does_mCopyNew H h h'
  | mMoveNew h h' => exact does_mMoveNew H h h'
  | mResize h => exact does_mResize H h
  | mPut hi hj h => exact does_mPut H hi hj h
  | mAssign h h1 h2 h3 => exact does_mAssign H h h1 h2 h3
  | mOp h h1 h2 h3 h4 => exact does_mOp H h h1 h2 h3 h4
  | mScal h1 h2 h3 h4 => exact does_mScal H h1 h2 h3 h4
  | mFill h1 h2 => exact does_mFill H h1 h2
  | mList h h' => exact does_mList H h h'
  | mMove h h' h1 h2 => exact does_mMove H h h' h1 h2
  | mDestroy h => exact does_mDestroy H h

end CML
