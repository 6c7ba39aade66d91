import Verif.Lemmas.Expr

/-! The induction over expressions behind the refinement theorems C07 and C41. -/

set_option linter.unusedSectionVars false

namespace CML

variable {E : Type} [Add E] [Sub E] [Mul E] [Div E] [Neg E]

theorem typed_var_v {s : State E} {x : Nat} {n : Int} (h : (VNode.var x : VNode E).size s = .ok n) :
    ∃ b, (VNode.var x : VNode E).Typed s b n := by
  unfold VNode.size at h
  cases hv : s.vobj x with
  | ok v =>
    simp only [hv, Res.ok_bind, Res.pure_eq, Res.ok.injEq] at h
    subst h
    exact ⟨v.fixed, by simp [VNode.fixed, hv], by simp [VNode.csize, hv],
      _, by simp [VNode.compiled, hv]; rfl, by simp⟩
  | throw e => rw [hv] at h; simp at h
  | ub u => rw [hv] at h; simp at h

theorem typed_var_m {s : State E} {x : Nat} {n : Int × Int}
    (h : (MNode.var x : MNode E).dims s = .ok n) :
    ∃ b, (MNode.var x : MNode E).Typed s b n := by
  unfold MNode.dims at h
  cases hv : s.mobj x with
  | ok v =>
    simp only [hv, Res.ok_bind, Res.pure_eq, Res.ok.injEq] at h
    subst h
    exact ⟨v.fixed, by simp [MNode.fixed, hv], by simp [MNode.cdims, hv],
      ⟨_, by simp [MNode.compiled, hv]; rfl, by simp⟩,
      ⟨_, by simp [MNode.sdims, hv]; rfl, by simp +contextual⟩⟩
  | throw e => rw [hv] at h; simp at h
  | ub u => rw [hv] at h; simp at h

theorem typed_vec {s : State E} {x : Nat} {d : VObj} (hx : s.vec x = some d) :
    (VNode.var x : VNode E).Typed s d.fixed d.size :=
  ⟨by simp [VNode.fixed, State.vobj, hx], by simp [VNode.csize, State.vobj, hx],
    _, by simp [VNode.compiled, State.vobj, hx]; rfl, by simp⟩

theorem typed_mat {s : State E} {x : Nat} {d : MObj} (hx : s.mat x = some d) :
    (MNode.var x : MNode E).Typed s d.fixed ((d.rows : Int), (d.cols : Int)) :=
  ⟨by simp [MNode.fixed, State.mobj, hx], by simp [MNode.cdims, State.mobj, hx],
    ⟨_, by simp [MNode.compiled, State.mobj, hx]; rfl, by simp⟩,
    ⟨_, by simp [MNode.sdims, State.mobj, hx]; rfl, by simp +contextual⟩⟩

theorem VNode.Typed.chk {s : State E} {a : VNode E} {f : Bool} {n : Int} (h : a.Typed s f n)
    (hn : a.size s = .ok n) {b : Bool} (hb : b = true → f = true) : a.chkSize s b = .ok n := by
  unfold VNode.chkSize
  cases b with
  | false => simpa using hn
  | true => simp [h.csize, hb rfl]

theorem MNode.Typed.chk {s : State E} {a : MNode E} {f : Bool} {n : Int × Int} (h : a.Typed s f n)
    (hn : a.dims s = .ok n) {b : Bool} (hb : b = true → f = true) : a.chkDims s b = .ok n := by
  unfold MNode.chkDims
  cases b with
  | false => simpa using hn
  | true => simp [h.cdims, hb rfl]

/-- The storage type of a `Straight` operand. -/
theorem MNode.Typed.straight {s : State E} {a : MNode E} {f : Bool} {d : Int × Int} (h : a.Typed s f d)
    (hd : a.dims s = .ok d) (hs : a.Straight s) :
    a.sdims s = .ok (if f then d else (-1, -1)) ∧ (f = true → 0 < d.1 ∧ 0 < d.2) := by
  cases f with
  | false =>
    obtain ⟨k, hk, hk'⟩ := h.sdims
    simp [hk, hk' rfl]
  | true =>
    obtain ⟨d', h1, h2, h3⟩ := hs h.fixed
    rw [hd, Res.ok.injEq] at h1
    subst h1
    exact ⟨by simpa using h2, fun _ => h3⟩

theorem VNode.Typed.temp {s : State E} {b : Bool} {xs : List E} {n : Int} (hn : (xs.length : Int) = n) :
    (VNode.temp b xs).Typed s b n := by
  subst hn
  exact ⟨rfl, rfl, b, rfl, id⟩

theorem MNode.Typed.temp {s : State E} {t : MTemp E} :
    (MNode.temp t).Typed s t.fixed ((t.rows : Int), (t.cols : Int)) :=
  ⟨rfl, rfl, ⟨_, rfl, id⟩, ⟨_, rfl, by simp +contextual⟩⟩

theorem VNode.Typed.bin {s : State E} {a b : VNode E} {f g : Bool} {n : Int} (o : BinOp)
    (ha : a.Typed s f n) (hb : b.Typed s g n) (hn : (f || g) = true → 0 ≤ n) : (VNode.bin o a b).Typed s (f || g) n := by
  obtain ⟨c, hc, hc'⟩ := ha.compiled
  obtain ⟨d, hd, hd'⟩ := hb.compiled
  refine ⟨by simp [VNode.fixed, ha.fixed, hb.fixed], ?_, c || d, by simp [VNode.compiled, hc, hd], ?_⟩
  · simp only [VNode.csize, ha.csize, hb.csize, Res.ok_bind, Res.pure_eq]
    cases f <;> cases g <;> simp at hn ⊢ <;> omega
  · cases c <;> cases d <;> simp_all

theorem VNode.Typed.cross {s : State E} {a b : VNode E} {f g : Bool}
    (ha : a.Typed s f 3) (hb : b.Typed s g 3) : (VNode.cross a b).Typed s (f || g) 3 := by
  obtain ⟨c, hc, hc'⟩ := ha.compiled
  obtain ⟨d, hd, hd'⟩ := hb.compiled
  refine ⟨by simp [VNode.fixed, ha.fixed, hb.fixed], ?_, c || d, by simp [VNode.compiled, hc, hd], ?_⟩
  · simp only [VNode.csize, ha.csize, hb.csize, Res.ok_bind, Res.pure_eq]
    cases f <;> cases g <;> simp
  · cases c <;> cases d <;> simp_all

theorem VNode.Typed.scal {s : State E} {a : VNode E} {f : Bool} {n : Int} (o : ScalOp) (c : E)
    (ha : a.Typed s f n) : (VNode.scal o a c).Typed s f n :=
  ⟨by simp [VNode.fixed, ha.fixed], by simp [VNode.csize, ha.csize], by
    simpa [VNode.compiled] using ha.compiled⟩

theorem VNode.Typed.neg {s : State E} {a : VNode E} {f : Bool} {n : Int}
    (ha : a.Typed s f n) : (VNode.neg a).Typed s f n :=
  ⟨by simp [VNode.fixed, ha.fixed], by simp [VNode.csize, ha.csize], by
    simpa [VNode.compiled] using ha.compiled⟩

theorem VNode.Typed.sub {s : State E} {a : VNode E} {f : Bool} {n : Int} (k : Int)
    (ha : a.Typed s f n) (h : a.compiled s = .ok true → 1 < n) :
    (VNode.sub a k).Typed s (f && decide (1 < n)) (n - 1) := by
  obtain ⟨c, hc, hc'⟩ := ha.compiled
  rw [hc] at h
  refine ⟨?_, ?_, c, by simp [VNode.compiled, hc], ?_⟩
  · simp only [VNode.fixed, hc, ha.csize, Res.ok_bind, Res.pure_eq]
    cases f <;> cases c <;> simp_all
  · simp only [VNode.csize, ha.csize, Res.ok_bind, Res.pure_eq]
    cases f <;> simp
  · cases c <;> simp_all

theorem MNode.Typed.row {s : State E} {a : MNode E} {f : Bool} {r c : Int} (i : Nat)
    (ha : a.Typed s f (r, c)) (hn : f = true → 0 ≤ r ∧ 0 ≤ c) : (VNode.row a i).Typed s f c := by
  obtain ⟨q, hq, hq'⟩ := ha.compiled
  refine ⟨?_, ?_, q, by simp [VNode.compiled, hq], hq'⟩
  · simp only [VNode.fixed, hq, ha.cdims, Res.ok_bind, Res.pure_eq]
    cases f <;> cases q <;> simp_all <;> omega
  · simp only [VNode.csize, ha.cdims, Res.ok_bind, Res.pure_eq]
    cases f <;> simp

theorem MNode.Typed.col {s : State E} {a : MNode E} {f : Bool} {r c : Int} (i : Nat)
    (ha : a.Typed s f (r, c)) (hn : f = true → 0 ≤ r ∧ 0 ≤ c) : (VNode.col a i).Typed s f r := by
  obtain ⟨q, hq, hq'⟩ := ha.compiled
  refine ⟨?_, ?_, q, by simp [VNode.compiled, hq], hq'⟩
  · simp only [VNode.fixed, hq, ha.cdims, Res.ok_bind, Res.pure_eq]
    cases f <;> cases q <;> simp_all <;> omega
  · simp only [VNode.csize, ha.cdims, Res.ok_bind, Res.pure_eq]
    cases f <;> simp

theorem MNode.Typed.bin {s : State E} {a b : MNode E} {f g : Bool} {r c : Int} (o : BinOp)
    (ha : a.Typed s f (r, c)) (hb : b.Typed s g (r, c))
    (da : a.sdims s = .ok (if f then (r, c) else (-1, -1)))
    (db : b.sdims s = .ok (if g then (r, c) else (-1, -1)))
    (hn : (f || g) = true → 0 ≤ r ∧ 0 ≤ c) :
    (MNode.bin o a b).Typed s (f || g) (r, c) ∧
      (MNode.bin o a b).sdims s = .ok (if f || g then (r, c) else (-1, -1)) := by
  have key : (MNode.bin o a b).sdims s = .ok (if f || g then (r, c) else (-1, -1)) := by
    simp only [MNode.sdims, da, db, Res.ok_bind, Res.pure_eq]
    cases f <;> cases g <;> simp at hn ⊢ <;> omega
  refine ⟨?_, key⟩
  obtain ⟨p, hp, hp'⟩ := ha.compiled
  obtain ⟨q, hq, hq'⟩ := hb.compiled
  refine ⟨by simp [MNode.fixed, ha.fixed, hb.fixed], ?_,
    ⟨p || q, by simp [MNode.compiled, hp, hq], ?_⟩, ⟨_, key, ?_⟩⟩
  · simpa only [MNode.cdims, MNode.sdims] using key
  · cases p <;> cases q <;> simp_all
  · cases f <;> cases g <;> simp

theorem MNode.Typed.scal {s : State E} {a : MNode E} {f : Bool} {n : Int × Int} (o : ScalOp) (c : E)
    (ha : a.Typed s f n) : (MNode.scal o a c).Typed s f n :=
  ⟨by simp [MNode.fixed, ha.fixed], by simp [MNode.cdims, ha.cdims], by
    simpa [MNode.compiled] using ha.compiled, by simpa [MNode.sdims] using ha.sdims⟩

theorem MNode.Typed.neg {s : State E} {a : MNode E} {f : Bool} {n : Int × Int}
    (ha : a.Typed s f n) : (MNode.neg a).Typed s f n :=
  ⟨by simp [MNode.fixed, ha.fixed], by simp [MNode.cdims, ha.cdims], by
    simpa [MNode.compiled] using ha.compiled, by simpa [MNode.sdims] using ha.sdims⟩

theorem MNode.Typed.transpose {s : State E} {a : MNode E} {f : Bool} {r c : Int}
    (ha : a.Typed s f (r, c)) : (MNode.transpose a).Typed s f (c, r) :=
  ⟨by simp [MNode.fixed, ha.fixed], by simp [MNode.cdims, ha.cdims]; cases f <;> rfl, by
    simpa [MNode.compiled] using ha.compiled, by simpa [MNode.sdims] using ha.sdims⟩

theorem VNode.Typed.outer {s : State E} {a b : VNode E} {f : Bool} {r c : Int}
    (ha : a.Typed s f r) (hb : b.Typed s f c) : (MNode.outer a b).Typed s f (r, c) := by
  obtain ⟨p, hp, hp'⟩ := ha.compiled
  obtain ⟨q, hq, hq'⟩ := hb.compiled
  refine ⟨by simp [MNode.fixed, ha.fixed, hb.fixed], ?_,
    ⟨p || q, by simp [MNode.compiled, hp, hq], ?_⟩,
    ⟨_, by simp [MNode.sdims, ha.csize, hb.csize]; rfl, ?_⟩⟩
  · simp only [MNode.cdims, ha.csize, hb.csize, Res.ok_bind, Res.pure_eq]
    cases f <;> simp
  · cases p <;> cases q <;> simp_all
  · cases f <;> simp

theorem checkSameSize_eq {s : State E} {a b : VNode E} {f g : Bool} {n k : Int}
    (hf : a.Typed s f n) (hg : b.Typed s g k) (hn : a.size s = .ok n)
    (hk : b.size s = .ok k) :
    checkSameSize s a b
      = if n = k then .ok () else .throw (if f && g then .staticAssert else .vecIncompatible) := by
  unfold checkSameSize
  have e1 : a.chkSize s (f && g) = .ok n := hf.chk hn (by simp +contextual)
  have e2 : b.chkSize s (f && g) = .ok k := hg.chk hk (by simp +contextual)
  simp only [hf.fixed, hg.fixed, e1, e2, Res.ok_bind, Res.require]
  by_cases h : n = k <;> simp [h]

theorem checkSameDims_eq {s : State E} {a b : MNode E} {f g : Bool} {n k : Int × Int}
    (hf : a.Typed s f n) (hg : b.Typed s g k) (hn : a.dims s = .ok n)
    (hk : b.dims s = .ok k) :
    checkSameDims s a b
      = if n = k then .ok () else .throw (if f && g then .staticAssert else .matIncompatible) := by
  unfold checkSameDims
  have e1 : a.chkDims s (f && g) = .ok n := hf.chk hn (by simp +contextual)
  have e2 : b.chkDims s (f && g) = .ok k := hg.chk hk (by simp +contextual)
  simp only [hf.fixed, hg.fixed, e1, e2, Res.ok_bind, Res.require]
  by_cases h : n = k <;> simp [h]

theorem productSize_eq {f vc : Bool} {n : Nat} (h : f = true → 0 < (n : Int)) :
    productSize vc f (if f then (n : Int) else -1) n = .ok (f, (n : Int)) := by
  unfold productSize
  cases f <;> simp_all

theorem productRoom_self {n : Int} : productRoom n n = .ok () := by simp [productRoom]

theorem matVec_ok {s : State E} {a : MNode E} {v : VNode E} {p : MVal E} {q : VVal E} {f g : Bool}
    (ha : MRep s a p) (hv : VRep s v q) (hf : a.Typed s f ((p.r : Int), (p.c : Int)))
    (hg : v.Typed s g q.n) (hs : a.Straight s)
    (h : p.c = q.n ∧ 0 < p.c) :
    matVec s a v = .ok (f, List.ofFn fun i =>
      dotLeft p.c h.2 (fun k => p.f i k) (fun k => q.f (k.cast h.1))) := by
  obtain ⟨h1, h2⟩ := h
  obtain ⟨sd, pos⟩ := hf.straight ha.dims hs
  obtain ⟨vc, hvc, -⟩ := hg.compiled
  have e1 : a.chkDims s (f && g) = .ok _ := hf.chk ha.dims (by simp +contextual)
  have e2 : v.chkSize s (f && g) = .ok _ := hg.chk hv.size (by simp +contextual)
  have e3 : (if f then ((p.r : Int), (p.c : Int)) else (-1, -1)).1 = if f then (p.r : Int) else -1 := by
    cases f <;> rfl
  unfold matVec
  simp only [hf.fixed, hg.fixed, e1, e2, Res.ok_bind, checkInner, Res.require, h1, beq_self_eq_true,
    if_true, Int.toNat_natCast, ha.dims, hv.size, hvc, sd]
  rw [h1] at e3
  rw [e3, productSize_eq (fun h => (pos h).1)]
  simp only [Res.ok_bind, productRoom_self]
  rw [loop_collect (fun i => dotLeft p.c h2 (fun k => p.f i k) (fun k => q.f (k.cast h1)))]
  · simp
  · intro i
    have := innerLoop_eq h2 _ _ (fun k => ha.get i k) (fun k => hv.get (k.cast h1))
    rw [← this, h1]

theorem vecMat_ok {s : State E} {v : VNode E} {b : MNode E} {p : VVal E} {q : MVal E} {f g : Bool}
    (hv : VRep s v p) (hb : MRep s b q) (hf : v.Typed s f p.n)
    (hg : b.Typed s g ((q.r : Int), (q.c : Int))) (hs : b.Straight s)
    (h : p.n = q.r ∧ 0 < p.n) :
    vecMat s v b = .ok (g, List.ofFn fun j =>
      dotLeft p.n h.2 p.f (fun k => q.f (k.cast h.1) j)) := by
  obtain ⟨h1, h2⟩ := h
  obtain ⟨sd, pos⟩ := hg.straight hb.dims hs
  obtain ⟨vc, hvc, -⟩ := hf.compiled
  have e1 : b.chkDims s (f && g) = .ok _ := hg.chk hb.dims (by simp +contextual)
  have e2 : v.chkSize s (f && g) = .ok _ := hf.chk hv.size (by simp +contextual)
  have e3 : (if g then ((q.r : Int), (q.c : Int)) else (-1, -1)).2 = if g then (q.c : Int) else -1 := by
    cases g <;> rfl
  unfold vecMat
  simp only [hf.fixed, hg.fixed, e1, e2, Res.ok_bind, checkInner, Res.require, h1, beq_self_eq_true,
    if_true, Int.toNat_natCast, hb.dims, hv.size, hvc, sd]
  rw [e3, productSize_eq (fun h => (pos h).2)]
  simp only [Res.ok_bind, productRoom_self]
  rw [loop_collect (fun j => dotLeft p.n h2 p.f (fun k => q.f (k.cast h1) j))]
  · simp
  · intro j
    have := innerLoop_eq (p := fun k => v.get s k) (q := fun k => b.get s k j) h2 p.f
      (fun k => q.f (k.cast h1) j) (fun k => hv.get k) (fun k => hb.get (k.cast h1) j)
    rw [← this, h1]

theorem matMul_ok {s : State E} {a b : MNode E} {p q : MVal E} {f g : Bool}
    (ha : MRep s a p) (hb : MRep s b q) (hf : a.Typed s f ((p.r : Int), (p.c : Int)))
    (hg : b.Typed s g ((q.r : Int), (q.c : Int))) (hs : a.Straight s) (ht : b.Straight s)
    (h : p.c = q.r ∧ 0 < p.c) :
    ∃ l, matMul s a b = .ok ⟨f && g, p.r, q.c, l⟩ ∧ l.length = p.r * q.c ∧
      ∀ (i : Fin p.r) (j : Fin q.c), l[(i : Nat) * q.c + j]?
        = some (dotLeft p.c h.2 (fun k => p.f i k) (fun k => q.f (k.cast h.1) j)) := by
  obtain ⟨h1, h2⟩ := h
  obtain ⟨l, e1, e2, e3⟩ := loop_collect2 (r := p.r) (c := q.c)
    (body := fun i j => innerLoop (fun k => a.get s i k) (fun k => b.get s k j) p.c)
    (fun i j => dotLeft p.c h2 (fun k => p.f i k) (fun k => q.f (k.cast h1) j))
    (fun i j => innerLoop_eq h2 _ _ (fun k => ha.get i k) (fun k => hb.get (k.cast h1) j))
  refine ⟨l, ?_, e2, e3⟩
  obtain ⟨sa, pa⟩ := hf.straight ha.dims hs
  obtain ⟨sb, pb⟩ := hg.straight hb.dims ht
  have d1 : a.chkDims s (f && g) = .ok _ := hf.chk ha.dims (by simp +contextual)
  have d2 : b.chkDims s (f && g) = .ok _ := hg.chk hb.dims (by simp +contextual)
  have pd : productDims f g (if f then ((p.r : Int), (p.c : Int)) else (-1, -1)).1
      (if g then ((q.r : Int), (q.c : Int)) else (-1, -1)).2 p.r q.c = .ok (f && g, p.r, q.c) := by
    unfold productDims
    cases f <;> cases g <;> simp_all
  unfold matMul
  rw [h1] at e1 pd sa
  simp only [hf.fixed, hg.fixed, d1, d2, Res.ok_bind, checkInner, Res.require, h1, beq_self_eq_true,
    if_true, Int.toNat_natCast, ha.dims, hb.dims, sa, sb, pd]
  rw [e1]
  simp

theorem MTemp.get_eq {t : MTemp E} {i j : Nat} (hi : i < t.rows) (hj : j < t.cols) {v : E}
    (h : t.elems[i * t.cols + j]? = some v) : t.get i j = .ok v := by
  unfold MTemp.get
  simp [hi, hj, h]

theorem VRep.temp {s : State E} {b : Bool} (xs : List E) :
    VRep s (.temp b xs) ⟨xs.length, fun i => xs[i]⟩ :=
  ⟨rfl, fun i => by simp [VNode.get]⟩

theorem VRep.ofFn {s : State E} {b : Bool} {n : Nat} (f : Fin n → E) :
    VRep s (.temp b (List.ofFn f)) ⟨n, f⟩ :=
  ⟨by simp [VNode.size], fun i => by simp [VNode.get]⟩

theorem crossSize_eq {s : State E} {x : VNode E} {f : Bool} {n : Int} (hf : x.Typed s f n)
    (hn : x.size s = .ok n) (h : (∀ f, x.fixed s = .ok f → f = true) ∨ x.movedSize s = x.size s) :
    x.ctorSize s f = .ok n := by
  unfold VNode.ctorSize
  cases f with
  | true => simpa using hf.csize
  | false =>
    rcases h with h | h
    · cases h _ hf.fixed
    · simpa [h] using hn

mutual
theorem VExpr.build_ok {s : State E} {ρ : Env E} (hA : Agree s ρ) : ∀ e : VExpr E, e.Supported s →
    ∀ p, e.den ρ = some p → ∃ x, e.build s = .ok x ∧ VRep s x p ∧ ∃ b, x.Typed s b p.n
  | .var x, _, p, h => by
    simp only [VExpr.den] at h
    exact ⟨.var x, rfl, hA.v x p h, typed_var_v (hA.v x p h).size⟩
  | .temp f xs, _, p, h => by
    simp only [VExpr.den, Option.some.injEq] at h
    subst h
    exact ⟨.temp f xs, rfl, VRep.temp xs, f, VNode.Typed.temp rfl⟩
  | .bin o a b, hs, r, h => by
    simp only [VExpr.Supported] at hs
    simp only [VExpr.den] at h
    cases hpa : a.den ρ with
    | none => simp [hpa] at h
    | some p =>
      cases hpb : b.den ρ with
      | none => simp [hpa, hpb] at h
      | some q =>
        simp only [hpa, hpb] at h
        by_cases hn : p.n = q.n
        · simp only [hn, dif_pos, Option.some.injEq] at h
          obtain ⟨x, hx, hxr, f, hf⟩ := VExpr.build_ok hA a hs.1 p hpa
          obtain ⟨y, hy, hyr, g, hg⟩ := VExpr.build_ok hA b hs.2 q hpb
          refine ⟨.bin o x y, ?_, ?_, f || g, ?_⟩
          · simp [VExpr.build, hx, hy, checkSameSize_eq hf hg hxr.size hyr.size, hn]
          · subst h
            obtain ⟨pn, pf⟩ := p
            obtain ⟨qn, qf⟩ := q
            simp only at hn
            subst hn
            refine ⟨?_, ?_⟩
            · simp [VNode.size, hxr.size]
            · intro i
              simp only at i
              have e1 := hxr.get i
              have e2 := hyr.get i
              simp only at e1 e2
              simp [VNode.get, e1, e2]
          · subst h
            have hg' := hg
            rw [← hn] at hg'
            exact hf.bin o hg' fun _ => by omega
        · simp [hn] at h
  | .scal o a c, hs, r, h => by
    simp only [VExpr.Supported] at hs
    simp only [VExpr.den] at h
    cases hpa : a.den ρ with
    | none => simp [hpa] at h
    | some p =>
      simp only [hpa, Option.some.injEq] at h
      obtain ⟨x, hx, hxr, f, hf⟩ := VExpr.build_ok hA a hs p hpa
      subst h
      exact ⟨.scal o x c, by simp [VExpr.build, hx],
        ⟨by simp [VNode.size, hxr.size], fun i => by simp [VNode.get, hxr.get i]⟩, f,
        hf.scal o c⟩
  | .neg a, hs, r, h => by
    simp only [VExpr.Supported] at hs
    simp only [VExpr.den] at h
    cases hpa : a.den ρ with
    | none => simp [hpa] at h
    | some p =>
      simp only [hpa, Option.some.injEq] at h
      obtain ⟨x, hx, hxr, f, hf⟩ := VExpr.build_ok hA a hs p hpa
      subst h
      exact ⟨.neg x, by simp [VExpr.build, hx],
        ⟨by simp [VNode.size, hxr.size], fun i => by simp [VNode.get, hxr.get i]⟩, f,
        hf.neg⟩
  | .cross a b, hs, r, h => by
    simp only [VExpr.Supported] at hs
    simp only [VExpr.den] at h
    split at h
    next p q hpa hpb =>
      obtain ⟨x, hx, hxr, f, hf⟩ := VExpr.build_ok hA a hs.1 _ hpa
      obtain ⟨y, hy, hyr, g, hg⟩ := VExpr.build_ok hA b hs.2.1 _ hpb
      have mx := crossSize_eq hf hxr.size (hs.2.2.1 x hx)
      have my := crossSize_eq hg hyr.size (hs.2.2.2 y hy)
      simp only [Option.some.injEq] at h
      subst h
      refine ⟨.cross x y, ?_, ⟨rfl, ?_⟩, f || g, ?_⟩
      · simp [VExpr.build, hx, hy, hf.fixed, hg.fixed, mx, my, checkSizeC, Res.require]
      · have a0 := hxr.get (0 : Fin 3)
        have a1 := hxr.get (1 : Fin 3)
        have a2 := hxr.get (2 : Fin 3)
        have b0 := hyr.get (0 : Fin 3)
        have b1 := hyr.get (1 : Fin 3)
        have b2 := hyr.get (2 : Fin 3)
        simp only [Fin.val_zero, Fin.val_one, Fin.val_two] at a0 a1 a2 b0 b1 b2
        intro i
        simp only at i
        fin_cases i <;> simp [VNode.get, a0, a1, a2, b0, b1, b2]
      · exact hf.cross hg
    next => cases h
  | .sub a k, hs, r, h => by
    simp only [VExpr.Supported] at hs
    simp only [VExpr.den] at h
    split at h
    next n p hpa =>
      obtain ⟨x, hx, hxr, f, hf⟩ := VExpr.build_ok hA a hs.1 _ hpa
      split at h
      next hk =>
        simp only [Option.some.injEq] at h
        subst h
        refine ⟨.sub x k, by simp [VExpr.build, hx], ⟨?_, ?_⟩, f && decide (0 < n), ?_⟩
        · simp [VNode.size, hxr.size]
        · intro i
          have := hxr.get ((⟨k.toNat, hk.2⟩ : Fin (n + 1)).succAbove i)
          simp only at this i
          simp only [VNode.get, ← this]
          congr 1
          by_cases hik : i.1 < k.toNat
          · rw [if_pos (by omega), Fin.succAbove_of_castSucc_lt _ _ (by simpa [Fin.lt_def] using hik)]
            simp
          · rw [if_neg (by omega), Fin.succAbove_of_le_castSucc _ _ (by simp [Fin.le_def]; omega)]
            simp
        · have := hf.sub k fun hc => hs.2 x hx hc _ hxr.size
          simpa using this
      next => cases h
    next => cases h
  | .row m i, hs, r, h => by
    simp only [VExpr.Supported] at hs
    simp only [VExpr.den] at h
    cases hpm : m.den ρ with
    | none => simp [hpm] at h
    | some p =>
      simp only [hpm] at h
      split at h
      next hi =>
        obtain ⟨x, hx, hxr, f, hf⟩ := MExpr.build_ok hA m hs p hpm
        simp only [Option.some.injEq] at h
        subst h
        refine ⟨.row x i.toNat, by simp [VExpr.build, hx, Res.require, hi.1], ⟨?_, ?_⟩, f, ?_⟩
        · simp [VNode.size, hxr.dims]
        · intro j
          exact hxr.get ⟨i.toNat, hi.2⟩ j
        · exact hf.row _ fun _ => by omega
      next => cases h
  | .col m i, hs, r, h => by
    simp only [VExpr.Supported] at hs
    simp only [VExpr.den] at h
    cases hpm : m.den ρ with
    | none => simp [hpm] at h
    | some p =>
      simp only [hpm] at h
      split at h
      next hi =>
        obtain ⟨x, hx, hxr, f, hf⟩ := MExpr.build_ok hA m hs p hpm
        simp only [Option.some.injEq] at h
        subst h
        refine ⟨.col x i.toNat, by simp [VExpr.build, hx, Res.require, hi.1], ⟨?_, ?_⟩, f, ?_⟩
        · simp [VNode.size, hxr.dims]
        · intro j
          exact hxr.get j ⟨i.toNat, hi.2⟩
        · exact hf.col _ fun _ => by omega
      next => cases h
  | .mulMV m v, hs, r, h => by
    simp only [VExpr.Supported] at hs
    simp only [VExpr.den] at h
    cases hpm : m.den ρ with
    | none => simp [hpm] at h
    | some p =>
      cases hpv : v.den ρ with
      | none => simp [hpm, hpv] at h
      | some q =>
        simp only [hpm, hpv] at h
        split at h
        next hi =>
          obtain ⟨x, hx, hxr, f, hf⟩ := MExpr.build_ok hA m hs.1 p hpm
          obtain ⟨y, hy, hyr, g, hg⟩ := VExpr.build_ok hA v hs.2.1 q hpv
          simp only [Option.some.injEq] at h
          subst h
          exact ⟨_, by simp [VExpr.build, hx, hy, matVec_ok hxr hyr hf hg (hs.2.2 x hx) hi],
            VRep.ofFn _, f, VNode.Typed.temp (by simp)⟩
        next => cases h
  | .mulVM v m, hs, r, h => by
    simp only [VExpr.Supported] at hs
    simp only [VExpr.den] at h
    cases hpv : v.den ρ with
    | none => simp [hpv] at h
    | some p =>
      cases hpm : m.den ρ with
      | none => simp [hpm, hpv] at h
      | some q =>
        simp only [hpm, hpv] at h
        split at h
        next hi =>
          obtain ⟨x, hx, hxr, f, hf⟩ := VExpr.build_ok hA v hs.1 p hpv
          obtain ⟨y, hy, hyr, g, hg⟩ := MExpr.build_ok hA m hs.2.1 q hpm
          simp only [Option.some.injEq] at h
          subst h
          exact ⟨_, by simp [VExpr.build, hx, hy, vecMat_ok hxr hyr hf hg (hs.2.2 y hy) hi],
            VRep.ofFn _, g, VNode.Typed.temp (by simp)⟩
        next => cases h
theorem MExpr.build_ok {s : State E} {ρ : Env E} (hA : Agree s ρ) : ∀ e : MExpr E, e.Supported s →
    ∀ p, e.den ρ = some p → ∃ x, e.build s = .ok x ∧ MRep s x p ∧ ∃ b, x.Typed s b ((p.r : Int), (p.c : Int))
  | .var x, _, p, h => by
    simp only [MExpr.den] at h
    exact ⟨.var x, rfl, hA.m x p h, typed_var_m (hA.m x p h).dims⟩
  | .temp t, _, p, h => by
    simp only [MExpr.den] at h
    split at h
    next hl =>
      simp only [Option.some.injEq] at h
      subst h
      refine ⟨.temp t, rfl, ⟨rfl, ?_⟩, t.fixed, MNode.Typed.temp⟩
      intro i j
      simp only [MNode.get]
      apply MTemp.get_eq i.2 j.2
      have hlt : (i : Nat) * t.cols + j < t.elems.length := by
        have := (finProdFinEquiv (i, j)).2
        simp only [finProdFinEquiv_apply_val] at this
        linarith [Nat.mul_comm t.cols (i : Nat)]
      rw [List.getElem?_eq_getElem hlt]
      congr 1
      simp only [Fin.getElem_fin, Fin.val_cast, finProdFinEquiv_apply_val]
      congr 1
      rw [Nat.mul_comm, Nat.add_comm]
    next => cases h
  | .bin o a b, hs, r, h => by
    simp only [MExpr.Supported] at hs
    simp only [MExpr.den] at h
    cases hpa : a.den ρ with
    | none => simp [hpa] at h
    | some p =>
      cases hpb : b.den ρ with
      | none => simp [hpa, hpb] at h
      | some q =>
        simp only [hpa, hpb] at h
        split at h
        next hn =>
          simp only [Option.some.injEq] at h
          obtain ⟨x, hx, hxr, f, hf⟩ := MExpr.build_ok hA a hs.1 p hpa
          obtain ⟨y, hy, hyr, g, hg⟩ := MExpr.build_ok hA b hs.2.1 q hpb
          refine ⟨.bin o x y, ?_, ?_, f || g, ?_⟩
          · simp [MExpr.build, hx, hy, checkSameDims_eq hf hg hxr.dims hyr.dims, hn.1, hn.2]
          · subst h
            refine ⟨?_, ?_⟩
            · simp [MNode.dims, hxr.dims]
            · intro i j
              have e1 := hxr.get i j
              have e2 := hyr.get (i.cast hn.1) (j.cast hn.2)
              simp only [Fin.val_cast] at e1 e2
              simp [MNode.get, e1, e2]
          · subst h
            have sa := (hf.straight hxr.dims (hs.2.2.1 x hx)).1
            have sb := (hg.straight hyr.dims (hs.2.2.2 y hy)).1
            rw [← hn.1, ← hn.2] at hg sb
            exact (hf.bin o hg sa sb fun _ => by omega).1
        next => cases h
  | .scal o a c, hs, r, h => by
    simp only [MExpr.Supported] at hs
    simp only [MExpr.den] at h
    cases hpa : a.den ρ with
    | none => simp [hpa] at h
    | some p =>
      simp only [hpa, Option.some.injEq] at h
      obtain ⟨x, hx, hxr, f, hf⟩ := MExpr.build_ok hA a hs p hpa
      subst h
      exact ⟨.scal o x c, by simp [MExpr.build, hx],
        ⟨by simp [MNode.dims, hxr.dims], fun i j => by simp [MNode.get, hxr.get i j]⟩, f,
        hf.scal o c⟩
  | .neg a, hs, r, h => by
    simp only [MExpr.Supported] at hs
    simp only [MExpr.den] at h
    cases hpa : a.den ρ with
    | none => simp [hpa] at h
    | some p =>
      simp only [hpa, Option.some.injEq] at h
      obtain ⟨x, hx, hxr, f, hf⟩ := MExpr.build_ok hA a hs p hpa
      subst h
      exact ⟨.neg x, by simp [MExpr.build, hx],
        ⟨by simp [MNode.dims, hxr.dims], fun i j => by simp [MNode.get, hxr.get i j]⟩, f,
        hf.neg⟩
  | .transpose a, hs, r, h => by
    simp only [MExpr.Supported] at hs
    simp only [MExpr.den] at h
    cases hpa : a.den ρ with
    | none => simp [hpa] at h
    | some p =>
      simp only [hpa, Option.some.injEq] at h
      obtain ⟨x, hx, hxr, f, hf⟩ := MExpr.build_ok hA a hs p hpa
      subst h
      exact ⟨.transpose x, by simp [MExpr.build, hx],
        ⟨by simp [MNode.dims, hxr.dims], fun i j => by simp [MNode.get, hxr.get j i]⟩, f,
        hf.transpose⟩
  | .outer a b, hs, r, h => by
    simp only [MExpr.Supported] at hs
    simp only [MExpr.den] at h
    cases hpa : a.den ρ with
    | none => simp [hpa] at h
    | some p =>
      cases hpb : b.den ρ with
      | none => simp [hpa, hpb] at h
      | some q =>
        simp only [hpa, hpb, Option.some.injEq] at h
        obtain ⟨x, hx, hxr, f, hf⟩ := VExpr.build_ok hA a hs.1 p hpa
        obtain ⟨y, hy, hyr, g, hg⟩ := VExpr.build_ok hA b hs.2.1 q hpb
        subst h
        have hfg : f = g := by
          have := hs.2.2 x y hx hy
          rw [hf.fixed, hg.fixed, Res.ok.injEq] at this
          exact this
        subst hfg
        exact ⟨.outer x y, by simp [MExpr.build, hx, hy],
          ⟨by simp [MNode.dims, hxr.size, hyr.size],
            fun i j => by simp [MNode.get, hxr.get i, hyr.get j]⟩, f,
          hf.outer hg⟩
  | .mul a b, hs, r, h => by
    simp only [MExpr.Supported] at hs
    simp only [MExpr.den] at h
    cases hpa : a.den ρ with
    | none => simp [hpa] at h
    | some p =>
      cases hpb : b.den ρ with
      | none => simp [hpa, hpb] at h
      | some q =>
        simp only [hpa, hpb] at h
        split at h
        next hi =>
          obtain ⟨x, hx, hxr, f, hf⟩ := MExpr.build_ok hA a hs.1 p hpa
          obtain ⟨y, hy, hyr, g, hg⟩ := MExpr.build_ok hA b hs.2.1 q hpb
          simp only [Option.some.injEq] at h
          subst h
          obtain ⟨l, e1, e2, e3⟩ := matMul_ok hxr hyr hf hg (hs.2.2.1 x hx) (hs.2.2.2 y hy) hi
          refine ⟨.temp ⟨f && g, p.r, q.c, l⟩, by simp [MExpr.build, hx, hy, e1], ⟨rfl, ?_⟩,
            f && g, MNode.Typed.temp⟩
          intro i j
          exact MTemp.get_eq (t := ⟨f && g, p.r, q.c, l⟩) i.2 j.2 (e3 i j)
        next => cases h
end

theorem matVec_throw {s : State E} {a : MNode E} {v : VNode E} {p : MVal E} {q : VVal E} {f g : Bool}
    (ha : MRep s a p) (hv : VRep s v q) (hf : a.Typed s f ((p.r : Int), (p.c : Int)))
    (hg : v.Typed s g q.n) (h : p.c ≠ q.n) :
    matVec s a v = .throw (if f && g then .staticAssert else .matIncompatible) := by
  have e1 : a.chkDims s (f && g) = .ok _ := hf.chk ha.dims (by simp +contextual)
  have e2 : v.chkSize s (f && g) = .ok _ := hg.chk hv.size (by simp +contextual)
  unfold matVec
  simp [hf.fixed, hg.fixed, e1, e2, checkInner, Res.require, h]

theorem vecMat_throw {s : State E} {v : VNode E} {b : MNode E} {p : VVal E} {q : MVal E} {f g : Bool}
    (hv : VRep s v p) (hb : MRep s b q) (hf : v.Typed s f p.n)
    (hg : b.Typed s g ((q.r : Int), (q.c : Int))) (h : p.n ≠ q.r) :
    vecMat s v b = .throw (if f && g then .staticAssert else .matIncompatible) := by
  have e1 : b.chkDims s (f && g) = .ok _ := hg.chk hb.dims (by simp +contextual)
  have e2 : v.chkSize s (f && g) = .ok _ := hf.chk hv.size (by simp +contextual)
  unfold vecMat
  simp [hf.fixed, hg.fixed, e1, e2, checkInner, Res.require, h]

theorem matMul_throw {s : State E} {a b : MNode E} {p q : MVal E} {f g : Bool}
    (ha : MRep s a p) (hb : MRep s b q) (hf : a.Typed s f ((p.r : Int), (p.c : Int)))
    (hg : b.Typed s g ((q.r : Int), (q.c : Int))) (h : p.c ≠ q.r) :
    matMul s a b = .throw (if f && g then .staticAssert else .matIncompatible) := by
  have e1 : a.chkDims s (f && g) = .ok _ := hf.chk ha.dims (by simp +contextual)
  have e2 : b.chkDims s (f && g) = .ok _ := hg.chk hb.dims (by simp +contextual)
  unfold matMul
  simp [hf.fixed, hg.fixed, e1, e2, checkInner, Res.require, h]

mutual
theorem VExpr.build_throw {s : State E} {ρ : Env E} (hA : Agree s ρ) : ∀ e : VExpr E,
    e.Supported s → e.Pre ρ → e.den ρ = none → ∃ er, e.build s = .throw er ∧
      (er.IsSize ∨ er = .invalidArgument ∧ e.NegLine)
  | .var x, _, hp, h => by
    simp only [VExpr.den] at h
    simp [VExpr.Pre, h] at hp
  | .temp f xs, _, _, h => by simp [VExpr.den] at h
  | .bin o a b, hs, hp, h => by
    simp only [VExpr.Supported] at hs
    simp only [VExpr.Pre] at hp
    cases hpa : a.den ρ with
    | none =>
      obtain ⟨er, he, hk⟩ := VExpr.build_throw hA a hs.1 hp.1 hpa
      exact ⟨er, by simp [VExpr.build, he], by simp only [VExpr.NegLine]; tauto⟩
    | some p =>
      obtain ⟨x, hx, hxr, f, hf⟩ := VExpr.build_ok hA a hs.1 p hpa
      cases hpb : b.den ρ with
      | none =>
        obtain ⟨er, he, hk⟩ := VExpr.build_throw hA b hs.2 hp.2 hpb
        exact ⟨er, by simp [VExpr.build, hx, he], by simp only [VExpr.NegLine]; tauto⟩
      | some q =>
        obtain ⟨y, hy, hyr, g, hg⟩ := VExpr.build_ok hA b hs.2 q hpb
        have hn : p.n ≠ q.n := by
          intro hn
          simp [VExpr.den, hpa, hpb, hn] at h
        refine ⟨if f && g then .staticAssert else .vecIncompatible, ?_, .inl (by unfold Err.IsSize; split <;> simp)⟩
        simp [VExpr.build, hx, hy, checkSameSize_eq hf hg hxr.size hyr.size, hn]
  | .scal o a c, hs, hp, h => by
    simp only [VExpr.Supported] at hs
    simp only [VExpr.Pre] at hp
    cases hpa : a.den ρ with
    | none =>
      obtain ⟨er, he, hk⟩ := VExpr.build_throw hA a hs hp hpa
      exact ⟨er, by simp [VExpr.build, he], by simp only [VExpr.NegLine]; tauto⟩
    | some p => simp [VExpr.den, hpa] at h
  | .neg a, hs, hp, h => by
    simp only [VExpr.Supported] at hs
    simp only [VExpr.Pre] at hp
    cases hpa : a.den ρ with
    | none =>
      obtain ⟨er, he, hk⟩ := VExpr.build_throw hA a hs hp hpa
      exact ⟨er, by simp [VExpr.build, he], by simp only [VExpr.NegLine]; tauto⟩
    | some p => simp [VExpr.den, hpa] at h
  | .cross a b, hs, hp, h => by
    simp only [VExpr.Supported] at hs
    simp only [VExpr.Pre] at hp
    cases hpa : a.den ρ with
    | none =>
      obtain ⟨er, he, hk⟩ := VExpr.build_throw hA a hs.1 hp.1 hpa
      exact ⟨er, by simp [VExpr.build, he], by simp only [VExpr.NegLine]; tauto⟩
    | some p =>
      obtain ⟨x, hx, hxr, f, hf⟩ := VExpr.build_ok hA a hs.1 p hpa
      cases hpb : b.den ρ with
      | none =>
        obtain ⟨er, he, hk⟩ := VExpr.build_throw hA b hs.2.1 hp.2 hpb
        exact ⟨er, by simp [VExpr.build, hx, he], by simp only [VExpr.NegLine]; tauto⟩
      | some q =>
        obtain ⟨y, hy, hyr, g, hg⟩ := VExpr.build_ok hA b hs.2.1 q hpb
        have mx := crossSize_eq hf hxr.size (hs.2.2.1 x hx)
        have my := crossSize_eq hg hyr.size (hs.2.2.2 y hy)
        obtain ⟨pn, pf⟩ := p
        obtain ⟨qn, qf⟩ := q
        simp only at mx my
        by_cases h3 : pn = 3
        · by_cases h3' : qn = 3
          · subst h3 h3'
            simp [VExpr.den, hpa, hpb] at h
          · refine ⟨if g then .staticAssert else .vecSize, ?_, .inl (by unfold Err.IsSize; split <;> simp)⟩
            have h3'' : ¬ ((qn : Int) = 3) := by omega
            simp [VExpr.build, hx, hy, hf.fixed, hg.fixed, mx, my, checkSizeC, Res.require, h3, h3'']
        · refine ⟨if f then .staticAssert else .vecSize, ?_, .inl (by unfold Err.IsSize; split <;> simp)⟩
          have h3'' : ¬ ((pn : Int) = 3) := by omega
          simp [VExpr.build, hx, hy, hf.fixed, mx, checkSizeC, Res.require, h3'']
  | .sub a k, hs, hp, h => by
    simp only [VExpr.Supported] at hs
    simp only [VExpr.Pre] at hp
    cases hpa : a.den ρ with
    | none =>
      obtain ⟨er, he, hk⟩ := VExpr.build_throw hA a hs.1 hp.1 hpa
      exact ⟨er, by simp [VExpr.build, he], by simp only [VExpr.NegLine]; tauto⟩
    | some p =>
      have := hp.2 p hpa
      obtain ⟨pn, pf⟩ := p
      cases pn with
      | zero => simp at this
      | succ n => simp [VExpr.den, hpa] at h; simp only at this; omega
  | .row m i, hs, hp, h => by
    simp only [VExpr.Supported] at hs
    simp only [VExpr.Pre] at hp
    cases hpm : m.den ρ with
    | none =>
      obtain ⟨er, he, hk⟩ := MExpr.build_throw hA m hs hp.1 hpm
      exact ⟨er, by simp [VExpr.build, he], by simp only [VExpr.NegLine]; tauto⟩
    | some p =>
      have h1 := hp.2 p hpm
      obtain ⟨x, hx, -⟩ := MExpr.build_ok hA m hs p hpm
      have hi : ¬ 0 ≤ i := by
        intro hi
        simp [VExpr.den, hpm, hi, h1] at h
      exact ⟨.invalidArgument, by simp [VExpr.build, hx, Res.require, hi],
        .inr ⟨rfl, by simp only [VExpr.NegLine]; omega⟩⟩
  | .col m i, hs, hp, h => by
    simp only [VExpr.Supported] at hs
    simp only [VExpr.Pre] at hp
    cases hpm : m.den ρ with
    | none =>
      obtain ⟨er, he, hk⟩ := MExpr.build_throw hA m hs hp.1 hpm
      exact ⟨er, by simp [VExpr.build, he], by simp only [VExpr.NegLine]; tauto⟩
    | some p =>
      have h1 := hp.2 p hpm
      obtain ⟨x, hx, -⟩ := MExpr.build_ok hA m hs p hpm
      have hi : ¬ 0 ≤ i := by
        intro hi
        simp [VExpr.den, hpm, hi, h1] at h
      exact ⟨.invalidArgument, by simp [VExpr.build, hx, Res.require, hi],
        .inr ⟨rfl, by simp only [VExpr.NegLine]; omega⟩⟩
  | .mulMV m v, hs, hp, h => by
    simp only [VExpr.Supported] at hs
    simp only [VExpr.Pre] at hp
    cases hpm : m.den ρ with
    | none =>
      obtain ⟨er, he, hk⟩ := MExpr.build_throw hA m hs.1 hp.1 hpm
      exact ⟨er, by simp [VExpr.build, he], by simp only [VExpr.NegLine]; tauto⟩
    | some p =>
      obtain ⟨x, hx, hxr, f, hf⟩ := MExpr.build_ok hA m hs.1 p hpm
      cases hpv : v.den ρ with
      | none =>
        obtain ⟨er, he, hk⟩ := VExpr.build_throw hA v hs.2.1 hp.2.1 hpv
        exact ⟨er, by simp [VExpr.build, hx, he], by simp only [VExpr.NegLine]; tauto⟩
      | some q =>
        obtain ⟨y, hy, hyr, g, hg⟩ := VExpr.build_ok hA v hs.2.1 q hpv
        have h0 := hp.2.2 p hpm
        have hne : p.c ≠ q.n := by
          intro hn
          simp [VExpr.den, hpm, hpv, hn, hn ▸ h0] at h
        exact ⟨if f && g then .staticAssert else .matIncompatible, by simp [VExpr.build, hx, hy, matVec_throw hxr hyr hf hg hne],
          .inl (by unfold Err.IsSize; split <;> simp)⟩
  | .mulVM v m, hs, hp, h => by
    simp only [VExpr.Supported] at hs
    simp only [VExpr.Pre] at hp
    cases hpv : v.den ρ with
    | none =>
      obtain ⟨er, he, hk⟩ := VExpr.build_throw hA v hs.1 hp.1 hpv
      exact ⟨er, by simp [VExpr.build, he], by simp only [VExpr.NegLine]; tauto⟩
    | some p =>
      obtain ⟨x, hx, hxr, f, hf⟩ := VExpr.build_ok hA v hs.1 p hpv
      cases hpm : m.den ρ with
      | none =>
        obtain ⟨er, he, hk⟩ := MExpr.build_throw hA m hs.2.1 hp.2.1 hpm
        exact ⟨er, by simp [VExpr.build, hx, he], by simp only [VExpr.NegLine]; tauto⟩
      | some q =>
        obtain ⟨y, hy, hyr, g, hg⟩ := MExpr.build_ok hA m hs.2.1 q hpm
        have h0 := hp.2.2 p hpv
        have hne : p.n ≠ q.r := by
          intro hn
          simp [VExpr.den, hpm, hpv, hn, hn ▸ h0] at h
        exact ⟨if f && g then .staticAssert else .matIncompatible, by simp [VExpr.build, hx, hy, vecMat_throw hxr hyr hf hg hne],
          .inl (by unfold Err.IsSize; split <;> simp)⟩
theorem MExpr.build_throw {s : State E} {ρ : Env E} (hA : Agree s ρ) : ∀ e : MExpr E,
    e.Supported s → e.Pre ρ → e.den ρ = none → ∃ er, e.build s = .throw er ∧
      (er.IsSize ∨ er = .invalidArgument ∧ e.NegLine)
  | .var x, _, hp, h => by
    simp only [MExpr.den] at h
    simp [MExpr.Pre, h] at hp
  | .temp t, _, hp, h => by
    simp only [MExpr.Pre] at hp
    simp [MExpr.den, hp] at h
  | .bin o a b, hs, hp, h => by
    simp only [MExpr.Supported] at hs
    simp only [MExpr.Pre] at hp
    cases hpa : a.den ρ with
    | none =>
      obtain ⟨er, he, hk⟩ := MExpr.build_throw hA a hs.1 hp.1 hpa
      exact ⟨er, by simp [MExpr.build, he], by simp only [MExpr.NegLine]; tauto⟩
    | some p =>
      obtain ⟨x, hx, hxr, f, hf⟩ := MExpr.build_ok hA a hs.1 p hpa
      cases hpb : b.den ρ with
      | none =>
        obtain ⟨er, he, hk⟩ := MExpr.build_throw hA b hs.2.1 hp.2 hpb
        exact ⟨er, by simp [MExpr.build, hx, he], by simp only [MExpr.NegLine]; tauto⟩
      | some q =>
        obtain ⟨y, hy, hyr, g, hg⟩ := MExpr.build_ok hA b hs.2.1 q hpb
        have hn : ¬ ((p.r : Int), (p.c : Int)) = ((q.r : Int), (q.c : Int)) := by
          intro hn
          simp only [Prod.mk.injEq, Nat.cast_inj] at hn
          simp [MExpr.den, hpa, hpb, hn] at h
        refine ⟨if f && g then .staticAssert else .matIncompatible, ?_, .inl (by unfold Err.IsSize; split <;> simp)⟩
        simp only [MExpr.build, hx, hy, Res.ok_bind,
          checkSameDims_eq hf hg hxr.dims hyr.dims, if_neg hn, Res.throw_bind]
  | .scal o a c, hs, hp, h => by
    simp only [MExpr.Supported] at hs
    simp only [MExpr.Pre] at hp
    cases hpa : a.den ρ with
    | none =>
      obtain ⟨er, he, hk⟩ := MExpr.build_throw hA a hs hp hpa
      exact ⟨er, by simp [MExpr.build, he], by simp only [MExpr.NegLine]; tauto⟩
    | some p => simp [MExpr.den, hpa] at h
  | .neg a, hs, hp, h => by
    simp only [MExpr.Supported] at hs
    simp only [MExpr.Pre] at hp
    cases hpa : a.den ρ with
    | none =>
      obtain ⟨er, he, hk⟩ := MExpr.build_throw hA a hs hp hpa
      exact ⟨er, by simp [MExpr.build, he], by simp only [MExpr.NegLine]; tauto⟩
    | some p => simp [MExpr.den, hpa] at h
  | .transpose a, hs, hp, h => by
    simp only [MExpr.Supported] at hs
    simp only [MExpr.Pre] at hp
    cases hpa : a.den ρ with
    | none =>
      obtain ⟨er, he, hk⟩ := MExpr.build_throw hA a hs hp hpa
      exact ⟨er, by simp [MExpr.build, he], by simp only [MExpr.NegLine]; tauto⟩
    | some p => simp [MExpr.den, hpa] at h
  | .outer a b, hs, hp, h => by
    simp only [MExpr.Supported] at hs
    simp only [MExpr.Pre] at hp
    cases hpa : a.den ρ with
    | none =>
      obtain ⟨er, he, hk⟩ := VExpr.build_throw hA a hs.1 hp.1 hpa
      exact ⟨er, by simp [MExpr.build, he], by simp only [MExpr.NegLine]; tauto⟩
    | some p =>
      obtain ⟨x, hx, hxr, f, hf⟩ := VExpr.build_ok hA a hs.1 p hpa
      cases hpb : b.den ρ with
      | none =>
        obtain ⟨er, he, hk⟩ := VExpr.build_throw hA b hs.2.1 hp.2 hpb
        exact ⟨er, by simp [MExpr.build, hx, he], by simp only [MExpr.NegLine]; tauto⟩
      | some q => simp [MExpr.den, hpa, hpb] at h
  | .mul a b, hs, hp, h => by
    simp only [MExpr.Supported] at hs
    simp only [MExpr.Pre] at hp
    cases hpa : a.den ρ with
    | none =>
      obtain ⟨er, he, hk⟩ := MExpr.build_throw hA a hs.1 hp.1 hpa
      exact ⟨er, by simp [MExpr.build, he], by simp only [MExpr.NegLine]; tauto⟩
    | some p =>
      obtain ⟨x, hx, hxr, f, hf⟩ := MExpr.build_ok hA a hs.1 p hpa
      cases hpb : b.den ρ with
      | none =>
        obtain ⟨er, he, hk⟩ := MExpr.build_throw hA b hs.2.1 hp.2.1 hpb
        exact ⟨er, by simp [MExpr.build, hx, he], by simp only [MExpr.NegLine]; tauto⟩
      | some q =>
        obtain ⟨y, hy, hyr, g, hg⟩ := MExpr.build_ok hA b hs.2.1 q hpb
        have h0 := hp.2.2 p hpa
        have hne : p.c ≠ q.r := by
          intro hn
          simp [MExpr.den, hpa, hpb, hn, hn ▸ h0] at h
        exact ⟨if f && g then .staticAssert else .matIncompatible, by simp [MExpr.build, hx, hy, matMul_throw hxr hyr hf hg hne],
          .inl (by unfold Err.IsSize; split <;> simp)⟩
end

end CML
