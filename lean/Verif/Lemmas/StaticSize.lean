import Verif.Lemmas.Alias

/-! Compile-time sizes agree with run-time sizes. -/

set_option linter.unusedSectionVars false

namespace CML

variable {E : Type} [Add E] [Sub E] [Mul E] [Div E] [Neg E]

theorem checkSizeC_inv {f : Bool} {n N : Int} {u : Unit} (h : checkSizeC f n N = .ok u) : n = N := by
  unfold checkSizeC at h
  simp only [Res.require] at h
  by_contra hne
  simp [hne] at h

mutual
/-- If all objects of a node exist, everything about its type is known. -/
theorem VNode.known {s : State E} : ∀ (x : VNode E) {c}, x.compiled s = .ok c →
    (∃ f, x.fixed s = .ok f) ∧ (∃ n, x.csize s = .ok n) ∧ ∃ n, x.size s = .ok n
  | .var y, c, h => by
    simp only [VNode.compiled] at h
    obtain ⟨v, hv, h⟩ := Res.bind_ok h
    exact ⟨⟨_, by simp [VNode.fixed, hv]; rfl⟩, ⟨_, by simp [VNode.csize, hv]; rfl⟩,
      ⟨_, by simp [VNode.size, hv]; rfl⟩⟩
  | .temp g xs, c, h => ⟨⟨_, rfl⟩, ⟨_, rfl⟩, ⟨_, rfl⟩⟩
  | .bin o a b, c, h => by
    simp only [VNode.compiled] at h
    obtain ⟨p, hp, h⟩ := Res.bind_ok h
    obtain ⟨q, hq, h⟩ := Res.bind_ok h
    obtain ⟨⟨f, hf⟩, ⟨n, hn⟩, ⟨k, hk⟩⟩ := VNode.known a hp
    obtain ⟨⟨f', hf'⟩, ⟨n', hn'⟩, ⟨k', hk'⟩⟩ := VNode.known b hq
    exact ⟨⟨_, by simp [VNode.fixed, hf, hf']; rfl⟩, ⟨_, by simp [VNode.csize, hn, hn']; rfl⟩,
      ⟨_, by simp [VNode.size, hk]; rfl⟩⟩
  | .scal o a _, c, h => by simpa [VNode.fixed, VNode.csize, VNode.size] using VNode.known a h
  | .neg a, c, h => by simpa [VNode.fixed, VNode.csize, VNode.size] using VNode.known a h
  | .cross a b, c, h => by
    simp only [VNode.compiled] at h
    obtain ⟨p, hp, h⟩ := Res.bind_ok h
    obtain ⟨q, hq, h⟩ := Res.bind_ok h
    obtain ⟨⟨f, hf⟩, ⟨n, hn⟩, -⟩ := VNode.known a hp
    obtain ⟨⟨f', hf'⟩, ⟨n', hn'⟩, -⟩ := VNode.known b hq
    exact ⟨⟨_, by simp [VNode.fixed, hf, hf']; rfl⟩, ⟨_, by simp [VNode.csize, hn, hn']; rfl⟩,
      ⟨_, rfl⟩⟩
  | .sub a k, c, h => by
    obtain ⟨⟨f, hf⟩, ⟨n, hn⟩, ⟨k, hk⟩⟩ := VNode.known a h
    simp only [VNode.compiled] at h
    exact ⟨⟨_, by simp [VNode.fixed, h, hn]; rfl⟩, ⟨_, by simp [VNode.csize, hn]; rfl⟩,
      ⟨_, by simp [VNode.size, hk]; rfl⟩⟩
  | .row m i, c, h => by
    obtain ⟨⟨f, hf⟩, ⟨n, hn⟩, -, ⟨k, hk⟩⟩ := MNode.known m h
    simp only [VNode.compiled] at h
    exact ⟨⟨_, by simp [VNode.fixed, h, hn]; rfl⟩, ⟨_, by simp [VNode.csize, hn]; rfl⟩,
      ⟨_, by simp [VNode.size, hk]; rfl⟩⟩
  | .col m i, c, h => by
    obtain ⟨⟨f, hf⟩, ⟨n, hn⟩, -, ⟨k, hk⟩⟩ := MNode.known m h
    simp only [VNode.compiled] at h
    exact ⟨⟨_, by simp [VNode.fixed, h, hn]; rfl⟩, ⟨_, by simp [VNode.csize, hn]; rfl⟩,
      ⟨_, by simp [VNode.size, hk]; rfl⟩⟩
theorem MNode.known {s : State E} : ∀ (x : MNode E) {c}, x.compiled s = .ok c →
    (∃ f, x.fixed s = .ok f) ∧ (∃ n, x.cdims s = .ok n) ∧ (∃ n, x.sdims s = .ok n) ∧
      ∃ n, x.dims s = .ok n
  | .var y, c, h => by
    simp only [MNode.compiled] at h
    obtain ⟨v, hv, h⟩ := Res.bind_ok h
    exact ⟨⟨_, by simp [MNode.fixed, hv]; rfl⟩, ⟨_, by simp [MNode.cdims, hv]; rfl⟩,
      ⟨_, by simp [MNode.sdims, hv]; rfl⟩, ⟨_, by simp [MNode.dims, hv]; rfl⟩⟩
  | .temp t, c, h => ⟨⟨_, rfl⟩, ⟨_, rfl⟩, ⟨_, rfl⟩, ⟨_, rfl⟩⟩
  | .bin o a b, c, h => by
    simp only [MNode.compiled] at h
    obtain ⟨p, hp, h⟩ := Res.bind_ok h
    obtain ⟨q, hq, h⟩ := Res.bind_ok h
    obtain ⟨⟨f, hf⟩, -, ⟨n, hn⟩, ⟨k, hk⟩⟩ := MNode.known a hp
    obtain ⟨⟨f', hf'⟩, -, ⟨n', hn'⟩, ⟨k', hk'⟩⟩ := MNode.known b hq
    exact ⟨⟨_, by simp [MNode.fixed, hf, hf']; rfl⟩, ⟨_, by simp [MNode.cdims, hn, hn']; rfl⟩,
      ⟨_, by simp [MNode.sdims, hn, hn']; rfl⟩, ⟨_, by simp [MNode.dims, hk]; rfl⟩⟩
  | .scal o a _, c, h => by
    simpa [MNode.fixed, MNode.cdims, MNode.sdims, MNode.dims] using MNode.known a h
  | .neg a, c, h => by
    simpa [MNode.fixed, MNode.cdims, MNode.sdims, MNode.dims] using MNode.known a h
  | .transpose a, c, h => by
    obtain ⟨⟨f, hf⟩, ⟨n, hn⟩, ⟨m, hm⟩, ⟨k, hk⟩⟩ := MNode.known a h
    exact ⟨⟨f, by simp [MNode.fixed, hf]⟩, ⟨_, by simp [MNode.cdims, hn]; rfl⟩,
      ⟨m, by simp [MNode.sdims, hm]⟩, ⟨_, by simp [MNode.dims, hk]; rfl⟩⟩
  | .outer a b, c, h => by
    simp only [MNode.compiled] at h
    obtain ⟨p, hp, h⟩ := Res.bind_ok h
    obtain ⟨q, hq, h⟩ := Res.bind_ok h
    obtain ⟨⟨f, hf⟩, ⟨n, hn⟩, ⟨k, hk⟩⟩ := VNode.known a hp
    obtain ⟨⟨f', hf'⟩, ⟨n', hn'⟩, ⟨k', hk'⟩⟩ := VNode.known b hq
    exact ⟨⟨_, by simp [MNode.fixed, hf, hf']; rfl⟩, ⟨_, by simp [MNode.cdims, hn, hn']; rfl⟩,
      ⟨_, by simp [MNode.sdims, hn, hn']; rfl⟩, ⟨_, by simp [MNode.dims, hk, hk']; rfl⟩⟩
end

mutual
theorem VNode.compiled_of_fixed {s : State E} : ∀ (x : VNode E) {f}, x.fixed s = .ok f →
    ∃ c, x.compiled s = .ok c
  | .var y, f, h => by
    simp only [VNode.fixed] at h
    obtain ⟨v, hv, h⟩ := Res.bind_ok h
    exact ⟨_, by simp [VNode.compiled, hv]; rfl⟩
  | .temp g xs, f, h => ⟨_, rfl⟩
  | .bin o a b, f, h => by
    simp only [VNode.fixed] at h
    obtain ⟨p, hp, h⟩ := Res.bind_ok h
    obtain ⟨q, hq, h⟩ := Res.bind_ok h
    obtain ⟨c, hc⟩ := VNode.compiled_of_fixed a hp
    obtain ⟨d, hd⟩ := VNode.compiled_of_fixed b hq
    exact ⟨_, by simp [VNode.compiled, hc, hd]; rfl⟩
  | .scal o a c, f, h => VNode.compiled_of_fixed a h
  | .neg a, f, h => VNode.compiled_of_fixed a h
  | .cross a b, f, h => by
    simp only [VNode.fixed] at h
    obtain ⟨p, hp, h⟩ := Res.bind_ok h
    obtain ⟨q, hq, h⟩ := Res.bind_ok h
    obtain ⟨c, hc⟩ := VNode.compiled_of_fixed a hp
    obtain ⟨d, hd⟩ := VNode.compiled_of_fixed b hq
    exact ⟨_, by simp [VNode.compiled, hc, hd]; rfl⟩
  | .sub a k, f, h => by
    simp only [VNode.fixed] at h
    obtain ⟨p, hp, h⟩ := Res.bind_ok h
    exact ⟨p, hp⟩
  | .row m i, f, h => by
    simp only [VNode.fixed] at h
    obtain ⟨p, hp, h⟩ := Res.bind_ok h
    exact ⟨p, hp⟩
  | .col m i, f, h => by
    simp only [VNode.fixed] at h
    obtain ⟨p, hp, h⟩ := Res.bind_ok h
    exact ⟨p, hp⟩
theorem MNode.compiled_of_fixed {s : State E} : ∀ (x : MNode E) {f}, x.fixed s = .ok f →
    ∃ c, x.compiled s = .ok c
  | .var y, f, h => by
    simp only [MNode.fixed] at h
    obtain ⟨v, hv, h⟩ := Res.bind_ok h
    exact ⟨_, by simp [MNode.compiled, hv]; rfl⟩
  | .temp t, f, h => ⟨_, rfl⟩
  | .bin o a b, f, h => by
    simp only [MNode.fixed] at h
    obtain ⟨p, hp, h⟩ := Res.bind_ok h
    obtain ⟨q, hq, h⟩ := Res.bind_ok h
    obtain ⟨c, hc⟩ := MNode.compiled_of_fixed a hp
    obtain ⟨d, hd⟩ := MNode.compiled_of_fixed b hq
    exact ⟨_, by simp [MNode.compiled, hc, hd]; rfl⟩
  | .scal o a c, f, h => MNode.compiled_of_fixed a h
  | .neg a, f, h => MNode.compiled_of_fixed a h
  | .transpose a, f, h => MNode.compiled_of_fixed a h
  | .outer a b, f, h => by
    simp only [MNode.fixed] at h
    obtain ⟨p, hp, h⟩ := Res.bind_ok h
    obtain ⟨q, hq, h⟩ := Res.bind_ok h
    obtain ⟨c, hc⟩ := VNode.compiled_of_fixed a hp
    obtain ⟨d, hd⟩ := VNode.compiled_of_fixed b hq
    exact ⟨_, by simp [MNode.compiled, hc, hd]; rfl⟩
end

theorem checkSameSize_inv {s : State E} {a b : VNode E} {f g : Bool} {n k : Int} {u : Unit}
    (h : checkSameSize s a b = .ok u) (hf : a.Typed s f n) (hg : b.Typed s g k)
    (hn : a.size s = .ok n) (hk : b.size s = .ok k) : n = k := by
  rw [checkSameSize_eq hf hg hn hk] at h
  by_contra hne
  simp [hne] at h

theorem checkSameDims_inv {s : State E} {a b : MNode E} {f g : Bool} {n k : Int × Int} {u : Unit}
    (h : checkSameDims s a b = .ok u) (hf : a.Typed s f n) (hg : b.Typed s g k)
    (hn : a.dims s = .ok n) (hk : b.dims s = .ok k) : n = k := by
  rw [checkSameDims_eq hf hg hn hk] at h
  by_contra hne
  simp [hne] at h

mutual
/-- The static type of a node built from a supported expression is right. -/
theorem VExpr.typed {s : State E} : ∀ (e : VExpr E), e.Supported s → ∀ x, e.build s = .ok x →
    ∀ f, x.fixed s = .ok f → ∃ n, x.size s = .ok n ∧ x.Typed s f n ∧ (f = true → 0 ≤ n)
  | .var y, _, x, h, f, hf => by
    simp only [VExpr.build, Res.pure_eq, Res.ok.injEq] at h; subst h
    have hf0 := hf
    simp only [VNode.fixed] at hf
    obtain ⟨v, hv, hf⟩ := Res.bind_ok hf
    have hsz : (VNode.var y : VNode E).size s = .ok (v.size : Int) := by simp [VNode.size, hv]
    obtain ⟨b, hb⟩ := typed_var_v hsz
    have e := hb.fixed
    rw [hf0, Res.ok.injEq] at e
    subst e
    exact ⟨_, hsz, hb, fun _ => by omega⟩
  | .temp g xs, _, x, h, f, hf => by
    simp only [VExpr.build, Res.pure_eq, Res.ok.injEq] at h; subst h
    simp only [VNode.fixed, Res.pure_eq, Res.ok.injEq] at hf
    subst hf
    exact ⟨_, rfl, VNode.Typed.temp rfl, fun _ => by omega⟩
  | .bin o a b, hs, x, h, f, hf => by
    simp only [VExpr.Supported] at hs
    simp only [VExpr.build] at h
    obtain ⟨p, hp, h⟩ := Res.bind_ok h
    obtain ⟨q, hq, h⟩ := Res.bind_ok h
    obtain ⟨_, hc, h⟩ := Res.bind_ok h
    simp only [Res.pure_eq, Res.ok.injEq] at h; subst h
    simp only [VNode.fixed] at hf
    obtain ⟨f1, hf1, hf⟩ := Res.bind_ok hf
    obtain ⟨f2, hf2, hf⟩ := Res.bind_ok hf
    simp only [Res.pure_eq, Res.ok.injEq] at hf
    subst hf
    obtain ⟨n, hn, t1, z1⟩ := VExpr.typed a hs.1 p hp f1 hf1
    obtain ⟨k, hk, t2, z2⟩ := VExpr.typed b hs.2 q hq f2 hf2
    have := checkSameSize_inv hc t1 t2 hn hk
    subst this
    have hz : (f1 || f2) = true → 0 ≤ n := by
      intro h
      simp only [Bool.or_eq_true] at h
      exact h.elim z1 z2
    exact ⟨n, by simp [VNode.size, hn], t1.bin o t2 hz, hz⟩
  | .scal o a c, hs, x, h, f, hf => by
    simp only [VExpr.build] at h
    obtain ⟨p, hp, h⟩ := Res.bind_ok h
    simp only [Res.pure_eq, Res.ok.injEq] at h; subst h
    obtain ⟨n, hn, t1, z1⟩ := VExpr.typed a hs p hp f hf
    exact ⟨n, by simp [VNode.size, hn], t1.scal o c, z1⟩
  | .neg a, hs, x, h, f, hf => by
    simp only [VExpr.build] at h
    obtain ⟨p, hp, h⟩ := Res.bind_ok h
    simp only [Res.pure_eq, Res.ok.injEq] at h; subst h
    obtain ⟨n, hn, t1, z1⟩ := VExpr.typed a hs p hp f hf
    exact ⟨n, by simp [VNode.size, hn], t1.neg, z1⟩
  | .cross a b, hs, x, h, f, hf => by
    simp only [VExpr.Supported] at hs
    simp only [VExpr.build] at h
    obtain ⟨p, hp, h⟩ := Res.bind_ok h
    obtain ⟨q, hq, h⟩ := Res.bind_ok h
    obtain ⟨f1, hf1, h⟩ := Res.bind_ok h
    obtain ⟨n1, hn1, h⟩ := Res.bind_ok h
    obtain ⟨_, hc1, h⟩ := Res.bind_ok h
    obtain ⟨f2, hf2, h⟩ := Res.bind_ok h
    obtain ⟨n2, hn2, h⟩ := Res.bind_ok h
    obtain ⟨_, hc2, h⟩ := Res.bind_ok h
    simp only [Res.pure_eq, Res.ok.injEq] at h; subst h
    simp only [VNode.fixed, hf1, hf2, Res.ok_bind, Res.pure_eq, Res.ok.injEq] at hf
    subst hf
    have k1 := checkSizeC_inv hc1
    have k2 := checkSizeC_inv hc2
    subst k1 k2
    obtain ⟨m1, hm1, t1, z1⟩ := VExpr.typed a hs.1 p hp f1 hf1
    obtain ⟨m2, hm2, t2, z2⟩ := VExpr.typed b hs.2.1 q hq f2 hf2
    have e1 := crossSize_eq t1 hm1 (hs.2.2.1 p hp)
    have e2 := crossSize_eq t2 hm2 (hs.2.2.2 q hq)
    rw [e1, Res.ok.injEq] at hn1
    rw [e2, Res.ok.injEq] at hn2
    subst hn1 hn2
    exact ⟨3, rfl, t1.cross t2, fun _ => by omega⟩
  | .sub a k, hs, x, h, f, hf => by
    simp only [VExpr.Supported] at hs
    simp only [VExpr.build] at h
    obtain ⟨p, hp, h⟩ := Res.bind_ok h
    simp only [Res.pure_eq, Res.ok.injEq] at h; subst h
    obtain ⟨c, hc⟩ := VNode.compiled_of_fixed _ hf
    obtain ⟨⟨f1, hf1⟩, -, -⟩ := VNode.known p hc
    obtain ⟨n, hn, t1, z1⟩ := VExpr.typed a hs.1 p hp f1 hf1
    have t := t1.sub k (fun h => hs.2 p hp h n hn)
    have e := t.fixed
    rw [hf, Res.ok.injEq] at e
    subst e
    refine ⟨_, by simp [VNode.size, hn], t, ?_⟩
    simp only [Bool.and_eq_true, decide_eq_true_eq]
    omega
  | .row m i, hs, x, h, f, hf => by
    simp only [VExpr.Supported] at hs
    simp only [VExpr.build] at h
    obtain ⟨p, hp, h⟩ := Res.bind_ok h
    obtain ⟨_, _, h⟩ := Res.bind_ok h
    simp only [Res.pure_eq, Res.ok.injEq] at h; subst h
    obtain ⟨c, hc⟩ := VNode.compiled_of_fixed _ hf
    obtain ⟨⟨f1, hf1⟩, -⟩ := MNode.known p hc
    obtain ⟨⟨r, k⟩, hn, t1, z1⟩ := MExpr.typed m hs p hp f1 hf1
    have t := t1.row i.toNat z1
    have e := t.fixed
    rw [hf, Res.ok.injEq] at e
    subst e
    exact ⟨k, by simp [VNode.size, hn], t, fun h => (z1 h).2⟩
  | .col m i, hs, x, h, f, hf => by
    simp only [VExpr.Supported] at hs
    simp only [VExpr.build] at h
    obtain ⟨p, hp, h⟩ := Res.bind_ok h
    obtain ⟨_, _, h⟩ := Res.bind_ok h
    simp only [Res.pure_eq, Res.ok.injEq] at h; subst h
    obtain ⟨c, hc⟩ := VNode.compiled_of_fixed _ hf
    obtain ⟨⟨f1, hf1⟩, -⟩ := MNode.known p hc
    obtain ⟨⟨r, k⟩, hn, t1, z1⟩ := MExpr.typed m hs p hp f1 hf1
    have t := t1.col i.toNat z1
    have e := t.fixed
    rw [hf, Res.ok.injEq] at e
    subst e
    exact ⟨r, by simp [VNode.size, hn], t, fun h => (z1 h).1⟩
  | .mulMV m v, hs, x, h, f, hf => by
    simp only [VExpr.build] at h
    obtain ⟨_, _, h⟩ := Res.bind_ok h
    obtain ⟨_, _, h⟩ := Res.bind_ok h
    obtain ⟨t, ht, h⟩ := Res.bind_ok h
    simp only [Res.pure_eq, Res.ok.injEq] at h; subst h
    simp only [VNode.fixed, Res.pure_eq, Res.ok.injEq] at hf
    subst hf
    exact ⟨_, rfl, VNode.Typed.temp rfl, fun _ => by omega⟩
  | .mulVM v m, hs, x, h, f, hf => by
    simp only [VExpr.build] at h
    obtain ⟨_, _, h⟩ := Res.bind_ok h
    obtain ⟨_, _, h⟩ := Res.bind_ok h
    obtain ⟨t, ht, h⟩ := Res.bind_ok h
    simp only [Res.pure_eq, Res.ok.injEq] at h; subst h
    simp only [VNode.fixed, Res.pure_eq, Res.ok.injEq] at hf
    subst hf
    exact ⟨_, rfl, VNode.Typed.temp rfl, fun _ => by omega⟩
@[inherit_doc VExpr.typed]
theorem MExpr.typed {s : State E} : ∀ (e : MExpr E), e.Supported s → ∀ x, e.build s = .ok x →
    ∀ f, x.fixed s = .ok f →
      ∃ d, x.dims s = .ok d ∧ x.Typed s f d ∧ (f = true → 0 ≤ d.1 ∧ 0 ≤ d.2)
  | .var y, _, x, h, f, hf => by
    simp only [MExpr.build, Res.pure_eq, Res.ok.injEq] at h; subst h
    have hf0 := hf
    simp only [MNode.fixed] at hf
    obtain ⟨v, hv, hf⟩ := Res.bind_ok hf
    have hsz : (MNode.var y : MNode E).dims s = .ok ((v.rows : Int), (v.cols : Int)) := by
      simp [MNode.dims, hv]
    obtain ⟨b, hb⟩ := typed_var_m hsz
    have e := hb.fixed
    rw [hf0, Res.ok.injEq] at e
    subst e
    exact ⟨_, hsz, hb, fun _ => by simp⟩
  | .temp t, _, x, h, f, hf => by
    simp only [MExpr.build, Res.pure_eq, Res.ok.injEq] at h; subst h
    simp only [MNode.fixed, Res.pure_eq, Res.ok.injEq] at hf
    subst hf
    exact ⟨_, rfl, MNode.Typed.temp, fun _ => by simp⟩
  | .bin o a b, hs, x, h, f, hf => by
    simp only [MExpr.Supported] at hs
    simp only [MExpr.build] at h
    obtain ⟨p, hp, h⟩ := Res.bind_ok h
    obtain ⟨q, hq, h⟩ := Res.bind_ok h
    obtain ⟨_, hc, h⟩ := Res.bind_ok h
    simp only [Res.pure_eq, Res.ok.injEq] at h; subst h
    simp only [MNode.fixed] at hf
    obtain ⟨f1, hf1, hf⟩ := Res.bind_ok hf
    obtain ⟨f2, hf2, hf⟩ := Res.bind_ok hf
    simp only [Res.pure_eq, Res.ok.injEq] at hf
    subst hf
    obtain ⟨n, hn, t1, z1⟩ := MExpr.typed a hs.1 p hp f1 hf1
    obtain ⟨k, hk, t2, z2⟩ := MExpr.typed b hs.2.1 q hq f2 hf2
    have := checkSameDims_inv hc t1 t2 hn hk
    subst this
    have hz : (f1 || f2) = true → 0 ≤ n.1 ∧ 0 ≤ n.2 := by
      intro h
      simp only [Bool.or_eq_true] at h
      exact h.elim z1 z2
    have s1 := (t1.straight hn (hs.2.2.1 p hp)).1
    have s2 := (t2.straight hk (hs.2.2.2 q hq)).1
    exact ⟨n, by simp [MNode.dims, hn], (t1.bin o t2 s1 s2 hz).1, hz⟩
  | .scal o a c, hs, x, h, f, hf => by
    simp only [MExpr.build] at h
    obtain ⟨p, hp, h⟩ := Res.bind_ok h
    simp only [Res.pure_eq, Res.ok.injEq] at h; subst h
    obtain ⟨n, hn, t1, z1⟩ := MExpr.typed a hs p hp f hf
    exact ⟨n, by simp [MNode.dims, hn], t1.scal o c, z1⟩
  | .neg a, hs, x, h, f, hf => by
    simp only [MExpr.build] at h
    obtain ⟨p, hp, h⟩ := Res.bind_ok h
    simp only [Res.pure_eq, Res.ok.injEq] at h; subst h
    obtain ⟨n, hn, t1, z1⟩ := MExpr.typed a hs p hp f hf
    exact ⟨n, by simp [MNode.dims, hn], t1.neg, z1⟩
  | .transpose a, hs, x, h, f, hf => by
    simp only [MExpr.build] at h
    obtain ⟨p, hp, h⟩ := Res.bind_ok h
    simp only [Res.pure_eq, Res.ok.injEq] at h; subst h
    obtain ⟨⟨r, c⟩, hn, t1, z1⟩ := MExpr.typed a hs p hp f hf
    exact ⟨(c, r), by simp [MNode.dims, hn], t1.transpose, fun h => (z1 h).symm⟩
  | .outer a b, hs, x, h, f, hf => by
    simp only [MExpr.Supported] at hs
    simp only [MExpr.build] at h
    obtain ⟨p, hp, h⟩ := Res.bind_ok h
    obtain ⟨q, hq, h⟩ := Res.bind_ok h
    simp only [Res.pure_eq, Res.ok.injEq] at h; subst h
    simp only [MNode.fixed] at hf
    obtain ⟨f1, hf1, hf⟩ := Res.bind_ok hf
    obtain ⟨f2, hf2, hf⟩ := Res.bind_ok hf
    simp only [Res.pure_eq, Res.ok.injEq] at hf
    subst hf
    have e := hs.2.2 p q hp hq
    rw [hf1, hf2, Res.ok.injEq] at e
    subst e
    obtain ⟨n, hn, t1, z1⟩ := VExpr.typed a hs.1 p hp f1 hf1
    obtain ⟨k, hk, t2, z2⟩ := VExpr.typed b hs.2.1 q hq f1 hf2
    rw [Bool.or_self]
    exact ⟨(n, k), by simp [MNode.dims, hn, hk], t1.outer t2, fun h => ⟨z1 h, z2 h⟩⟩
  | .mul a b, hs, x, h, f, hf => by
    simp only [MExpr.build] at h
    obtain ⟨_, _, h⟩ := Res.bind_ok h
    obtain ⟨_, _, h⟩ := Res.bind_ok h
    obtain ⟨t, ht, h⟩ := Res.bind_ok h
    simp only [Res.pure_eq, Res.ok.injEq] at h; subst h
    simp only [MNode.fixed, Res.pure_eq, Res.ok.injEq] at hf
    subst hf
    exact ⟨_, rfl, MNode.Typed.temp, fun _ => by simp⟩
end

end CML
