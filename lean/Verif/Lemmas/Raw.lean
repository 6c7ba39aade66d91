import Verif.Spec.Raw
import Verif.Lemmas.MatAccess
import Mathlib.Data.List.OfFn

/-! Lemmas for raw access (C117). -/

set_option linter.unusedSectionVars false

namespace CML

section
variable {E : Type}

theorem Ptr.read_ok {h : Heap E} {p : Ptr} {k : Nat} {v : E} :
    p.read h k = .ok v ↔ ∃ b, p.blk = some b ∧ h.cell b (p.off + k) = some (some v) := by
  unfold Ptr.read
  cases p.blk with
  | none => simp
  | some b => simp [Heap.read_eq_ok]

theorem Ptr.iterate_ok {h : Heap E} {n : Nat} {f : Fin n → E} {p : Ptr} (hp : p.Points h n f) {fuel : Nat}
    (hn : n ≤ fuel) : Ptr.iterate h fuel p (p.add n) = .ok (List.ofFn f) := by
  induction n generalizing p fuel with
  | zero =>
    cases fuel <;> simp [Ptr.iterate, Ptr.add]
  | succ n ih =>
    obtain ⟨fuel, rfl⟩ : ∃ m, fuel = m + 1 := ⟨fuel - 1, by omega⟩
    have hne : p ≠ p.add (n + 1) := by
      intro h0
      have := congrArg Ptr.off h0
      simp [Ptr.add] at this
    have h1 : p.read h 0 = .ok (f 0) := Ptr.read_ok.2 (hp 0)
    have h2 : Ptr.iterate h fuel (p.add 1) ((p.add 1).add n) = .ok (List.ofFn fun k : Fin n => f k.succ) := by
      refine ih (fun k => ?_) (by omega)
      obtain ⟨b, hb, hc⟩ := hp k.succ
      refine ⟨b, hb, ?_⟩
      rw [← hc]
      simp only [Ptr.add, Fin.val_succ]
      congr 1
      omega
    have h3 : (p.add 1).add n = p.add (n + 1) := by simp [Ptr.add]; omega
    rw [h3] at h2
    rw [Ptr.iterate, if_neg hne, h1, List.ofFn_succ]
    simp [h2]

theorem Out.uncounted_loop {σ : Type} (f : Nat → Nat → σ → Out σ) (lo n t : Nat) (s : σ) :
    (Out.loop (fun k c => Out.counted (f k) c) lo n (t, s)).uncounted
      = Out.loop (fun k s => f k (t + (k - lo)) s) lo n s := by
  induction n generalizing lo t s with
  | zero => rfl
  | succ n ih =>
    simp only [Out.loop, Nat.sub_self, Nat.add_zero]
    cases hf : f lo t s with
    | ok s' =>
      have hc : Out.counted (f lo) (t, s) = .ok (t + 1, s') := by simp [Out.counted, hf]
      rw [hc]
      simp only [Out.andThen]
      rw [ih]
      apply Out.loop_congr2
      intro k s _
      rw [show t + 1 + (lo + 1 + k - (lo + 1)) = t + (lo + 1 + k - lo) by omega]
    | throw e s' =>
      have hc : Out.counted (f lo) (t, s) = .throw e (t + 1, s') := by simp [Out.counted, hf]
      rw [hc]; rfl
    | ub u =>
      have hc : Out.counted (f lo) (t, s) = .ub u := by simp [Out.counted, hf]
      rw [hc]; rfl

end

section
variable {E : Type} [Add E] [Sub E] [Mul E] [Div E] [Neg E]

/-- A vector variable that represents `f` has a `data()` that points at `f`. -/
theorem vrep_points {s : State E} {y : Nat} {w : VObj} (hy : s.vec y = some w) {p : VVal E}
    (hp : VRep s (.var y) p) : p.n = w.size ∧ w.begin.Points s.heap p.n p.f := by
  constructor
  · have := hp.size
    simp [VNode.size, State.vobj, hy] at this
    omega
  · intro k
    obtain ⟨w', b, h1, h2, h3, h4⟩ := VNode.var_get.1 (hp.get k)
    rw [hy] at h1; cases h1
    exact ⟨b, h2, h4⟩

/-- A vector variable whose `data()` points at `f` represents `f`. -/
theorem points_vrep {s : State E} {y : Nat} {w : VObj} (hy : s.vec y = some w) {f : Fin w.size → E}
    (hf : w.begin.Points s.heap w.size f) : VRep s (.var y) ⟨w.size, f⟩ := by
  refine ⟨by simp [VNode.size, State.vobj, hy], fun k => ?_⟩
  obtain ⟨b, h1, h2⟩ := hf k
  exact VNode.var_get.2 ⟨w, b, hy, h1, k.2, h2⟩

/-- The elements of a matrix in memory. -/
theorem mrep_points {s : State E} {y : Nat} {w : MObj} (hy : s.mat y = some w) {p : Fin w.rows → Fin w.cols → E}
    (hp : MRep s (.var y) ⟨w.rows, w.cols, p⟩) :
    w.begin.Points s.heap (w.rows * w.cols) fun k =>
      p ⟨(w.unindex k).1, (MObj.unindex_lt k.2).1⟩ ⟨(w.unindex k).2, (MObj.unindex_lt k.2).2⟩ := by
  intro k
  have h := (mrep_var hy).1 hp ⟨(w.unindex k).1, (MObj.unindex_lt k.2).1⟩ ⟨(w.unindex k).2, (MObj.unindex_lt k.2).2⟩
  cases hb : w.data with
  | none => simp [MObj.get, hb] at h
  | some b =>
    rw [MObj.get_eq_ok hb (MObj.unindex_lt k.2).1 (MObj.unindex_lt k.2).2] at h
    refine ⟨b, hb, ?_⟩
    simp only [MObj.index_unindex] at h
    exact h

/-- A matrix variable with the right elements in memory. -/
theorem points_mrep {s : State E} {y : Nat} {w : MObj} (hy : s.mat y = some w)
    {f : Fin (w.rows * w.cols) → E} (hf : w.begin.Points s.heap (w.rows * w.cols) f) :
    MRep s (.var y) ⟨w.rows, w.cols, fun i j => f ⟨w.index i j, MObj.index_lt i.2 j.2⟩⟩ := by
  refine (mrep_var hy).2 fun i j => ?_
  obtain ⟨b, h1, h2⟩ := hf ⟨w.index i j, MObj.index_lt i.2 j.2⟩
  rw [MObj.get_eq_ok h1 i.2 j.2]
  exact h2

end

end CML
