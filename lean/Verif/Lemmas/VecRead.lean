import Verif.Lemmas.ExprBuild
import Verif.Model.VecReal
import Mathlib.Data.List.Lex
import Mathlib.Data.Matrix.Mul
import Mathlib.LinearAlgebra.CrossProduct

/-! Lemmas for comparison, dot and length. -/

set_option linter.unusedSectionVars false

namespace CML

variable {E : Type}

/-- Outcome of the comparison loop in terms of the lists of elements. -/
theorem cmpLoop_spec [LinearOrder E] (A B : Nat → Res E) (l l' : List E) (lo : Nat)
    (hA : ∀ i (h : i < l.length), A (lo + i) = .ok l[i])
    (hB : ∀ i (h : i < l'.length), B (lo + i) = .ok l'[i]) :
    ∃ r, cmpLoop A B lo (min l.length l'.length) = .ok r ∧
      (r = some true → l < l') ∧ (r = some false → l' < l) ∧
      (r = none → (l <+: l' ∨ l' <+: l)) := by
  induction l generalizing l' lo with
  | nil => exact ⟨none, by simp [cmpLoop], by simp, by simp, fun _ => Or.inl List.nil_prefix⟩
  | cons a t ih =>
    cases l' with
    | nil => exact ⟨none, by simp [cmpLoop], by simp, by simp, fun _ => Or.inr List.nil_prefix⟩
    | cons b t' =>
      have h1 := hA 0 (by simp)
      have h2 := hB 0 (by simp)
      simp only [Nat.add_zero, List.getElem_cons_zero] at h1 h2
      have hm : min (a :: t).length (b :: t').length = min t.length t'.length + 1 := by
        simp only [List.length_cons]; omega
      rw [hm, cmpLoop, h1, Res.ok_bind, h2, Res.ok_bind]
      by_cases hab : a < b
      · exact ⟨some true, by simp [hab], fun _ => List.Lex.rel hab, by simp, by simp⟩
      · by_cases hba : b < a
        · exact ⟨some false, by simp [hab, hba], by simp, fun _ => List.Lex.rel hba, by simp⟩
        · have : a = b := le_antisymm (not_lt.mp hba) (not_lt.mp hab)
          subst this
          obtain ⟨r, e1, e2, e3, e4⟩ := ih t' (lo + 1)
            (fun i h => by
              have := hA (i + 1) (by simpa using h)
              rw [show lo + 1 + i = lo + (i + 1) by omega, this]; simp)
            (fun i h => by
              have := hB (i + 1) (by simpa using h)
              rw [show lo + 1 + i = lo + (i + 1) by omega, this]; simp)
          refine ⟨r, by simpa [hab] using e1, fun h => ?_, fun h => ?_, fun h => ?_⟩
          · exact List.Lex.cons (e2 h)
          · exact List.Lex.cons (e3 h)
          · rcases e4 h with h | h
            · exact Or.inl ((List.prefix_cons_inj a).mpr h)
            · exact Or.inr ((List.prefix_cons_inj a).mpr h)

theorem prefix_lt [LinearOrder E] {l l' : List E} (h : l <+: l') (hl : l.length < l'.length) :
    l < l' := by
  obtain ⟨t, rfl⟩ := h
  cases t with
  | nil => simp at hl
  | cons b t =>
    clear hl
    induction l with
    | nil => exact List.Lex.nil
    | cons a l ih => exact List.Lex.cons ih

section
variable [Add E] [Sub E] [Mul E] [Div E] [Neg E]

theorem VRep.get_list {s : State E} {a : VNode E} {p : VVal E} (h : VRep s a p) (i : Nat)
    (hi : i < (List.ofFn p.f).length) : a.get s (0 + i) = .ok (List.ofFn p.f)[i] := by
  have hi' : i < p.n := by simpa using hi
  rw [Nat.zero_add, h.get ⟨i, hi'⟩]
  simp

theorem vCmp [LinearOrder E] {s : State E} {a b : VNode E} {p q : VVal E} (ha : VRep s a p)
    (hb : VRep s b q) :
    ∃ r, cmpLoop (fun i => a.get s i) (fun i => b.get s i) 0 (min (p.n : Int) q.n).toNat = .ok r ∧
      (r = some true → List.ofFn p.f < List.ofFn q.f) ∧
      (r = some false → List.ofFn q.f < List.ofFn p.f) ∧
      (r = none → (List.ofFn p.f <+: List.ofFn q.f ∨ List.ofFn q.f <+: List.ofFn p.f)) := by
  have := cmpLoop_spec (fun i => a.get s i) (fun i => b.get s i) _ _ 0 ha.get_list hb.get_list
  rw [show (min (p.n : Int) q.n).toNat = min (List.ofFn p.f).length (List.ofFn q.f).length by
    simp only [List.length_ofFn]; omega]
  exact this

end

section
variable [CommSemiring E]

theorem sumLeft_eq_sum (n : Nat) (g : Fin (n + 1) → E) : sumLeft n g = ∑ i, g i := by
  induction n with
  | zero => simp [sumLeft]
  | succ n ih => rw [sumLeft, ih, Fin.sum_univ_castSucc (n := n + 1)]

theorem dotLeft_eq_sum (n : Nat) (hn : 0 < n) (p q : Fin n → E) :
    dotLeft n hn p q = ∑ i, p i * q i := by
  cases n with
  | zero => omega
  | succ n => exact sumLeft_eq_sum n _

end

section
variable [Add E] [Sub E] [Mul E] [Div E] [Neg E]

theorem vDot_left {s : State E} {a b : VNode E} {n : Nat} {p q : Fin n → E} {f g : Bool}
    (ha : VRep s a ⟨n, p⟩) (hb : VRep s b ⟨n, q⟩) (hf : a.Typed s f n) (hg : b.Typed s g n)
    (hn : 0 < n) : vDot s a b = .ok (dotLeft n hn p q) := by
  have h1 : (1 : Int) ≤ n := by omega
  have e1 : a.chkSize s f = .ok _ := hf.chk ha.size id
  have e2 : b.chkSize s g = .ok _ := hg.chk hb.size id
  unfold vDot
  simp only [hf.fixed, e1, e2, ha.size, hg.fixed, Res.ok_bind, checkMin, Res.require, h1, decide_true, if_true,
    checkSameSize_eq hf hg ha.size hb.size, Int.toNat_natCast]
  rw [innerLoop_eq hn p q (fun k => ha.get k) (fun k => hb.get k)]

theorem vLengthSquared_eq_dot (s : State E) (a : VNode E) {f : Bool} {n : Nat} {p : Fin n → E}
    (ha : VRep s a ⟨n, p⟩) (hf : a.Typed s f n) : vLengthSquared s a = vDot s a a := by
  have e1 : a.chkSize s f = .ok _ := hf.chk ha.size id
  unfold vLengthSquared vDot
  simp only [hf.fixed, e1, ha.size, Res.ok_bind, checkSameSize_eq hf hf ha.size ha.size, Int.toNat_natCast]
  by_cases h1 : (1 : Int) ≤ n
  · simp only [checkMin, Res.require, h1, decide_true, if_true, Res.ok_bind, innerLoop]
    have h0 := ha.get ⟨0, by simp only; omega⟩
    simp only at h0
    simp only [h0, Res.ok_bind]
    have hcongr : ∀ (lo m : Nat) (x : E), lo + m ≤ n →
        Res.loop (fun i acc => do let y ← a.get s i; pure (acc + y * y)) lo m x
          = Res.loop (fun k m => do let x ← a.get s k; let y ← a.get s k; pure (m + x * y)) lo m x := by
      intro lo m
      induction m generalizing lo with
      | zero => intros; rfl
      | succ m ih =>
        intro x hx
        have := ha.get ⟨lo, by simp only; omega⟩
        simp only at this
        simp only [Res.loop, this, Res.ok_bind, Res.pure_eq, Res.bind]
        exact ih (lo + 1) _ (by omega)
    rw [hcongr _ _ _ (by omega)]
  · simp only [checkMin, Res.require, h1, decide_false, Bool.false_eq_true, if_false, Res.throw_bind]

end

section
variable [CommRing E] [Div E]

theorem vDot_ok {s : State E} {a b : VNode E} {n : Nat} {p q : Fin n → E} {f g : Bool}
    (ha : VRep s a ⟨n, p⟩) (hb : VRep s b ⟨n, q⟩) (hf : a.Typed s f n) (hg : b.Typed s g n)
    (hn : 0 < n) : vDot s a b = .ok (∑ i, p i * q i) := by
  rw [vDot_left ha hb hf hg hn, dotLeft_eq_sum]

theorem vCross_rep {s : State E} {a b : VNode E} {p q : Fin 3 → E} (ha : VRep s a ⟨3, p⟩)
    (hb : VRep s b ⟨3, q⟩) :
    VRep s (.cross a b) ⟨3, crossProduct p q⟩ := by
  refine ⟨rfl, fun i => ?_⟩
  have a0 := ha.get 0
  have a1 := ha.get 1
  have a2 := ha.get 2
  have b0 := hb.get 0
  have b1 := hb.get 1
  have b2 := hb.get 2
  simp only [Fin.isValue, Fin.val_zero, Fin.val_one, Fin.val_two] at a0 a1 a2 b0 b1 b2
  rw [cross_apply]
  simp only at i
  fin_cases i <;> rw [VNode.get] <;> simp [a0, a1, a2, b0, b1, b2]

end

end CML
