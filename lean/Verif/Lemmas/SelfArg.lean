import Verif.Spec.SelfArg
import Verif.Lemmas.Raw
import Verif.Lemmas.OpAssign
import Verif.Lemmas.Resize

/-! Lemmas for arguments that refer to the target (C123). -/

set_option linter.unusedSectionVars false

namespace CML

section
variable {E : Type} {n : Nat}

/-- The result of storing in turn, by recursion. -/
def inTurn (q : Fin n → E) (src : Fin n → Src E n) (i : Fin n) : E :=
  match src i with
  | .val e => e
  | .own j => if j < i then inTurn q src j else q j
termination_by i

theorem inTurn_iff {q : Fin n → E} {src : Fin n → Src E n} {r : Fin n → E} :
    InTurn q src r ↔ r = inTurn q src := by
  constructor
  · intro h
    funext i
    induction i using WellFoundedLT.induction with
    | ind i ih =>
      rw [h i, inTurn]
      cases src i with
      | val e => rfl
      | own j =>
        by_cases hj : j < i
        · simp only [hj, if_true]; exact ih j hj
        · simp only [hj, if_false]
  · rintro rfl i
    conv_lhs => rw [inTurn]
    cases src i <;> rfl

/-- Reading an argument while the elements in front of number `k` have their new values. -/
theorem ERef.Is.read_step {h h' : Heap E} {d : VObj} {place : Fin n → Nat} {a : ERef E} {src : Fin n → Src E n}
    {q r : Fin n → E} {b : Nat} (hb : d.data = some b) {k : Fin n} (ha : a.Is h d place (src k)) (hr : InTurn q src r)
    (hnew : ∀ j, j < k → h'.cell b (d.off + place j) = some (some (r j)))
    (hold : ∀ j, k ≤ j → h'.cell b (d.off + place j) = some (some (q j)))
    (hout : ∀ b' o', (b' ≠ b ∨ o' < d.off ∨ d.off + d.size ≤ o') → h'.cell b' o' = h.cell b' o') :
    a.read h' = .ok (r k) := by
  have hk := hr k
  generalize hs : src k = c at ha hk
  cases ha with
  | val e => exact congrArg Res.ok hk.symm
  | own j =>
    simp only at hk
    refine Ptr.read_ok.2 ⟨b, hb, ?_⟩
    by_cases hj : j < k
    · rw [if_pos hj] at hk
      simpa [hk] using hnew j hj
    · rw [if_neg hj] at hk
      simpa [hk] using hold j (not_lt.1 hj)
  | other p e hp hap =>
    simp only at hk
    obtain ⟨b', h1, h2⟩ := hp 0
    refine Ptr.read_ok.2 ⟨b', h1, ?_⟩
    simp only [Fin.val_zero, Nat.add_zero] at h2 ⊢
    rw [hout b' p.off, h2, hk]
    rcases hap with h0 | h0 | h0
    · left; rintro rfl; exact h0 (h1.trans hb.symm)
    · right; left; omega
    · right; right; exact h0

theorem ERef.nth_eq {h : Heap E} {es : List (ERef E)} {i : Nat} (hi : i < es.length) :
    ERef.nth h es i = es[i].read h := by
  simp [ERef.nth, hi]

end

end CML
