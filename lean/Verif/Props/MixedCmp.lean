import Verif.Lemmas.Mixed
import Mathlib.Data.Rat.Floor

/-!
C127: comparison of vectors of different element types.
-/

set_option linter.unusedSectionVars false

namespace CML

open ETy

section
variable {K : Type} [Field K] [LinearOrder K] [FloorRing K] {n : Nat} {s t : ETy}

private theorem ltT_int (hs : s ≠ .real) (ht : t ≠ .real) (a b : ℤ) :
    ltT s t (.int a : Num K) (.int b) = .ok (decide ((s.arith t).wrap a < (s.arith t).wrap b)) := by
  have hr : s.arith t ≠ .real := fun h => by rcases (arith_real s t).1 h with h | h <;> contradiction
  unfold ltT
  rw [conv_int hr, conv_int hr]
  rfl

private theorem ltT_real (h : s = .real ∨ t = .real) (a b : Num K) :
    ltT s t a b = .ok (decide (a.val < b.val)) := by
  unfold ltT
  rw [(arith_real s t).2 h, conv_real, conv_real]
  rfl

/-- Comparison by `<` on the elements decides equality of the keys. -/
private theorem eqT_key {α : Type} [LinearOrder α] {x y : Fin n → Num K} (f g : Fin n → α)
    (h1 : ∀ i, ltT s t (x i) (y i) = .ok (decide (f i < g i)))
    (h2 : ∀ i, ltT t s (y i) (x i) = .ok (decide (g i < f i))) :
    eqT s t x y = .ok (decide (∀ i, f i = g i)) := by
  unfold eqT
  obtain ⟨r, hr, hP⟩ := Res.loop_inv (body := fun i r => if h : i < n then
      if r = true then do
        if (← ltT s t (x ⟨i, h⟩) (y ⟨i, h⟩)) = true then .ok false
        else do
          if (← ltT t s (y ⟨i, h⟩) (x ⟨i, h⟩)) = true then .ok false else .ok true
      else .ok r
    else .ub .oob) (lo := 0) (n := n) (s := true)
    (fun k r => r = decide (∀ i : Fin n, i.1 < k → f i = g i)) (by simp) (by
      rintro k r _ h rfl
      have hk : k < n := by omega
      rw [dif_pos hk]
      by_cases hall : ∀ i : Fin n, i.1 < k → f i = g i
      · rw [decide_eq_true hall, if_pos rfl, h1, Res.ok_bind, h2, Res.ok_bind]
        rcases lt_trichotomy (f ⟨k, hk⟩) (g ⟨k, hk⟩) with hlt | heq | hgt
        · refine ⟨false, by simp [hlt], ?_⟩
          symm
          rw [decide_eq_false_iff_not]
          exact fun h => hlt.ne (h ⟨k, hk⟩ (by simp))
        · refine ⟨true, by simp [heq], ?_⟩
          symm
          rw [decide_eq_true_iff]
          intro i hi
          by_cases hik : i.1 < k
          · exact hall i hik
          · have : i = ⟨k, hk⟩ := Fin.ext (by simp; omega)
            rw [this, heq]
        · refine ⟨false, by simp [hgt, hgt.le], ?_⟩
          symm
          rw [decide_eq_false_iff_not]
          exact fun h => hgt.ne' (h ⟨k, hk⟩ (by simp))
      · rw [decide_eq_false hall]
        refine ⟨false, by simp, ?_⟩
        symm
        rw [decide_eq_false_iff_not]
        exact fun h => hall fun i hi => h i (by omega))
  rw [hr, hP]
  congr 1
  simp

/-- Lexicographic order. -/
def LexLt {α : Type} [LinearOrder α] (f g : Fin n → α) : Prop := ∃ k, (∀ j, j < k → f j = g j) ∧ f k < g k

private theorem ltVecT_key {α : Type} [LinearOrder α] {x y : Fin n → Num K} (f g : Fin n → α)
    (h1 : ∀ i, ltT s t (x i) (y i) = .ok (decide (f i < g i)))
    (h2 : ∀ i, ltT t s (y i) (x i) = .ok (decide (g i < f i))) :
    ∃ b, ltVecT s t x y = .ok b ∧ (b = true ↔ LexLt f g) := by
  unfold ltVecT
  obtain ⟨r, hr, hP⟩ := Res.loop_inv (body := ltStepT s t x y) (lo := 0) (n := n) (s := none)
    (fun k r => (r = none ∧ ∀ i : Fin n, i.1 < k → f i = g i) ∨ (r = some true ∧ LexLt f g) ∨
      (r = some false ∧ ¬ LexLt f g)) (.inl ⟨rfl, fun i h => by simp at h⟩) (by
      rintro k r _ h hr
      have hk : k < n := by omega
      unfold ltStepT
      rw [dif_pos hk]
      rcases hr with ⟨rfl, hall⟩ | ⟨rfl, hl⟩ | ⟨rfl, hl⟩
      · simp only [h1, h2, Res.ok_bind]
        rcases lt_trichotomy (f ⟨k, hk⟩) (g ⟨k, hk⟩) with hlt | heq | hgt
        · exact ⟨some true, by simp [hlt], .inr (.inl ⟨rfl, ⟨k, hk⟩, fun j hj => hall j hj, hlt⟩)⟩
        · refine ⟨none, by simp [heq], .inl ⟨rfl, fun i hi => ?_⟩⟩
          by_cases hik : i.1 < k
          · exact hall i hik
          · have : i = ⟨k, hk⟩ := Fin.ext (by simp; omega)
            rw [this, heq]
        · refine ⟨some false, by simp [hgt, hgt.le], .inr (.inr ⟨rfl, ?_⟩)⟩
          rintro ⟨m, hm, hml⟩
          rcases lt_trichotomy m.1 k with h' | h' | h'
          · exact hml.ne (hall m h')
          · have : m = ⟨k, hk⟩ := Fin.ext h'
            rw [this] at hml
            exact lt_asymm hml hgt
          · exact hgt.ne' (hm ⟨k, hk⟩ h')
      · exact ⟨_, rfl, .inr (.inl ⟨rfl, hl⟩)⟩
      · exact ⟨_, rfl, .inr (.inr ⟨rfl, hl⟩)⟩)
  rw [hr, Res.ok_bind]
  rcases hP with ⟨rfl, hall⟩ | ⟨rfl, hl⟩ | ⟨rfl, hl⟩
  · refine ⟨false, rfl, ?_⟩
    simp only [Bool.false_eq_true, false_iff]
    rintro ⟨m, -, hml⟩
    exact hml.ne (hall m (by simp))
  · exact ⟨true, rfl, by simp [hl]⟩
  · exact ⟨false, rfl, by simp [hl]⟩

/-- C127: if one of the element types is the floating-point type, `==` means equality of the numbers and `<` is their
lexicographic order. -/
theorem mixedCmp_real (h : s = .real ∨ t = .real) (x y : Fin n → Num K) :
    eqT s t x y = .ok (decide (∀ i, (x i).val = (y i).val)) ∧
    ∃ b, ltVecT s t x y = .ok b ∧ (b = true ↔ LexLt (fun i => (x i).val) fun i => (y i).val) :=
  ⟨eqT_key _ _ (fun i => ltT_real h _ _) fun i => ltT_real h.symm _ _,
   ltVecT_key _ _ (fun i => ltT_real h _ _) fun i => ltT_real h.symm _ _⟩

/-- C127, what `==` and `<` compare on integral element types: the values reduced to the type of the comparison, so that
vectors are equal if their elements are congruent modulo the range of this type. -/
theorem mixedCmp_int (hs : s ≠ .real) (ht : t ≠ .real) (x y : Fin n → ℤ) :
    (∃ b, eqT s t (fun i => (.int (x i) : Num K)) (fun i => .int (y i)) = .ok b ∧
      (b = true ↔ ∀ i, x i ≡ y i [ZMOD 2 ^ (s.arith t).bits])) ∧
    ∃ b, ltVecT s t (fun i => (.int (x i) : Num K)) (fun i => .int (y i)) = .ok b ∧
      (b = true ↔ LexLt (fun i => (s.arith t).wrap (x i)) fun i => (s.arith t).wrap (y i)) := by
  have hr : s.arith t ≠ .real := fun h => by rcases (arith_real s t).1 h with h | h <;> contradiction
  have h1 : ∀ i, ltT s t (.int (x i) : Num K) (.int (y i)) =
      .ok (decide ((s.arith t).wrap (x i) < (s.arith t).wrap (y i))) := fun i => ltT_int hs ht _ _
  have h2 : ∀ i, ltT t s (.int (y i) : Num K) (.int (x i)) =
      .ok (decide ((s.arith t).wrap (y i) < (s.arith t).wrap (x i))) := fun i => by
    rw [arith_comm s t]; exact ltT_int ht hs _ _
  refine ⟨⟨_, eqT_key _ _ h1 h2, ?_⟩, ltVecT_key _ _ h1 h2⟩
  rw [decide_eq_true_iff]
  exact forall_congr' fun i => wrap_eq_iff hr _ _

/-- C127, the part that holds: if the type of the comparison has a sign, or no element is negative, `==` means equality of
the numbers and `<` is their lexicographic order.  Missing: negative elements compared with unsigned ones of at least the
same width (at least `int`), see `mixedEq_false`, `mixedLt_false`. -/
theorem mixedCmp_partial (hs : s ≠ .real) (ht : t ≠ .real) (x y : Fin n → ℤ) (hx : ∀ i, s.InRange (x i))
    (hy : ∀ i, t.InRange (y i)) (h : (s.arith t).signed = true ∨ ∀ i, 0 ≤ x i ∧ 0 ≤ y i) :
    eqT s t (fun i => (.int (x i) : Num K)) (fun i => .int (y i)) = .ok (decide (∀ i, x i = y i)) ∧
    ∃ b, ltVecT s t (fun i => (.int (x i) : Num K)) (fun i => .int (y i)) = .ok b ∧ (b = true ↔ LexLt x y) := by
  have hr : s.arith t ≠ .real := fun h => by rcases (arith_real s t).1 h with h | h <;> contradiction
  have nn : ∀ {u v : ETy} {z : ℤ}, u ≠ .real → v ≠ .real → u.InRange z → 0 ≤ z → (u.arith v).InRange z := by
    intro u v z hu hv h1 h2
    cases u <;> cases v <;> first
      | contradiction
      | (simp [arith, promote, bits, signed, InRange, lo, hi] at h1 ⊢; omega)
  have wx : ∀ i, (s.arith t).wrap (x i) = x i := fun i => wrap_of_range hr (by
    rcases h with h | h
    · exact arith_signed_left hs ht (hx i) h
    · exact nn hs ht (hx i) (h i).1)
  have wy : ∀ i, (s.arith t).wrap (y i) = y i := fun i => wrap_of_range hr (by
    rcases h with h | h
    · exact arith_signed_right hs ht (hy i) h
    · rw [arith_comm]; exact nn ht hs (hy i) (h i).2)
  have h1 : ∀ i, ltT s t (.int (x i) : Num K) (.int (y i)) = .ok (decide (x i < y i)) := fun i => by
    rw [ltT_int hs ht, wx, wy]
  have h2 : ∀ i, ltT t s (.int (y i) : Num K) (.int (x i)) = .ok (decide (y i < x i)) := fun i => by
    rw [ltT_int ht hs, arith_comm t s, wx, wy]
  exact ⟨eqT_key _ _ h1 h2, ltVecT_key _ _ h1 h2⟩

/-- C127 is false for `==`: the vector of `int` with the element -1 equals the vector of `unsigned` with the element
4294967295. -/
theorem mixedEq_false :
    ¬ ∀ (s t : ETy) (x y : Fin 1 → ℤ), s ≠ .real → t ≠ .real → (∀ i, s.InRange (x i)) → (∀ i, t.InRange (y i)) →
      eqT s t (fun i => (.int (x i) : Num ℚ)) (fun i => .int (y i)) = .ok (decide (∀ i, x i = y i)) := by
  intro h
  have := h .i32 .u32 (fun _ => -1) (fun _ => 4294967295) (by decide) (by decide) (fun _ => by decide) (fun _ => by decide)
  revert this
  decide +kernel

/-- C127 is false for `<`: the vector of `int` with the element -1 is not less than the vector of `unsigned` with the
element 1. -/
theorem mixedLt_false :
    ¬ ∀ (s t : ETy) (x y : Fin 1 → ℤ), s ≠ .real → t ≠ .real → (∀ i, s.InRange (x i)) → (∀ i, t.InRange (y i)) →
      ∃ b, ltVecT s t (fun i => (.int (x i) : Num ℚ)) (fun i => .int (y i)) = .ok b ∧ (b = true ↔ LexLt x y) := by
  intro h
  obtain ⟨b, hb, hb'⟩ := h .i32 .u32 (fun _ => -1) (fun _ => 1) (by decide) (by decide) (fun _ => by decide)
    (fun _ => by decide)
  have he : ltVecT .i32 .u32 (fun _ : Fin 1 => (.int (-1) : Num ℚ)) (fun _ => .int 1) = .ok false := by decide +kernel
  rw [he] at hb
  injection hb with hb
  subst hb
  exact absurd (hb'.2 ⟨0, fun j hj => by omega, by norm_num⟩) (by decide)

/-! Concrete cases: `mixedCmp_partial` applies to `short` and `unsigned short`, and to `int` and `long long`. -/

example : (ETy.i16.arith .u16).signed = true ∧ (ETy.u32.arith .i64).signed = true ∧
    (ETy.i32.arith .u32).signed = false := by decide

example : eqT .i16 .u16 (fun _ : Fin 2 => (.int (-1) : Num ℚ)) (fun _ => .int 65535) = .ok false := by decide +kernel

example : eqT .i32 .real (fun _ : Fin 2 => (.int (-1) : Num ℚ)) (fun _ => .real (-1)) = .ok true := by decide +kernel

end

end CML

#print axioms CML.mixedCmp_real
#print axioms CML.mixedCmp_int
#print axioms CML.mixedCmp_partial
#print axioms CML.mixedEq_false
#print axioms CML.mixedLt_false
