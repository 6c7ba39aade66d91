import Verif.Lemmas.Nan
import Verif.Lemmas.Demo
import Verif.Props.VecRead
import Verif.Props.MatRows
import Verif.Props.Quat
import Verif.Props.Scalar

/-!
C120: comparison of vectors, matrices and quaternions whose elements may be NaN.

The claim a reader of `==` expects is that `a == b` is true exactly if the operands have the same size and
equal elements, and that `<` is an order.  With NaN elements the code does not satisfy this: the theorems
here determine what it does compute (for all operands), refute the claim, and prove it for operands
without NaN.
-/

set_option linter.unusedSectionVars false

namespace CML

open Ieee

section Vec
variable {K : Type} [Add K] [Sub K] [Mul K] [Div K] [Neg K] [LinearOrder K]
  {s : State (Ieee K)} {a b : VNode (Ieee K)} {n m : Nat} {p : Fin n → Ieee K} {q : Fin m → Ieee K}

/-- C120.  `a < b` with NaN elements: true exactly if `a` has the smaller number at the first position
that is not tied (positions with a NaN on either side are ties), or all shared positions are tied and
`a` is shorter.  `a >= b` is the negation. -/
theorem vlt_nan (ha : VIs s a n p) (hb : VIs s b m q) :
    ∃ r, vLt s a b = .ok r ∧ vGe s a b = .ok (!r) ∧
      (r = true ↔ FirstLess p q ∨ (AllTied p q ∧ n < m)) := by
  obtain ⟨r, h1, h2, h3, h4⟩ := vCmp_nan ha.rep hb.rep (min (n : Int) m).toNat (by omega)
  suffices h : ∃ r, vLt s a b = .ok r ∧ (r = true ↔ FirstLess p q ∨ (AllTied p q ∧ n < m)) by
    obtain ⟨r, e1, e2⟩ := h
    exact ⟨r, e1, by simp [vGe, e1], e2⟩
  unfold vLt
  simp only [ha.rep.size, hb.rep.size, Res.ok_bind, h1]
  match r, h2, h3, h4 with
  | some true, h2, _, _ => exact ⟨true, rfl, by simp [h2 rfl]⟩
  | some false, _, h3, _ =>
    have := firstLess_asymm (h3 rfl)
    exact ⟨false, rfl, by simp [this]⟩
  | none, _, _, h4 =>
    have ht := h4 rfl
    have : ¬ FirstLess p q := fun h => (firstLess_asymm h).2.1 ht
    exact ⟨_, rfl, by simp [this, ht]⟩

/-- C120.  `a > b` with NaN elements; `a <= b` is the negation. -/
theorem vgt_nan (ha : VIs s a n p) (hb : VIs s b m q) :
    ∃ r, vGt s a b = .ok r ∧ vLe s a b = .ok (!r) ∧
      (r = true ↔ FirstLess q p ∨ (AllTied p q ∧ m < n)) := by
  obtain ⟨r, h1, h2, h3, h4⟩ := vCmp_nan ha.rep hb.rep (min (n : Int) m).toNat (by omega)
  suffices h : ∃ r, vGt s a b = .ok r ∧ (r = true ↔ FirstLess q p ∨ (AllTied p q ∧ m < n)) by
    obtain ⟨r, e1, e2⟩ := h
    exact ⟨r, e1, by simp [vLe, e1], e2⟩
  unfold vGt
  simp only [ha.rep.size, hb.rep.size, Res.ok_bind, h1]
  match r, h2, h3, h4 with
  | some true, h2, _, _ =>
    have := firstLess_asymm (h2 rfl)
    exact ⟨false, rfl, by simp [this]⟩
  | some false, _, h3, _ => exact ⟨true, rfl, by simp [h3 rfl]⟩
  | none, _, _, h4 =>
    have ht := h4 rfl
    have : ¬ FirstLess q p := fun h => (firstLess_asymm h).2.2 ht
    exact ⟨_, rfl, by simp [this, ht]⟩

/-- C120.  `a == b` with NaN elements: true exactly if the sizes agree and at every position one of the
elements is NaN or they are equal numbers.  `a != b` is the negation. -/
theorem veq_nan (ha : VIs s a n p) (hb : VIs s b m q) :
    ∃ r, vEq s a b = .ok r ∧ vNe s a b = .ok (!r) ∧ (r = true ↔ n = m ∧ AllTied p q) := by
  suffices h : ∃ r, vEq s a b = .ok r ∧ (r = true ↔ n = m ∧ AllTied p q) by
    obtain ⟨r, e1, e2⟩ := h
    exact ⟨r, e1, by simp [vNe, e1], e2⟩
  unfold vEq
  simp only [ha.rep.size, hb.rep.size, Res.ok_bind]
  by_cases hnm : n = m
  · subst hnm
    obtain ⟨r, h1, h2, h3, h4⟩ := vCmp_nan ha.rep hb.rep n (by omega)
    simp only [ne_eq, not_true_eq_false, if_false, Int.toNat_natCast, h1, Res.ok_bind]
    match r, h2, h3, h4 with
    | some true, h2, _, _ => exact ⟨false, rfl, by simp [(firstLess_asymm (h2 rfl)).2.1]⟩
    | some false, _, h3, _ => exact ⟨false, rfl, by simp [(firstLess_asymm (h3 rfl)).2.2]⟩
    | none, _, _, h4 => exact ⟨true, rfl, by simp [h4 rfl]⟩
  · exact ⟨false, by simp [hnm], by simp [hnm]⟩

/-- C120.  A vector of NaNs is equal to every vector of its size, and neither less nor greater. -/
theorem veq_all_nan {q : Fin n → Ieee K} (ha : VIs s a n (fun _ => .nan)) (hb : VIs s b n q) :
    vEq s a b = .ok true ∧ vNe s a b = .ok false ∧ vLt s a b = .ok false ∧ vGt s a b = .ok false := by
  have ht : AllTied (fun _ : Fin n => (.nan : Ieee K)) q := fun _ _ _ => Or.inl rfl
  obtain ⟨r, e1, e2, e3⟩ := veq_nan ha hb
  obtain ⟨l, l1, -, l3⟩ := vlt_nan ha hb
  obtain ⟨g, g1, -, g3⟩ := vgt_nan ha hb
  have hr : r = true := e3.2 ⟨rfl, ht⟩
  have hl : l = false := by
    rw [← Bool.not_eq_true, l3]
    rintro (h | h)
    · exact (firstLess_asymm h).2.1 ht
    · exact lt_irrefl _ h.2
  have hg : g = false := by
    rw [← Bool.not_eq_true, g3]
    rintro (h | h)
    · exact (firstLess_asymm h).2.2 ht
    · exact lt_irrefl _ h.2
  subst hr; subst hl; subst hg
  exact ⟨e1, e2, l1, g1⟩

/-- C120.  `==` stays reflexive and symmetric: a vector that holds NaN is equal to itself, although no
NaN is equal to itself. -/
theorem veq_nan_refl_symm (ha : VIs s a n p) (hb : VIs s b m q) :
    vEq s a a = .ok true ∧ vEq s a b = vEq s b a := by
  obtain ⟨r, e1, -, e3⟩ := veq_nan ha ha
  obtain ⟨t, t1, -, t3⟩ := veq_nan ha hb
  obtain ⟨u, u1, -, u3⟩ := veq_nan hb ha
  constructor
  · rw [e1, e3.2 ⟨rfl, fun i h1 h2 => ?_⟩]
    cases hp : p ⟨i, h1⟩ with
    | nan => exact Or.inl rfl
    | num x => exact Or.inr (Or.inr ⟨x, rfl, rfl⟩)
  · rw [t1, u1, Res.ok.injEq, Bool.eq_iff_iff, t3, u3]
    have key : ∀ {n m : Nat} {p : Fin n → Ieee K} {q : Fin m → Ieee K}, AllTied p q → AllTied q p := by
      intro n m p q h i h1 h2
      rcases h i h2 h1 with h | h | ⟨z, h3, h4⟩
      · exact Or.inr (Or.inl h)
      · exact Or.inl h
      · exact Or.inr (Or.inr ⟨z, h4, h3⟩)
    exact ⟨fun h => ⟨h.1.symm, key h.2⟩, fun h => ⟨h.1.symm, key h.2⟩⟩

/-- C120, the full claim for vectors without NaN: `==` is equality of sizes and elements, `<` is the
lexicographic order of the numbers.  (Missing: vectors that hold NaN, where both fail, see
`veq_nan_false` and `vlt_nan_cycle`.) -/
theorem vcmp_num_partial {p : Fin n → K} {q : Fin m → K} (ha : VIs s a n (fun i => .num (p i)))
    (hb : VIs s b m (fun i => .num (q i))) :
    vEq s a b = .ok (decide (List.ofFn p = List.ofFn q)) ∧
    vLt s a b = .ok (decide (List.ofFn p < List.ofFn q)) ∧
    vGt s a b = .ok (decide (List.ofFn q < List.ofFn p)) := by
  -- the same comparison on the numbers
  let s' : State K := demo [] [] []
  have ga : ∀ i (h : i < n), a.get s i = .ok (.num (p ⟨i, h⟩)) := fun i h => ha.rep.get ⟨i, h⟩
  have gb : ∀ i (h : i < m), b.get s i = .ok (.num (q ⟨i, h⟩)) := fun i h => hb.rep.get ⟨i, h⟩
  have ha' : VIs s' (.temp false (List.ofFn p)) n p := ⟨VRep.ofFn p, false, VNode.Typed.temp (by simp)⟩
  have hb' : VIs s' (.temp false (List.ofFn q)) m q := ⟨VRep.ofFn q, false, VNode.Typed.temp (by simp)⟩
  have ga' : ∀ i (h : i < n), (VNode.temp false (List.ofFn p)).get s' i = .ok (p ⟨i, h⟩) :=
    fun i h => ha'.rep.get ⟨i, h⟩
  have gb' : ∀ i (h : i < m), (VNode.temp false (List.ofFn q)).get s' i = .ok (q ⟨i, h⟩) :=
    fun i h => hb'.rep.get ⟨i, h⟩
  have key : ∀ N, N ≤ n → N ≤ m →
      cmpLoop (fun i => a.get s i) (fun i => b.get s i) 0 N =
      cmpLoop (fun i => (VNode.temp false (List.ofFn p)).get s' i)
        (fun i => (VNode.temp false (List.ofFn q)).get s' i) 0 N := by
    intro N h1 h2
    apply cmpLoop_num
    · intro i _ h
      exact ⟨_, ga i (by omega), ga' i (by omega)⟩
    · intro i _ h
      exact ⟨_, gb i (by omega), gb' i (by omega)⟩
  rw [← veq_iff ha' hb', ← vlt_lex ha' hb', ← vgt_lex ha' hb']
  refine ⟨?_, ?_, ?_⟩
  · unfold vEq
    simp only [ha.rep.size, hb.rep.size, ha'.rep.size, hb'.rep.size, Res.ok_bind]
    by_cases h : n = m
    · rw [key _ (by omega) (by omega)]
    · simp [h]
  · unfold vLt
    simp only [ha.rep.size, hb.rep.size, ha'.rep.size, hb'.rep.size, Res.ok_bind]
    rw [key _ (by omega) (by omega)]
  · unfold vGt
    simp only [ha.rep.size, hb.rep.size, ha'.rep.size, hb'.rep.size, Res.ok_bind]
    rw [key _ (by omega) (by omega)]

end Vec

/-! Witnesses: the full claim fails. -/

/-- A vector temporary as operand. -/
theorem vis_list {E : Type} [Add E] [Sub E] [Mul E] [Div E] [Neg E] {s : State E} {f : Bool}
    (xs : List E) : VIs s (.temp f xs) xs.length (fun i => xs[i]) :=
  ⟨VRep.temp xs, f, VNode.Typed.temp rfl⟩

/-- C120, negation: `==` is true for vectors with different elements (`[NaN, 2]` and `[1, 2]`), and it is not transitive: `[1] == [NaN]` and `[NaN] == [3]` but `[1] != [3]`. -/
theorem veq_nan_false :
    (¬ ∀ (s : State (Ieee ℤ)) (a b : VNode (Ieee ℤ)) (n : Nat) (p q : Fin n → Ieee ℤ), VIs s a n p →
      VIs s b n q → vEq s a b = .ok true → ∀ i, EqNum (p i) (q i)) ∧
    (¬ ∀ (s : State (Ieee ℤ)) (a b c : VNode (Ieee ℤ)) (n : Nat) (p q r : Fin n → Ieee ℤ), VIs s a n p →
      VIs s b n q → VIs s c n r → vEq s a b = .ok true → vEq s b c = .ok true →
      vEq s a c = .ok true) := by
  constructor
  · intro h
    obtain ⟨z, h1, -⟩ := h (demo [] [] []) (.temp true [.nan, .num 2]) (.temp true [.num 1, .num 2]) 2 _ _
      (vis_list _) (vis_list _) (by decide +kernel) 0
    cases h1
  · intro h
    have := h (demo [] [] []) (.temp true [.num 1]) (.temp true [.nan]) (.temp true [.num 3]) 1 _ _ _
      (vis_list _) (vis_list _) (vis_list _) (by decide +kernel) (by decide +kernel)
    revert this
    decide +kernel

/-- C120, negation: `<` has a cycle, `(1, 0) < (NaN, 1) < (0, 2) < (1, 0)`, so it is not transitive and
not an order; sorting with it or using it as the order of a `std::set` is undefined behaviour. -/
theorem vlt_nan_cycle :
    (¬ ∀ (s : State (Ieee ℤ)) (a b c : VNode (Ieee ℤ)) (n : Nat) (p q r : Fin n → Ieee ℤ), VIs s a n p →
      VIs s b n q → VIs s c n r → vLt s a b = .ok true → vLt s b c = .ok true →
      vLt s a c = .ok true) ∧
    (∃ (s : State (Ieee ℤ)) (a b c : VNode (Ieee ℤ)) (p q r : Fin 2 → Ieee ℤ), VIs s a 2 p ∧
      VIs s b 2 q ∧ VIs s c 2 r ∧ vLt s a b = .ok true ∧ vLt s b c = .ok true ∧
      vLt s c a = .ok true) := by
  constructor
  · intro h
    have := h (demo [] [] []) (.temp true [.num 1, .num 0]) (.temp true [.nan, .num 1])
      (.temp true [.num 0, .num 2]) 2 _ _ _
      (vis_list _) (vis_list _) (vis_list _) (by decide +kernel) (by decide +kernel)
    revert this
    decide +kernel
  · exact ⟨demo [] [] [], .temp true [.num 1, .num 0], .temp true [.nan, .num 1],
      .temp true [.num 0, .num 2], _, _, _, vis_list _, vis_list _, vis_list _,
      by decide +kernel, by decide +kernel, by decide +kernel⟩

example : VIs (demo [] [] [] : State (Ieee ℤ)) (.temp true [.nan, .num 2]) 2 ![.nan, .num 2] :=
  ⟨⟨rfl, fun i => by fin_cases i <;> rfl⟩, true, VNode.Typed.temp rfl⟩
example : FirstLess (![.nan, .num 2] : Fin 2 → Ieee ℤ) ![.num 7, .num 3] :=
  ⟨1, by omega, by omega, 2, 3, rfl, rfl, by decide, fun i hi => by
    obtain rfl : i = 0 := by omega
    exact Or.inl rfl⟩
example : vLt (demo [] [] [] : State (Ieee ℤ)) (.temp true [.nan, .num 2]) (.temp true [.num 7, .num 3])
    = .ok true := by decide +kernel
example : vEq (demo [] [] [] : State (Ieee ℤ)) (.temp true [.nan, .num 2]) (.temp true [.num 7, .num 3])
    = .ok false := by decide +kernel
/-- A sum with a NaN element, compared without evaluating it first. -/
example : vEq (demo [] [] [] : State (Ieee ℤ))
    (.bin .plus (.temp true [.nan, .num 2]) (.temp true [.num 1, .num 1])) (.temp true [.num 9, .num 3])
    = .ok true := by decide +kernel
example : VIs (demo [] [] [] : State (Ieee ℤ)) (.temp true [.num 1, .num 2]) 2
    (fun i => .num ((![1, 2] : Fin 2 → ℤ) i)) :=
  ⟨⟨rfl, fun i => by fin_cases i <;> rfl⟩, true, VNode.Typed.temp rfl⟩

/-! ### minimize and maximize -/

/-- C120.  `x.minimize(e)` and `x.maximize(e)` with NaN: a NaN of `x` stays, a NaN of `e` is ignored, two
numbers give the smaller (larger) one.  So the result depends on which of the two vectors is the
destination. -/
theorem extremize_nan {K : Type} [Add K] [Sub K] [Mul K] [Div K] [Neg K] [LinearOrder K]
    {triv lower : Bool} {s : State (Ieee K)} {x : Nat} {d : VObj} {e : VNode (Ieee K)} {n : Nat}
    {p q : Fin n → Ieee K} (hx : s.vec x = some d) (he : VIs s e n p) (hq : VIs s (.var x) n q)
    (hw : d.Ready triv s.heap) (hal : e.Ahead (VAhead s d) (VDisj s d) (MDisj s d)) :
    ∃ h', vExtremize triv lower s x e = .ok { s with heap := h' } ∧ SameOutside d s.heap h' ∧
      ∀ i : Fin n,
        (q i = .nan → d.get h' i = .ok .nan) ∧
        (p i = .nan → d.get h' i = .ok (q i)) ∧
        (∀ u v, q i = .num u → p i = .num v → d.get h' i = .ok (.num (if lower then min u v else max u v))) := by
  obtain ⟨f, hf⟩ := he.known
  obtain ⟨h', e1, e2, e3⟩ := vExtremize_raw (triv := triv) (lower := lower) hx he.rep hq.rep hf rfl hw hal
  have e2 : ∀ i : Fin n, d.get h' i = .ok (if lower then (if p i < q i then p i else q i)
    else (if q i < p i then p i else q i)) := e2
  refine ⟨h', e1, e3, fun i => ⟨fun h => ?_, fun h => ?_, fun u v hu hv => ?_⟩⟩
  · rw [e2 i, h]
    have h1 : ¬ p i < (.nan : Ieee K) := by simp [Ieee.lt_iff]
    have h2 : ¬ (.nan : Ieee K) < p i := by simp [Ieee.lt_iff]
    simp [h1, h2]
  · rw [e2 i, h]
    have h1 : ¬ q i < (.nan : Ieee K) := by simp [Ieee.lt_iff]
    have h2 : ¬ (.nan : Ieee K) < q i := by simp [Ieee.lt_iff]
    simp [h1, h2]
  · rw [e2 i, hu, hv]
    have h1 : ∀ a b : K, (.num a : Ieee K) < .num b ↔ a < b := fun _ _ => Iff.rfl
    simp only [h1]
    cases lower
    · simp only [Bool.false_eq_true, if_false]
      split
      · next h => rw [max_eq_right h.le]
      · next h => rw [max_eq_left (not_lt.mp h)]
    · simp only [if_true]
      split
      · next h => rw [min_eq_right h.le]
      · next h => rw [min_eq_left (not_lt.mp h)]

/-- Two fixed-size vectors `(NaN, 5)` and `(1, 4)`. -/
def exNan : State (Ieee ℤ) :=
  demo [[some .nan, some (.num 5)], [some (.num 1), some (.num 4)]]
    [⟨.compiled, true, some 0, 0, 2⟩, ⟨.compiled, true, some 1, 0, 2⟩] []

example : ∃ s', vExtremize true true exNan 0 (.var 1) = .ok s' ∧
    (VNode.var 0 : VNode (Ieee ℤ)).get s' 0 = .ok .nan ∧
    (VNode.var 0 : VNode (Ieee ℤ)).get s' 1 = .ok (.num 4) := ⟨_, rfl, rfl, rfl⟩
example : ∃ s', vExtremize true true exNan 1 (.var 0) = .ok s' ∧
    (VNode.var 1 : VNode (Ieee ℤ)).get s' 0 = .ok (.num 1) ∧
    (VNode.var 1 : VNode (Ieee ℤ)).get s' 1 = .ok (.num 4) := ⟨_, rfl, rfl, rfl⟩

/-! ### Matrices -/

section Mat
variable {K : Type} [Add K] [Sub K] [Mul K] [Div K] [Neg K] [LinearOrder K]
  {s : State (Ieee K)} {a b : MNode (Ieee K)} {r c r' c' : Nat}

/-- C120.  Matrix `==` with NaN elements: true exactly if the dimensions agree and at every place one of
the elements is NaN or they are equal numbers.  `!=` is the negation. -/
theorem meq_nan {p : Fin r → Fin c → Ieee K} {q : Fin r' → Fin c' → Ieee K}
    (ha : MRep s a ⟨r, c, p⟩) (hb : MRep s b ⟨r', c', q⟩) :
    ∃ z, mEq s a b = .ok z ∧ mNe s a b = .ok (!z) ∧
      (z = true ↔ (r = r' ∧ c = c') ∧ ∀ i j (h1 : i < r) (h2 : j < c) (h3 : i < r') (h4 : j < c'),
        Tie (p ⟨i, h1⟩ ⟨j, h2⟩) (q ⟨i, h3⟩ ⟨j, h4⟩)) := by
  suffices h : ∃ z, mEq s a b = .ok z ∧
      (z = true ↔ (r = r' ∧ c = c') ∧ ∀ i j (h1 : i < r) (h2 : j < c) (h3 : i < r') (h4 : j < c'),
        Tie (p ⟨i, h1⟩ ⟨j, h2⟩) (q ⟨i, h3⟩ ⟨j, h4⟩)) by
    obtain ⟨z, e1, e2⟩ := h
    exact ⟨z, e1, by simp [mNe, e1], e2⟩
  have hA : ∀ i j (h1 : i < r) (h2 : j < c), a.get s i j = .ok (p ⟨i, h1⟩ ⟨j, h2⟩) :=
    fun i j h1 h2 => ha.get ⟨i, h1⟩ ⟨j, h2⟩
  have hB : ∀ i j (h1 : i < r') (h2 : j < c'), b.get s i j = .ok (q ⟨i, h1⟩ ⟨j, h2⟩) :=
    fun i j h1 h2 => hb.get ⟨i, h1⟩ ⟨j, h2⟩
  unfold mEq
  simp only [ha.dims, hb.dims, Res.ok_bind]
  by_cases hd : r = r' ∧ c = c'
  · obtain ⟨rfl, rfl⟩ := hd
    simp only [ne_eq, not_true_eq_false, if_false, Int.toNat_natCast]
    obtain ⟨z, h1, h2⟩ := mEqRows_tie (fun i j => a.get s i j) (fun i j => b.get s i j) c 0 r
      (fun i j _ h hj => ⟨_, hA i j (by omega) hj⟩) (fun i j _ h hj => ⟨_, hB i j (by omega) hj⟩)
    refine ⟨z, h1, h2.trans ⟨fun h => ⟨by simp, fun i j h1 h2 h3 h4 => Ieee.tie_iff.1
      (h i j (Nat.zero_le _) (by omega) h2 _ _ (hA i j h1 h2) (hB i j h3 h4))⟩,
      fun h i j _ h1 h2 u v hu hv => ?_⟩⟩
    rw [hA i j (by omega) h2] at hu
    rw [hB i j (by omega) h2] at hv
    cases hu; cases hv
    exact Ieee.tie_iff.2 (h.2 i j (by omega) h2 (by omega) h2)
  · have : ((r : Int), (c : Int)) ≠ ((r' : Int), (c' : Int)) := by
      simp only [ne_eq, Prod.mk.injEq]; omega
    exact ⟨false, by simp only [if_pos this, Res.pure_eq], by simp only [hd, Bool.false_eq_true, false_and]⟩

/-- C120, the full claim for matrices without NaN.  (Missing: matrices that hold NaN, where it fails, see
`meq_nan_false`.) -/
theorem meq_num_partial {p : Fin r → Fin c → K} {q : Fin r → Fin c → K}
    (ha : MRep s a ⟨r, c, fun i j => .num (p i j)⟩) (hb : MRep s b ⟨r, c, fun i j => .num (q i j)⟩) :
    ∃ z, mEq s a b = .ok z ∧ (z = true ↔ p = q) := by
  obtain ⟨z, h1, -, h2⟩ := meq_nan ha hb
  refine ⟨z, h1, h2.trans ⟨fun h => ?_, fun h => ?_⟩⟩
  · funext i j
    rcases h.2 i j i.2 j.2 i.2 j.2 with h | h | ⟨z, h3, h4⟩
    · cases h
    · cases h
    · cases h3; injection h4 with h4; exact h4.symm
  · subst h
    exact ⟨⟨rfl, rfl⟩, fun i j h1 h2 h3 h4 => Or.inr (Or.inr ⟨_, rfl, rfl⟩)⟩

end Mat

/-- C120, negation for matrices: `[[NaN]] == [[1]]`, and `==` is not transitive. -/
theorem meq_nan_false :
    (¬ ∀ (s : State (Ieee ℤ)) (a b : MNode (Ieee ℤ)) (r c : Nat) (p q : Fin r → Fin c → Ieee ℤ),
      MRep s a ⟨r, c, p⟩ → MRep s b ⟨r, c, q⟩ → mEq s a b = .ok true → ∀ i j, EqNum (p i j) (q i j)) ∧
    (¬ ∀ (s : State (Ieee ℤ)) (a b c : MNode (Ieee ℤ)) (p q r : MVal (Ieee ℤ)), MRep s a p → MRep s b q →
      MRep s c r → mEq s a b = .ok true → mEq s b c = .ok true → mEq s a c = .ok true) := by
  have hr : ∀ x : Ieee ℤ, MRep (demo [] [] []) (.temp ⟨true, 1, 1, [x]⟩) ⟨1, 1, fun _ _ => x⟩ := fun x =>
    ⟨rfl, fun i j => by fin_cases i; fin_cases j; rfl⟩
  constructor
  · intro h
    obtain ⟨z, h1, -⟩ := h (demo [] [] []) _ _ 1 1 _ _ (hr .nan) (hr (.num 1)) (by decide +kernel) 0 0
    cases h1
  · intro h
    have := h (demo [] [] []) _ _ _ _ _ _ (hr (.num 1)) (hr .nan) (hr (.num 3)) (by decide +kernel)
      (by decide +kernel)
    revert this
    decide +kernel

example : MRep (demo [] [] [] : State (Ieee ℤ)) (.temp ⟨true, 1, 2, [.nan, .num 2]⟩)
    ⟨1, 2, fun _ => ![.nan, .num 2]⟩ := ⟨rfl, fun i j => by fin_cases i; fin_cases j <;> rfl⟩
example : mEq (demo [] [] [] : State (Ieee ℤ)) (.temp ⟨true, 1, 2, [.nan, .num 2]⟩)
    (.temp ⟨true, 1, 2, [.num 1, .num 3]⟩) = .ok false := by decide +kernel

/-! ### Quaternions -/

section Quat
variable {E : Type} [Zero E] [One E] [Add E] [Sub E] [Mul E] [Neg E] [Div E]

/-- C120.  For elements whose `==` is equality and whose `<` is a linear order the operators are those of
C86. -/
theorem qcmpB_eq [LinearOrder E] [BEq E] [LawfulBEq E] (s : QState E) (a b : QNode E) :
    qEqB s a b = qEq s a b ∧ qLtB s a b = qLt s a b ∧ qGtB s a b = qGt s a b := by
  refine ⟨?_, rfl, rfl⟩
  unfold qEqB qEq
  have : ∀ x y : E, (x == y) = decide (x = y) := fun x y => by
    by_cases h : x = y <;> simp [h]
  simp only [this]

end Quat

section QuatNan
variable {K : Type} [Zero K] [One K] [Add K] [Sub K] [Mul K] [Neg K] [Div K] [LinearOrder K]
  {s : QState (Ieee K)} {a b : QNode (Ieee K)} {p q : Fin 4 → Ieee K}

/-- C120.  Quaternion `==` with NaN elements: true exactly if all elements are equal numbers; `!=` is the
negation. -/
theorem qeq_nan (ha : ∀ i : Fin 4, a.get s i = .ok (p i)) (hb : ∀ i : Fin 4, b.get s i = .ok (q i))
    (ho : a.order = b.order) :
    ∃ r, qEqB s a b = .ok r ∧ qNeB s a b = .ok (!r) ∧ (r = true ↔ ∀ i, EqNum (p i) (q i)) := by
  suffices h : ∃ r, qEqB s a b = .ok r ∧ (r = true ↔ ∀ i, EqNum (p i) (q i)) by
    obtain ⟨r, e1, e2⟩ := h
    exact ⟨r, e1, by simp [qNeB, e1], e2⟩
  have key : ∀ x y : Ieee K, (x == y) = true ↔ EqNum x y := by
    intro x y
    unfold EqNum
    cases x <;> cases y
    · exact ⟨fun h => Bool.noConfusion (h : false = true), by simp⟩
    · exact ⟨fun h => Bool.noConfusion (h : false = true), by simp⟩
    · exact ⟨fun h => Bool.noConfusion (h : false = true), by simp⟩
    · next x y =>
      have : ((num x : Ieee K) == num y) = decide (x = y) := rfl
      simp [this, eq_comm]
  have a0 : a.get s 0 = .ok (p 0) := ha 0
  have a1 : a.get s 1 = .ok (p 1) := ha 1
  have a2 : a.get s 2 = .ok (p 2) := ha 2
  have a3 : a.get s 3 = .ok (p 3) := ha 3
  have b0 : b.get s 0 = .ok (q 0) := hb 0
  have b1 : b.get s 1 = .ok (q 1) := hb 1
  have b2 : b.get s 2 = .ok (q 2) := hb 2
  have b3 : b.get s 3 = .ok (q 3) := hb 3
  have hall : (∀ i, EqNum (p i) (q i)) ↔ (p 0 == q 0) = true ∧ (p 1 == q 1) = true ∧
      (p 2 == q 2) = true ∧ (p 3 == q 3) = true := by
    simp only [key, Fin.forall_fin_succ]
    simp
  unfold qEqB
  rw [if_pos ho, hall]
  cases c0 : (p 0 == q 0) <;> cases c1 : (p 1 == q 1) <;> cases c2 : (p 2 == q 2) <;>
    cases c3 : (p 3 == q 3) <;>
    simp [Res.loop, Res.bind, a0, a1, a2, a3, b0, b1, b2, b3, c0, c1, c2, c3]

/-- C120.  A quaternion that holds a NaN is not equal to itself (a vector with the same elements is), yet
it is both `<=` and `>=` itself and neither `<` nor `>`. -/
theorem qnan_self (ha : ∀ i : Fin 4, a.get s i = .ok (p i)) (hn : ∃ i, p i = .nan) :
    qEqB s a a = .ok false ∧ qNeB s a a = .ok true ∧ qLtB s a a = .ok false ∧ qGtB s a a = .ok false ∧
    qLeB s a a = .ok true ∧ qGeB s a a = .ok true := by
  obtain ⟨r, e1, e2, e3⟩ := qeq_nan ha ha rfl
  have hr : r = false := by
    rw [← Bool.not_eq_true, e3]
    intro h
    obtain ⟨i, hi⟩ := hn
    obtain ⟨z, hz, -⟩ := h i
    rw [hi] at hz; cases hz
  subst hr
  have irr : ∀ x : Ieee K, ¬ x < x := fun x h => Ieee.lt_asymm h h
  have a0 : a.get s 0 = .ok (p 0) := ha 0
  have a1 : a.get s 1 = .ok (p 1) := ha 1
  have a2 : a.get s 2 = .ok (p 2) := ha 2
  have a3 : a.get s 3 = .ok (p 3) := ha 3
  have l1 : qLtB s a a = .ok false := by
    simp [qLtB, Res.loop, Res.bind, a0, a1, a2, a3, irr]
  have g1 : qGtB s a a = .ok false := by
    simp [qGtB, Res.loop, Res.bind, a0, a1, a2, a3, irr]
  exact ⟨e1, e2, l1, g1, by simp [qLeB, g1], by simp [qGeB, l1]⟩

end QuatNan

/-- A quaternion temporary with the given elements, in storage order. -/
private def qTmp (w x y z : Ieee ℤ) : QNode (Ieee ℤ) := .tmp .realFirst .positive (qMake .realFirst w x y z)

/-- C120, negation: the same elements compare differently as a quaternion and as a vector; quaternion `==`
and the orders do not fit together (neither `<`, `==` nor `>` holds); and `<` has a cycle. -/
theorem qcmp_nan_false :
    (∃ (s : QState (Ieee ℤ)) (t : State (Ieee ℤ)) (a : QNode (Ieee ℤ)) (v : VNode (Ieee ℤ))
      (p : Fin 4 → Ieee ℤ), (∀ i : Fin 4, a.get s i = .ok (p i)) ∧ VIs t v 4 p ∧
      qEqB s a a = .ok false ∧ vEq t v v = .ok true) ∧
    (∃ (s : QState (Ieee ℤ)) (a b : QNode (Ieee ℤ)), qLtB s a b = .ok false ∧ qEqB s a b = .ok false ∧
      qGtB s a b = .ok false) ∧
    (∃ (s : QState (Ieee ℤ)) (a b c : QNode (Ieee ℤ)), qLtB s a b = .ok true ∧ qLtB s b c = .ok true ∧
      qLtB s c a = .ok true) := by
  refine ⟨⟨fun _ _ => none, demo [] [] [], qTmp .nan (.num 1) (.num 2) (.num 3),
    .temp true [.nan, .num 1, .num 2, .num 3], ![.nan, .num 1, .num 2, .num 3],
    fun i => by fin_cases i <;> rfl, ⟨⟨rfl, fun i => by fin_cases i <;> rfl⟩, true, VNode.Typed.temp rfl⟩,
    by decide +kernel, by decide +kernel⟩, ?_, ?_⟩
  · exact ⟨fun _ _ => none, qTmp .nan (.num 1) (.num 2) (.num 3), qTmp (.num 0) (.num 1) (.num 2) (.num 3),
      by decide +kernel, by decide +kernel, by decide +kernel⟩
  · exact ⟨fun _ _ => none, qTmp (.num 1) (.num 0) (.num 0) (.num 0), qTmp .nan (.num 1) (.num 0) (.num 0),
      qTmp (.num 0) (.num 2) (.num 0) (.num 0), by decide +kernel, by decide +kernel, by decide +kernel⟩

example : ∃ i, (![.num 1, .nan, .num 2, .num 3] : Fin 4 → Ieee ℤ) i = .nan := ⟨1, rfl⟩
example : qEqB (fun _ _ => none) (qTmp (.num 1) (.num 2) (.num 3) (.num 4))
    (qTmp (.num 1) (.num 2) (.num 3) (.num 4)) = .ok true := by decide +kernel

/-! ### Scalars -/

section Scal
variable {K : Type} [LinearOrder K]

/-- C120.  NaN is reported to be in every range, and `clamp` returns it unchanged: it is outside the range
`clamp` promises. -/
theorem nan_in_range (lo hi : Ieee K) :
    inRange .nan lo hi = true ∧ clamp .nan lo hi = .nan := by
  have h1 : ∀ x : Ieee K, ¬ x < .nan := fun x => by simp [Ieee.lt_iff]
  have h2 : ∀ x : Ieee K, ¬ (.nan : Ieee K) < x := fun x => by simp [Ieee.lt_iff]
  simp [inRange, clamp, stdMin, stdMax, h1, h2]

/-- C120.  A NaN bound is no bound for `in_range`: with `lo` NaN only the upper one counts, and
conversely. -/
theorem nan_bound (x y : K) :
    inRange (num x) nan (num y) = decide (x ≤ y) ∧ inRange (num x) (num y) nan = decide (y ≤ x) := by
  have h1 : ∀ x : Ieee K, ¬ x < .nan := fun x => by simp [Ieee.lt_iff]
  have h2 : ∀ x : Ieee K, ¬ (.nan : Ieee K) < x := fun x => by simp [Ieee.lt_iff]
  have h3 : ∀ a b : K, (.num a : Ieee K) < .num b ↔ a < b := fun _ _ => Iff.rfl
  constructor
  · by_cases h : x ≤ y
    · simp [inRange, h1, h3, h, not_lt.2 h]
    · simp [inRange, h1, h3, h, not_le.1 h]
  · by_cases h : y ≤ x
    · simp [inRange, h2, h3, h, not_lt.2 h]
    · simp [inRange, h2, h3, h, not_le.1 h]

end Scal

/-- C120, negation: with a NaN argument `index_of_max` can return the index of a number smaller than
another argument. -/
theorem indexOfMax_nan_false :
    (¬ ∀ a b c m : Ieee ℤ, [a, b, c][indexOfMax3 a b c]? = some m → ∀ x ∈ [a, b, c], ¬ m < x) ∧
    (¬ ∀ a b c m : Ieee ℤ, [a, b, c][indexOfMin3 a b c]? = some m → ∀ x ∈ [a, b, c], ¬ x < m) := by
  constructor
  · intro h
    have := h (.num 1) .nan (.num 0) (.num 0) (by decide +kernel) (.num 1) (by simp)
    revert this
    decide +kernel
  · intro h
    have := h (.num 0) .nan (.num 1) (.num 1) (by decide +kernel) (.num 0) (by simp)
    revert this
    decide +kernel

end CML

#print axioms CML.vlt_nan
#print axioms CML.vgt_nan
#print axioms CML.veq_nan
#print axioms CML.veq_all_nan
#print axioms CML.veq_nan_refl_symm
#print axioms CML.vcmp_num_partial
#print axioms CML.vis_list
#print axioms CML.veq_nan_false
#print axioms CML.vlt_nan_cycle
#print axioms CML.extremize_nan
#print axioms CML.meq_nan
#print axioms CML.meq_num_partial
#print axioms CML.meq_nan_false
#print axioms CML.qcmpB_eq
#print axioms CML.qeq_nan
#print axioms CML.qnan_self
#print axioms CML.qcmp_nan_false
#print axioms CML.nan_in_range
#print axioms CML.nan_bound
#print axioms CML.indexOfMax_nan_false
