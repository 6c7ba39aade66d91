import Verif.Model.MatMove
import Verif.Lemmas.MatAssign
import Verif.Lemmas.MatAccess

/-! The loop of the move assignment of fixed-size matrices. -/

namespace CML

variable {E : Type}

/-- One iteration of `mMoveFrom`. -/
def rawStep (triv : Bool) (d : MObj) (at' : Res Nat) (src : State E → Nat → Res E) (s : State E) :
    Out (State E) :=
  .withVal at' s fun k =>
    .withVal (src s k) s fun e =>
      .withVal (d.rawPut triv s.heap k e) s fun h => .ok { s with heap := h }

theorem mMoveFrom_eq (m : Subscript) (triv : Bool) {s : State E} {x : Nat} {d : MObj} (hx : s.mat x = some d)
    (src : State E → Nat → Res E) :
    mMoveFrom m triv s x src
      = Out.loop (fun k s => rawStep triv d (d.rawAt m (k / d.cols) (k % d.cols)) src s) 0 (d.rows * d.cols) s := by
  have := Out.loop_nest (fun i j s => rawStep triv d (d.rawAt m i j) src s) 0 d.rows d.cols s
  rw [Nat.zero_mul] at this
  simp only [mMoveFrom, State.mobj, hx, Out.withVal_ok]
  exact this

/-- What the first iterations leave: the elements at the visited places are those of the source, all other
memory is as before. -/
theorem rawLoop_ok {triv : Bool} {s : State E} {d : MObj} {b N : Nat} (hb : d.data = some b)
    {ix : Nat → Res Nat} {src : State E → Nat → Res E} (g : Nat → E) (m : Nat)
    (hix : ∀ k, k < m → ∃ l, ix k = .ok l ∧ l < N)
    (hw : ∀ l, l < N → s.heap.Writable triv b (d.off + l))
    (hf : ∀ (s' : State E) l, l < N → s'.vec = s.vec → s'.mat = s.mat →
      (∀ b' o, s'.heap.cell b' o = s.heap.cell b' o ∨
        b' = b ∧ ∃ l', l' < N ∧ o = d.off + l' ∧ s'.heap.cell b' o = some (some (g l'))) →
      src s' l = .ok (g l)) :
    ∃ h', Out.loop (fun k s => rawStep triv d (ix k) src s) 0 m s = .ok { s with heap := h' } ∧
      (∀ k l, k < m → ix k = .ok l → h'.cell b (d.off + l) = some (some (g l))) ∧
      (∀ b' o, (b' = b → ∀ k l, k < m → ix k = .ok l → o ≠ d.off + l) → h'.cell b' o = s.heap.cell b' o) := by
  obtain ⟨s', h1, h2, h3, h4, h5⟩ := Out.loop_inv (lo := 0) (n := m) (s := s)
    (body := fun k s => rawStep triv d (ix k) src s)
    (fun n s' => s'.vec = s.vec ∧ s'.mat = s.mat ∧
      (∀ k l, k < n → ix k = .ok l → s'.heap.cell b (d.off + l) = some (some (g l))) ∧
      (∀ b' o, (b' = b → ∀ k l, k < n → ix k = .ok l → o ≠ d.off + l) →
        s'.heap.cell b' o = s.heap.cell b' o))
    ⟨rfl, rfl, by intro k l hk; omega, fun _ _ _ => rfl⟩
    (by
      rintro n s' - hn ⟨hv, hm, hval, hfr⟩
      obtain ⟨l, hl, hlN⟩ := hix n (by omega)
      have hr := hf s' l hlN hv hm (by
        intro b' o
        by_cases hc : b' = b → ∀ k l, k < n → ix k = .ok l → o ≠ d.off + l
        · exact Or.inl (hfr b' o hc)
        · push Not at hc
          obtain ⟨rfl, k, l', hk, hl', rfl⟩ := hc
          obtain ⟨l'', e1, e2⟩ := hix k (by omega)
          rw [hl'] at e1; cases e1
          exact Or.inr ⟨rfl, l', e2, rfl, hval k l' hk hl'⟩)
      have hwr : s'.heap.Writable triv b (d.off + l) := by
        by_cases hc : ∀ k l', k < n → ix k = .ok l' → d.off + l ≠ d.off + l'
        · obtain ⟨c, hc1, hc2⟩ := hw l hlN
          exact ⟨c, by rw [hfr b _ (fun _ => hc), hc1], hc2⟩
        · push Not at hc
          obtain ⟨k, l', hk, hl', he⟩ := hc
          exact ⟨_, by rw [he]; exact hval k l' hk hl', Or.inr rfl⟩
      obtain ⟨h', w1, w2, w3, -⟩ := Heap.write_ok (v := g l) hwr
      refine ⟨{ s' with heap := h' }, ?_, hv, hm, ?_, ?_⟩
      · simp only [rawStep, hl, hr, Out.withVal_ok, MObj.rawPut, hb, w1]
      · intro k l' hk hl'
        by_cases he : l' = l
        · subst he; exact w2
        · have hkn : k ≠ n := by
            rintro rfl
            rw [hl] at hl'; cases hl'; exact he rfl
          rw [w3 b (d.off + l') (by simp; omega)]
          exact hval k l' (by omega) hl'
      · intro b' o hc
        rw [w3 b' o (by
          intro hcon
          simp only [Prod.mk.injEq] at hcon
          exact hc hcon.1 n l (by omega) hl hcon.2)]
        exact hfr b' o fun hbb k l' hk hl' => hc hbb k l' (by omega) hl')
  rw [Nat.zero_add] at h4 h5
  refine ⟨s'.heap, ?_, h4, h5⟩
  rw [h1]
  congr 1
  cases s'
  simp only at h2 h3
  subst h2 h3
  rfl

/-- If some subscript is out of bounds, the loop runs into undefined behaviour. -/
theorem rawLoop_oob {triv : Bool} {s : State E} {d : MObj} {b N : Nat} (hb : d.data = some b)
    {ix : Nat → Res Nat} {src : State E → Nat → Res E} (g : Nat → E) (m : Nat)
    (hix : ∀ k, k < m → (∃ l, ix k = .ok l ∧ l < N) ∨ ix k = .ub .oob)
    (hbad : ∃ k, k < m ∧ ix k = .ub .oob)
    (hw : ∀ l, l < N → s.heap.Writable triv b (d.off + l))
    (hf : ∀ (s' : State E) l, l < N → s'.vec = s.vec → s'.mat = s.mat →
      (∀ b' o, s'.heap.cell b' o = s.heap.cell b' o ∨
        b' = b ∧ ∃ l', l' < N ∧ o = d.off + l' ∧ s'.heap.cell b' o = some (some (g l'))) →
      src s' l = .ok (g l)) :
    Out.loop (fun k s => rawStep triv d (ix k) src s) 0 m s = .ub .oob := by
  classical
  have hex := hbad
  let k0 := Nat.find hbad
  obtain ⟨hk0, hk1⟩ := Nat.find_spec hbad
  have hmin : ∀ k, k < k0 → ∃ l, ix k = .ok l ∧ l < N := by
    intro k hk
    rcases hix k (by have : k0 < m := hk0; omega) with h | h
    · exact h
    · exact absurd ⟨by have : k0 < m := hk0; omega, h⟩ (Nat.find_min hbad hk)
  obtain ⟨h', e, -⟩ := rawLoop_ok (triv := triv) hb g k0 hmin hw hf
  have hk0' : k0 < m := hk0
  obtain ⟨n, hn⟩ : ∃ n, m = k0 + (n + 1) := ⟨m - k0 - 1, by omega⟩
  rw [hn, Out.loop_add, e, Out.ok_andThen, Out.loop, Nat.zero_add]
  have hk1' : ix k0 = .ub .oob := hk1
  simp only [rawStep, hk1']
  rfl

/-- Reading the source of a move yields the elements `p`, also while the destination `d` is partly overwritten
with them. -/
def Source (s : State E) (d : MObj) (src : State E → Nat → Res E) (p : Fin d.rows → Fin d.cols → E) : Prop :=
  ∀ (s' : State E) (i : Fin d.rows) (j : Fin d.cols), s'.mat = s.mat →
    (∀ b' o, s'.heap.cell b' o = s.heap.cell b' o ∨ d.data = some b' ∧
      ∃ (i' : Fin d.rows) (j' : Fin d.cols), o = d.off + d.index i' j' ∧
        s'.heap.cell b' o = some (some (p i' j'))) →
    src s' (d.index i j) = .ok (p i j)

/-- The setting of the loop lemmas above. -/
theorem Source.setup {triv : Bool} {s : State E} {d : MObj} {src : State E → Nat → Res E}
    {p : Fin d.rows → Fin d.cols → E} (hs : Source s d src p) (hw : d.flat.Ready triv s.heap)
    (hr : 0 < d.rows) (hc : 0 < d.cols) :
    ∃ (b : Nat) (g : Nat → E), d.data = some b ∧ (∀ (i : Fin d.rows) (j : Fin d.cols), g (d.index i j) = p i j) ∧
      (∀ l, l < d.rows * d.cols → s.heap.Writable triv b (d.off + l)) ∧
      (∀ (s' : State E) l, l < d.rows * d.cols → s'.vec = s.vec → s'.mat = s.mat →
        (∀ b' o, s'.heap.cell b' o = s.heap.cell b' o ∨
          b' = b ∧ ∃ l', l' < d.rows * d.cols ∧ o = d.off + l' ∧ s'.heap.cell b' o = some (some (g l'))) →
        src s' l = .ok (g l)) := by
  let g : Nat → E := fun k => if h : k < d.rows * d.cols then
    p ⟨(d.unindex k).1, (MObj.unindex_lt h).1⟩ ⟨(d.unindex k).2, (MObj.unindex_lt h).2⟩
    else p ⟨0, hr⟩ ⟨0, hc⟩
  have hg : ∀ (i : Fin d.rows) (j : Fin d.cols), g (d.index i j) = p i j := by
    intro i j
    have h := MObj.index_lt i.2 j.2
    have h2 := MObj.unindex_index i.2 j.2
    simp only [g, dif_pos h]
    congr 1 <;> (apply Fin.ext; simp [h2])
  have hN : 0 < d.flat.size := Nat.mul_pos hr hc
  obtain ⟨b, hb, -⟩ := hw 0 hN
  have hb' : d.data = some b := hb
  refine ⟨b, g, hb', hg, ?_, ?_⟩
  · intro l hl
    obtain ⟨b2, hb2, h⟩ := hw l hl
    rw [hb] at hb2; cases hb2
    exact h
  · intro s' l hl _ hm h
    have hu := MObj.unindex_lt hl
    have := hs s' ⟨_, hu.1⟩ ⟨_, hu.2⟩ hm (by
      intro b' o
      rcases h b' o with h | ⟨rfl, l', hl', ho, hcell⟩
      · exact Or.inl h
      · have hu' := MObj.unindex_lt hl'
        refine Or.inr ⟨hb', ⟨_, hu'.1⟩, ⟨_, hu'.2⟩, ?_, ?_⟩
        · rw [ho]; exact congrArg _ (d.index_unindex l').symm
        · rw [hcell, ← hg]
          exact congrArg (fun k => some (some (g k))) (d.index_unindex l').symm)
    rw [← hg] at this
    have e : d.index (d.unindex l).1 (d.unindex l).2 = l := d.index_unindex l
    simp only [e] at this
    exact this

/-- Row-major or square: both readings of `m_data[i][j]` are the element at distance `i * C + j`. -/
theorem MObj.rawAt_ok {m : Subscript} {d : MObj} (hgood : d.colMajor = false ∨ d.rows = d.cols) {k : Nat}
    (hk : k < d.rows * d.cols) : d.rawAt m (k / d.cols) (k % d.cols) = .ok k := by
  obtain ⟨h1, h2⟩ := divMod_lt hk
  have h3 : k / d.cols * d.cols + k % d.cols = k := by
    rw [Nat.mul_comm]; exact Nat.div_add_mod _ _
  have e1 : (if d.colMajor then d.cols else d.rows) = d.rows := by
    rcases hgood with h | h
    · simp [h]
    · simp [h]
  have e2 : (if d.colMajor then d.rows else d.cols) = d.cols := by
    rcases hgood with h | h
    · simp [h]
    · simp [h]
  simp only [MObj.rawAt, e1, e2]
  cases m with
  | strict => simp only [Subscript.at]; rw [if_pos ⟨h1, h2⟩, h3]
  | flat => simp only [Subscript.at]; rw [h3, if_pos hk]

theorem MObj.rawAt_cases (m : Subscript) (d : MObj) (i j : Nat) :
    (∃ l, d.rawAt m i j = .ok l ∧ l < d.rows * d.cols) ∨ d.rawAt m i j = .ub .oob := by
  have hN : (if d.colMajor then d.cols else d.rows) * (if d.colMajor then d.rows else d.cols)
      = d.rows * d.cols := by
    cases d.colMajor <;> simp [Nat.mul_comm]
  unfold MObj.rawAt
  generalize (if d.colMajor then d.cols else d.rows) = n1 at hN
  generalize (if d.colMajor then d.rows else d.cols) = n2 at hN
  cases m with
  | strict =>
    simp only [Subscript.at]
    by_cases h : i < n1 ∧ j < n2
    · exact Or.inl ⟨_, if_pos h, by rw [← hN]; exact rowMajor_lt h.1 h.2⟩
    · exact Or.inr (if_neg h)
  | flat =>
    simp only [Subscript.at]
    by_cases h : i * n2 + j < n1 * n2
    · exact Or.inl ⟨_, if_pos h, by rw [← hN]; exact h⟩
    · exact Or.inr (if_neg h)

/-- The move copies everything if the matrix is row-major or square. -/
theorem mMoveFrom_ok {m : Subscript} {triv : Bool} {s : State E} {x : Nat} {d : MObj} (hx : s.mat x = some d)
    {src : State E → Nat → Res E} {p : Fin d.rows → Fin d.cols → E} (hs : Source s d src p)
    (hw : d.flat.Ready triv s.heap) (hgood : d.colMajor = false ∨ d.rows = d.cols) :
    ∃ h', mMoveFrom m triv s x src = .ok { s with heap := h' } ∧
      (∀ (i : Fin d.rows) (j : Fin d.cols), d.get h' i j = .ok (p i j)) ∧ SameOutside d.flat s.heap h' := by
  rw [mMoveFrom_eq m triv hx]
  by_cases h0 : 0 < d.rows ∧ 0 < d.cols
  · obtain ⟨b, g, hb, hg, hwr, hf⟩ := hs.setup hw h0.1 h0.2
    obtain ⟨h', e1, e2, e3⟩ := rawLoop_ok (triv := triv) hb
      (ix := fun k => d.rawAt m (k / d.cols) (k % d.cols)) g (d.rows * d.cols)
      (fun k hk => ⟨k, MObj.rawAt_ok hgood hk, hk⟩) hwr hf
    refine ⟨h', e1, ?_, ?_⟩
    · intro i j
      have hl := MObj.index_lt i.2 j.2
      rw [MObj.get_eq_ok hb i.2 j.2, e2 _ _ hl (MObj.rawAt_ok hgood hl), hg]
    · intro b' o hbo
      apply e3
      rintro rfl k l hk hl rfl
      rw [MObj.rawAt_ok hgood hk] at hl
      cases hl
      exact hbo ⟨hb, Nat.le_add_right _ _, Nat.add_lt_add_left hk _⟩
  · have hz : d.rows * d.cols = 0 := by
      rcases Nat.eq_zero_or_pos d.rows with h | h
      · rw [h, Nat.zero_mul]
      · have : d.cols = 0 := by omega
        rw [this, Nat.mul_zero]
    refine ⟨s.heap, by rw [hz]; rfl, ?_, fun _ _ _ => rfl⟩
    intro i j
    exact absurd ⟨by have := i.2; omega, by have := j.2; omega⟩ h0

/-- A subscript out of bounds makes the move undefined. -/
theorem mMoveFrom_oob {m : Subscript} {triv : Bool} {s : State E} {x : Nat} {d : MObj} (hx : s.mat x = some d)
    {src : State E → Nat → Res E} {p : Fin d.rows → Fin d.cols → E} (hs : Source s d src p)
    (hw : d.flat.Ready triv s.heap) {i j : Nat} (hi : i < d.rows) (hj : j < d.cols)
    (hbad : d.rawAt m i j = .ub .oob) : mMoveFrom m triv s x src = .ub .oob := by
  rw [mMoveFrom_eq m triv hx]
  obtain ⟨b, g, hb, -, hwr, hf⟩ := hs.setup hw (by omega) (by omega)
  refine rawLoop_oob (triv := triv) hb (N := d.rows * d.cols)
    (ix := fun k => d.rawAt m (k / d.cols) (k % d.cols)) g _
    (fun k _ => MObj.rawAt_cases m d _ _) ⟨i * d.cols + j, rowMajor_lt hi hj, ?_⟩ hwr hf
  simp only [divMod_mk hj, hbad]

/-- Column-major with fewer rows than columns, array accessed as a whole: the elements up to storage place
`R * (R - 1) + C` are copied, the others keep their value. -/
theorem mMoveFrom_stale {triv : Bool} {s : State E} {x : Nat} {d : MObj} (hx : s.mat x = some d)
    {src : State E → Nat → Res E} {p q : Fin d.rows → Fin d.cols → E} (hs : Source s d src p)
    (hw : d.flat.Ready triv s.heap) (hq : ∀ (i : Fin d.rows) (j : Fin d.cols), d.get s.heap i j = .ok (q i j))
    (hcm : d.colMajor = true) (hr : 0 < d.rows) (hlt : d.rows < d.cols) :
    ∃ h', mMoveFrom .flat triv s x src = .ok { s with heap := h' } ∧
      (∀ (i : Fin d.rows) (j : Fin d.cols), d.get h' i j
        = .ok (if (j : Nat) * d.rows + i < d.rows * (d.rows - 1) + d.cols then p i j else q i j)) ∧
      SameOutside d.flat s.heap h' := by
  rw [mMoveFrom_eq .flat triv hx]
  obtain ⟨b, g, hb, hg, hwr, hf⟩ := hs.setup hw hr (by omega)
  obtain ⟨R, hR⟩ : ∃ R, d.rows = R + 1 := ⟨d.rows - 1, by omega⟩
  have hR1 : d.rows - 1 = R := by omega
  have hlast : ∀ i j, i < d.rows → j < d.cols →
      i * d.rows + j < d.rows * (d.rows - 1) + d.cols := by
    intro i j hi hj
    have : i * d.rows ≤ (d.rows - 1) * d.rows := Nat.mul_le_mul_right _ (by omega)
    rw [Nat.mul_comm (d.rows - 1)] at this
    omega
  have hbound : d.rows * (d.rows - 1) + d.cols ≤ d.rows * d.cols := by
    rw [hR1, hR]
    obtain ⟨c, hc⟩ : ∃ c, d.cols = R + 1 + 1 + c := ⟨d.cols - (R + 2), by omega⟩
    rw [hc]
    nlinarith [Nat.zero_le (R * c)]
  have hat : ∀ i j, i < d.rows → j < d.cols → d.rawAt .flat i j = .ok (i * d.rows + j) := by
    intro i j hi hj
    have := hlast i j hi hj
    simp only [MObj.rawAt, hcm, if_true, Subscript.at]
    rw [if_pos (by rw [Nat.mul_comm d.cols]; omega)]
  have hix : ∀ k, k < d.rows * d.cols →
      d.rawAt .flat (k / d.cols) (k % d.cols) = .ok (k / d.cols * d.rows + k % d.cols) :=
    fun k hk => hat _ _ (divMod_lt hk).1 (divMod_lt hk).2
  obtain ⟨h', e1, e2, e3⟩ := rawLoop_ok (triv := triv) hb (N := d.rows * d.cols)
    (ix := fun k => d.rawAt .flat (k / d.cols) (k % d.cols)) g (d.rows * d.cols)
    (fun k hk => ⟨_, hix k hk, by
      have := hlast _ _ (divMod_lt hk).1 (divMod_lt hk).2
      omega⟩) hwr hf
  refine ⟨h', e1, ?_, ?_⟩
  · intro i j
    have hidx : d.index i j = (j : Nat) * d.rows + i := by simp [MObj.index, hcm]
    rw [MObj.get_eq_ok hb i.2 j.2]
    by_cases hcase : (j : Nat) * d.rows + i < d.rows * (d.rows - 1) + d.cols
    · rw [if_pos hcase]
      -- the iteration that visits this place
      obtain ⟨i0, j0, hi0, hj0, he⟩ : ∃ i0 j0, i0 < d.rows ∧ j0 < d.cols ∧
          i0 * d.rows + j0 = (j : Nat) * d.rows + i := by
        by_cases hj : (j : Nat) < d.rows
        · exact ⟨j, i, hj, by have := i.2; omega, rfl⟩
        · refine ⟨d.rows - 1, (j : Nat) * d.rows + i - d.rows * (d.rows - 1), by omega, by omega, ?_⟩
          have : d.rows * (d.rows - 1) ≤ (j : Nat) * d.rows := by
            rw [Nat.mul_comm]
            exact Nat.mul_le_mul_right _ (by omega)
          rw [Nat.mul_comm (d.rows - 1)]
          omega
      have hk := rowMajor_lt hi0 hj0
      have := e2 _ (d.index i j) hk (by
        rw [hix _ hk, (divMod_mk hj0).1, (divMod_mk hj0).2, he, hidx])
      rw [this, hg]
    · rw [if_neg hcase]
      have := e3 b (d.off + d.index i j) (by
        rintro - k l hk hl ho
        rw [hix k hk] at hl
        cases hl
        have := hlast _ _ (divMod_lt hk).1 (divMod_lt hk).2
        omega)
      rw [this, ← MObj.get_eq_ok hb i.2 j.2]
      exact hq i j
  · intro b' o hbo
    apply e3
    rintro rfl k l hk hl rfl
    rw [hix k hk] at hl
    cases hl
    have := hlast _ _ (divMod_lt hk).1 (divMod_lt hk).2
    refine hbo ⟨hb, Nat.le_add_right _ _, ?_⟩
    show _ < d.off + d.rows * d.cols
    omega

end CML
