import Verif.Lemmas.MatAssign

/-! Lemmas for writing parts of a matrix: sequences, rows, columns, basis vectors, swaps. -/

set_option linter.unusedSectionVars false

namespace CML

variable {E : Type} [Add E] [Sub E] [Mul E] [Div E] [Neg E]

omit [Add E] [Sub E] [Mul E] [Div E] [Neg E] in
theorem MObj.index_inj {m : MObj} {i j i' j' : Nat} (hi : i < m.rows) (hj : j < m.cols)
    (hi' : i' < m.rows) (hj' : j' < m.cols) (h : m.index i j = m.index i' j') : i = i' ∧ j = j' := by
  have h1 := MObj.unindex_index hi hj
  have h2 := MObj.unindex_index hi' hj'
  rw [h, h2] at h1
  simp only [Prod.mk.injEq] at h1
  exact ⟨h1.1.symm, h1.2.symm⟩

omit [Add E] [Sub E] [Mul E] [Div E] [Neg E] in
theorem MObj.get_congr {h h' : Heap E} {m : MObj} {b : Nat} (hb : m.data = some b) {i j : Nat}
    (hc : h'.cell b (m.off + m.index i j) = h.cell b (m.off + m.index i j))
    (hlen : (h'.blk b).map List.length = (h.blk b).map List.length) :
    m.get h' i j = m.get h i j := by
  unfold MObj.get
  simp only [hb]
  split
  · apply Heap.read_congr
    · have : ((h'.blk b).map List.length).isSome = ((h.blk b).map List.length).isSome := by rw [hlen]
      simpa using this
    · exact hc
  · rfl

/-- A loop of `put`s at pairwise different positions: what the matrix holds afterwards. -/
theorem mPutLoop_get {triv : Bool} {s : State E} {x : Nat} {d : MObj} {N : Nat}
    (hx : s.mat x = some d) (pos : Nat → Nat × Nat)
    (hin : ∀ k, k < N → (pos k).1 < d.rows ∧ (pos k).2 < d.cols)
    (hinj : ∀ k l, k < N → l < N → pos k = pos l → k = l)
    (hw : d.flat.Ready triv s.heap)
    {f : Nat → State E → Res E} (g : Fin N → E)
    (hf : ∀ (k : Fin N) s', s'.vec = s.vec → s'.mat = s.mat → SameOutside d.flat s.heap s'.heap →
      (∀ i j, i < d.rows → j < d.cols → (∀ l, l < (k : Nat) → pos l ≠ (i, j)) →
        d.get s'.heap i j = d.get s.heap i j) → f k s' = .ok (g k)) :
    ∃ h', Out.loop (fun k s => .withVal (f k s) s fun e => mPut triv s x (pos k).1 (pos k).2 e) 0 N s
        = .ok { s with heap := h' } ∧
      (∀ k : Fin N, d.get h' (pos k).1 (pos k).2 = .ok (g k)) ∧
      (∀ i j, i < d.rows → j < d.cols → (∀ k, k < N → pos k ≠ (i, j)) →
        d.get h' i j = d.get s.heap i j) ∧
      SameOutside d.flat s.heap h' ∧
      (∀ b', (h'.blk b').map List.length = (s.heap.blk b').map List.length) := by
  by_cases hN : 0 < N
  · have h0 := hin 0 hN
    have hpos : 0 < d.rows * d.cols := by
      have := MObj.index_lt h0.1 h0.2
      omega
    obtain ⟨b, hb, -⟩ := hw 0 hpos
    have hb : d.data = some b := hb
    have hw' : ∀ k, k < d.rows * d.cols → s.heap.Writable triv b (d.off + k) := by
      intro k hk
      obtain ⟨b', hb', hq⟩ := hw k hk
      have hb'' : d.data = some b' := hb'
      rw [hb] at hb''; cases hb''
      exact hq
    have hne : ∀ i j k, i < d.rows → j < d.cols → k < N → pos k ≠ (i, j) →
        d.off + d.index i j ≠ d.off + d.index (pos k).1 (pos k).2 := by
      intro i j k hi hj hk hp h
      have := MObj.index_inj hi hj (hin k hk).1 (hin k hk).2 (by omega)
      exact hp (by ext <;> simp [this.1, this.2])
    obtain ⟨g', hg'⟩ := exists_ext hN g
    have outside : ∀ (M : Nat) (h' : Heap E), M ≤ N →
        (∀ b' o', (b' = b → ∀ l, l < M → o' ≠ d.off + d.index (pos l).1 (pos l).2) →
        h'.cell b' o' = s.heap.cell b' o') → SameOutside d.flat s.heap h' := by
      intro M h' hM hq b' o hbo
      apply hq
      rintro rfl l hl rfl
      apply hbo
      refine ⟨hb, ?_, ?_⟩
      · show d.off ≤ _; omega
      · show _ < d.off + d.rows * d.cols
        have := MObj.index_lt (hin l (by omega)).1 (hin l (by omega)).2
        omega
    have getsame : ∀ (M : Nat) (h' : Heap E), M ≤ N →
        (∀ b' o', (b' = b → ∀ l, l < M → o' ≠ d.off + d.index (pos l).1 (pos l).2) →
        h'.cell b' o' = s.heap.cell b' o') →
        ∀ i j, i < d.rows → j < d.cols → (∀ k, k < M → pos k ≠ (i, j)) →
        d.get h' i j = d.get s.heap i j := by
      intro M h' hM hq i j hi hj hp
      have hc := hq b (d.off + d.index i j)
        (fun _ l hl => hne i j l hi hj (by omega) (hp l hl))
      obtain ⟨c, hc1, -⟩ := hw' _ (MObj.index_lt hi hj)
      unfold MObj.get
      simp only [hb, hi, hj, and_self, if_true]
      apply Heap.read_congr
      · have h1 : (s.heap.blk b).isSome := by
          unfold Heap.cell at hc1
          cases hh : s.heap.blk b with
          | none => rw [hh] at hc1; simp at hc1
          | some _ => rfl
        have h2 : (h'.blk b).isSome := by
          rw [hc1] at hc
          unfold Heap.cell at hc
          cases hh : h'.blk b with
          | none => rw [hh] at hc; simp at hc
          | some _ => rfl
        rw [h1, h2]
      · exact hc
    obtain ⟨h', e1, e2, e3, e4, -⟩ := mPutLoop_ok (triv := triv) (N := N) hx hb pos hin hinj
      (fun k hk => hw' _ (MObj.index_lt (hin k hk).1 (hin k hk).2)) (f := f) g'
      (fun k s' hk hv hm hq => by
        rw [← show g ⟨k, hk⟩ = g' k from (hg' ⟨k, hk⟩).symm]
        exact hf ⟨k, hk⟩ s' hv hm (outside k _ hk.le hq) (getsame k _ hk.le hq))
    refine ⟨h', e1, ?_, ?_, ?_, e4⟩
    · intro k
      rw [MObj.get_eq_ok hb (hin k k.2).1 (hin k k.2).2, e2 k k.2, hg']
    · exact getsame N h' le_rfl e3
    · exact outside N h' le_rfl e3
  · have : N = 0 := by omega
    subst this
    exact ⟨s.heap, rfl, fun k => k.elim0, fun _ _ _ _ _ => rfl, fun _ _ _ => rfl, fun _ => rfl⟩

theorem divMod_lt {r c k : Nat} (hk : k < r * c) : k / c < r ∧ k % c < c := by
  have hc : 0 < c := by
    rcases Nat.eq_zero_or_pos c with h | h
    · rw [h, Nat.mul_zero] at hk; omega
    · exact h
  exact ⟨by rw [Nat.div_lt_iff_lt_mul hc]; exact hk, Nat.mod_lt _ hc⟩

theorem divMod_mk {c i j : Nat} (hj : j < c) : (i * c + j) / c = i ∧ (i * c + j) % c = j := by
  constructor
  · rw [Nat.mul_comm, Nat.mul_add_div (by omega), Nat.div_eq_of_lt hj, Nat.add_zero]
  · rw [Nat.mul_comm, Nat.mul_add_mod, Nat.mod_eq_of_lt hj]

theorem rowMajor_lt {r c i j : Nat} (hi : i < r) (hj : j < c) : i * c + j < r * c := by
  have : (i + 1) * c ≤ r * c := Nat.mul_le_mul_right _ hi
  rw [Nat.add_mul] at this
  omega

/-- Storing a flat sequence in row-major reading order. -/
theorem mListLoop_ok {triv : Bool} {s : State E} {x : Nat} {d : MObj} (hx : s.mat x = some d)
    (hw : d.flat.Ready triv s.heap) (xs : List E) (hlen : d.rows * d.cols ≤ xs.length) :
    ∃ h', Out.loop (fun k s => .withVal ((VNode.temp true xs).get s k) s fun v =>
        mPut triv s x (k / d.cols) (k % d.cols) v) 0 (d.rows * d.cols) s = .ok { s with heap := h' } ∧
      MRep { s with heap := h' } (.var x) ⟨d.rows, d.cols, fun i j =>
        xs[(i : Nat) * d.cols + j]'(lt_of_lt_of_le (rowMajor_lt i.2 j.2) hlen)⟩ ∧
      SameOutside d.flat s.heap h' := by
  obtain ⟨h', e1, e2, e3, e4, -⟩ := mPutLoop_get (triv := triv) (N := d.rows * d.cols) hx
    (fun k => (k / d.cols, k % d.cols)) (fun k hk => divMod_lt hk)
    (fun k l _ _ h => by
      simp only [Prod.mk.injEq] at h
      rw [← Nat.div_add_mod k d.cols, ← Nat.div_add_mod l d.cols, h.1, h.2])
    hw (f := fun k s => (VNode.temp true xs).get s k) (fun k => xs[(k : Nat)]'(by omega))
    (fun k s' _ _ _ _ => by
      have : (k : Nat) < xs.length := by omega
      simp [VNode.get, this])
  refine ⟨h', e1, ?_, e4⟩
  rw [mrep_var (s := { s with heap := h' }) hx]
  intro i j
  have := e2 ⟨i * d.cols + j, rowMajor_lt i.2 j.2⟩
  simp only [(divMod_mk j.2).1, (divMod_mk j.2).2] at this
  exact this

theorem mSwap_ok {triv : Bool} {s : State E} {x n : Nat} {p : Fin n → Fin n → E}
    {d : MObj} (hx : s.mat x = some d) (hp : MRep s (.var x) ⟨n, n, p⟩) (i j : Fin n) (hij : i ≠ j) :
    ∃ h', mSwap triv s x i j = .ok { s with heap := h' } ∧
      MRep { s with heap := h' } (.var x) ⟨n, n, fun a b =>
        if (a = i ∧ b = j) ∨ (a = j ∧ b = i) then p b a else p a b⟩ ∧
      SameOutside d.flat s.heap h' := by
  obtain ⟨hr, hc⟩ := mrep_dims hx hp
  simp only at hr hc
  have hp' : MRep s (.var x) ⟨d.rows, d.cols, fun i j => p (i.cast hr.symm) (j.cast hc.symm)⟩ :=
    ⟨MNode.var_dims hx, fun i j => hp.get (i.cast hr.symm) (j.cast hc.symm)⟩
  have hi1 := i.2
  have hj1 := j.2
  obtain ⟨h', e1, e2, e3, e4, -⟩ := mPutLoop_get (triv := triv) (N := 2) hx
    (fun k => if k = 0 then ((i : Nat), (j : Nat)) else ((j : Nat), (i : Nat)))
    (fun k hk => by split <;> (constructor <;> (simp only; omega)))
    (fun k l hk hl h => by
      by_contra hkl
      have hv : (i : Nat) ≠ j := fun h => hij (Fin.ext h)
      split at h <;> split at h <;> simp only [Prod.mk.injEq] at h <;> omega)
    (mready_after (h' := s.heap) hx hp')
    (f := fun k _ => .ok (if k = 0 then p j i else p i j)) (fun k => if (k : Nat) = 0 then p j i else p i j)
    (fun k s' _ _ _ _ => rfl)
  refine ⟨h', ?_, ?_, e4⟩
  · have hij' := hp.get i j
    have hji := hp.get j i
    simp only at hij' hji
    unfold mSwap
    rw [hij', Out.withVal_ok, hji, Out.withVal_ok]
    rw [← e1]
    simp [Out.loop]
    cases mPut triv s x i j (p j i) with
    | ok s1 =>
      simp only [Out.ok_andThen]
      cases mPut triv s1 x j i (p i j) <;> rfl
    | throw _ _ => rfl
    | ub _ => rfl
  · refine ⟨hp.dims, fun a b => ?_⟩
    rw [MNode.var_get_eq (s := { s with heap := h' }) hx]
    simp only
    by_cases h1 : a = i ∧ b = j
    · have := e2 0
      simp at this
      rw [h1.1, h1.2, this]; simp
    · by_cases h2 : a = j ∧ b = i
      · have := e2 1
        simp at this
        rw [h2.1, h2.2, this]; simp
      · rw [if_neg (by tauto), e3 a b (by rw [← hr]; exact a.2) (by rw [← hc]; exact b.2)]
        · have := hp.get a b
          rwa [MNode.var_get_eq hx] at this
        · intro k _
          simp only
          split
          · intro h; simp only [Prod.mk.injEq] at h
            exact h1 ⟨Fin.ext h.1.symm, Fin.ext h.2.symm⟩
          · intro h; simp only [Prod.mk.injEq] at h
            exact h2 ⟨Fin.ext h.1.symm, Fin.ext h.2.symm⟩

omit [Add E] [Sub E] [Mul E] [Div E] [Neg E] in
theorem SameOutside.trans {d : VObj} {h1 h2 h3 : Heap E} (a : SameOutside d h1 h2)
    (b : SameOutside d h2 h3) : SameOutside d h1 h3 := fun c o hc => by rw [b c o hc, a c o hc]

/-- Two loops agree if their bodies agree on all states satisfying an invariant of the second. -/
theorem Out.loop_congr_inv {σ : Type} {f g : Nat → σ → Out σ} (I : σ → Prop) {lo n : Nat} {s : σ}
    (hs : I s) (h : ∀ k s, I s → f k s = g k s) (hI : ∀ k s s', I s → g k s = .ok s' → I s') :
    Out.loop f lo n s = Out.loop g lo n s := by
  induction n generalizing lo s with
  | zero => rfl
  | succ n ih =>
    simp only [Out.loop]
    rw [h lo s hs]
    cases hg : g lo s with
    | ok s' => exact ih (hI lo s s' hs hg)
    | throw e s' => rfl
    | ub u => rfl

theorem mPut_mat {triv : Bool} {s s' : State E} {x i j : Nat} {e : E}
    (h : mPut triv s x i j e = .ok s') : s'.mat = s.mat := by
  unfold mPut at h
  cases hm : s.mobj x with
  | ok m =>
    simp only [hm, Out.withVal_ok] at h
    cases hp : m.put triv s.heap i j e with
    | ok h' => simp only [hp, Out.withVal_ok, Out.ok.injEq] at h; rw [← h]
    | throw e => simp [hp, Out.withVal] at h
    | ub u => simp [hp, Out.withVal] at h
  | throw e => simp [hm, Out.withVal] at h
  | ub u => simp [hm, Out.withVal] at h

omit [Add E] [Sub E] [Mul E] [Div E] [Neg E] in
theorem MObj.get_lt {h : Heap E} {m : MObj} {i j : Nat} {v : E} (hg : m.get h i j = .ok v) :
    i < m.rows ∧ j < m.cols := by
  unfold MObj.get at hg
  split at hg
  · cases hg
  · split at hg
    · assumption
    · cases hg

end CML
