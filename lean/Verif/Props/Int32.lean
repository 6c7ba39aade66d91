import Verif.Model.Int32
import Verif.Lemmas.MatAccess
import Verif.Lemmas.Demo

/-!
C107: as long as matrices have at most `INT_MAX` elements, the limited range of `int` makes no difference.
C108: what happens beyond that.
-/

set_option linter.unusedSectionVars false

namespace CML

/-- The number of elements is representable. -/
def MObj.Small (m : MObj) : Prop := (m.rows : Int) * m.cols ≤ intMax

section
variable {E : Type}

private theorem inInt_of {z : Int} (h0 : 0 ≤ z) (h1 : z ≤ intMax) : InInt z := ⟨by omega, h1⟩

private theorem mul_nonneg_nat (a b : Nat) : (0 : Int) ≤ (a : Int) * b := by positivity

/-! ### C107: element access -/

/-- C107.  No step of the index computation for an existing element overflows, and the result is the position
of the element. -/
theorem indexI_eq (A : IntArith) {m : MObj} (hm : m.Small) {i j : Nat} (hi : i < m.rows) (hj : j < m.cols) :
    m.indexI A i j = .ok (m.index i j : Nat) := by
  unfold MObj.Small at hm
  have h1 : (i : Int) * m.cols + j < (m.rows : Int) * m.cols := by
    have : i * m.cols + j < m.rows * m.cols := by nlinarith
    exact_mod_cast this
  have h2 : (j : Int) * m.rows + i < (m.rows : Int) * m.cols := by
    have : j * m.rows + i < m.rows * m.cols := by nlinarith
    exact_mod_cast this
  have p1 := mul_nonneg_nat i m.cols
  have p2 := mul_nonneg_nat j m.rows
  unfold MObj.indexI MObj.index
  cases m.colMajor
  · simp only [Bool.false_eq_true, if_false]
    rw [A.exact _ (inInt_of p1 (by omega)), Res.ok_bind, A.exact _ (inInt_of (by omega) (by omega))]
    push_cast; rfl
  · simp only [if_true]
    rw [A.exact _ (inInt_of p2 (by omega)), Res.ok_bind, A.exact _ (inInt_of (by omega) (by omega))]
    push_cast; rfl

/-- C107.  Reading and writing an existing element. -/
theorem getI_eq (A : IntArith) (h : Heap E) {m : MObj} (hm : m.Small) {i j : Nat} (hi : i < m.rows)
    (hj : j < m.cols) : m.getI A h i j = m.get h i j := by
  unfold MObj.getI MObj.get
  rw [indexI_eq A hm hi hj, Res.ok_bind]
  cases m.data <;> simp

theorem putI_eq (A : IntArith) (triv : Bool) (h : Heap E) {m : MObj} (hm : m.Small) {i j : Nat}
    (hi : i < m.rows) (hj : j < m.cols) (e : E) : m.putI A triv h i j e = m.put triv h i j e := by
  unfold MObj.putI MObj.put
  rw [indexI_eq A hm hi hj, Res.ok_bind]
  cases m.data <;> simp

/-! ### C107: resizing and destruction -/

/-- C107.  `resize` and `resize_fast` between sizes of at most `INT_MAX` elements. -/
theorem mResizeI_eq (A : IntArith) (copy triv : Bool) {s : State E} {x : Nat} {m : MObj}
    (hx : s.mat x = some m) (hm : m.Small) {r c : Int} (hn : r * c ≤ intMax) :
    mResizeI A copy triv s x r c = mResizeWith copy triv s x r c := by
  unfold mResizeI mResizeWith
  simp only [State.mobj, hx, Out.withVal_ok]
  by_cases hr : r < 0
  · simp [hr]
  by_cases hc : c < 0
  · simp [hr, hc]
  obtain ⟨r, rfl⟩ := Int.eq_ofNat_of_zero_le (show 0 ≤ r by omega)
  obtain ⟨c, rfl⟩ := Int.eq_ofNat_of_zero_le (show 0 ≤ c by omega)
  have p1 := mul_nonneg_nat m.rows m.cols
  have p2 := mul_nonneg_nat r c
  rw [if_neg hr, if_neg hc, if_neg hr, if_neg hc, A.exact _ (inInt_of p1 hm), A.exact _ (inInt_of p2 hn)]
  have e1 : ((m.rows : Int) * m.cols) = ((m.rows * m.cols : Nat) : Int) := by push_cast; rfl
  have e2 : ((r : Int) * c) = ((r * c : Nat) : Int) := by push_cast; rfl
  simp only [Out.withVal_ok, e1, e2, Int.toNat_natCast, Nat.cast_inj]
  have h3 : ¬ ((r * c : Nat) : Int) < 0 := by omega
  simp only [if_neg h3]
  rfl

/-- C107.  Construction with dimensions. -/
theorem mNewI_eq (A : IntArith) (triv colMajor colBasis : Bool) (s : State E) (x : Nat) {r c : Int}
    (hn : r * c ≤ intMax) :
    mNewI A triv colMajor colBasis s x r c = mNew triv colMajor colBasis s x r c := by
  unfold mNewI mNew mResizeFast
  rw [mResizeI_eq A false triv (m := ⟨.allocated, false, none, 0, 0, 0, colMajor, colBasis⟩)
    (by simp [mDefault, State.setMat]) (by simp [MObj.Small, intMax]) hn]

/-- C107.  Destruction. -/
theorem mDestroyI_eq (A : IntArith) (triv : Bool) {s : State E} {x : Nat} {m : MObj} (hx : s.mat x = some m)
    (hm : m.Small) : mDestroyI A triv s x = mDestroy triv s x := by
  unfold mDestroyI mDestroy
  simp only [State.mobj, hx, Out.withVal_ok, A.exact _ (inInt_of (mul_nonneg_nat m.rows m.cols) hm)]
  have e1 : ((m.rows : Int) * m.cols) = ((m.rows * m.cols : Nat) : Int) := by push_cast; rfl
  rw [e1, Int.toNat_natCast]

/-- C107.  `resize` of a view. -/
theorem mReshapeI_eq (A : IntArith) {s : State E} {x : Nat} {m : MObj} (hx : s.mat x = some m) (hm : m.Small)
    {r c : Int} (hn : r * c ≤ intMax) : mReshapeI A s x r c = mReshape s x r c := by
  unfold mReshapeI mReshape
  simp only [State.mobj, hx, Out.withVal_ok]
  by_cases hr : r < 0
  · simp [hr]
  by_cases hc : c < 0
  · simp [hr, hc]
  obtain ⟨r, rfl⟩ := Int.eq_ofNat_of_zero_le (show 0 ≤ r by omega)
  obtain ⟨c, rfl⟩ := Int.eq_ofNat_of_zero_le (show 0 ≤ c by omega)
  have p1 := mul_nonneg_nat m.rows m.cols
  have p2 := mul_nonneg_nat r c
  rw [if_neg hr, if_neg hc, if_neg hr, if_neg hc, A.exact _ (inInt_of p1 hm), A.exact _ (inInt_of p2 hn)]
  simp only [Out.withVal_ok, Int.toNat_natCast]
  have : ((m.rows : Int) * m.cols = (r : Int) * c) ↔ m.rows * m.cols = r * c := by
    constructor <;> intro h <;> exact_mod_cast h
  simp only [this]

/-! ### C107: assignment -/

/-- Two bodies that agree on an invariant kept by one of them give the same loop. -/
private theorem loop_congr {σ : Type} (P : σ → Prop) {f g : Nat → σ → Out σ} {lo n : Nat} {s : σ}
    (hfg : ∀ k s, lo ≤ k → k < lo + n → P s → f k s = g k s)
    (hg : ∀ k s s', P s → g k s = .ok s' → P s') (hs : P s) : Out.loop f lo n s = Out.loop g lo n s := by
  induction n generalizing lo s with
  | zero => rfl
  | succ n ih =>
    simp only [Out.loop]
    rw [hfg lo s (Nat.le_refl _) (by omega) hs]
    cases h : g lo s with
    | ok s' =>
      simp only [Out.andThen]
      exact ih (fun k s h1 h2 => hfg k s (by omega) (by omega)) (hg _ _ _ hs h)
    | throw => rfl
    | ub => rfl

private theorem loop_keeps {σ : Type} (P : σ → Prop) {g : Nat → σ → Out σ} {lo n : Nat} {s s' : σ}
    (hg : ∀ k s s', P s → g k s = .ok s' → P s') (hs : P s) (h : Out.loop g lo n s = .ok s') : P s' := by
  induction n generalizing lo s with
  | zero => simp only [Out.loop, Out.ok.injEq] at h; exact h ▸ hs
  | succ n ih =>
    simp only [Out.loop] at h
    cases h1 : g lo s with
    | ok s1 => rw [h1] at h; exact ih (hg _ _ _ hs h1) h
    | throw => rw [h1] at h; cases h
    | ub => rw [h1] at h; cases h

/-- Writing an element of a small matrix, or of one without index arithmetic. -/
private theorem mPutI_eq (A : IntArith) (triv : Bool) {s : State E} {x : Nat} {m : MObj} (hx : s.mat x = some m)
    (hm : m.fixed = true ∨ m.Small) {i j : Nat} (hi : i < m.rows) (hj : j < m.cols) (e : E) :
    mPutI A triv s x i j e = mPut triv s x i j e := by
  unfold mPutI mPut
  simp only [State.mobj, hx, Out.withVal_ok]
  rcases hm with hm | hm
  · simp [hm]
  · rw [putI_eq A triv _ hm hi hj]; simp

end

variable {E : Type} [Add E] [Sub E] [Mul E] [Div E] [Neg E]

private theorem step_keeps {triv : Bool} {x : Nat} {m : MObj} {f : State E → Res E} {i j : Nat}
    {s s' : State E} (hs : s.mat x = some m)
    (h : (Out.withVal (f s) s fun v => mPut triv s x i j v) = .ok s') : s'.mat x = some m := by
  cases hf : f s with
  | throw => rw [hf] at h; cases h
  | ub => rw [hf] at h; cases h
  | ok v => rw [hf] at h; rw [mPut_mat h]; exact hs

/-- C107.  The writing loops of all matrix assignments. -/
theorem mStoreI_eq (A : IntArith) (triv : Bool) {s : State E} {x : Nat} {m : MObj} (hx : s.mat x = some m)
    (hm : m.fixed = true ∨ m.Small) (f : State E → Nat → Nat → Res E) :
    mStoreI A triv s x f = mStore triv s x f := by
  have hstep : ∀ i j s, i < m.rows → j < m.cols → s.mat x = some m →
      (Out.withVal (f s i j) s fun v => mPutI A triv s x i j v) = mStep triv x f i j s := by
    intro i j s hi hj hs
    unfold mStep
    cases f s i j with
    | throw => rfl
    | ub => rfl
    | ok v => exact mPutI_eq A triv hs hm hi hj v
  have hk : ∀ i j s s', s.mat x = some m → mStep triv x f i j s = .ok s' → s'.mat x = some m :=
    fun i j s s' hs h => step_keeps (f := fun s => f s i j) hs h
  unfold mStoreI mStore
  simp only [State.mobj, hx, Out.withVal_ok]
  cases m.colMajor
  · simp only [Bool.false_eq_true, if_false]
    refine loop_congr (fun s => s.mat x = some m) ?_ ?_ hx
    · intro i s _ hi hs
      exact loop_congr (fun s => s.mat x = some m)
        (fun j s _ hj hs => hstep i j s (by omega) (by omega) hs) (fun j => hk i j) hs
    · exact fun i s s' hs h => loop_keeps (fun s => s.mat x = some m) (fun j => hk i j) hs h
  · simp only [if_true]
    refine loop_congr (fun s => s.mat x = some m) ?_ ?_ hx
    · intro j s _ hj hs
      exact loop_congr (fun s => s.mat x = some m)
        (fun i s _ hi hs => hstep i j s (by omega) (by omega) hs) (fun i => hk i j) hs
    · exact fun j s s' hs h => loop_keeps (fun s => s.mat x = some m) (fun i => hk i j) hs h

private theorem mResizeWith_dims {copy triv : Bool} {s s' : State E} {x : Nat} {m : MObj} {r c : Int}
    (hx : s.mat x = some m) (h : mResizeWith copy triv s x r c = .ok s') :
    ∃ m', s'.mat x = some m' ∧ m'.rows = r.toNat ∧ m'.cols = c.toNat ∧ 0 ≤ r ∧ 0 ≤ c := by
  unfold mResizeWith at h
  simp only [State.mobj, hx, Out.withVal_ok] at h
  by_cases hr : r < 0
  · simp [hr] at h
  by_cases hc : c < 0
  · simp [hr, hc] at h
  rw [if_neg hr, if_neg hc] at h
  split at h
  · cases h
    exact ⟨_, if_pos rfl, rfl, rfl, by omega, by omega⟩
  · split at h
    · cases h
    · rename_i h1 b _
      revert h
      generalize (if copy = true then copyOld triv (h1.destruct triv m.data) m.data b
          (min (m.rows * m.cols) (r.toNat * c.toNat)) else .ok (h1.destruct triv m.data)) = R
      intro h
      cases R with
      | throw => cases h
      | ub => cases h
      | ok h2 =>
        simp only [Out.withVal_ok] at h
        cases hF : h2.free m.data (m.rows * m.cols) with
        | throw => rw [hF] at h; cases h
        | ub => rw [hF] at h; cases h
        | ok h3 =>
          rw [hF] at h
          cases h
          exact ⟨_, if_pos rfl, rfl, rfl, by omega, by omega⟩

private theorem small_of_dims {m : MObj} {r c : Int} (h1 : m.rows = r.toNat) (h2 : m.cols = c.toNat)
    (hr : 0 ≤ r) (hc : 0 ≤ c) (hn : r * c ≤ intMax) : m.Small := by
  unfold MObj.Small
  rw [h1, h2, Int.toNat_of_nonneg hr, Int.toNat_of_nonneg hc]
  exact hn

/-- C107.  Assignment of any expression to a matrix of any kind: no overflow if destination and source have at
most `INT_MAX` elements (matrices with compile-time dimensions need no hypothesis). -/
theorem mAssignI_eq (A : IntArith) (triv : Bool) {s : State E} {x : Nat} {m : MObj} (hx : s.mat x = some m)
    (hm : m.fixed = true ∨ m.Small) (hf : m.storage = .allocated → m.fixed = false) (e : MNode E)
    (he : ∀ d, e.dims s = .ok d → m.fixed = false → d.1 * d.2 ≤ intMax) :
    mAssignI A triv s x e = mAssign triv s x e := by
  unfold mAssignI mAssign
  have hcheck : mCheckOrResizeI A triv s x e = mCheckOrResize triv s x e ∧
      ∀ s', mCheckOrResize triv s x e = .ok s' → ∃ m', s'.mat x = some m' ∧ (m'.fixed = true ∨ m'.Small) := by
    unfold mCheckOrResizeI mCheckOrResize
    simp only [State.mobj, hx, Out.withVal_ok]
    have hchk : ∀ s', (Out.withVal (checkSameDims s (.var x) e) s fun _ => .ok s) = .ok s' →
        ∃ m', s'.mat x = some m' ∧ (m'.fixed = true ∨ m'.Small) := by
      intro s' h
      cases hd : checkSameDims s (.var x) e with
      | throw => rw [hd] at h; cases h
      | ub => rw [hd] at h; cases h
      | ok d => rw [hd] at h; cases h; exact ⟨m, hx, hm⟩
    cases hst : m.storage with
    | compiled => exact ⟨rfl, hchk⟩
    | allocated =>
      simp only
      have hfx := hf hst
      have hs : m.Small := by simpa [hfx] using hm
      cases hd : e.dims s with
      | throw => exact ⟨rfl, fun s' h => by cases h⟩
      | ub => exact ⟨rfl, fun s' h => by cases h⟩
      | ok d =>
        simp only [Out.withVal_ok]
        have hn := he d hd hfx
        refine ⟨mResizeI_eq A true triv hx hs hn, fun s' h => ?_⟩
        obtain ⟨m', h1, h2, h3, h4, h5⟩ := mResizeWith_dims hx h
        exact ⟨m', h1, .inr (small_of_dims h2 h3 h4 h5 hn)⟩
    | external =>
      cases hfx : m.fixed with
      | true => simp only [if_true]; exact ⟨trivial, hchk⟩
      | false =>
        simp only [Bool.false_eq_true, if_false]
        have hs : m.Small := by simpa [hfx] using hm
        cases hd : e.dims s with
        | throw => exact ⟨rfl, fun s' h => by cases h⟩
        | ub => exact ⟨rfl, fun s' h => by cases h⟩
        | ok d =>
          simp only [Out.withVal_ok]
          have hn := he d hd hfx
          refine ⟨mReshapeI_eq A hx hs hn, fun s' h => ?_⟩
          unfold mReshape at h
          simp only [State.mobj, hx, Out.withVal_ok] at h
          by_cases hr : d.1 < 0
          · simp [hr] at h
          by_cases hc : d.2 < 0
          · simp [hr, hc] at h
          rw [if_neg hr, if_neg hc] at h
          split at h
          · cases h
            exact ⟨_, if_pos rfl,
              .inr (small_of_dims rfl rfl (by omega) (by omega) hn)⟩
          · cases h
  rw [hcheck.1]
  cases hc : mCheckOrResize triv s x e with
  | throw => rfl
  | ub => rfl
  | ok s' =>
    simp only [Out.ok_andThen]
    obtain ⟨m', h1, h2⟩ := hcheck.2 s' hc
    exact mStoreI_eq A triv h1 h2 _

/-- C107.  Assignment from a pointer. -/
theorem mAssignPtrI_eq (A : IntArith) (triv : Bool) {s : State E} {x : Nat} {m : MObj} (hx : s.mat x = some m)
    (hm : m.Small) (xs : List E) : mAssignPtrI A triv s x xs = mAssignPtr triv s x xs := by
  unfold mAssignPtrI mAssignPtr
  simp only [State.mobj, hx, Out.withVal_ok, A.exact _ (inInt_of (mul_nonneg_nat m.rows m.cols) hm)]
  have e1 : ((m.rows : Int) * m.cols) = ((m.rows * m.cols : Nat) : Int) := by push_cast; rfl
  rw [e1, Int.toNat_natCast]
  refine loop_congr (fun s => s.mat x = some m) ?_ (fun k s s' hs h => step_keeps
    (f := fun s => (VNode.temp true xs : VNode E).get s k) hs h) hx
  intro k s _ hk hs
  have hk' : k < m.rows * m.cols := by omega
  have hc : 0 < m.cols := Nat.pos_of_ne_zero fun h => by simp [h] at hk'
  have h1 : k / m.cols < m.rows := (Nat.div_lt_iff_lt_mul hc).2 hk'
  have h2 : k % m.cols < m.cols := Nat.mod_lt _ hc
  cases (VNode.temp true xs : VNode E).get s k with
  | throw => rfl
  | ub => rfl
  | ok v => exact mPutI_eq A triv hs (.inr hm) h1 h2 v

/-- C107.  Construction from dimensions and a pointer: what the default constructed, resized matrix gets by
assignment from the pointer. -/
theorem mNewPtrI_eq (A : IntArith) (triv colMajor colBasis : Bool) (s : State E) (x : Nat) {r c : Int}
    (hn : r * c ≤ intMax) (xs : List E) :
    mNewPtrI A triv colMajor colBasis s x r c xs
      = mctor x ((mResizeFast triv (mDefault colMajor colBasis s x) x r c).andThen fun s =>
          mAssignPtr triv s x xs) := by
  have hx : (mDefault colMajor colBasis s x).mat x
      = some ⟨.allocated, false, none, 0, 0, 0, colMajor, colBasis⟩ := by simp [mDefault, State.setMat]
  unfold mNewPtrI mResizeFast
  rw [mResizeI_eq A false triv hx (by simp [MObj.Small, intMax]) hn]
  cases h : mResizeWith false triv (mDefault colMajor colBasis s x) x r c with
  | throw => rfl
  | ub => rfl
  | ok s' =>
    obtain ⟨m', h1, h2, h3, h4, h5⟩ := mResizeWith_dims hx h
    simp only [Out.ok_andThen]
    rw [mAssignPtrI_eq A triv h1 (small_of_dims h2 h3 h4 h5 hn)]

/-- C107.  The size of a vector followed by further elements. -/
theorem combinedSizeI_eq (A : IntArith) {size count : Nat} (h : ((size + count : Nat) : Int) ≤ intMax) :
    combinedSizeI A size count = .ok ((size + count : Nat) : Int) := by
  unfold combinedSizeI
  rw [A.exact _ (inInt_of (by positivity) (by push_cast at h ⊢; exact h))]
  push_cast; rfl

/-! ### C108: more than `INT_MAX` elements -/

/-- C108.  `resize` beyond `INT_MAX` elements is undefined behaviour, for all matrices and dimensions. -/
theorem mResizeI_overflow (copy triv : Bool) {s : State E} {x : Nat} {m : MObj} (hx : s.mat x = some m)
    (hm : m.Small) {r c : Int} (hr : 0 ≤ r) (hc : 0 ≤ c) (hn : intMax < r * c) :
    mResizeI .strict copy triv s x r c = .ub .overflow := by
  have h1 : ¬ r < 0 := by omega
  have h2 : ¬ c < 0 := by omega
  have h3 : ¬ InInt (r * c) := fun h => by have := h.2; omega
  unfold mResizeI
  simp only [State.mobj, hx, Out.withVal_ok, if_neg h1, if_neg h2,
    IntArith.strict.exact _ (inInt_of (mul_nonneg_nat m.rows m.cols) hm)]
  simp [IntArith.strict, h3]

/-- `resize` when the number of new elements is computed to be `n`. -/
private theorem mResizeI_of_op (A : IntArith) (copy triv : Bool) {s : State E} {x : Nat} {m : MObj}
    (hx : s.mat x = some m) (hm : m.Small) {r c n : Nat} (hw : A.op ((r : Int) * c) = .ok (n : Int)) :
    mResizeI A copy triv s x r c
      = match mResizeWith copy triv s x 1 n with
        | .ok s' => match s'.mat x with
          | some m' => .ok (s'.setMat x (some { m' with rows := r, cols := c }))
          | none => .ok s'
        | o => o := by
  have h1 : ¬ (r : Int) < 0 := by omega
  have h2 : ¬ (c : Int) < 0 := by omega
  have h4 : ¬ (n : Int) < 0 := by omega
  have h5 : ¬ (1 : Int) < 0 := by omega
  have e1 : ((m.rows : Int) * m.cols) = ((m.rows * m.cols : Nat) : Int) := by push_cast; rfl
  have hs : ∀ (s : State E) (a b : MObj), (s.setMat x (some a)).setMat x (some b) = s.setMat x (some b) := by
    intro s a b
    simp only [State.setMat, State.mk.injEq, true_and]
    funext y
    by_cases hy : y = x <;> simp [hy]
  have hg : ∀ (s : State E) (a : MObj), (s.setMat x (some a)).mat x = some a := fun s a => if_pos rfl
  have ho := A.exact _ (inInt_of (mul_nonneg_nat m.rows m.cols) hm)
  rw [e1] at ho
  unfold mResizeI mResizeWith
  rw [State.mobj, hx]
  simp only [Out.withVal_ok, e1, ho, hw, Int.toNat_natCast, Int.toNat_one, one_mul]
  rw [if_neg h1, if_neg h2, if_neg h5, if_neg h4]
  by_cases hsame : n = m.rows * m.cols
  · rw [if_pos (by exact_mod_cast hsame), if_pos hsame]
    simp only [if_neg h4, hg, hs]
  rw [if_neg (by exact_mod_cast hsame), if_neg h4, if_neg hsame]
  cases hA : s.heap.alloc n with
  | mk h0 o =>
    cases o with
    | none => rfl
    | some b =>
      simp only
      generalize (if copy = true then copyOld triv (h0.destruct triv m.data) m.data b
          (min (m.rows * m.cols) n) else .ok (h0.destruct triv m.data)) = R
      cases R with
      | throw => rfl
      | ub => rfl
      | ok h2 =>
        simp only [Out.withVal_ok]
        cases hF : h2.free m.data (m.rows * m.cols) with
        | throw => rfl
        | ub => rfl
        | ok h3 => simp only [Out.withVal_ok, hg, hs]

/-- C108.  With wrap-around, `resize` beyond `INT_MAX` elements works with the number of elements reduced modulo
`2^32`: `resize` and `resize_fast` behave like `resize(1, n)` for this number `n`, except that the
matrix is labelled with the dimensions `r × c`. -/
theorem mResizeI_wrapping (copy triv : Bool) {s : State E} {x : Nat} {m : MObj} (hx : s.mat x = some m)
    (hm : m.Small) {r c n : Nat} (hn : Int.bmod ((r : Int) * c) (2 ^ 32) = n) :
    mResizeI .wrapping copy triv s x r c
      = match mResizeWith copy triv s x 1 n with
        | .ok s' => match s'.mat x with
          | some m' => .ok (s'.setMat x (some { m' with rows := r, cols := c }))
          | none => .ok s'
        | o => o :=
  mResizeI_of_op .wrapping copy triv hx hm (congrArg Res.ok hn)

/-- C108.  So the storage is too small: after a `resize` of a trivial-element matrix to more than `INT_MAX`
elements that returns normally, the matrix claims to be `r × c` but its last element lies outside of its
memory. -/
theorem mResizeI_wrapping_oob (copy : Bool) {s : State E} {x : Nat} {m : MObj} (hx : s.mat x = some m)
    (hm : m.Small) (hoff : m.off = 0) (ho : m.Owned s.heap) (hal : s.heap.fail s.heap.tick = false)
    (hfr : s.heap.blk s.heap.next = none) {r c n : Nat} (hbig : intMax < (r : Int) * c)
    (hn : Int.bmod ((r : Int) * c) (2 ^ 32) = n) :
    ∃ s' u, mResizeI .wrapping copy true s x r c = .ok s' ∧
      (MNode.var x : MNode E).dims s' = .ok ((r : Int), (c : Int)) ∧
      (MNode.var x : MNode E).get s' (r - 1) (c - 1) = .ub u := by
  have hlt : n < r * c := by
    have h1 : (n : Int) < 2 ^ 31 := by
      have := Int.bmod_lt (x := (r : Int) * c) (m := 2 ^ 32) (by norm_num)
      rw [hn] at this
      omega
    unfold intMax at hbig
    have : (n : Int) < (r : Int) * c := by omega
    exact_mod_cast this
  have hrc : 0 < r * c := by omega
  have hr : 0 < r := Nat.pos_of_ne_zero fun h => by simp [h] at hrc
  have hc : 0 < c := Nat.pos_of_ne_zero fun h => by simp [h] at hrc
  have hidx : ∀ m' : MObj, m'.rows = r → m'.cols = c → m'.index (r - 1) (c - 1) = r * c - 1 := by
    intro m' h1 h2
    obtain ⟨r', rfl⟩ : ∃ r', r = r' + 1 := ⟨r - 1, by omega⟩
    obtain ⟨c', rfl⟩ : ∃ c', c = c' + 1 := ⟨c - 1, by omega⟩
    unfold MObj.index
    rw [h1, h2]
    cases m'.colMajor
    · simp only [Bool.false_eq_true, if_false, Nat.add_sub_cancel]
      have : (r' + 1) * (c' + 1) = r' * (c' + 1) + c' + 1 := by ring
      omega
    · simp only [if_true, Nat.add_sub_cancel]
      have : (r' + 1) * (c' + 1) = c' * (r' + 1) + r' + 1 := by ring
      omega
  have hread : ∀ (h : Heap E) (b : Nat) (l : List (Option E)) (k : Nat), h.blk b = some l → l.length ≤ k →
      h.read b k = .ub .oob := by
    intro h b l k hb hk
    simp [Heap.read, hb, List.getElem?_eq_none hk]
  rw [mResizeI_wrapping copy true hx hm hn]
  by_cases hsame : n = m.rows * m.cols
  · have hre := mResizeWith_relabel (copy := copy) (triv := true) (s := s) (r := 1) (c := n) hx
      (by omega)
    rw [Nat.cast_one] at hre
    rw [hre]
    simp only [State.setMat, if_true]
    refine ⟨_, if m.data = none then .dead else .oob, rfl, by simp [MNode.dims, State.mobj], ?_⟩
    simp only [MNode.get, State.mobj, if_true, Res.ok_bind, MObj.get]
    rcases ho with ⟨hdt, -⟩ | ⟨b, l, hdt, hl1, hl2⟩
    · have hdt : m.data = none := hdt
      simp [hdt]
    · have hdt : m.data = some b := hdt
      have hl2 : l.length = m.rows * m.cols := hl2
      rw [hdt]
      have h5 : r - 1 < r ∧ c - 1 < c := by omega
      simp only [h5, and_self, if_true, hoff, Nat.zero_add]
      rw [hidx _ rfl rfl, hread _ _ l _ hl1 (by omega)]
      simp
  · obtain ⟨h', l', e, e1, e2, -⟩ := mResizeWith_ok (copy := copy) (triv := true) (s := s) (r := 1) (c := n) hx
      (by omega) hal hfr ho (fun _ => .inl rfl)
    rw [Nat.cast_one] at e
    rw [e]
    simp only [State.setMat, if_true]
    refine ⟨_, .oob, rfl, by simp [MNode.dims, State.mobj], ?_⟩
    simp only [MNode.get, State.mobj, if_true, Res.ok_bind, MObj.get]
    have h5 : r - 1 < r ∧ c - 1 < c := by omega
    simp only [h5, and_self, if_true, hoff, Nat.zero_add]
    rw [hidx _ rfl rfl, hread _ _ l' _ e1 (by omega)]

/-- C108.  A view of more than `INT_MAX` elements: elements exist in memory (`m.get`), but the index
computation overflows for every element with a position beyond `INT_MAX`. -/
theorem getI_overflow (h : Heap E) {m : MObj} {i j : Nat} (hbig : intMax < (m.index i j : Nat)) :
    m.getI .strict h i j = .ub .overflow := by
  have key : ∀ a b : Int, 0 ≤ b → intMax < a + b →
      (IntArith.strict.op a >>= fun p => IntArith.strict.op (p + b)) = .ub .overflow := by
    intro a b hb hab
    by_cases ha : InInt a
    · rw [IntArith.strict.exact _ ha, Res.ok_bind]
      have h3 : ¬ InInt (a + b) := fun h => by have := h.2; omega
      simp only [IntArith.strict, h3, if_false]
    · simp only [IntArith.strict, ha, if_false, Res.ub_bind]
  have : m.indexI .strict i j = .ub .overflow := by
    unfold MObj.indexI
    unfold MObj.index at hbig
    cases hcm : m.colMajor
    · simp only [Bool.false_eq_true, if_false]
      exact key _ _ (by omega) (by rw [hcm] at hbig; simpa using hbig)
    · simp only [if_true]
      exact key _ _ (by omega) (by rw [hcm] at hbig; simpa using hbig)
  unfold MObj.getI
  rw [this, Res.ub_bind]

/-- A block of `n` elements. -/
def hugeHeap (n : Nat) : Heap ℤ :=
  ⟨fun b => if b = 0 then some (List.replicate n (some 7)) else none, 1, 0, fun _ => false⟩

/-- C108: "every element of a view of existing memory can be read" is false: the last element of a view with
two rows of `2^30 + 1` elements each is in memory, but the index computation overflows. -/
theorem view_access_false : ¬ ∀ (h : Heap ℤ) (m : MObj) (i j : Nat) (v : ℤ), i < m.rows → j < m.cols →
    m.get h i j = .ok v → m.getI .strict h i j = .ok v := by
  intro H
  obtain ⟨n, hn⟩ : ∃ n : Nat, n = 2 ^ 31 + 2 := ⟨_, rfl⟩
  have h1 := H (hugeHeap n) ⟨.external, false, some 0, 0, 2, 2 ^ 30 + 1, false, false⟩ 1 (2 ^ 30) 7 (by norm_num)
    (by norm_num) ?_
  · rw [getI_overflow] at h1
    · cases h1
    · simp only [MObj.index, intMax, Bool.false_eq_true, if_false]; norm_num
  · have hc : (1 : Nat) < 2 ∧ (2 ^ 30 : Nat) < 2 ^ 30 + 1 := by norm_num
    simp only [MObj.get, MObj.index, Bool.false_eq_true, if_false, hc, and_self, if_true, Heap.read, hugeHeap]
    rw [List.getElem?_replicate, if_pos (by rw [hn]; norm_num)]

/-- C108: "`resize` to non-negative dimensions gives a matrix of these dimensions or throws" is false in the
abstract machine, where 65536 × 65536 overflows. -/
theorem resize_dims_false : ¬ ∀ (s : State ℤ) (r c : Nat), s.mat 0 = some ⟨.allocated, false, none, 0, 0, 0, false, false⟩ →
    (∃ s', mResizeI .strict true true s 0 r c = .ok s') ∨ ∃ e s', mResizeI .strict true true s 0 r c = .throw e s' := by
  intro H
  have := H (demo [] [] [⟨.allocated, false, none, 0, 0, 0, false, false⟩]) 65536 65536 rfl
  rw [mResizeI_overflow (m := ⟨.allocated, false, none, 0, 0, 0, false, false⟩) true true rfl
    (by simp [MObj.Small, intMax]) (by norm_num) (by norm_num) (by norm_num [intMax])] at this
  rcases this with ⟨_, h⟩ | ⟨_, _, h⟩ <;> cases h

/-- C108: "after `resize` every element can be written" is false with wrap-around: an empty matrix resized to
65536 × 65536 has these dimensions, but no memory at all; nothing was allocated. -/
theorem resize_wrap_false : ¬ ∀ (s s' : State ℤ) (r c : Nat), s.mat 0 = some ⟨.allocated, false, none, 0, 0, 0, false, false⟩ →
    mResizeI .wrapping true true s 0 r c = .ok s' →
    ∀ i j, i < r → j < c → ∃ s'', mPut true s' 0 i j 1 = .ok s'' := by
  intro H
  have hw : Int.bmod (((65536 : Nat) : Int) * (65536 : Nat)) (2 ^ 32) = (0 : Nat) := by norm_num [Int.bmod]
  have hre := mResizeI_wrapping true true (s := demo [] [] [⟨.allocated, false, none, 0, 0, 0, false, false⟩])
    (x := 0) (m := ⟨.allocated, false, none, 0, 0, 0, false, false⟩) rfl (by simp [MObj.Small, intMax]) hw
  have hl := mResizeWith_relabel (E := ℤ) (copy := true) (triv := true)
    (s := demo [] [] [⟨.allocated, false, none, 0, 0, 0, false, false⟩])
    (x := 0) (d := ⟨.allocated, false, none, 0, 0, 0, false, false⟩) (r := 1) (c := 0) rfl rfl
  rw [Nat.cast_one] at hl
  rw [hl] at hre
  obtain ⟨s'', h⟩ := H _ _ 65536 65536 rfl hre 0 0 (by norm_num) (by norm_num)
  simp [mPut, State.mobj, State.setMat, MObj.put] at h

/-- C108.  What remains: resizing a matrix of at most `INT_MAX` elements to dimensions with at most `INT_MAX`
elements is `resize` as described by the other properties, whatever the compiler makes of overflow; the
result is again a matrix to which this theorem applies.  Missing: larger dimensions (see the negations). -/
theorem resize_dims_partial (A : IntArith) (copy triv : Bool) {s s' : State E} {x : Nat} {m : MObj}
    (hx : s.mat x = some m) (hm : m.Small) {r c : Int} (hn : r * c ≤ intMax) :
    mResizeI A copy triv s x r c = mResizeWith copy triv s x r c ∧
      (mResizeI A copy triv s x r c = .ok s' → ∃ m', s'.mat x = some m' ∧ (m'.rows : Int) = r ∧
        (m'.cols : Int) = c ∧ m'.Small) := by
  have h := mResizeI_eq A copy triv hx hm hn
  refine ⟨h, fun h' => ?_⟩
  rw [h] at h'
  obtain ⟨m', h1, h2, h3, h4, h5⟩ := mResizeWith_dims hx h'
  exact ⟨m', h1, by omega, by omega, small_of_dims h2 h3 h4 h5 hn⟩

/-! ### Cases that meet the hypotheses -/

/-- One 2 × 3 dynamic matrix and one 3 × 2 column-major view of the same memory. -/
def exI : State ℤ := demo [[some 1, some 2, some 3, some 4, some 5, some 6]] []
  [⟨.allocated, false, some 0, 0, 2, 3, false, false⟩, ⟨.external, false, some 0, 0, 3, 2, true, false⟩]

example : (⟨.allocated, false, some 0, 0, 2, 3, false, false⟩ : MObj).Small := by simp [MObj.Small, intMax]
example : (⟨.external, false, some 0, 0, 46340, 46340, true, false⟩ : MObj).Small := by simp [MObj.Small, intMax]
example (A : IntArith) : mResizeI A true true exI 0 4 4 = mResizeWith true true exI 0 4 4 :=
  mResizeI_eq A true true (m := ⟨.allocated, false, some 0, 0, 2, 3, false, false⟩) rfl
    (by simp [MObj.Small, intMax]) (by norm_num [intMax])
example (A : IntArith) : mAssignI A true exI 0 (.var 1) = mAssign true exI 0 (.var 1) :=
  mAssignI_eq A true (m := ⟨.allocated, false, some 0, 0, 2, 3, false, false⟩) rfl
    (.inr (by simp [MObj.Small, intMax])) (fun _ => rfl) _
    (fun d hd _ => by cases hd; norm_num [intMax])
example (A : IntArith) : (⟨.external, false, some 0, 0, 3, 2, true, false⟩ : MObj).indexI A 2 1 = .ok 5 :=
  indexI_eq A (by simp [MObj.Small, intMax]) (by decide) (by decide)
example (A : IntArith) : mAssignPtrI A true exI 0 [6, 5, 4, 3, 2, 1] = mAssignPtr true exI 0 [6, 5, 4, 3, 2, 1] :=
  mAssignPtrI_eq A true (m := ⟨.allocated, false, some 0, 0, 2, 3, false, false⟩) rfl
    (by simp [MObj.Small, intMax]) _
example (A : IntArith) : mReshapeI A exI 1 6 1 = mReshape exI 1 6 1 :=
  mReshapeI_eq A (m := ⟨.external, false, some 0, 0, 3, 2, true, false⟩) rfl
    (by simp [MObj.Small, intMax]) (by norm_num [intMax])
example (A : IntArith) : combinedSizeI A 5 2 = .ok 7 := combinedSizeI_eq A (by norm_num [intMax])
/-- 65537 × 65537 elements wrap to 131073: that many are allocated. -/
example := mResizeI_wrapping_oob true (s := exI) (x := 0) (m := ⟨.allocated, false, some 0, 0, 2, 3, false, false⟩)
  rfl (by simp [MObj.Small, intMax]) rfl (.inr ⟨0, _, rfl, rfl, rfl⟩) rfl rfl (r := 65537) (c := 65537) (n := 131073)
  (by norm_num [intMax]) (by norm_num [Int.bmod])

#print axioms indexI_eq
#print axioms getI_eq
#print axioms putI_eq
#print axioms mResizeI_eq
#print axioms mNewI_eq
#print axioms mDestroyI_eq
#print axioms mReshapeI_eq
#print axioms mStoreI_eq
#print axioms mAssignI_eq
#print axioms mAssignPtrI_eq
#print axioms mNewPtrI_eq
#print axioms combinedSizeI_eq
#print axioms mResizeI_overflow
#print axioms mResizeI_wrapping
#print axioms mResizeI_wrapping_oob
#print axioms getI_overflow
#print axioms view_access_false
#print axioms resize_dims_false
#print axioms resize_wrap_false
#print axioms resize_dims_partial

end CML
