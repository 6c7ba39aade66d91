import Verif.Lemmas.Round

/-! Rounding errors of arbitrary expressions. -/

set_option linter.unusedSectionVars false

namespace CML

open Finset

variable {R : Rounding}

/-- `x` approximates `X`, with `k` roundings relative to the magnitude `A`. -/
structure Tracks (x : Fl R) (X : ℝ) (A : Mag) (k : Cnt) : Prop where
  err : |x.val - X| ≤ phi R.u k.val * A.val
  mag : |X| ≤ A.val

theorem Tracks.nonneg {x : Fl R} {X : ℝ} {A : Mag} {k : Cnt} (h : Tracks x X A k) : 0 ≤ A.val :=
  le_trans (abs_nonneg _) h.mag

theorem Tracks.exact (x : Fl R) : Tracks x x.val ⟨|x.val|⟩ ⟨0⟩ :=
  ⟨by simp [phi], le_refl _⟩

/-- One more rounding. -/
theorem Tracks.round {z X A : ℝ} {k : ℕ} (h : |z - X| ≤ phi R.u k * A) (hX : |X| ≤ A) :
    Tracks (⟨R.fl z⟩ : Fl R) X ⟨A⟩ ⟨k + 1⟩ := by
  refine ⟨?_, hX⟩
  obtain ⟨t, h1, -, -, h4⟩ := R.fac z
  have hA : 0 ≤ A := le_trans (abs_nonneg _) hX
  have hp1 := phi_nonneg R.u_nonneg R.u_lt 1
  show |R.fl z - X| ≤ phi R.u (k + 1) * A
  rw [h4, ← phi_add]
  have h5 : |z * t - z| ≤ phi R.u 1 * |z| := h1.abs_le
  have h6 : |z| ≤ phi R.u k * A + A := by
    calc |z| = |(z - X) + X| := by rw [sub_add_cancel]
      _ ≤ |z - X| + |X| := abs_add_le _ _
      _ ≤ _ := add_le_add h hX
  have h7 : phi R.u 1 * |z| ≤ phi R.u 1 * (phi R.u k * A + A) := mul_le_mul_of_nonneg_left h6 hp1
  calc |z * t - X| = |(z * t - z) + (z - X)| := by rw [sub_add_sub_cancel]
    _ ≤ |z * t - z| + |z - X| := abs_add_le _ _
    _ ≤ phi R.u 1 * (phi R.u k * A + A) + phi R.u k * A := by linarith
    _ = _ := by ring

theorem Tracks.add {x y : Fl R} {X Y : ℝ} {A B : Mag} {k l : Cnt} (h : Tracks x X A k) (h' : Tracks y Y B l) :
    Tracks (x + y) (X + Y) (A + B) (k + l) := by
  refine Tracks.round (k := max k.val l.val) ?_ (le_trans (abs_add_le _ _) (add_le_add h.mag h'.mag))
  have h1 := mul_le_mul_of_nonneg_right (phi_mono R.u_nonneg R.u_lt (le_max_left k.val l.val)) h.nonneg
  have h2 := mul_le_mul_of_nonneg_right (phi_mono R.u_nonneg R.u_lt (le_max_right k.val l.val)) h'.nonneg
  have h3 := abs_add_le (x.val - X) (y.val - Y)
  rw [show x.val - X + (y.val - Y) = x.val + y.val - (X + Y) by ring] at h3
  have := h.err
  have := h'.err
  linarith

theorem Tracks.sub {x y : Fl R} {X Y : ℝ} {A B : Mag} {k l : Cnt} (h : Tracks x X A k) (h' : Tracks y Y B l) :
    Tracks (x - y) (X - Y) (A - B) (k - l) := by
  refine Tracks.round (k := max k.val l.val) ?_ (le_trans (abs_sub _ _) (add_le_add h.mag h'.mag))
  have h1 := mul_le_mul_of_nonneg_right (phi_mono R.u_nonneg R.u_lt (le_max_left k.val l.val)) h.nonneg
  have h2 := mul_le_mul_of_nonneg_right (phi_mono R.u_nonneg R.u_lt (le_max_right k.val l.val)) h'.nonneg
  have h3 := abs_sub (x.val - X) (y.val - Y)
  rw [show x.val - X - (y.val - Y) = x.val - y.val - (X - Y) by ring] at h3
  have := h.err
  have := h'.err
  linarith

theorem Tracks.mul {x y : Fl R} {X Y : ℝ} {A B : Mag} {k l : Cnt} (h : Tracks x X A k) (h' : Tracks y Y B l) :
    Tracks (x * y) (X * Y) (A * B) (k * l) := by
  refine Tracks.round (k := k.val + l.val) ?_ ?_
  · have hk := phi_nonneg R.u_nonneg R.u_lt k.val
    have e : x.val * y.val - X * Y = (x.val - X) * Y + X * (y.val - Y) + (x.val - X) * (y.val - Y) := by ring
    have h1 : |(x.val - X) * Y| ≤ phi R.u k.val * A.val * B.val := by
      rw [abs_mul]
      exact mul_le_mul h.err h'.mag (abs_nonneg _) (mul_nonneg hk h.nonneg)
    have h2 : |X * (y.val - Y)| ≤ A.val * (phi R.u l.val * B.val) := by
      rw [abs_mul]
      exact mul_le_mul h.mag h'.err (abs_nonneg _) h.nonneg
    have h3 : |(x.val - X) * (y.val - Y)| ≤ phi R.u k.val * A.val * (phi R.u l.val * B.val) := by
      rw [abs_mul]
      exact mul_le_mul h.err h'.err (abs_nonneg _) (mul_nonneg hk h.nonneg)
    rw [e, ← phi_add]
    refine le_trans (abs_add_le _ _) (le_trans (add_le_add (abs_add_le _ _) h3) ?_)
    have : (phi R.u k.val + phi R.u l.val + phi R.u k.val * phi R.u l.val) * (A.val * B.val) =
      phi R.u k.val * A.val * B.val + A.val * (phi R.u l.val * B.val) +
        phi R.u k.val * A.val * (phi R.u l.val * B.val) := by ring
    linarith
  · rw [abs_mul]
    exact mul_le_mul h.mag h'.mag (abs_nonneg _) h.nonneg

theorem Tracks.div {x : Fl R} {X : ℝ} {A : Mag} {k : Cnt} (h : Tracks x X A k) (c : Fl R) :
    Tracks (x / c) (X / c.val) (A / ⟨|c.val|⟩) (k / ⟨0⟩) := by
  refine Tracks.round (k := k.val) ?_ ?_
  · rw [← sub_div, abs_div]
    show _ ≤ phi R.u k.val * (A.val / |c.val|)
    rw [← mul_div_assoc]
    exact div_le_div_of_nonneg_right h.err (abs_nonneg _)
  · rw [abs_div]
    exact div_le_div_of_nonneg_right h.mag (abs_nonneg _)

theorem Tracks.neg {x : Fl R} {X : ℝ} {A : Mag} {k : Cnt} (h : Tracks x X A k) :
    Tracks (-x) (-X) (-A) (-k) := by
  refine ⟨?_, by rw [abs_neg]; exact h.mag⟩
  have := h.err
  rw [Fl.neg_val, show -x.val - -X = -(x.val - X) by ring, abs_neg]
  exact this

theorem Tracks.bin (o : BinOp) {x y : Fl R} {X Y : ℝ} {A B : Mag} {k l : Cnt} (h : Tracks x X A k)
    (h' : Tracks y Y B l) : Tracks (o.den x y) (o.den X Y) (o.den A B) (o.den k l) := by
  cases o
  · exact h.add h'
  · exact h.sub h'
  · exact h.mul h'

theorem Tracks.scal (o : ScalOp) {x : Fl R} {X : ℝ} {A : Mag} {k : Cnt} (h : Tracks x X A k) (c : Fl R) :
    Tracks (o.den x c) (o.den X c.val) (o.den A ⟨|c.val|⟩) (o.den k ⟨0⟩) := by
  cases o
  · exact h.mul (Tracks.exact c)
  · exact h.div c

theorem Tracks.sumLeft : ∀ (n : Nat) {x : Fin (n + 1) → Fl R} {X : Fin (n + 1) → ℝ} {A : Fin (n + 1) → Mag}
    {k : Fin (n + 1) → Cnt} (_ : ∀ i, Tracks (x i) (X i) (A i) (k i)),
    Tracks (sumLeft n x) (sumLeft n X) (sumLeft n A) (sumLeft n k)
  | 0, _, _, _, _, h => h 0
  | n + 1, _, _, _, _, h => (Tracks.sumLeft n (fun i => h i.castSucc)).add (h _)

theorem Tracks.dotLeft {n : Nat} (hn : 0 < n) {x y : Fin n → Fl R} {X Y : Fin n → ℝ} {A B : Fin n → Mag}
    {k l : Fin n → Cnt} (h : ∀ i, Tracks (x i) (X i) (A i) (k i)) (h' : ∀ i, Tracks (y i) (Y i) (B i) (l i)) :
    Tracks (dotLeft n hn x y) (dotLeft n hn X Y) (dotLeft n hn A B) (dotLeft n hn k l) := by
  obtain ⟨m, rfl⟩ : ∃ m, n = m + 1 := ⟨n - 1, by omega⟩
  exact Tracks.sumLeft m (fun i => (h i).mul (h' i))

/-- The four values of a vector expression belong together. -/
inductive VTr : Option (VVal (Fl R)) → Option (VVal ℝ) → Option (VVal Mag) → Option (VVal Cnt) → Prop
  | none : VTr none none none none
  | some (n : Nat) (x : Fin n → Fl R) (X : Fin n → ℝ) (A : Fin n → Mag) (k : Fin n → Cnt)
      (h : ∀ i, Tracks (x i) (X i) (A i) (k i)) : VTr (some ⟨n, x⟩) (some ⟨n, X⟩) (some ⟨n, A⟩) (some ⟨n, k⟩)

/-- The four values of a matrix expression belong together. -/
inductive MTr : Option (MVal (Fl R)) → Option (MVal ℝ) → Option (MVal Mag) → Option (MVal Cnt) → Prop
  | none : MTr none none none none
  | some (r c : Nat) (x : Fin r → Fin c → Fl R) (X : Fin r → Fin c → ℝ) (A : Fin r → Fin c → Mag)
      (k : Fin r → Fin c → Cnt) (h : ∀ i j, Tracks (x i j) (X i j) (A i j) (k i j)) :
      MTr (some ⟨r, c, x⟩) (some ⟨r, c, X⟩) (some ⟨r, c, A⟩) (some ⟨r, c, k⟩)

/-- The magnitude of a rounded number. -/
def magOf (x : Fl R) : Mag := ⟨|x.val|⟩

/-- No rounding so far. -/
def cnt0 (_ : Fl R) : Cnt := ⟨0⟩

theorem VTr.list (xs : List (Fl R)) : VTr (.some (VVal.mk xs.length fun i => xs[i]))
    (.some (VVal.mk (xs.map Fl.val).length fun i => (xs.map Fl.val)[i]))
    (.some (VVal.mk (xs.map magOf).length fun i => (xs.map magOf)[i]))
    (.some (VVal.mk (xs.map (cnt0 (R := R))).length fun i => (xs.map (cnt0 (R := R)))[i])) := by
  have key : ∀ {F : Type} (h : Fl R → F), (VVal.mk (xs.map h).length fun i => (xs.map h)[i]) =
      VVal.mk xs.length fun i => h xs[i] := by
    intro F h
    have hl : (xs.map h).length = xs.length := List.length_map _
    rw [VVal.mk.injEq]
    refine ⟨hl, ?_⟩
    refine Function.hfunext (by rw [hl]) (fun i j hij => ?_)
    have hij : i.1 = j.1 := (Fin.heq_ext_iff hl).mp hij
    apply heq_of_eq
    simp [hij]
  rw [key, key, key]
  exact .some _ _ _ _ _ (fun i => Tracks.exact _)

mutual
theorem vden_tracks (ρ : Env (Fl R)) : ∀ e : VExpr (Fl R),
    VTr (e.den ρ) ((e.map Fl.val).den (ρ.map Fl.val)) ((e.map magOf).den (ρ.map magOf))
      ((e.map cnt0).den (ρ.map cnt0))
  | .var x => by
    simp only [VExpr.map, VExpr.den, Env.map]
    cases h : ρ.v x with
    | none => exact .none
    | some p => exact .some _ _ _ _ _ (fun i => Tracks.exact _)
  | .temp f xs => by
    simp only [VExpr.map, VExpr.den]
    exact VTr.list xs
  | .bin o a b => by
    have ha := vden_tracks ρ a
    have hb := vden_tracks ρ b
    simp only [VExpr.map, VExpr.den]
    generalize a.den ρ = a1 at *
    generalize (a.map Fl.val).den _ = a2 at *
    generalize (a.map magOf).den _ = a3 at *
    generalize (a.map cnt0).den _ = a4 at *
    generalize b.den ρ = b1 at *
    generalize (b.map Fl.val).den _ = b2 at *
    generalize (b.map magOf).den _ = b3 at *
    generalize (b.map cnt0).den _ = b4 at *
    cases ha with
    | none => exact .none
    | some n x X A k h =>
      cases hb with
      | none => exact .none
      | some m y Y B l h' =>
        by_cases c : n = m
        · subst c
          simp only [dite_true]
          exact .some _ _ _ _ _ (fun i => (h i).bin o (h' i))
        · simp only [c, dite_false]
          exact .none
  | .scal o a c => by
    have ha := vden_tracks ρ a
    simp only [VExpr.map, VExpr.den]
    generalize a.den ρ = a1 at *
    generalize (a.map Fl.val).den _ = a2 at *
    generalize (a.map magOf).den _ = a3 at *
    generalize (a.map cnt0).den _ = a4 at *
    cases ha with
    | none => exact .none
    | some n x X A k h => exact .some _ _ _ _ _ (fun i => (h i).scal o c)
  | .neg a => by
    have ha := vden_tracks ρ a
    simp only [VExpr.map, VExpr.den]
    generalize a.den ρ = a1 at *
    generalize (a.map Fl.val).den _ = a2 at *
    generalize (a.map magOf).den _ = a3 at *
    generalize (a.map cnt0).den _ = a4 at *
    cases ha with
    | none => exact .none
    | some n x X A k h => exact .some _ _ _ _ _ (fun i => (h i).neg)
  | .cross a b => by
    have ha := vden_tracks ρ a
    have hb := vden_tracks ρ b
    simp only [VExpr.map, VExpr.den]
    generalize a.den ρ = a1 at *
    generalize (a.map Fl.val).den _ = a2 at *
    generalize (a.map magOf).den _ = a3 at *
    generalize (a.map cnt0).den _ = a4 at *
    generalize b.den ρ = b1 at *
    generalize (b.map Fl.val).den _ = b2 at *
    generalize (b.map magOf).den _ = b3 at *
    generalize (b.map cnt0).den _ = b4 at *
    cases ha with
    | none => exact .none
    | some n x X A k h =>
      cases hb with
      | none => match n with
        | 0 | 1 | 2 | 3 | _ + 4 => exact .none
      | some m y Y B l h' =>
        match n, m with
        | 3, 3 =>
          refine .some _ _ _ _ _ (fun i => ?_)
          fin_cases i
          · exact ((h 1).mul (h' 2)).sub ((h 2).mul (h' 1))
          · exact ((h 2).mul (h' 0)).sub ((h 0).mul (h' 2))
          · exact ((h 0).mul (h' 1)).sub ((h 1).mul (h' 0))
        | 0, _ => exact .none
        | 1, _ => exact .none
        | 2, _ => exact .none
        | _ + 4, _ => exact .none
        | 3, 0 => exact .none
        | 3, 1 => exact .none
        | 3, 2 => exact .none
        | 3, _ + 4 => exact .none
  | .sub a k => by
    have ha := vden_tracks ρ a
    simp only [VExpr.map, VExpr.den]
    generalize a.den ρ = a1 at *
    generalize (a.map Fl.val).den _ = a2 at *
    generalize (a.map magOf).den _ = a3 at *
    generalize (a.map cnt0).den _ = a4 at *
    cases ha with
    | none => exact .none
    | some n x X A l h =>
      match n with
      | 0 => exact .none
      | n + 1 =>
        by_cases c : 0 ≤ k ∧ k.toNat < n + 1
        · simp only [c, and_self, dite_true]
          exact .some _ _ _ _ _ (fun i => h _)
        · simp only [c, dite_false]
          exact .none
  | .row m i => by
    have ha := mden_tracks ρ m
    simp only [VExpr.map, VExpr.den]
    generalize m.den ρ = a1 at *
    generalize (m.map Fl.val).den _ = a2 at *
    generalize (m.map magOf).den _ = a3 at *
    generalize (m.map cnt0).den _ = a4 at *
    cases ha with
    | none => exact .none
    | some r c x X A l h =>
      by_cases hc : 0 ≤ i ∧ i.toNat < r
      · simp only [hc, and_self, dite_true]
        exact .some _ _ _ _ _ (fun j => h _ j)
      · simp only [hc, dite_false]
        exact .none
  | .col m j => by
    have ha := mden_tracks ρ m
    simp only [VExpr.map, VExpr.den]
    generalize m.den ρ = a1 at *
    generalize (m.map Fl.val).den _ = a2 at *
    generalize (m.map magOf).den _ = a3 at *
    generalize (m.map cnt0).den _ = a4 at *
    cases ha with
    | none => exact .none
    | some r c x X A l h =>
      by_cases hc : 0 ≤ j ∧ j.toNat < c
      · simp only [hc, and_self, dite_true]
        exact .some _ _ _ _ _ (fun i => h i _)
      · simp only [hc, dite_false]
        exact .none
  | .mulMV m v => by
    have ha := mden_tracks ρ m
    have hb := vden_tracks ρ v
    simp only [VExpr.map, VExpr.den]
    generalize m.den ρ = a1 at *
    generalize (m.map Fl.val).den _ = a2 at *
    generalize (m.map magOf).den _ = a3 at *
    generalize (m.map cnt0).den _ = a4 at *
    generalize v.den ρ = b1 at *
    generalize (v.map Fl.val).den _ = b2 at *
    generalize (v.map magOf).den _ = b3 at *
    generalize (v.map cnt0).den _ = b4 at *
    cases ha with
    | none => exact .none
    | some r c x X A k h =>
      cases hb with
      | none => exact .none
      | some n y Y B l h' =>
        by_cases hc : c = n ∧ 0 < c
        · dsimp only
          rw [dif_pos hc, dif_pos hc, dif_pos hc, dif_pos hc]
          exact .some _ _ _ _ _ (fun i => Tracks.dotLeft hc.2 (fun j => h i j) (fun j => h' (j.cast hc.1)))
        · simp only [hc, dite_false]
          exact .none
  | .mulVM v m => by
    have ha := mden_tracks ρ m
    have hb := vden_tracks ρ v
    simp only [VExpr.map, VExpr.den]
    generalize m.den ρ = a1 at *
    generalize (m.map Fl.val).den _ = a2 at *
    generalize (m.map magOf).den _ = a3 at *
    generalize (m.map cnt0).den _ = a4 at *
    generalize v.den ρ = b1 at *
    generalize (v.map Fl.val).den _ = b2 at *
    generalize (v.map magOf).den _ = b3 at *
    generalize (v.map cnt0).den _ = b4 at *
    cases hb with
    | none => exact .none
    | some n y Y B l h' =>
      cases ha with
      | none => exact .none
      | some r c x X A k h =>
        by_cases hc : n = r ∧ 0 < n
        · dsimp only
          rw [dif_pos hc, dif_pos hc, dif_pos hc, dif_pos hc]
          exact .some _ _ _ _ _ (fun j => Tracks.dotLeft hc.2 h' (fun i => h (i.cast hc.1) j))
        · simp only [hc, dite_false]
          exact .none
theorem mden_tracks (ρ : Env (Fl R)) : ∀ e : MExpr (Fl R),
    MTr (e.den ρ) ((e.map Fl.val).den (ρ.map Fl.val)) ((e.map magOf).den (ρ.map magOf))
      ((e.map cnt0).den (ρ.map cnt0))
  | .var x => by
    simp only [MExpr.map, MExpr.den, Env.map]
    cases h : ρ.m x with
    | none => exact .none
    | some p => exact .some _ _ _ _ _ _ (fun i j => Tracks.exact _)
  | .temp t => by
    simp only [MExpr.map, MExpr.den, List.length_map]
    by_cases c : t.elems.length = t.rows * t.cols
    · simp only [c, dite_true]
      refine .some _ _ _ _ _ _ (fun i j => ?_)
      simp only [Fin.getElem_fin, List.getElem_map]
      exact Tracks.exact _
    · simp only [c, dite_false]
      exact .none
  | .bin o a b => by
    have ha := mden_tracks ρ a
    have hb := mden_tracks ρ b
    simp only [MExpr.map, MExpr.den]
    generalize a.den ρ = a1 at *
    generalize (a.map Fl.val).den _ = a2 at *
    generalize (a.map magOf).den _ = a3 at *
    generalize (a.map cnt0).den _ = a4 at *
    generalize b.den ρ = b1 at *
    generalize (b.map Fl.val).den _ = b2 at *
    generalize (b.map magOf).den _ = b3 at *
    generalize (b.map cnt0).den _ = b4 at *
    cases ha with
    | none => exact .none
    | some r c x X A k h =>
      cases hb with
      | none => exact .none
      | some r' c' y Y B l h' =>
        by_cases hc : r = r' ∧ c = c'
        · obtain ⟨rfl, rfl⟩ := hc
          simp only [and_self, dite_true]
          exact .some _ _ _ _ _ _ (fun i j => (h i j).bin o (h' i j))
        · simp only [hc, dite_false]
          exact .none
  | .scal o a c => by
    have ha := mden_tracks ρ a
    simp only [MExpr.map, MExpr.den]
    generalize a.den ρ = a1 at *
    generalize (a.map Fl.val).den _ = a2 at *
    generalize (a.map magOf).den _ = a3 at *
    generalize (a.map cnt0).den _ = a4 at *
    cases ha with
    | none => exact .none
    | some n m x X A k h => exact .some _ _ _ _ _ _ (fun i j => (h i j).scal o c)
  | .neg a => by
    have ha := mden_tracks ρ a
    simp only [MExpr.map, MExpr.den]
    generalize a.den ρ = a1 at *
    generalize (a.map Fl.val).den _ = a2 at *
    generalize (a.map magOf).den _ = a3 at *
    generalize (a.map cnt0).den _ = a4 at *
    cases ha with
    | none => exact .none
    | some n m x X A k h => exact .some _ _ _ _ _ _ (fun i j => (h i j).neg)
  | .transpose a => by
    have ha := mden_tracks ρ a
    simp only [MExpr.map, MExpr.den]
    generalize a.den ρ = a1 at *
    generalize (a.map Fl.val).den _ = a2 at *
    generalize (a.map magOf).den _ = a3 at *
    generalize (a.map cnt0).den _ = a4 at *
    cases ha with
    | none => exact .none
    | some n m x X A k h => exact .some _ _ _ _ _ _ (fun i j => h j i)
  | .outer a b => by
    have ha := vden_tracks ρ a
    have hb := vden_tracks ρ b
    simp only [MExpr.map, MExpr.den]
    generalize a.den ρ = a1 at *
    generalize (a.map Fl.val).den _ = a2 at *
    generalize (a.map magOf).den _ = a3 at *
    generalize (a.map cnt0).den _ = a4 at *
    generalize b.den ρ = b1 at *
    generalize (b.map Fl.val).den _ = b2 at *
    generalize (b.map magOf).den _ = b3 at *
    generalize (b.map cnt0).den _ = b4 at *
    cases ha with
    | none => exact .none
    | some n x X A k h =>
      cases hb with
      | none => exact .none
      | some m y Y B l h' => exact .some _ _ _ _ _ _ (fun i j => (h i).mul (h' j))
  | .mul a b => by
    have ha := mden_tracks ρ a
    have hb := mden_tracks ρ b
    simp only [MExpr.map, MExpr.den]
    generalize a.den ρ = a1 at *
    generalize (a.map Fl.val).den _ = a2 at *
    generalize (a.map magOf).den _ = a3 at *
    generalize (a.map cnt0).den _ = a4 at *
    generalize b.den ρ = b1 at *
    generalize (b.map Fl.val).den _ = b2 at *
    generalize (b.map magOf).den _ = b3 at *
    generalize (b.map cnt0).den _ = b4 at *
    cases ha with
    | none => exact .none
    | some r c x X A k h =>
      cases hb with
      | none => exact .none
      | some r' c' y Y B l h' =>
        by_cases hc : c = r' ∧ 0 < c
        · dsimp only
          rw [dif_pos hc, dif_pos hc, dif_pos hc, dif_pos hc]
          exact .some _ _ _ _ _ _ (fun i j => Tracks.dotLeft hc.2 (fun p => h i p)
            (fun p => h' (p.cast hc.1) j))
        · simp only [hc, dite_false]
          exact .none
end

end CML
