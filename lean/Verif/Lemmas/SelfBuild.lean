import Verif.Spec.SelfBuild
import Verif.Lemmas.Rotation
import Verif.Lemmas.SelfArg

/-! Lemmas for the transform builders whose arguments refer to the target (C123). -/

namespace CML
variable {K : Type}
open BMat

theorem SArg.read_ok {m : BMat K} {a : SArg K} (h : a.In m) : a.read m = .ok (a.now m) := by
  cases a with
  | val x => rfl
  | own i j => exact if_pos h

theorem VArg.get_now {m : BMat K} {v : VArg K} (h : v.In m) (k : Nat) : v.get m k = (v.now m).get k := by
  cases v with
  | other v => rfl
  | row i =>
    have : i < m.rows := h
    simp [VArg.get, VArg.now, AVec.get, Mat.get, this]
    rfl
  | col j =>
    have : j < m.cols := h
    simp [VArg.get, VArg.now, AVec.get, Mat.get, this]
    rfl

theorem VArg.view_ok {m : BMat K} {v : VArg K} (h : v.In m) : v.view m = .ok (v.now m) := by
  cases v with
  | other v => rfl
  | row i => exact if_pos h
  | col j => exact if_pos h

theorem VArg.In.shape {m m' : BMat K} (hs : m.SameShape m') {v : VArg K} (h : v.In m) : v.In m' := by
  cases v with
  | other v => trivial
  | row i => exact (hs.rows ▸ h : i < m'.rows)
  | col j => exact (hs.cols ▸ h : j < m'.cols)

theorem VArg.now_size {m m' : BMat K} (hs : m.SameShape m') (v : VArg K) :
    (v.now m').size = (v.now m).size ∧ (v.now m').fixed = (v.now m).fixed := by
  cases v with
  | other v => exact ⟨rfl, rfl⟩
  | row i => exact ⟨hs.cols, hs.fixed⟩
  | col j => exact ⟨hs.rows, hs.fixed⟩

theorem VArg.checkSize_shape {m m' : BMat K} (hs : m.SameShape m') (v : VArg K) (n : Nat) :
    (v.now m').checkSize n = (v.now m).checkSize n := by
  simp only [AVec.checkSize, (VArg.now_size hs v).1, (VArg.now_size hs v).2]

theorem BMat.ext_bel {m m' : BMat K} (hs : m.SameShape m') (h : ∀ i j, m'.bel i j = m.bel i j) : m' = m := by
  obtain ⟨⟨r, c, e⟩, b, f⟩ := m
  obtain ⟨⟨r', c', e'⟩, b', f'⟩ := m'
  obtain ⟨h1, h2, h3, h4⟩ := hs
  simp only at h1 h2 h3 h4
  subst h1 h2 h3 h4
  congr 2
  funext i j
  cases b' with
  | row => exact h i j
  | col => exact h j i

theorem BMat.get_bset_diag {m : BMat K} {i j : Nat} (k : Nat) (v : K) (h : ¬(i = k ∧ j = k)) :
    (m.bset k k v).toMat.get i j = m.toMat.get i j := by
  obtain ⟨⟨r, c, e⟩, b, f⟩ := m
  cases b <;> simp [bset, Mat.get, Mat.set, h]

theorem BMat.get_bset_self {m : BMat K} (k : Nat) (v : K) (hr : k < m.rows) (hc : k < m.cols) :
    (m.bset k k v).toMat.get k k = .ok v := by
  obtain ⟨⟨r, c, e⟩, b, f⟩ := m
  have hr' : k < r := hr
  have hc' : k < c := hc
  cases b <;> simp [bset, Mat.get, Mat.set, hr', hc']

theorem SArg.read_bset_diag {m : BMat K} {a : SArg K} (k : Nat) (v : K) (h : a ≠ .own k k) :
    a.read (m.bset k k v) = a.read m := by
  cases a with
  | val x => rfl
  | own i j => exact BMat.get_bset_diag k v fun e => h (by rw [e.1, e.2])

theorem SArg.In.identity [Zero K] [One K] {m : BMat K} {a : SArg K} (h : a.In m) : a.In m.identity := by
  cases a with
  | val x => trivial
  | own i j => exact h

theorem SelfBuild.elemRef_row {m : BMat K} {i k : Nat} (hi : i < m.rows) (hk : k < m.cols) :
    SelfBuild.elemRef m (.row i) k = .ok (.own i k) := by
  simp [SelfBuild.elemRef, Mat.get, hi, hk]
theorem SelfBuild.elemRef_col {m : BMat K} {j k : Nat} (hj : j < m.cols) (hk : k < m.rows) :
    SelfBuild.elemRef m (.col j) k = .ok (.own k j) := by
  simp [SelfBuild.elemRef, Mat.get, hj, hk]

theorem scale3DV_eq [Zero K] [One K] (m : BMat K) {a : AVec K} (h : a.size = 3) :
    scale3DV m a = scale3D m (a.el 0) (a.el 1) (a.el 2) := by
  lin_run [scale3DV, AVec.checkSize_ok h]

theorem BMat.basisSize_iff {m : BMat K} {n : Nat} : m.BasisSize n ↔ m.bsize = n := by
  unfold BasisSize bsize
  cases m.basis <;> rfl

theorem BMat.hasBasis_iff {m : BMat K} {i : Nat} : m.HasBasis i ↔ i < m.bcount := by
  unfold HasBasis bcount
  cases m.basis <;> rfl

theorem BMat.basisEl_eq (m : BMat K) (i k : Nat) : m.basisEl i k = m.bel i k := rfl

theorem VArg.get_basisVec (m : BMat K) (i k : Nat) : (VArg.basisVec m.basis i).get m k = m.bget i k := by
  unfold VArg.basisVec bget
  cases m.basis <;> rfl

theorem VArg.get_crossVec (m : BMat K) (j k : Nat) : (VArg.crossVec m.basis j).get m k = m.bget k j := by
  unfold VArg.crossVec bget
  cases m.basis <;> rfl

theorem VArg.size_basisVec (m : BMat K) (i : Nat) : ((VArg.basisVec m.basis i).now m).size = m.bsize := by
  unfold VArg.basisVec bsize
  cases m.basis <;> rfl

theorem VArg.size_crossVec (m : BMat K) (i : Nat) : ((VArg.crossVec m.basis i).now m).size = m.bcount := by
  unfold VArg.crossVec bcount
  cases m.basis <;> rfl

theorem setBasisVector_own {m : BMat K} (h : m.HasLin 3) (h3 : m.bsize = 3) (i : Fin 3) {j : Nat} (hj : j < m.bcount) :
    ∃ m', SelfBuild.setBasisVector m i (.basisVec m.basis j) = .ok m' ∧ m.SameShape m' ∧
      ∀ a b, m'.bel a b = if a = i ∧ b < 3 then m.bel j b else m.bel a b := by
  have hk := (hasLin_iff m 3).1 h
  have hg : ∀ (M : BMat K) k, M.basis = m.basis → (VArg.basisVec m.basis j).get M k = M.bget j k :=
    fun M k e => by rw [← e]; exact VArg.get_basisVec M j k
  have hi := i.2
  have hr : Res.require (decide (0 ≤ ((i : Nat) : Int) ∧ ((i : Nat) : Int) ≤ 2)) .invalidArgument = .ok () := by
    rw [decide_eq_true (by omega)]; rfl
  simp (disch := first | omega | (simp; done) | (simp; omega)) only [SelfBuild.setBasisVector, checkLinear3D_ok h, AVec.checkSize_ok ((VArg.size_basisVec m j).trans h3),
    hr, hg, bget_ok, bput_ok, Res.ok_bind, Int.toNat_natCast, Res.ok.injEq, exists_eq_left']
  refine ⟨by constructor <;> simp, ?_⟩
  intro a b
  simp only [bel_bset]
  by_cases ha : a = i
  · subst ha
    by_cases hb : b < 3
    · simp only [hb, and_self, if_true]
      interval_cases b <;> simp
    · have : b ≠ 0 ∧ b ≠ 1 ∧ b ≠ 2 := by omega
      simp [this, hb]
  · simp [ha]

theorem setBasisVector_other {m : BMat K} (h : m.HasLin 3) (i : Fin 3) {v : AVec K} (h3 : v.size = 3) :
    ∃ m', SelfBuild.setBasisVector m i (.other v) = .ok m' ∧ m.SameShape m' ∧
      ∀ a b, m'.bel a b = if a = i ∧ b < 3 then v.el b else m.bel a b := by
  have hk := (hasLin_iff m 3).1 h
  have hi := i.2
  have hr : Res.require (decide (0 ≤ ((i : Nat) : Int) ∧ ((i : Nat) : Int) ≤ 2)) .invalidArgument = .ok () := by
    rw [decide_eq_true (by omega)]; rfl
  simp (disch := first | omega | (simp; done) | (simp; omega)) only [SelfBuild.setBasisVector, checkLinear3D_ok h,
    VArg.now, VArg.get, AVec.checkSize_ok h3, AVec.get_ok,
    hr, bput_ok, Res.ok_bind, Int.toNat_natCast, Res.ok.injEq, exists_eq_left']
  refine ⟨by constructor <;> simp, ?_⟩
  intro a b
  simp only [bel_bset]
  by_cases ha : a = i
  · subst ha
    by_cases hb : b < 3
    · simp only [hb, and_self, if_true]
      interval_cases b <;> simp
    · have : b ≠ 0 ∧ b ≠ 1 ∧ b ≠ 2 := by omega
      simp [this, hb]
  · simp [ha]

theorem setBasisVector_step {m M : BMat K} (h : m.HasLin 3) {v : VArg K} {q r : Fin 3 → Fin 3 → K}
    {src : Fin 3 → Src (Fin 3 → K) 3} (hr : InTurn q src r) (hq : ∀ i k : Fin 3, m.bel i k = q i k) (i : Fin 3)
    (hv : v.IsBasis m (src i))
    (hs : m.SameShape M)
    (hM : ∀ a b, M.bel a b = if h : a < i ∧ b < 3 then r ⟨a, by omega⟩ ⟨b, h.2⟩ else m.bel a b) :
    ∃ m', SelfBuild.setBasisVector M i v = .ok m' ∧ m.SameShape m' ∧
      ∀ a b, m'.bel a b = if h : a < i + 1 ∧ b < 3 then r ⟨a, by omega⟩ ⟨b, h.2⟩ else m.bel a b := by
  have hL := hs.hasLin h
  have hk := (hasLin_iff m 3).1 h
  have fin : ∀ (w : Nat → K), (∀ b : Fin 3, w b = r i b) → ∀ m' : BMat K,
      (∀ a b, m'.bel a b = if a = i ∧ b < 3 then w b else M.bel a b) →
      ∀ a b, m'.bel a b = if h : a < i + 1 ∧ b < 3 then r ⟨a, by omega⟩ ⟨b, h.2⟩ else m.bel a b := by
    intro w hw m' hm a b
    rw [hm, hM]
    by_cases hb : b < 3
    · by_cases ha : a = i
      · subst ha
        simp only [hb, and_self, if_true, Nat.lt_succ_self, dif_pos]
        exact hw ⟨b, hb⟩
      · by_cases ha' : a < (i : Nat)
        · simp [ha, ha', hb, Nat.lt_succ_of_lt ha']
        · have : ¬a < (i : Nat) + 1 := by omega
          simp [ha, ha', this]
    · simp [hb]
  have hi := hr i
  generalize src i = s at hv hi
  cases hv with
  | vec v y hv =>
    obtain ⟨m', h1, h2, h3⟩ := setBasisVector_other hL i hv.1
    refine ⟨m', h1, hs.trans h2, fin v.el (fun b => ?_) m' h3⟩
    rw [hi]
    exact congrFun hv.2 b
  | own j hb =>
    have hj := j.2
    obtain ⟨m', h1, h2, h3⟩ := setBasisVector_own hL (by rw [hs.bsize]; exact basisSize_iff.1 hb) i (j := j)
      (by rw [hs.bcount]; omega)
    rw [hs.basis] at h1
    refine ⟨m', h1, hs.trans h2, fin (fun b => M.bel j b) (fun b => ?_) m' h3⟩
    simp only [hM, hi, Fin.lt_def, b.2, and_true]
    by_cases hji : (j : Nat) < i
    · simp [hji]
    · simp only [hji, if_false, dif_neg, not_false_eq_true]
      exact hq j b
  | rest j hb h3 hj =>
    obtain ⟨m', h1, h2, h3'⟩ := setBasisVector_own hL (by rw [hs.bsize]; exact basisSize_iff.1 hb) i (j := j)
      (by rw [hs.bcount]; exact hasBasis_iff.1 hj)
    rw [hs.basis] at h1
    refine ⟨m', h1, hs.trans h2, fin (fun b => M.bel j b) (fun b => ?_) m' h3'⟩
    have : ¬j < (i : Nat) := by omega
    simp [hM, hi, this, basisEl_eq]

theorem setTranslation_read {m M : BMat K} (h : m.HasAff 3) {a : SArg K} {q r : Fin 3 → K} {src : Fin 3 → Src K 3}
    (hr : InTurn q src r) (hq : ∀ k : Fin 3, m.bel 3 k = q k) (i : Fin 3) (ha : a.IsTrans m (src i))
    (hs : m.SameShape M)
    (hM : ∀ a b, M.bel a b = if h : a = 3 ∧ b < i then r ⟨b, by omega⟩ else m.bel a b) :
    a.read M = .ok (r i) := by
  have hk := (hasAff_iff m 3).1 h
  have hi := hr i
  have key : ∀ j : Fin 3, M.bget 3 j = .ok (if j < i then r j else q j) := by
    intro j
    have := j.2
    rw [bget_ok (by rw [hs.bcount]; omega) (by rw [hs.bsize]; omega), hM]
    by_cases hj : j < i
    · rw [dif_pos ⟨rfl, hj⟩, if_pos hj]
    · rw [dif_neg (fun c => hj c.2), if_neg hj, hq]
  generalize src i = s at ha hi
  cases ha with
  | val x => rw [hi]; rfl
  | rowOwn hb j =>
    rw [hi, ← key j]
    simp only [SArg.read, bget, hs.basis, hb]
  | colOwn hb j =>
    rw [hi, ← key j]
    simp only [SArg.read, bget, hs.basis, hb]
  | other p t hp hn =>
    have : M.toMat.get p t = .ok (m.el p t) := by
      rw [Mat.get, if_pos (by rw [hs.rows, hs.cols]; exact hp)]
      congr 1
      unfold TransPos at hn
      have e := hs.basis
      cases hb : m.basis with
      | row =>
        rw [hb] at hn e
        have := hM p t
        simp only [bel, hb, e] at this
        rw [this, dif_neg (by omega)]
      | col =>
        rw [hb] at hn e
        have := hM t p
        simp only [bel, hb, e] at this
        rw [this, dif_neg (by omega)]
    rw [hi]
    exact this

end CML
