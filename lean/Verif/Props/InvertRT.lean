import Verif.Props.Builders

/-!
C62: `matrix_invert_RT`, `matrix_invert_RT_only`, `matrix_invert_RT_only_2D` invert rigid transforms.
-/

namespace CML
open BMat

section
variable {K : Type}

/-- `m'` is `m` with transposed linear part and translation `-Lᵀ t`, nothing else changed. -/
structure RTInverse [CommRing K] (m m' : BMat K) (n : Nat) : Prop where
  shape : m.SameShape m'
  lin : linOf m' n = (linOf m n).transpose
  trans : transOf m' n = -(linOf m n).transpose.mulVec (transOf m n)
  rest : ∀ i j, ¬(i < n ∧ j < n) → ¬m.TransPos n i j → m'.el i j = m.el i j

theorem RTInverse.of_bel [CommRing K] {m m' : BMat K} {n : Nat} (hs : m.SameShape m')
    (h : ∀ p q, m'.bel p q = if p < n ∧ q < n then m.bel q p else
      if p = n ∧ q < n then -∑ j : Fin n, m.bel q j * m.bel n j else m.bel p q) : RTInverse m m' n := by
  refine ⟨hs, ?_, ?_, ?_⟩
  · ext r c
    rw [linOf_apply, h, if_pos ⟨c.2, r.2⟩, Matrix.transpose_apply, linOf_apply]
  · funext i
    rw [transOf_apply, h, if_neg (by omega), if_pos ⟨rfl, i.2⟩]
    simp [Matrix.mulVec, dotProduct, linOf_apply, transOf_apply]
  · intro i j hij ht
    have hb := hs.basis
    unfold bel at h
    unfold TransPos at ht
    rw [hb] at h
    cases hm : m.basis <;> simp only [hm] at h ht
    · rw [h, if_neg hij, if_neg ht]
    · rw [h, if_neg (by tauto), if_neg ht]

/-- What `RTInverse` means for a rigid transform: it is the inverse. -/
theorem RTInverse.inverse [CommRing K] {m m' : BMat K} {n : Nat} (h : RTInverse m m' n)
    (hL : (linOf m n).transpose * linOf m n = 1) (x : Fin n → K) :
    affOf m' n (affOf m n x) = x ∧ affOf m n (affOf m' n x) = x := by
  have hL' : linOf m n * (linOf m n).transpose = 1 := mul_eq_one_comm.1 hL
  constructor
  · simp only [affOf, h.lin, h.trans, Matrix.mulVec_add, Matrix.mulVec_mulVec, hL, Matrix.one_mulVec]
    abel
  · simp only [affOf, h.lin, h.trans, Matrix.mulVec_add, Matrix.mulVec_neg, Matrix.mulVec_mulVec, hL',
      Matrix.one_mulVec]
    abel

/-- For homogeneous rigid transforms, concatenating with the inverse in either order is the
identity matrix. -/
theorem RTInverse.concat [CommRing K] {m m' : BMat K} {n : Nat} (h : RTInverse m m' n)
    (hm : m.Homogeneous n) (hL : (linOf m n).transpose * linOf m n = 1) :
    (∃ c, matrixConcat m m' = .ok c ∧ linOf c (n + 1) = 1) ∧
    (∃ c, matrixConcat m' m = .ok c ∧ linOf c (n + 1) = 1) := by
  have hL' : linOf m n * (linOf m n).transpose = 1 := mul_eq_one_comm.1 hL
  have hb : m'.basis = m.basis := h.shape.basis
  have hm' : m'.Homogeneous n := by
    refine ⟨h.shape.rows.trans hm.rows, h.shape.cols.trans hm.cols, ?_, ?_⟩
    · intro i hi
      rw [hb]
      have := hm.zero i hi
      cases hbb : m.basis <;> simp only [hbb] at this ⊢
      · rw [h.rest i n (by omega) (by unfold TransPos; rw [hbb]; simp)]; exact this
      · rw [h.rest n i (by omega) (by unfold TransPos; rw [hbb]; simp)]; exact this
    · rw [h.rest n n (by omega) (by unfold TransPos; cases m.basis <;> simp)]; exact hm.one
  -- a homogeneous matrix whose affine map is the identity is the identity matrix
  have key : ∀ c : BMat K, c.Homogeneous n → (∀ x, affOf c n x = x) → linOf c (n + 1) = 1 := by
    intro c hc hx
    obtain ⟨-, -, g1, g2⟩ := (homogeneous_iff c n).1 hc
    have ht : transOf c n = 0 := by simpa [affOf] using hx 0
    have hl : linOf c n = 1 := by
      refine Matrix.ext_of_mulVec_single fun i => ?_
      have := hx (Pi.single i 1)
      rw [affOf, ht, add_zero] at this
      rw [this, Matrix.one_mulVec]
    ext r s
    rw [linOf_apply, Matrix.one_apply]
    by_cases hr : (r : Nat) < n
    · by_cases hs : (s : Nat) < n
      · have := congrFun (congrFun hl ⟨r, hr⟩) ⟨s, hs⟩
        rw [linOf_apply, Matrix.one_apply] at this
        simpa [Fin.ext_iff] using this
      · have e : (s : Nat) = n := by omega
        have := congrFun ht ⟨r, hr⟩
        rw [transOf_apply] at this
        simp only at this
        rw [e, this, if_neg (by rw [Fin.ext_iff]; omega)]
        rfl
    · have e : (r : Nat) = n := by omega
      by_cases hs : (s : Nat) < n
      · rw [e, g1 s hs, if_neg (by rw [Fin.ext_iff]; omega)]
      · have e' : (s : Nat) = n := by omega
        rw [e, e', g2, if_pos (by rw [Fin.ext_iff]; omega)]
  constructor
  · obtain ⟨c, c1, -, c3, c4, -⟩ := concat_affOf hm hm' hb.symm
    exact ⟨c, c1, key c c3 fun x => by rw [c4]; exact (h.inverse hL x).1⟩
  · obtain ⟨c, c1, -, c3, c4, -⟩ := concat_affOf hm' hm hb
    exact ⟨c, c1, key c c3 fun x => by rw [c4]; exact (h.inverse hL x).2⟩

theorem getBasisVectorND_ok {m : BMat K} {i : Nat} (h : i < m.bcount) :
    ∃ T, getBasisVectorND m i = .ok T ∧ T.size = m.bsize ∧ ∀ j, T.el j = m.bel i j := by
  unfold bcount at h
  unfold getBasisVectorND bsize bel
  cases hb : m.basis <;> simp only [hb] at h ⊢
  · exact ⟨_, if_pos (Or.inl h), rfl, fun _ => rfl⟩
  · exact ⟨_, if_pos (Or.inl h), rfl, fun _ => rfl⟩

/-- The in-place transpose of the linear part. -/
theorem invertRT_transpose {m : BMat K} {N : Nat} (h1 : N ≤ m.bcount) (h2 : N ≤ m.bsize) :
    ∃ m', Res.loop (fun i m => Res.loop (fun j (m : BMat K) => do
      let eij ← m.bget i j
      let eji ← m.bget j i
      let m ← m.bput i j eji
      m.bput j i eij) (i + 1) (N - (i + 1)) m) 0 N m = .ok m' ∧ m.SameShape m' ∧
      ∀ p q, m'.bel p q = if p < N ∧ q < N then m.bel q p else m.bel p q := by
  obtain ⟨m', g1, g2, g3⟩ := Res.loop_inv (lo := 0) (n := N) (s := m)
    (body := fun i m => Res.loop (fun j (m : BMat K) => do
      let eij ← m.bget i j
      let eji ← m.bget j i
      let m ← m.bput i j eji
      m.bput j i eij) (i + 1) (N - (i + 1)) m)
    (fun i M => m.SameShape M ∧ ∀ p q, M.bel p q =
      if p < N ∧ q < N ∧ (p < i ∨ q < i) then m.bel q p else m.bel p q)
    ⟨SameShape.refl m, fun p q => by simp⟩
    (by
      rintro i M - hi ⟨hS, hM⟩
      rw [Nat.zero_add] at hi
      obtain ⟨M', g1, g2, g3⟩ := Res.loop_inv (lo := i + 1) (n := N - (i + 1)) (s := M)
        (body := fun j (m : BMat K) => do
          let eij ← m.bget i j
          let eji ← m.bget j i
          let m ← m.bput i j eji
          m.bput j i eij)
        (fun j M => m.SameShape M ∧ ∀ p q, M.bel p q =
          if p < N ∧ q < N ∧ (p < i ∨ q < i ∨ (p = i ∧ i < q ∧ q < j) ∨ (q = i ∧ i < p ∧ p < j)) then
            m.bel q p else m.bel p q)
        ⟨hS, fun p q => by
          rw [hM]
          by_cases e : p < N ∧ q < N ∧ (p < i ∨ q < i)
          · rw [if_pos e, if_pos (by omega)]
          · rw [if_neg e, if_neg (by omega)]⟩
        (by
          rintro j M hj1 hj2 ⟨hS, hM⟩
          have hjN : j < N := by omega
          have b1 : M.bcount = m.bcount := hS.bcount
          have b2 : M.bsize = m.bsize := hS.bsize
          have e1 : M.bel i j = m.bel i j := by rw [hM, if_neg (by omega)]
          have e2 : M.bel j i = m.bel j i := by rw [hM, if_neg (by omega)]
          lin_run [e1, e2]
          refine ⟨(hS.trans (SameShape.bset _ _ _ _)).trans (SameShape.bset _ _ _ _), fun p q => ?_⟩
          rw [bel_bset, bel_bset, hM]
          by_cases c1 : p = j ∧ q = i
          · rw [if_pos c1, if_pos (by omega), c1.1, c1.2]
          · rw [if_neg c1]
            by_cases c2 : p = i ∧ q = j
            · rw [if_pos c2, if_pos (by omega), c2.1, c2.2]
            · rw [if_neg c2]
              by_cases c3 : p < N ∧ q < N ∧
                  (p < i ∨ q < i ∨ (p = i ∧ i < q ∧ q < j) ∨ (q = i ∧ i < p ∧ p < j))
              · rw [if_pos c3, if_pos (by omega)]
              · rw [if_neg c3, if_neg (by omega)])
      refine ⟨M', g1, g2, fun p q => ?_⟩
      rw [g3]
      by_cases hpq : p = q
      · subst hpq; simp
      · by_cases c3 : p < N ∧ q < N ∧ (p < i + 1 ∨ q < i + 1)
        · rw [if_pos c3, if_pos (by omega)]
        · rw [if_neg c3, if_neg (by omega)])
  refine ⟨m', g1, g2, fun p q => ?_⟩
  rw [g3]
  by_cases c3 : p < N ∧ q < N
  · rw [if_pos c3, if_pos (by omega)]
  · rw [if_neg c3, if_neg (by omega)]

/-- C62: `matrix_invert_RT`, any dimension `n`, square (`(n+1) × (n+1)`) or not: the linear part is
transposed, the translation becomes `-Lᵀ t`, nothing else changes. -/
theorem invertRT_spec [CommRing K] {m : BMat K} {n : Nat}
    (hm : match m.basis with
      | .row => m.rows = n + 1 ∧ (m.cols = n ∨ m.cols = n + 1)
      | .col => m.cols = n + 1 ∧ (m.rows = n ∨ m.rows = n + 1)) :
    ∃ m', invertRT m = .ok m' ∧ RTInverse m m' n := by
  have hc : m.bcount = n + 1 := by
    unfold bcount; cases hb : m.basis <;> simp only [hb] at hm ⊢ <;> omega
  have hz : m.bsize = n ∨ m.bsize = n + 1 := by
    unfold bsize; cases hb : m.basis <;> simp only [hb] at hm ⊢ <;> omega
  have hck : m.checkAffine = .ok () := by
    unfold BMat.checkAffine Res.require
    rw [if_pos]
    cases hb : m.basis <;> simp only [hb] at hm ⊢ <;> simp <;> omega
  have hN : invertRTSize m = n := by
    unfold invertRTSize
    cases hb : m.basis <;> simp only [hb] at hm <;> split_ifs <;> omega
  obtain ⟨m1, a1, a2, a3⟩ := invertRT_transpose (m := m) (N := n) (by omega) (by omega)
  have b1 : m1.bcount = m.bcount := a2.bcount
  have b2 : m1.bsize = m.bsize := a2.bsize
  obtain ⟨T, t1, t2, t3⟩ : ∃ T, getBasisVectorND m1 n = .ok T ∧ n ≤ T.size ∧
      ∀ j, j < n → T.el j = m.bel n j := by
    obtain ⟨T, t1, t2, t3⟩ := getBasisVectorND_ok (m := m1) (i := n) (by omega)
    exact ⟨T, t1, by omega, fun j _ => by rw [t3, a3, if_neg (by omega)]⟩
  obtain ⟨m2, c1, c2, c3⟩ := Res.loop_inv (lo := 0) (n := n) (s := m1)
    (body := fun i (m : BMat K) => do
      let b ← m.bget 0 i
      let t ← T.get 0
      let e ← Res.loop (fun j e => do
        let b ← m.bget j i
        let t ← T.get j
        pure (e + b * t)) 1 (n - 1) (b * t)
      m.bput n i (-e))
    (fun i M => m.SameShape M ∧ ∀ p q, M.bel p q = if p = n ∧ q < i then
      -∑ j : Fin n, m.bel q j * m.bel n j else m1.bel p q)
    ⟨a2, fun p q => by simp⟩
    (by
      rintro i M - hi ⟨hS, hM⟩
      rw [Nat.zero_add] at hi
      have b1 : M.bcount = m.bcount := hS.bcount
      have b2 : M.bsize = m.bsize := hS.bsize
      have hMb : ∀ j, j < n → M.bel j i = m.bel i j := fun j hj => by
        rw [hM, if_neg (by omega), a3, if_pos ⟨hj, hi⟩]
      have hg : ∀ j, j < n → M.bget j i = .ok (m.bel i j) := fun j hj => by
        rw [bget_ok (by omega) (by omega), hMb j hj]
      have ht : ∀ j, j < n → T.get j = .ok (m.bel n j) := fun j hj => by
        rw [AVec.get_ok (by omega), t3 j hj]
      rw [hg 0 (by omega), Res.ok_bind, ht 0 (by omega), Res.ok_bind,
        inner_ok (f := fun j => m.bel i j) (g := fun j => m.bel n j) (by omega) hg ht, Res.ok_bind,
        bput_ok (by omega) (by omega)]
      refine ⟨_, rfl, hS.trans (SameShape.bset _ _ _ _), fun p q => ?_⟩
      rw [bel_bset, hM]
      by_cases e : p = n ∧ q = i
      · rw [if_pos e, if_pos (by omega), e.2]
      · rw [if_neg e]
        by_cases e' : p = n ∧ q < i
        · rw [if_pos e', if_pos (by omega)]
        · rw [if_neg e', if_neg (by omega)])
  refine ⟨m2, ?_, RTInverse.of_bel c2 fun p q => ?_⟩
  · simp only [invertRT, hck, hN, a1, t1, Res.ok_bind]
    exact c1
  · rw [c3, Nat.zero_add]
    by_cases e : p = n ∧ q < n
    · rw [if_pos e, if_neg (by omega), if_pos e]
    · rw [if_neg e, if_neg e, a3]

/-- C62: `matrix_invert_RT_only`. -/
theorem invertRTOnly_spec [CommRing K] {m : BMat K} (h : m.HasAff 3) :
    ∃ m', invertRTOnly m = .ok m' ∧ RTInverse m m' 3 := by
  have hb := (hasAff_iff m 3).1 h
  have hS : ∀ M : BMat K, m.SameShape M → M.checkLinear3D = .ok () ∧ M.checkAffine3D = .ok () :=
    fun M hM => ⟨checkLinear3D_ok (hM.hasLin h.hasLin), checkAffine3D_ok (hM.hasAff h)⟩
  have gbv : ∀ i : Int, 0 ≤ i → i ≤ 2 → getBasisVector m i =
      .ok (AVec.mk3 true (m.bel i.toNat 0) (m.bel i.toNat 1) (m.bel i.toNat 2)) := by
    intro i h0 h2
    have : i.toNat < m.bcount := by omega
    simp only [getBasisVector, checkLinear3D_ok h.hasLin, Res.require,
      decide_eq_true (show 0 ≤ i ∧ i ≤ 2 from ⟨h0, h2⟩), if_true]
    lin_run [Res.ok_bind]
  have stb : ∀ (M : BMat K) (i : Int) (v : AVec K), m.SameShape M → 0 ≤ i → i ≤ 2 → v.size = 3 →
      setTransposedBasisVector M i v =
        .ok (((M.bset 0 i.toNat (v.el 0)).bset 1 i.toNat (v.el 1)).bset 2 i.toNat (v.el 2)) := by
    intro M i v hM h0 h2 hv
    have b1 : M.bcount = m.bcount := hM.bcount
    have b2 : M.bsize = m.bsize := hM.bsize
    have : i.toNat < M.bsize := by omega
    simp only [setTransposedBasisVector, (hS M hM).1, AVec.checkSize_ok hv, Res.require,
      decide_eq_true (show 0 ≤ i ∧ i ≤ 2 from ⟨h0, h2⟩), if_true]
    lin_run [Res.ok_bind]
  obtain ⟨m1, e1, s1, d1⟩ : ∃ m1, setTransposedBasisVectors m
      (AVec.mk3 true (m.bel 0 0) (m.bel 0 1) (m.bel 0 2))
      (AVec.mk3 true (m.bel 1 0) (m.bel 1 1) (m.bel 1 2))
      (AVec.mk3 true (m.bel 2 0) (m.bel 2 1) (m.bel 2 2)) = .ok m1 ∧ m.SameShape m1 ∧
      ∀ p q, m1.bel p q = if p < 3 ∧ q < 3 then m.bel q p else m.bel p q := by
    · unfold setTransposedBasisVectors
      rw [stb m 0 _ (SameShape.refl m) (by decide) (by decide) rfl, Res.ok_bind,
        stb _ 1 _ ⟨by simp, by simp, by simp, by simp⟩ (by decide) (by decide) rfl, Res.ok_bind,
        stb _ 2 _ ⟨by simp, by simp, by simp, by simp⟩ (by decide) (by decide) rfl]
      refine ⟨_, rfl, ⟨by simp, by simp, by simp, by simp⟩, ?_⟩
      intro p q
      simp only [bel_bset, Int.toNat_zero, Int.toNat_one, show Int.toNat 2 = 2 from rfl]
      by_cases hpq : p < 3 ∧ q < 3
      · rw [if_pos hpq]
        obtain ⟨hp, hq⟩ := hpq
        interval_cases p <;> interval_cases q <;> simp [AVec.mk3]
      · rw [if_neg hpq]
        repeat rw [if_neg (show ¬(p = _ ∧ q = _) by omega)]
  obtain ⟨p, p1, p2, p3⟩ := getTranslation_spec (s1.hasAff h)
  have pe : ∀ j, j < 3 → p.el j = m.bel 3 j := by
    intro j hj
    have := congrFun p3 ⟨j, hj⟩
    rw [transOf_apply, d1, if_neg (by omega)] at this
    exact this
  obtain ⟨m', f1, f2, f3, f4⟩ := setTranslation_spec (s1.hasAff h)
    (-(m.bel 3 0 * m.bel 0 0 + m.bel 3 1 * m.bel 0 1 + m.bel 3 2 * m.bel 0 2))
    (-(m.bel 3 0 * m.bel 1 0 + m.bel 3 1 * m.bel 1 1 + m.bel 3 2 * m.bel 1 2))
    (-(m.bel 3 0 * m.bel 2 0 + m.bel 3 1 * m.bel 2 1 + m.bel 3 2 * m.bel 2 2))
  refine ⟨m', ?_, RTInverse.of_bel (s1.trans f2) fun r s => ?_⟩
  · have g0 := gbv 0 (by decide) (by decide)
    have g1 := gbv 1 (by decide) (by decide)
    have g2 := gbv 2 (by decide) (by decide)
    simp only [Int.toNat_zero, Int.toNat_one, show Int.toNat 2 = 2 from rfl] at g0 g1 g2
    simp only [invertRTOnly, checkAffine3D_ok h, g0, g1, g2, e1, p1, Res.ok_bind]
    rw [AVec.dot3_ok p2 rfl, AVec.dot3_ok p2 rfl, AVec.dot3_ok p2 rfl]
    simp only [Res.ok_bind, pe 0 (by decide), pe 1 (by decide), pe 2 (by decide)]
    exact f1
  · by_cases e : r = 3 ∧ s < 3
    · rw [if_neg (by omega), if_pos e]
      obtain ⟨rfl, hs⟩ := e
      have := congrFun f3 ⟨s, hs⟩
      rw [transOf_apply] at this
      simp only at this
      rw [this, Fin.sum_univ_three]
      interval_cases s <;> simp <;> ring
    · have : m'.bel r s = m1.bel r s := by
        have hb : m'.basis = m1.basis := f2.basis
        unfold bel
        rw [hb]
        cases hm : m1.basis
        · exact f4 r s (by unfold TransPos; rw [hm]; exact e)
        · exact f4 s r (by unfold TransPos; rw [hm]; exact e)
      rw [this, d1]
      simp only [if_neg e]

/-- C62: `matrix_invert_RT_only_2D`. -/
theorem invertRTOnly2D_spec [CommRing K] {m : BMat K} (h : m.HasAff 2) :
    ∃ m', invertRTOnly2D m = .ok m' ∧ RTInverse m m' 2 := by
  have hb := (hasAff_iff m 2).1 h
  have hS : ∀ M : BMat K, m.SameShape M → M.checkLinear2D = .ok () ∧ M.checkAffine2D = .ok () :=
    fun M hM => ⟨checkLinear2D_ok (hM.hasLin h.hasLin), checkAffine2D_ok (hM.hasAff h)⟩
  have gbv : ∀ i : Int, 0 ≤ i → i ≤ 1 → getBasisVector2D m i =
      .ok (AVec.mk2 true (m.bel i.toNat 0) (m.bel i.toNat 1)) := by
    intro i h0 h2
    have : i.toNat < m.bcount := by omega
    simp only [getBasisVector2D, checkLinear2D_ok h.hasLin, Res.require,
      decide_eq_true (show 0 ≤ i ∧ i ≤ 1 from ⟨h0, h2⟩), if_true]
    lin_run [Res.ok_bind]
  have stb : ∀ (M : BMat K) (i : Int) (v : AVec K), m.SameShape M → 0 ≤ i → i ≤ 1 → v.size = 2 →
      setTransposedBasisVector2D M i v =
        .ok ((M.bset 0 i.toNat (v.el 0)).bset 1 i.toNat (v.el 1)) := by
    intro M i v hM h0 h2 hv
    have b1 : M.bcount = m.bcount := hM.bcount
    have b2 : M.bsize = m.bsize := hM.bsize
    have : i.toNat < M.bsize := by omega
    simp only [setTransposedBasisVector2D, (hS M hM).1, AVec.checkSize_ok hv, Res.require,
      decide_eq_true (show 0 ≤ i ∧ i ≤ 1 from ⟨h0, h2⟩), if_true]
    lin_run [Res.ok_bind]
  obtain ⟨m1, e1, s1, d1⟩ : ∃ m1, setTransposedBasisVectors2D m
      (AVec.mk2 true (m.bel 0 0) (m.bel 0 1)) (AVec.mk2 true (m.bel 1 0) (m.bel 1 1)) = .ok m1 ∧
      m.SameShape m1 ∧ ∀ p q, m1.bel p q = if p < 2 ∧ q < 2 then m.bel q p else m.bel p q := by
    · unfold setTransposedBasisVectors2D
      rw [stb m 0 _ (SameShape.refl m) (by decide) (by decide) rfl, Res.ok_bind,
        stb _ 1 _ ⟨by simp, by simp, by simp, by simp⟩ (by decide) (by decide) rfl]
      refine ⟨_, rfl, ⟨by simp, by simp, by simp, by simp⟩, ?_⟩
      intro p q
      simp only [bel_bset, Int.toNat_zero, Int.toNat_one]
      by_cases hpq : p < 2 ∧ q < 2
      · rw [if_pos hpq]
        obtain ⟨hp, hq⟩ := hpq
        interval_cases p <;> interval_cases q <;> simp [AVec.mk2]
      · rw [if_neg hpq]
        repeat rw [if_neg (show ¬(p = _ ∧ q = _) by omega)]
  obtain ⟨p, p1, p2, p3⟩ := getTranslation2D_spec (s1.hasAff h)
  have pe : ∀ j, j < 2 → p.el j = m.bel 2 j := by
    intro j hj
    have := congrFun p3 ⟨j, hj⟩
    rw [transOf_apply, d1, if_neg (by omega)] at this
    exact this
  obtain ⟨m', f1, f2, f3, f4⟩ := setTranslation2D_spec (s1.hasAff h)
    (-(m.bel 2 0 * m.bel 0 0 + m.bel 2 1 * m.bel 0 1))
    (-(m.bel 2 0 * m.bel 1 0 + m.bel 2 1 * m.bel 1 1))
  refine ⟨m', ?_, RTInverse.of_bel (s1.trans f2) fun r s => ?_⟩
  · have g0 := gbv 0 (by decide) (by decide)
    have g1 := gbv 1 (by decide) (by decide)
    simp only [Int.toNat_zero, Int.toNat_one] at g0 g1
    simp only [invertRTOnly2D, checkAffine2D_ok h, g0, g1, e1, p1, Res.ok_bind]
    rw [AVec.dot2_ok p2 rfl, AVec.dot2_ok p2 rfl]
    simp only [Res.ok_bind, pe 0 (by decide), pe 1 (by decide)]
    exact f1
  · by_cases e : r = 2 ∧ s < 2
    · rw [if_neg (by omega), if_pos e]
      obtain ⟨rfl, hs⟩ := e
      have := congrFun f3 ⟨s, hs⟩
      rw [transOf_apply] at this
      simp only at this
      rw [this, Fin.sum_univ_two]
      interval_cases s <;> simp <;> ring
    · have : m'.bel r s = m1.bel r s := by
        have hb : m'.basis = m1.basis := f2.basis
        unfold bel
        rw [hb]
        cases hm : m1.basis
        · exact f4 r s (by unfold TransPos; rw [hm]; exact e)
        · exact f4 s r (by unfold TransPos; rw [hm]; exact e)
      rw [this, d1]
      simp only [if_neg e]

/-- C62: `matrix_invert_RT` inverts every rigid transform of every dimension, as an affine map and, for
square matrices, under `matrix_concat` in both orders. -/
theorem invertRT_inverse [CommRing K] {m : BMat K} {n : Nat}
    (hm : match m.basis with
      | .row => m.rows = n + 1 ∧ (m.cols = n ∨ m.cols = n + 1)
      | .col => m.cols = n + 1 ∧ (m.rows = n ∨ m.rows = n + 1))
    (hL : (linOf m n).transpose * linOf m n = 1) :
    ∃ m', invertRT m = .ok m' ∧ m.SameShape m' ∧
      (∀ x, affOf m' n (affOf m n x) = x ∧ affOf m n (affOf m' n x) = x) ∧
      (m.Homogeneous n → (∃ c, matrixConcat m m' = .ok c ∧ linOf c (n + 1) = 1) ∧
        ∃ c, matrixConcat m' m = .ok c ∧ linOf c (n + 1) = 1) := by
  obtain ⟨m', h1, h2⟩ := invertRT_spec hm
  exact ⟨m', h1, h2.shape, h2.inverse hL, fun hh => h2.concat hh hL⟩

/-- C62: `matrix_invert_RT_only` and `matrix_invert_RT_only_2D` invert every rigid transform. -/
theorem invertRTOnly_inverse [CommRing K] {m : BMat K} :
    (m.HasAff 3 → (linOf m 3).transpose * linOf m 3 = 1 →
      ∃ m', invertRTOnly m = .ok m' ∧ m.SameShape m' ∧
        (∀ x, affOf m' 3 (affOf m 3 x) = x ∧ affOf m 3 (affOf m' 3 x) = x) ∧
        (m.Homogeneous 3 → (∃ c, matrixConcat m m' = .ok c ∧ linOf c 4 = 1) ∧
          ∃ c, matrixConcat m' m = .ok c ∧ linOf c 4 = 1)) ∧
    (m.HasAff 2 → (linOf m 2).transpose * linOf m 2 = 1 →
      ∃ m', invertRTOnly2D m = .ok m' ∧ m.SameShape m' ∧
        (∀ x, affOf m' 2 (affOf m 2 x) = x ∧ affOf m 2 (affOf m' 2 x) = x) ∧
        (m.Homogeneous 2 → (∃ c, matrixConcat m m' = .ok c ∧ linOf c 3 = 1) ∧
          ∃ c, matrixConcat m' m = .ok c ∧ linOf c 3 = 1)) := by
  constructor
  · intro h hL
    obtain ⟨m', h1, h2⟩ := invertRTOnly_spec h
    exact ⟨m', h1, h2.shape, h2.inverse hL, fun hh => h2.concat hh hL⟩
  · intro h hL
    obtain ⟨m', h1, h2⟩ := invertRTOnly2D_spec h
    exact ⟨m', h1, h2.shape, h2.inverse hL, fun hh => h2.concat hh hL⟩

/-- C62: size errors. -/
theorem invertRT_throws [CommRing K] (m : BMat K) :
    (¬m.HasAff 3 → invertRTOnly m = .throw m.minErr) ∧
    (¬m.HasAff 2 → invertRTOnly2D m = .throw m.minErr) ∧
    (¬(m.bcount = m.bsize ∨ m.bcount = m.bsize + 1) →
      invertRT m = .throw (if m.fixed then .staticAssert else .matSize)) := by
  refine ⟨fun h => ?_, fun h => ?_, fun h => ?_⟩
  · simp only [invertRTOnly, checkAffine3D_throw h, Res.throw_bind]
  · simp only [invertRTOnly2D, checkAffine2D_throw h, Res.throw_bind]
  · have : m.checkAffine = .throw (if m.fixed then .staticAssert else .matSize) := by
      unfold bcount bsize at h
      unfold BMat.checkAffine Res.require
      rw [if_neg]
      rw [decide_eq_true_eq]
      exact h
    simp only [invertRT, this, Res.throw_bind]

/-- A rotation by a quarter turn about z with a translation, 4×4 column basis and 4×3 row basis. -/
def rigidEx (b : Basis) (r c : Nat) : BMat ℚ :=
  BMat.of b false r c fun i j => if j = 3 then (if i = 3 then 1 else 5 + i) else
    if i = 0 ∧ j = 1 then -1 else if i = 1 ∧ j = 0 then 1 else if i = 2 ∧ j = 2 then 1 else 0

/-- The hypotheses of C62 are met by concrete rigid transforms, and the inverse is the expected one. -/
example : (linOf (rigidEx .col 4 4) 3).transpose * linOf (rigidEx .col 4 4) 3 = 1 ∧
    (linOf (rigidEx .row 4 3) 3).transpose * linOf (rigidEx .row 4 3) 3 = 1 ∧
    (rigidEx .col 4 4).HasAff 3 ∧ (rigidEx .row 4 3).HasAff 3 ∧
    BMat.table (invertRT (rigidEx .col 4 4)) =
      .ok [[0, 1, 0, -6], [-1, 0, 0, 5], [0, 0, 1, -7], [0, 0, 0, 1]] ∧
    BMat.table (invertRT (rigidEx .row 4 3)) =
      .ok [[0, -1, 0], [1, 0, 0], [0, 0, 1], [-6, 5, -7]] ∧
    BMat.table (invertRTOnly (rigidEx .row 4 3)) =
      .ok [[0, -1, 0], [1, 0, 0], [0, 0, 1], [-6, 5, -7]] := by
  refine ⟨?_, ?_, by simp [BMat.HasAff, rigidEx, BMat.of], by simp [BMat.HasAff, rigidEx, BMat.of],
    by decide +kernel, by decide +kernel, by decide +kernel⟩
  · ext i j; fin_cases i <;> fin_cases j <;> decide +kernel
  · ext i j; fin_cases i <;> fin_cases j <;> decide +kernel

end
end CML

#print axioms CML.invertRT_spec
#print axioms CML.invertRTOnly_spec
#print axioms CML.invertRTOnly2D_spec
#print axioms CML.invertRT_inverse
#print axioms CML.invertRTOnly_inverse
#print axioms CML.invertRT_throws
