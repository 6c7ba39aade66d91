import Verif.Model.Hash
import Mathlib.Logic.Function.Basic
import Mathlib.Data.Fintype.EquivFin
import Mathlib.Data.Fintype.Card
import Mathlib.Data.BitVec

/-!
Property theorems C18: the vector hash.
-/

namespace CML

/-! ### Helper lemmas: each step of the mixing functions is injective -/

instance finite_bitVec (w : Nat) : Finite (BitVec w) :=
  Finite.of_injective (fun x : BitVec w => x.toFin) fun _ _ h => BitVec.eq_of_toFin_eq h

/-- Multiplication by an invertible constant is injective. -/
theorem mul_right_inj_of_inv {w : Nat} {m minv : BitVec w} (h : m * minv = 1#w) :
    Function.Injective fun x : BitVec w => x * m := by
  intro a b hab
  have : a * m * minv = b * m * minv := by
    show (fun x => x * m) a * minv = (fun x => x * m) b * minv
    rw [hab]
  simpa [BitVec.mul_assoc, h] using this

/-- The xor-shift step undoes itself when the shift is at least half the width. -/
theorem xorshift_invol (x : BitVec 64) :
    (x ^^^ (x >>> 47)) ^^^ ((x ^^^ (x >>> 47)) >>> 47) = x := by
  apply BitVec.eq_of_getLsbD_eq
  intro i hi
  simp only [BitVec.getLsbD_xor, BitVec.getLsbD_ushiftRight]
  have : x.getLsbD (47 + (47 + i)) = false := BitVec.getLsbD_of_ge _ _ (by omega)
  rw [this]
  simp

theorem hashRotl32_eq (x : BitVec 32) (r : Nat) (h : r < 32) : hashRotl32 x r = x.rotateLeft r := by
  rw [BitVec.rotateLeft_def, Nat.mod_eq_of_lt h]; rfl

/-- Rotation is injective. -/
theorem hashRotl32_inj {r : Nat} (h : r < 32) : Function.Injective fun x => hashRotl32 x r := by
  intro a b hab
  simp only [hashRotl32_eq _ _ h] at hab
  apply BitVec.eq_of_getLsbD_eq
  intro i hi
  have key : ∀ x : BitVec 32, x.getLsbD i = (x.rotateLeft r).getLsbD ((i + r) % 32) := by
    intro x
    rw [BitVec.getLsbD_rotateLeft, Nat.mod_eq_of_lt h]
    rcases Nat.lt_or_ge (i + r) 32 with h1 | h1
    · rw [Nat.mod_eq_of_lt h1]
      simp only [show ¬ (i + r < r) by omega, decide_false, cond_false, h1, decide_true, Bool.true_and]
      congr 1; omega
    · have : (i + r) % 32 = i + r - 32 := by omega
      rw [this]
      simp only [show i + r - 32 < r by omega, decide_true, cond_true]
      congr 1; omega
  rw [key a, key b, hab]

theorem xor_right_inj {w : Nat} (h : BitVec w) : Function.Injective fun k => h ^^^ k := by
  intro a b hab
  have : h ^^^ (h ^^^ a) = h ^^^ (h ^^^ b) := by
    show h ^^^ (fun k => h ^^^ k) a = h ^^^ (fun k => h ^^^ k) b
    rw [hab]
  simpa [← BitVec.xor_assoc] using this

theorem xor_left_inj {w : Nat} (k : BitVec w) : Function.Injective fun h => h ^^^ k := by
  intro a b hab
  have : (a ^^^ k) ^^^ k = (b ^^^ k) ^^^ k := by
    show (fun h => h ^^^ k) a ^^^ k = (fun h => h ^^^ k) b ^^^ k
    rw [hab]
  simpa [BitVec.xor_assoc] using this

theorem add_right_inj' {w : Nat} (c : BitVec w) : Function.Injective fun x => x + c := by
  intro a b hab
  have : a + c - c = b + c - c := by
    show (fun x => x + c) a - c = (fun x => x + c) b - c
    rw [hab]
  simpa using this

/-! ### Property theorems -/

/-- C18: the 32-bit combine step is a bijection in the element hash, for every running state. -/
theorem hashCombine32_bij_elem (h1 : BitVec 32) : Function.Bijective fun k1 => hashCombine32 h1 k1 := by
  refine Finite.injective_iff_bijective.mp fun a b hab => ?_
  have s1 := add_right_inj' _ hab
  have s2 := mul_right_inj_of_inv (m := 5#32) (minv := 0xcccccccd#32) (by decide) s1
  have s3 := hashRotl32_inj (r := 13) (by omega) s2
  have s4 := xor_right_inj _ s3
  have s5 := mul_right_inj_of_inv (m := 0x1b873593#32) (minv := 0x56ed309b#32) (by decide) s4
  have s6 := hashRotl32_inj (r := 15) (by omega) s5
  exact mul_right_inj_of_inv (m := 0xcc9e2d51#32) (minv := 0xdee13bb1#32) (by decide) s6

/-- C18: the 32-bit combine step is a bijection in the running state, for every element hash. -/
theorem hashCombine32_bij_state (k1 : BitVec 32) : Function.Bijective fun h1 => hashCombine32 h1 k1 := by
  refine Finite.injective_iff_bijective.mp fun a b hab => ?_
  have s1 := add_right_inj' _ hab
  have s2 := mul_right_inj_of_inv (m := 5#32) (minv := 0xcccccccd#32) (by decide) s1
  have s3 := hashRotl32_inj (r := 13) (by omega) s2
  exact xor_left_inj _ s3

/-- C18: the 64-bit combine step is a bijection in the element hash, for every running state. -/
theorem hashCombine64_bij_elem (h : BitVec 64) : Function.Bijective fun k => hashCombine64 h k := by
  refine Finite.injective_iff_bijective.mp fun a b hab => ?_
  have hm : (0xc6a4a7935bd1e995#64) * 0x5f7a0ea7e59b19bd#64 = 1#64 := by decide
  have s1 := add_right_inj' _ hab
  have s2 := mul_right_inj_of_inv hm s1
  have s3 := xor_right_inj _ s2
  have s4 := mul_right_inj_of_inv hm s3
  have s5 : ∀ x y : BitVec 64, x ^^^ (x >>> 47) = y ^^^ (y >>> 47) → x = y := by
    intro x y hxy
    rw [← xorshift_invol x, hxy, xorshift_invol y]
  exact mul_right_inj_of_inv hm (s5 _ _ s4)

/-- C18: the 64-bit combine step is a bijection in the running state, for every element hash. -/
theorem hashCombine64_bij_state (k : BitVec 64) : Function.Bijective fun h => hashCombine64 h k := by
  refine Finite.injective_iff_bijective.mp fun a b hab => ?_
  have hm : (0xc6a4a7935bd1e995#64) * 0x5f7a0ea7e59b19bd#64 = 1#64 := by decide
  have s1 := add_right_inj' _ hab
  have s2 := mul_right_inj_of_inv hm s1
  exact xor_left_inj _ s2

/-- Fold of state-injective steps is injective in the starting state. -/
theorem foldl_inj {w : Nat} {combine : BitVec w → BitVec w → BitVec w}
    (hs : ∀ k, Function.Injective fun h => combine h k) (l : List (BitVec w)) :
    Function.Injective fun h => l.foldl combine h := by
  induction l with
  | nil => exact fun a b h => h
  | cons x l ih => exact fun a b h => hs x (ih h)

/-- Generic form of C18: the hash is a bijective function of the element hash at every single
position, whatever the other elements are. -/
theorem vectorHash_bij {w : Nat} {combine : BitVec w → BitVec w → BitVec w}
    (hs : ∀ k, Function.Bijective fun h => combine h k)
    (he : ∀ h, Function.Bijective fun k => combine h k) (pre post : List (BitVec w)) :
    Function.Bijective fun x => vectorHash combine (pre ++ x :: post) := by
  refine Finite.injective_iff_bijective.mp fun a b hab => ?_
  simp only [vectorHash, List.foldl_append, List.foldl_cons] at hab
  exact (he _).1 (foldl_inj (fun k => (hs k).1) post hab)

/-- C18 (32-bit `size_t`): vectors of any size that differ in exactly one element hash never
collide, and every hash value is reached by exactly one choice of that element hash. -/
theorem vectorHash32_separates (pre post : List (BitVec 32)) :
    Function.Bijective fun x => vectorHash hashCombine32 (pre ++ x :: post) :=
  vectorHash_bij hashCombine32_bij_state hashCombine32_bij_elem pre post

/-- C18 (64-bit `size_t`). -/
theorem vectorHash64_separates (pre post : List (BitVec 64)) :
    Function.Bijective fun x => vectorHash hashCombine64 (pre ++ x :: post) :=
  vectorHash_bij hashCombine64_bij_state hashCombine64_bij_elem pre post

/-- C18 in index form: two same-sized vectors whose element hashes differ at exactly one position
have different hashes (64-bit; the 32-bit case is the next theorem). -/
theorem vectorHash_ne_of_single_diff (l : List (BitVec 64)) (i : Nat) (hi : i < l.length)
    (x : BitVec 64) (hx : l[i] ≠ x) :
    vectorHash hashCombine64 l ≠ vectorHash hashCombine64 (l.set i x) := by
  rw [List.set_eq_take_append_cons_drop, if_pos hi]
  conv_lhs => rw [← List.take_append_drop i l, List.drop_eq_getElem_cons hi]
  intro h
  exact hx ((vectorHash64_separates (l.take i) (l.drop (i + 1))).1 h)

/-- C18 in index form, 32-bit. -/
theorem vectorHash32_ne_of_single_diff (l : List (BitVec 32)) (i : Nat) (hi : i < l.length)
    (x : BitVec 32) (hx : l[i] ≠ x) :
    vectorHash hashCombine32 l ≠ vectorHash hashCombine32 (l.set i x) := by
  rw [List.set_eq_take_append_cons_drop, if_pos hi]
  conv_lhs => rw [← List.take_append_drop i l, List.drop_eq_getElem_cons hi]
  intro h
  exact hx ((vectorHash32_separates (l.take i) (l.drop (i + 1))).1 h)

example : vectorHash hashCombine64 [3, 1, 4] ≠ vectorHash hashCombine64 [3, 9, 4] :=
  vectorHash_ne_of_single_diff [3, 1, 4] 1 (by decide) 9 (by decide)

/-- C18: in contrast vectors that differ in several positions may collide (so equality of hashes
does not imply equality of vectors). -/
theorem vectorHash64_not_injective :
    ¬ Function.Injective fun p : BitVec 64 × BitVec 64 => vectorHash hashCombine64 [p.1, p.2] := by
  intro h
  have h1 := (vectorHash64_separates [0] []).2 (vectorHash hashCombine64 [1, 0])
  obtain ⟨x, hx⟩ := h1
  have := @h (0, x) (1, 0) hx
  simp at this

end CML
