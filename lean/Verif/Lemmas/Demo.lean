import Verif.Spec.Stable
import Verif.Tactics

/-! A concrete state used by the examples beside the theorems. -/

namespace CML

/-- Three vectors: `v0` fixed-size 3, `v1` dynamic of size 3, `v2` dynamic of size 2; one fixed 3×3
matrix `m0`. -/
def exS : State ℤ :=
  demo [[some 1, some 2, some 3], [some 4, some 5, some 6], [some 7, some 8],
      [some 1, some 2, some 3, some 4, some 5, some 6, some 7, some 8, some 9]]
    [⟨.compiled, true, some 0, 0, 3⟩, ⟨.allocated, false, some 1, 0, 3⟩,
      ⟨.allocated, false, some 2, 0, 2⟩]
    [⟨.compiled, true, some 3, 0, 3, 3, false, false⟩]

/-- The values of the variables of `exS`. -/
def exρ : Env ℤ :=
  ⟨fun x => match x with
    | 0 => some ⟨3, ![1, 2, 3]⟩
    | 1 => some ⟨3, ![4, 5, 6]⟩
    | 2 => some ⟨2, ![7, 8]⟩
    | _ => none,
   fun x => match x with
    | 0 => some ⟨3, 3, ![![1, 2, 3], ![4, 5, 6], ![7, 8, 9]]⟩
    | _ => none⟩

theorem exS_agree : Agree exS exρ := by
  constructor
  · intro x p h
    match x, h with
    | 0, h =>
      simp only [exρ, Option.some.injEq] at h
      subst h
      exact ⟨rfl, fun i => by fin_cases i <;> rfl⟩
    | 1, h =>
      simp only [exρ, Option.some.injEq] at h
      subst h
      exact ⟨rfl, fun i => by fin_cases i <;> rfl⟩
    | 2, h =>
      simp only [exρ, Option.some.injEq] at h
      subst h
      exact ⟨rfl, fun i => by fin_cases i <;> rfl⟩
    | n + 3, h => simp [exρ] at h
  · intro x p h
    match x, h with
    | 0, h =>
      simp only [exρ, Option.some.injEq] at h
      subst h
      exact ⟨rfl, fun i j => by fin_cases i <;> fin_cases j <;> rfl⟩
    | n + 1, h => simp [exρ] at h

end CML
