import Verif.Model.Mixed
import Mathlib.Data.Rat.Floor

/-!
`wrap` and `map_range` for integral types: the language computes `T op T` in the promoted type and converts the
result back, and `scalar_traits<T>::fmod` goes through `double`.

Values are integers; `double` has 53 significant bits and rounds to nearest, ties to even.
-/

namespace CML

/-- `op(a, b)` for two values of the integral type `t`, converted to `t` (by an assignment, as a function
argument or by `return`).  The language; used at `/repo/cml/scalar/functions.h:35-40`. -/
def intOp (o : AOp) (t : ETy) (a b : ℤ) : Res ℤ := do
  match ← (o.apply t t (.int a) (.int b) : Res (Num ℚ)) with
  | .int z => .ok z
  | .real _ => .ub .uninit

/-- A natural number rounded to 53 significant bits, to nearest, ties to even. -/
def round53 (n : Nat) : Nat :=
  let k := n.log2 + 1 - 53
  let q := n / 2 ^ k
  let r := n % 2 ^ k
  if 2 * r < 2 ^ k ∨ (2 * r = 2 ^ k ∧ q % 2 = 0) then q * 2 ^ k else (q + 1) * 2 ^ k

/-- `double(v)` for an integer, which is always an integer again. -/
def toDouble (v : ℤ) : ℤ := v.sign * round53 v.natAbs

/-- `scalar_traits<T>::fmod(v, w)` for an integral type, `/repo/cml/scalar/traits.h:43-46`: the remainder of the
truncated quotient (which `std::fmod` computes without rounding), converted to `T`.  The remainder by zero is a NaN,
whose conversion is undefined. -/
def fmodI (t : ETy) (v w : ℤ) : Res ℤ :=
  if toDouble w = 0 then .ub .overflow
  else
    let r := (toDouble v).tmod (toDouble w)
    if t.lo ≤ r ∧ r ≤ t.hi then .ok r else .ub .overflow

/-- `cml::wrap<T>(value, min, max)` for an integral type, `/repo/cml/scalar/functions.h:31-41`. -/
def wrapI (t : ETy) (value min max : ℤ) : Res ℤ := do
  let max ← intOp .sub t max min
  let d ← intOp .sub t value min
  let value ← fmodI t d max
  let value ← if value < 0 then intOp .add t value max else .ok value
  intOp .add t min value

/-- `cml::map_range<T>(value, min1, max1, min2, max2)` for an integral type,
`/repo/cml/scalar/functions.h:52-57`: all operators work in the promoted type, and `return` converts to `T`. -/
def mapRangeI (t : ETy) (value min1 max1 min2 max2 : ℤ) : Res ℤ := do
  let p := t.promote
  let a ← (AOp.sub.builtin t t (.int value) (.int min1) : Res (Num ℚ))
  let b ← AOp.sub.builtin t t (.int max1) (.int min1)
  let q ← AOp.div.builtin p p a b
  let c ← AOp.sub.builtin t t (.int max2) (.int min2)
  let m ← AOp.mul.builtin p p q c
  let r ← AOp.add.builtin t p (.int min2) m
  match ← r.conv t with
  | .int z => .ok z
  | .real _ => .ub .uninit

end CML
