import Mathlib.Algebra.Order.Floor.Ring
import Mathlib.Algebra.Order.Field.Basic

/-!
Model of the scalar helper functions, `/repo/cml/scalar/functions.h`.

Simplification common to the whole file: a C++ arithmetic type is replaced by a linearly ordered
set / ordered field, so NaN, rounding and overflow are not represented.
-/

namespace CML

/-- `std::min(a, b)`: returns `b` only when `b < a` (C++ standard library semantics, used by
`/repo/cml/scalar/functions.h:27`). -/
def stdMin {α : Type*} [LT α] [DecidableLT α] (a b : α) : α := if b < a then b else a

/-- `std::max(a, b)`: returns `b` only when `a < b` (C++ standard library semantics, used by
`/repo/cml/scalar/functions.h:27,80`). -/
def stdMax {α : Type*} [LT α] [DecidableLT α] (a b : α) : α := if a < b then b else a

/-- `cml::sign`, `/repo/cml/scalar/functions.h:15-20`. -/
def sign {α : Type*} [Zero α] [One α] [Neg α] [LT α] [DecidableLT α] (value : α) : α :=
  if value < 0 then -1 else if 0 < value then 1 else 0

/-- `cml::clamp`, `/repo/cml/scalar/functions.h:23-28`. -/
def clamp {α : Type*} [LT α] [DecidableLT α] (value min max : α) : α :=
  stdMax (stdMin value max) min

/-- `std::fmod(x, y)` for finite `x` and non-zero `y`: `x - y * trunc(x / y)`
(`scalar_traits<T>::fmod`, called at `/repo/cml/scalar/functions.h:36`).  The result for `y = 0`
(NaN in C++) is not meaningful here; theorems assume `y ≠ 0`. -/
def fmod {K : Type*} [Field K] [LinearOrder K] [FloorRing K] (x y : K) : K :=
  x - y * (if 0 ≤ x / y then (⌊x / y⌋ : K) else (⌈x / y⌉ : K))

/-- `cml::wrap`, `/repo/cml/scalar/functions.h:31-41`. -/
def wrap {K : Type*} [Field K] [LinearOrder K] [FloorRing K] (value min max : K) : K :=
  let max := max - min
  let value := fmod (value - min) max
  let value := if value < 0 then value + max else value
  min + value

/-- `cml::in_range`, `/repo/cml/scalar/functions.h:44-49`. -/
def inRange {α : Type*} [LT α] [DecidableLT α] (value min max : α) : Bool :=
  !(decide (value < min)) && !(decide (max < value))

/-- `cml::map_range`, `/repo/cml/scalar/functions.h:52-57`. -/
def mapRange {K : Type*} [Field K] (value min1 max1 min2 max2 : K) : K :=
  min2 + ((value - min1) / (max1 - min1)) * (max2 - min2)

/-- `cml::sqr`, `/repo/cml/scalar/functions.h:84-89`. -/
def sqr {K : Type*} [Mul K] (value : K) : K := value * value

/-- `cml::cub`, `/repo/cml/scalar/functions.h:92-97`. -/
def cub {K : Type*} [Mul K] (value : K) : K := value * value * value

/-- `cml::next`, `/repo/cml/scalar/functions.h:208-212` (`int` modelled as `Nat`; the C++ comment
restricts the function to non-negative integers). -/
def next (i N : Nat) : Nat := (i + 1) % N

/-- `cml::prev`, `/repo/cml/scalar/functions.h:215-219`. -/
def prev (i N : Nat) : Nat := if i ≠ 0 then i - 1 else N - 1

/-- `cml::cyclic_permutation` of two indices, `/repo/cml/scalar/functions.h:222-227`. -/
def cyclicPermutation2 (first : Nat) : Nat × Nat :=
  let i := first
  let j := next i 2
  (i, j)

/-- `cml::cyclic_permutation` of three indices, `/repo/cml/scalar/functions.h:230-236`. -/
def cyclicPermutation3 (first : Nat) : Nat × Nat × Nat :=
  let i := first
  let j := next i 3
  let k := next j 3
  (i, j, k)

/-- `cml::cyclic_permutation` of four indices, `/repo/cml/scalar/functions.h:239-246`. -/
def cyclicPermutation4 (first : Nat) : Nat × Nat × Nat × Nat :=
  let i := first
  let j := next i 4
  let k := next j 4
  let l := next k 4
  (i, j, k, l)

section Index
variable {α : Type*} [LT α] [DecidableLT α]

/-- `cml::index_of_max(a,b)`, `/repo/cml/scalar/functions.h:252-257`. -/
def indexOfMax2 (a b : α) : Nat := if b < a then 0 else 1

/-- `cml::index_of_min(a,b)`, `/repo/cml/scalar/functions.h:269-274`. -/
def indexOfMin2 (a b : α) : Nat := if a < b then 0 else 1

/-- `cml::index_of_max(a,b,c)`, `/repo/cml/scalar/functions.h:286-291`. -/
def indexOfMax3 (a b c : α) : Nat :=
  if b < a then (if a < c then 2 else 0) else (if c < b then 1 else 2)

/-- `cml::index_of_min(a,b,c)`, `/repo/cml/scalar/functions.h:303-308`. -/
def indexOfMin3 (a b c : α) : Nat :=
  if a < b then (if c < a then 2 else 0) else (if b < c then 1 else 2)

/-- `cml::index_of_max(a,b,c,d)`, `/repo/cml/scalar/functions.h:320-329`. -/
def indexOfMax4 (a b c d : α) : Nat :=
  if b < a then
    if d < c then (if c < a then 0 else 2) else (if d < a then 0 else 3)
  else
    if d < c then (if c < b then 1 else 2) else (if d < b then 1 else 3)

/-- `cml::index_of_min(a,b,c,d)`, `/repo/cml/scalar/functions.h:341-350`. -/
def indexOfMin4 (a b c d : α) : Nat :=
  if a < b then
    if c < d then (if a < c then 0 else 2) else (if a < d then 0 else 3)
  else
    if c < d then (if b < c then 1 else 2) else (if b < d then 1 else 3)

end Index

section IndexAbs
variable {α : Type*} [Lattice α] [AddGroup α] [DecidableLT α]

/-- `cml::index_of_max_abs(a,b)`, `/repo/cml/scalar/functions.h:260-266` (`fabs` is `|·|`). -/
def indexOfMaxAbs2 (a b : α) : Nat := indexOfMax2 |a| |b|

/-- `cml::index_of_min_abs(a,b)`, `/repo/cml/scalar/functions.h:277-283`. -/
def indexOfMinAbs2 (a b : α) : Nat := indexOfMin2 |a| |b|

/-- `cml::index_of_max_abs(a,b,c)`, `/repo/cml/scalar/functions.h:294-300`. -/
def indexOfMaxAbs3 (a b c : α) : Nat := indexOfMax3 |a| |b| |c|

/-- `cml::index_of_min_abs(a,b,c)`, `/repo/cml/scalar/functions.h:311-317`. -/
def indexOfMinAbs3 (a b c : α) : Nat := indexOfMin3 |a| |b| |c|

/-- `cml::index_of_max_abs(a,b,c,d)`, `/repo/cml/scalar/functions.h:332-338`. -/
def indexOfMaxAbs4 (a b c d : α) : Nat := indexOfMax4 |a| |b| |c| |d|

/-- `cml::index_of_min_abs(a,b,c,d)`, `/repo/cml/scalar/functions.h:353-359`. -/
def indexOfMinAbs4 (a b c d : α) : Nat := indexOfMin4 |a| |b| |c| |d|

end IndexAbs

end CML
