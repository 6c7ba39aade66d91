import Verif.Model.Geometry
import Verif.Model.MatOps
import Verif.Model.Quat
import Verif.Model.Promotion
import Mathlib.Analysis.SpecialFunctions.Trigonometric.Inverse

/-!
Numeric constants (`/repo/cml/scalar/constants.h`), guarded scalar functions
(`/repo/cml/scalar/functions.h`), printing of matrices and quaternions (`/repo/cml/util/*_print.tpp`) and the
complete storage promotion including allocators (`/repo/cml/storage/promotion.h`).
-/

namespace CML

/-! ### Numeric constants -/

/-- `M_PI`, `/repo/cml/scalar/constants.h:9-11`.  Simplification common to the constants: the decimal literal
is taken exactly, without the rounding to `double` and to `Float`. -/
noncomputable def mPi : ℝ := 3.14159265358979323846
/-- `M_SQRT2`, `/repo/cml/scalar/constants.h:13-15`. -/
noncomputable def mSqrt2 : ℝ := 1.41421356237309504880
/-- `M_E`, `/repo/cml/scalar/constants.h:17-19`. -/
noncomputable def mE : ℝ := 2.71828182845904523536

namespace Consts
/-- `constants::pi`, `/repo/cml/scalar/constants.h:29`. -/
noncomputable def pi : ℝ := mPi
/-- `constants::two_pi`, `/repo/cml/scalar/constants.h:31`. -/
noncomputable def twoPi : ℝ := 2 * mPi
/-- `constants::inv_pi`, `/repo/cml/scalar/constants.h:33`. -/
noncomputable def invPi : ℝ := 1 / mPi
/-- `constants::inv_two_pi`, `/repo/cml/scalar/constants.h:35`. -/
noncomputable def invTwoPi : ℝ := 1 / (2 * mPi)
/-- `constants::pi_over_2`, `/repo/cml/scalar/constants.h:37`. -/
noncomputable def piOver2 : ℝ := mPi / 2
/-- `constants::pi_over_4`, `/repo/cml/scalar/constants.h:39`. -/
noncomputable def piOver4 : ℝ := mPi / 4
/-- `constants::e`, `/repo/cml/scalar/constants.h:41`. -/
noncomputable def e : ℝ := mE
/-- `constants::deg_per_rad`, `/repo/cml/scalar/constants.h:43`. -/
noncomputable def degPerRad : ℝ := 180 / mPi
/-- `constants::rad_per_deg`, `/repo/cml/scalar/constants.h:45`. -/
noncomputable def radPerDeg : ℝ := mPi / 180
/-- `constants::sqrt_2`, `/repo/cml/scalar/constants.h:47`. -/
noncomputable def sqrt2 : ℝ := mSqrt2
/-- `constants::sqrt_3`, `/repo/cml/scalar/constants.h:49`. -/
noncomputable def sqrt3 : ℝ := 1.73205080756887729353
/-- `constants::sqrt_5`, `/repo/cml/scalar/constants.h:51`. -/
noncomputable def sqrt5 : ℝ := 2.23606797749978969641
/-- `constants::sqrt_6`, `/repo/cml/scalar/constants.h:53`. -/
noncomputable def sqrt6 : ℝ := 2.44948974278317809820
end Consts

/-! ### Guarded scalar functions -/

/-- `asin_safe(x)`, `/repo/cml/scalar/functions.h:67-73`. -/
noncomputable def asinSafe (x : ℝ) : ℝ := Real.arcsin (clamp x (-1) 1)

/-- `sqrt_safe(x)`, `/repo/cml/scalar/functions.h:75-81`. -/
noncomputable def sqrtSafe (x : ℝ) : ℝ := Real.sqrt (stdMax x 0)

/-- `inv_sqrt(x)`, `/repo/cml/scalar/functions.h:99-105`.  The NaN of a negative argument is not
represented; the theorems assume `0 ≤ x`. -/
noncomputable def invSqrt (x : ℝ) : Res ℝ := divR 1 (Real.sqrt x)

/-- `deg(x)`, `/repo/cml/scalar/functions.h:107-113`. -/
noncomputable def deg (theta : ℝ) : ℝ := theta * Consts.degPerRad

/-- `rad(x)`, `/repo/cml/scalar/functions.h:115-121`. -/
noncomputable def rad (theta : ℝ) : ℝ := theta * Consts.radPerDeg

/-- `random_polar()`, `/repo/cml/scalar/functions.h:140-145`; `b` is the value drawn by
`random_binary()`, lines 133-138. -/
def randomPolar (b : Int) : Int := if b ≠ 0 then 1 else -1

/-- `length_squared(x, y)`, `/repo/cml/scalar/functions.h:164-170`. -/
def lengthSquared2 {K : Type} [Add K] [Mul K] (x y : K) : K := x * x + y * y

/-- `length_squared(x, y, z)`, `/repo/cml/scalar/functions.h:172-178`. -/
def lengthSquared3 {K : Type} [Add K] [Mul K] (x y z : K) : K := x * x + y * y + z * z

/-- `length(x, y)`, `/repo/cml/scalar/functions.h:180-186`. -/
noncomputable def length2 (x y : ℝ) : ℝ := Real.sqrt (lengthSquared2 x y)

/-- `length(x, y, z)`, `/repo/cml/scalar/functions.h:188-194`. -/
noncomputable def length3 (x y z : ℝ) : ℝ := Real.sqrt (lengthSquared3 x y z)

/-! ### Printing -/

/-- What is sent to the stream: a string literal, an element, or `std::endl`. -/
inductive Tok (E : Type)
  | lit (s : String)
  | val (x : E)
  | endl
  deriving DecidableEq, Repr

section Print
variable {E : Type} [Add E] [Sub E] [Mul E] [Div E] [Neg E]

/-- One row of `operator<<(os, M)`, `/repo/cml/util/matrix_print.tpp:19-21`. -/
def mPrintRow (s : State E) (a : MNode E) (i cols : Nat) (os : List (Tok E)) : Res (List (Tok E)) := do
  let os := os ++ [.lit "["]
  let os ← Res.loop (fun j os => do let x ← a.get s i j; pure (os ++ [.lit " ", .val x])) 0 cols os
  pure (os ++ [.lit " ]"])

/-- `operator<<(os, M)`, `/repo/cml/util/matrix_print.tpp:14-25`.  `rows()` and `cols()` are evaluated
once instead of at every iteration. -/
def mPrint (s : State E) (a : MNode E) : Res (List (Tok E)) := do
  let d ← a.dims s
  Res.loop (fun i os => do
    let os ← mPrintRow s a i d.2.toNat os
    pure (if (i : Int) ≠ d.1 - 1 then os ++ [.endl] else os)) 0 d.1.toNat []

/-- `operator<<(os, q)`, `/repo/cml/util/quaternion_print.tpp:15-24`. -/
def qPrint {E : Type} [CommRing E] [Div E] [DecidableEq E] (s : QState E) (q : QNode E) :
    Res (List (Tok E)) := do
  let w ← q.get s q.order.W
  let x ← q.get s q.order.X
  let y ← q.get s q.order.Y
  let z ← q.get s q.order.Z
  pure [.lit "[ ", .lit " ", .val w, .lit " ", .val x, .lit " ", .val y, .lit " ", .val z, .lit " ]"]

end Print

/-! ### UStorage promotion with allocators -/

/-- An allocator, rebound to `void*` (`/repo/cml/storage/allocated_selector.h:206-209`):
`std::allocator<void*>` or a user-defined one. -/
inductive Alloc | std | user (n : Nat)
  deriving DecidableEq, Repr

/-- Unbound storage types: `compiled<>`, `allocated<A>`, `external<>`, `any_storage<>`. -/
inductive UStorage | compiled | allocated (a : Alloc) | external | any
  deriving DecidableEq, Repr

/-- `selector_type` of a storage type, e.g. `/repo/cml/storage/allocated_selector.h:64`,
`/repo/cml/storage/compiled_selector.h:51`. -/
def UStorage.selector : UStorage → Selector
  | .compiled => .compiled
  | .allocated _ => .allocated
  | .external => .external
  | .any => .any

/-- `allocator_type` of `storage_disambiguate`, `/repo/cml/storage/allocated_selector.h:206-236`. -/
def allocDisambiguate (l r : Alloc) : Alloc :=
  let isSame := l == r
  let leftDefault := l == .std
  let rightDefault := r == .std
  let preferLeft := !leftDefault && rightDefault
  let preferRight := !rightDefault && leftDefault
  if isSame then l else if preferLeft then l else if preferRight then r else .std

/-- `storage_disambiguate_t`, `/repo/cml/storage/allocated_selector.h:201-240`,
`/repo/cml/storage/compiled_selector.h:119-124`, `/repo/cml/storage/external_selector.h:161-166`,
`/repo/cml/storage/any_selector.h:127-132`; `none` models the type `void` of the primary template
(`/repo/cml/storage/type_util.h:94-97`). -/
def storageDisambiguate : UStorage → UStorage → Option UStorage
  | .compiled, .compiled => some .compiled
  | .allocated a, .allocated b => some (.allocated (allocDisambiguate a b))
  | .external, .external => some .external
  | .any, .any => some .any
  | _, _ => none

/-- `storage_promote_t`, `/repo/cml/storage/promotion.h:17-100`.  `fixed1`, `fixed2` tell whether the
bound storage types have a fixed size; a storage type is otherwise represented by its unbound type
(`unbound_type` drops the sizes but keeps the allocator).  `none` models a failing `static_assert`, lines
78 and 87. -/
def storagePromote (preferDynamic fixed1 fixed2 : Bool) (s1 s2 : UStorage) : Option UStorage :=
  match selectorPromote preferDynamic fixed1 fixed2 s1.selector s2.selector with
  | none => none
  | some sel =>
    let isLeft := sel == s1.selector
    let isRight := sel == s2.selector
    if isLeft && isRight then storageDisambiguate s1 s2
    else if isLeft then some s1
    else if isRight then some s2
    else none

end CML
