/-!
Model of the axis-order and Euler-order encodings,
`/repo/cml/mathlib/axis_order.h` and `/repo/cml/mathlib/euler_order.h`.
Enumerators are modelled by their integer codes; the bit arithmetic is copied literally.
-/

namespace CML

/-- `enum euler_order`, `/repo/cml/mathlib/euler_order.h:10-24` (the value of each enumerator is its
position, given by `EulerOrder.code`). -/
inductive EulerOrder
  | xyz | xyx | xzy | xzx | yzx | yzy | yxz | yxy | zxy | zxz | zyx | zyz
  deriving DecidableEq, Repr

/-- The enumerator values, `/repo/cml/mathlib/euler_order.h:12-23`. -/
def EulerOrder.code : EulerOrder → Nat
  | .xyz => 0x0 | .xyx => 0x1 | .xzy => 0x2 | .xzx => 0x3
  | .yzx => 0x4 | .yzy => 0x5 | .yxz => 0x6 | .yxy => 0x7
  | .zxy => 0x8 | .zxz => 0x9 | .zyx => 0xA | .zyz => 0xB

/-- Result of `unpack_euler_order` (its five reference parameters). -/
structure EulerUnpacked where
  i : Nat
  j : Nat
  k : Nat
  odd : Bool
  rep : Bool
  deriving DecidableEq, Repr

/-- `cml::unpack_euler_order`, `/repo/cml/mathlib/euler_order.h:33-50`. -/
def unpackEulerOrder (order : Nat) : EulerUnpacked :=
  let rep := (order &&& 0x01) != 0
  let odd := (order &&& 0x02) == 0x02
  let offset := if odd then 1 else 0
  let i := (order &&& 0x0C) % 3
  let j := (i + 1 + offset) % 3
  let k := (i + 2 - offset) % 3
  ⟨i, j, k, odd, rep⟩

/-- `enum axis_order`, `/repo/cml/mathlib/axis_order.h:12-20`. -/
inductive AxisOrder
  | xyz | xzy | yzx | yxz | zxy | zyx
  deriving DecidableEq, Repr

/-- The enumerator values (defined through the Euler orders), `/repo/cml/mathlib/axis_order.h:14-19`. -/
def AxisOrder.code : AxisOrder → Nat
  | .xyz => EulerOrder.xyz.code | .xzy => EulerOrder.xzy.code
  | .yzx => EulerOrder.yzx.code | .yxz => EulerOrder.yxz.code
  | .zxy => EulerOrder.zxy.code | .zyx => EulerOrder.zyx.code

/-- `enum axis_order2D`, `/repo/cml/mathlib/axis_order.h:23-27`. -/
inductive AxisOrder2D
  | xy | yx
  deriving DecidableEq, Repr

/-- The enumerator values, `/repo/cml/mathlib/axis_order.h:25-26`. -/
def AxisOrder2D.code : AxisOrder2D → Nat
  | .xy => AxisOrder.xyz.code | .yx => AxisOrder.yxz.code

/-- Result of `unpack_axis_order`. -/
structure AxisUnpacked where
  i : Nat
  j : Nat
  k : Nat
  odd : Bool
  deriving DecidableEq, Repr

/-- `cml::unpack_axis_order`, `/repo/cml/mathlib/axis_order.h:33-47`. -/
def unpackAxisOrder (order : Nat) : AxisUnpacked :=
  let odd := (order &&& 0x02) == 0x02
  let offset := if odd then 1 else 0
  let i := (order &&& 0x0C) % 3
  let j := (i + 1 + offset) % 3
  let k := (i + 2 - offset) % 3
  ⟨i, j, k, odd⟩

/-- `cml::unpack_axis_order2D`, `/repo/cml/mathlib/axis_order.h:49-62`: `(i, j, odd)`. -/
def unpackAxisOrder2D (order : Nat) : Nat × Nat × Bool :=
  let odd := (order &&& 0x02) == 0x02
  let offset := if odd then 1 else 0
  let i := (order &&& 0x0C) % 3
  let j := (i + 1 + offset) % 3
  (i, j, odd)

/-- `cml::pack_axis_order`, `/repo/cml/mathlib/axis_order.h:64-68` (the integer that is cast to the
enumeration). -/
def packAxisOrder (i : Nat) (odd : Bool) : Nat :=
  (i <<< 2) ||| ((if odd then 1 else 0) <<< 1)

/-- `cml::swap_axis_order`, `/repo/cml/mathlib/axis_order.h:70-77`. -/
def swapAxisOrder (order : Nat) : Nat :=
  let u := unpackAxisOrder order
  packAxisOrder u.j (!u.odd)

end CML
