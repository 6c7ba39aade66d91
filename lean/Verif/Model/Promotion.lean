/-!
Model of the type-level promotion rules, `/repo/cml/common/promotion.h` and
`/repo/cml/storage/promotion.h`.  A tag type is modelled by an enumeration value; the template
conditionals are copied as Boolean conditionals.
-/

namespace CML

/-- Size tags, `/repo/cml/common/size_tags.h`. -/
inductive SizeTag | fixed | dyn | any
  deriving DecidableEq, Repr

/-- Basis tags, `/repo/cml/common/basis_tags.h`. -/
inductive BasisTag | row | col | any
  deriving DecidableEq, Repr

/-- Layout tags, `/repo/cml/common/layout_tags.h`. -/
inductive LayoutTag | row | col | any
  deriving DecidableEq, Repr

/-- Storage selectors, `/repo/cml/storage/selectors.h`. -/
inductive Selector | compiled | allocated | external | any
  deriving DecidableEq, Repr

/-- `size_check_promote`, `/repo/cml/common/promotion.h:22-41`. -/
def sizeCheckPromote (t1 t2 : SizeTag) : SizeTag :=
  let isAny := t1 == .any || t2 == .any
  let isFixed := t1 == .fixed && t2 == .fixed
  if isAny then .any else if isFixed then .fixed else .dyn

/-- `size_tag_promote`, `/repo/cml/common/promotion.h:54-81`. -/
def sizeTagPromote (t1 t2 : SizeTag) : SizeTag :=
  let isFixed := t1 == .fixed || t2 == .fixed
  let isDynamic := !isFixed && (t1 == .dyn || t2 == .dyn)
  if isFixed then .fixed else if isDynamic then .dyn else .any

/-- `is_same_pair<A, B, X, Y>`: the pair `(A, B)` is `(X, Y)` or `(Y, X)`
(`/repo/cml/common/mpl/is_same_pair.h`). -/
def isSamePair {α : Type} [DecidableEq α] (a b x y : α) : Bool :=
  (a == x && b == y) || (a == y && b == x)

/-- `basis_tag_promote`, `/repo/cml/common/promotion.h:107-127`. -/
def basisTagPromote (t1 t2 : BasisTag) : BasisTag :=
  let isRow := isSamePair t1 t2 .row .row || isSamePair t1 t2 .row .any
  let isCol := isSamePair t1 t2 .col .col || isSamePair t1 t2 .col .any
  if isRow then .row else if isCol then .col else .any

/-- `layout_tag_promote`, `/repo/cml/common/promotion.h:155-175`. -/
def layoutTagPromote (t1 t2 : LayoutTag) : LayoutTag :=
  let isRow := isSamePair t1 t2 .row .row || isSamePair t1 t2 .row .any
  let isCol := isSamePair t1 t2 .col .col || isSamePair t1 t2 .col .any
  if isRow then .row else if isCol then .col else .any

/-- The selector table of `storage_promote`, `/repo/cml/storage/promotion.h:28-70`, in source order;
`isFixed` is the member constant of lines 28-29. -/
def selectorTable (isFixed : Bool) : List (Selector × Selector × Selector) :=
  [ (.compiled, .compiled, .compiled),
    (.compiled, .allocated, if isFixed then .compiled else .allocated),
    (.compiled, .external, if isFixed then .compiled else .external),
    (.compiled, .any, .compiled),
    (.allocated, .allocated, .allocated),
    (.allocated, .external, .allocated),
    (.allocated, .any, .allocated),
    (.external, .external, .external),
    (.external, .any, .external),
    (.any, .any, .any) ]

/-- Symmetric lookup in the table (`type_table::find`, `/repo/cml/common/mpl/type_table.h`), `none`
modelling the failing `static_assert` of `/repo/cml/storage/promotion.h:78`. -/
def selectorPromote (preferDynamic fixed1 fixed2 : Bool) (s1 s2 : Selector) : Option Selector :=
  let isFixed := !preferDynamic || (fixed1 && fixed2)
  ((selectorTable isFixed).find? fun r => isSamePair s1 s2 r.1 r.2.1).map (·.2.2)

end CML
