import Verif.Model.Promotion

/-!
Property theorems C73: tag promotion.  The domain is the complete finite set of tags.
-/

namespace CML

/-- C73: the size of an expression is fixed as soon as one operand is, otherwise dynamic as soon as
one operand is, otherwise unspecified: the larger in the order `any < dyn < fixed`. -/
theorem sizeTagPromote_spec (a b : SizeTag) :
    (sizeTagPromote a b = .fixed ↔ a = .fixed ∨ b = .fixed) ∧
    (sizeTagPromote a b = .any ↔ a = .any ∧ b = .any) := by
  cases a <;> cases b <;> decide

/-- C73: size promotion is commutative, associative and idempotent with `any` neutral. -/
theorem sizeTagPromote_laws (a b c : SizeTag) :
    sizeTagPromote a b = sizeTagPromote b a ∧
    sizeTagPromote (sizeTagPromote a b) c = sizeTagPromote a (sizeTagPromote b c) ∧
    sizeTagPromote a a = a ∧ sizeTagPromote a .any = a := by
  cases a <;> cases b <;> cases c <;> decide

/-- C73: a size check can be done at compile time iff both sizes are fixed, and is skipped iff one
is unspecified. -/
theorem sizeCheckPromote_spec (a b : SizeTag) :
    (sizeCheckPromote a b = .fixed ↔ a = .fixed ∧ b = .fixed) ∧
    (sizeCheckPromote a b = .any ↔ a = .any ∨ b = .any) := by
  cases a <;> cases b <;> decide

/-- C73: size-check promotion is commutative, associative and idempotent with `any` absorbing. -/
theorem sizeCheckPromote_laws (a b c : SizeTag) :
    sizeCheckPromote a b = sizeCheckPromote b a ∧
    sizeCheckPromote (sizeCheckPromote a b) c = sizeCheckPromote a (sizeCheckPromote b c) ∧
    sizeCheckPromote a a = a ∧ sizeCheckPromote a .any = .any := by
  cases a <;> cases b <;> cases c <;> decide

/-- C73: basis promotion is commutative and idempotent with `any` neutral; disagreeing bases give
`any`. -/
theorem basisTagPromote_laws (a b : BasisTag) :
    basisTagPromote a b = basisTagPromote b a ∧ basisTagPromote a a = a ∧
    basisTagPromote a .any = a ∧ basisTagPromote .row .col = .any := by
  cases a <;> cases b <;> decide

/-- C73: layout promotion is commutative and idempotent with `any` neutral; disagreeing layouts give
`any`. -/
theorem layoutTagPromote_laws (a b : LayoutTag) :
    layoutTagPromote a b = layoutTagPromote b a ∧ layoutTagPromote a a = a ∧
    layoutTagPromote a .any = a ∧ layoutTagPromote .row .col = .any := by
  cases a <;> cases b <;> decide

/-- C73: basis promotion (hence the basis of a nested expression) is *not* associative: the grouping
of a mixed-basis expression matters. -/
theorem basisTagPromote_not_assoc :
    basisTagPromote (basisTagPromote .row .col) .col ≠ basisTagPromote .row (basisTagPromote .col .col) := by
  decide

/-- C73: storage-selector promotion is total (the static assertion never fires), commutative and
idempotent, with `any` neutral. -/
theorem selectorPromote_laws (p f1 f2 : Bool) (a b : Selector) :
    (selectorPromote p f1 f2 a b).isSome = true ∧
    selectorPromote p f1 f2 a b = selectorPromote p f2 f1 b a ∧
    selectorPromote p f1 f2 a a = some a ∧
    selectorPromote p f1 f2 a .any = some a := by
  cases p <;> cases f1 <;> cases f2 <;> cases a <;> cases b <;> decide

/-- Documented preference between storage selectors (the comments in
`/repo/cml/storage/promotion.h:31-47`): compiled storage is preferred unless dynamic storage was asked
for and one operand has no fixed size, and storage that owns its elements is preferred to a view. -/
def selectorRank (preferFixed : Bool) : Selector → Nat
  | .any => 0
  | .compiled => if preferFixed then 3 else 1
  | .external => if preferFixed then 1 else 2
  | .allocated => if preferFixed then 2 else 3

/-- C73: storage-selector promotion picks the preferred one of the two operands, hence it is also
associative for a fixed preference. -/
theorem selectorPromote_spec (p f1 f2 : Bool) (a b : Selector) :
    ∃ r, selectorPromote p f1 f2 a b = some r ∧ (r = a ∨ r = b) ∧
      selectorRank (!p || (f1 && f2)) r =
        max (selectorRank (!p || (f1 && f2)) a) (selectorRank (!p || (f1 && f2)) b) := by
  cases p <;> cases f1 <;> cases f2 <;> cases a <;> cases b <;>
    first
      | exact ⟨.any, by decide⟩
      | exact ⟨.compiled, by decide⟩
      | exact ⟨.external, by decide⟩
      | exact ⟨.allocated, by decide⟩

/-- A dynamic result is asked for and one operand is dynamic: the allocated operand wins. -/
example : selectorPromote true true false .compiled .allocated = some .allocated := by decide

#print axioms sizeTagPromote_spec
#print axioms sizeTagPromote_laws
#print axioms sizeCheckPromote_spec
#print axioms sizeCheckPromote_laws
#print axioms basisTagPromote_laws
#print axioms layoutTagPromote_laws
#print axioms selectorPromote_laws
#print axioms selectorPromote_spec

end CML
