import Verif.Spec.Expr

/-! Specification of references that must not overlap. -/

namespace Spec
open Model

/-- No element belongs to both views. -/
def Apart (w w' : View) : Prop := ∀ i j x, w.index i = some x → w'.index j ≠ some x

/-- Every element of `w` is an element of `v`. -/
def PartOf (w v : View) : Prop := ∀ i x, w.index i = some x → ∃ j, v.index j = some x

/-- The items among the results of calls of `next`. -/
def got {α : Type} (l : List (Option α)) : List α := l.filterMap id

end Spec
