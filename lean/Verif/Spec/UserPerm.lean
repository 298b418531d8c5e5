import Verif.Model.UserPerm
import Verif.Spec.Conform
import Verif.Spec.Outcome

/-!
Vocabulary for permutations of types defined outside of the crate.
-/

namespace Spec
open Model

variable {σ : Type}

/-- The function is safe code: it returns or panics. -/
def SafePerm (p : UserPerm σ) : Prop := p.dims.Tame ∧ p.after.Tame

/-- The view `v'` is `v` with dimensions in the order `ds`. -/
def Permuted (v : View) (ds : List Nat) (v' : View) : Prop :=
  ds.Perm (List.range v.dims.length) ∧ v'.map.WF ∧ v'.dims = (ds.map fun c => v.dims.getD c 0) ∧
  (∀ i, i.length = v.dims.length → v'.index (ds.map fun c => i.getD c 0) = v.index i) ∧
  ∀ j, v'.index j ≠ none → ∃ i : List Nat, i.length = v.dims.length ∧ j = ds.map fun c => i.getD c 0

/-- The order is a permutation, and the result types of `p` can represent the result: the sizes match the shape type,
and nothing is reordered if the layout is dense. -/
def Fitting (p : UserPerm σ) (v : View) (ds : List Nat) : Prop :=
  ds.Perm (List.range v.dims.length) ∧ (p.shape v.ty).Conforms (ds.map fun c => v.dims.getD c 0) ∧
  (p.layout v.layout = .dense → ds = List.range v.dims.length ∧ v.map.isContiguous = true)

end Spec
