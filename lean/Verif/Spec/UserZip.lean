import Verif.Spec.UserExpr
import Verif.Spec.Assign

/-!
Vocabulary for mutable views combined with expressions defined outside of the crate.
-/

namespace Spec
open Model

variable {σ α : Type}

/-- A closure that records what it is called with. -/
def record (x : Int × α) : M (σ × List (Int × α)) Unit := fun w => .ok () (w.1, w.2 ++ [x])

/-- The positions of all elements of a view in row-major order. -/
def positions (v : View) : List (Option Int) := (allIdx v.dims).map v.index

/-- The number of dimensions in a row of a view combined with an expression of inner rank `k`: those that can be
addressed with the inner stride, at most `k`. -/
def rowRank (v : View) (k : Nat) : Nat :=
  match v.map with
  | .dense s => if s.ty.rank? = some 0 then k else min s.dims.length k
  | .strided s _ => if s.dims.length = 0 then k else min 1 k

/-- If the view has no elements, then its rows have none. -/
def EmptyRows (v : View) (k : Nat) : Prop :=
  size v.dims = 0 → size (v.dims.drop (v.dims.length - rowRank v k)) = 0

end Spec
