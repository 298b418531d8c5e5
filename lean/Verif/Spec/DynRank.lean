import Verif.Model.DynRank

/-! Specification of shapes of dynamic rank: plain lists of sizes. -/

namespace Spec
open Model

/-- The first index where two lists differ decides their order; a proper prefix is smaller. -/
def LexLt (a b : List Nat) : Prop :=
  (∃ k x y, a.take k = b.take k ∧ a[k]? = some x ∧ b[k]? = some y ∧ x < y) ∨
  (a.length < b.length ∧ b.take a.length = a)

/-- What an operation means on lists. -/
def opMeans (vars : Nat → List Nat) : ShapeOp → Nat → List Nat
  | .default x => fun z => if z = x then [0] else vars z
  | .new x r => fun z => if z = x then List.replicate r 0 else vars z
  | .clone x y => fun z => if z = x then vars y else vars z
  | .cloneFrom x y => fun z => if z = x then vars y else vars z
  | .update x f => fun z => if z = x then (vars x).mapIdx (fun i _ => f i (vars x)) else vars z

end Spec
