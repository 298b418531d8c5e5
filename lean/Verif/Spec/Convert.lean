import Verif.Model.Convert

/-! Specification of nested arrays. -/

namespace Spec
open Model

/-- A value of the type of nested arrays with these sizes. -/
def HasDims {T : Type} : List Nat → Arr T → Prop
  | [], .elem _ => True
  | d :: ds, .arr xs => xs.length = d ∧ ∀ x ∈ xs, HasDims ds x
  | _, _ => False

/-- The element `a[i][j]...`. -/
def nestedGet {T : Type} : Arr T → List Nat → Option T
  | .elem x, [] => some x
  | .arr xs, i :: is => xs[i]?.bind fun a => nestedGet a is
  | _, _ => none
termination_by _ is => is

end Spec
