import Verif.Model.View
import Verif.Spec.Conform

/-! Histories of safe view-producing calls. -/

namespace Spec
open Model

/-- All numbers in a list are `usize` values. -/
def Usize (l : List Nat) : Prop := ∀ d ∈ l, d ≤ usizeMax

/-- One successful view-producing call on a view, in a build with or without overflow checks.
Arguments are arbitrary values of the argument types. -/
inductive Call (checks : Bool) : View → View → Prop
  | at_ {v v' i} : v.at' i = some v' → Call checks v v'
  | axisAt {v v' a i} : v.axisAt a i = some v' → Call checks v v'
  | splitAtFst {v v₁ v₂ mid} : v.splitAt mid = some (v₁, v₂) → Call checks v v₁
  | splitAtSnd {v v₁ v₂ mid} : v.splitAt mid = some (v₁, v₂) → Call checks v v₂
  | splitAxisAtFst {v v₁ v₂ a mid} : v.splitAxisAt a mid = some (v₁, v₂) → Call checks v v₁
  | splitAxisAtSnd {v v₁ v₂ a mid} : v.splitAxisAt a mid = some (v₁, v₂) → Call checks v v₂
  | view {v v' xs} : v.dims.length = xs.length → v.view xs = some v' → Call checks v v'
  | permute {v v' perm} : perm.WF → v.permute checks perm = some v' → Call checks v v'
  | reorder {v v'} : v.reorder = some v' → Call checks v v'
  | reshape {v v' ns} : ns.WF → Usize ns.dims → v.reshape ns = some v' → Call checks v v'
  | flatten {v v'} : v.flatten = some v' → Call checks v v'
  | remap {v v' ty L} : v.remap ty L = some v' → Call checks v v'
  | intoDyn {v v'} : v.intoDyn = some v' → Call checks v v'
  | row {v v' i} : v.row i = some v' → Call checks v v'
  | col {v v' i} : v.col i = some v' → Call checks v v'
  | diag {v v' k} : v.diag k = some v' → Call checks v v'

/-- Views reached from `root` by finitely many calls. In builds without overflow checks only calls
on arrays of rank below 64 are followed (see `Props.C51`). -/
inductive Reach (checks : Bool) (root : View) : View → Prop
  | refl : Reach checks root root
  | call {v v'} : Reach checks root v → (checks = true ∨ v.dims.length < 64) →
      Call checks v v' → Reach checks root v'

/-- The view of a whole dense array with the given shape. -/
def whole (s : Shape) : View := ⟨0, .dense s⟩

end Spec
