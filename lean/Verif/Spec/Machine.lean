import Verif.Model.Machine
import Verif.Spec.Reach

/-! Views computed with machine integers, compared with views computed with unbounded integers. -/

namespace Spec
open Model Model.Machine

/-- Two views that cannot be told apart through their dimensions and elements: same shape type, layout,
dimensions and start, and every index reaches the same place or panics in both. Strides of axes with at
most one index may differ. -/
structure SameView (w w' : View) : Prop where
  ptr : w.ptr = w'.ptr
  ty : w.ty = w'.ty
  layout : w.layout = w'.layout
  dims : w.dims = w'.dims
  index : ∀ j, w.index j = w'.index j

/-- All strides of a view are `isize` values. -/
def StridesFit (w : View) : Prop := ∀ i s, w.map.stride i = some s → -2 ^ 63 ≤ s ∧ s < 2 ^ 63

/-- A call that returns, returns what the call with unbounded integers returns. -/
def SoundResult (machine exact : Option View) : Prop :=
  ∀ w, machine = some w → ∃ w', exact = some w' ∧ SameView w w'

/-- Whenever the call with unbounded integers gives a non-empty view with representable strides, the call
returns that view. -/
def CompleteResult (machine exact : Option View) : Prop :=
  ∀ w', exact = some w' → 0 < size w'.dims → StridesFit w' → machine = some w'

/-- Both calls panic, or both return views that cannot be told apart. -/
def SameResult (machine exact : Option View) : Prop :=
  (machine = none ∧ exact = none) ∨ ∃ w w', machine = some w ∧ exact = some w' ∧ SameView w w'

/-- One returning view-producing call with machine integers. Arguments are arbitrary values of the
argument types. -/
inductive CallM (checks : Bool) : View → View → Prop
  | axisAt {v w a i} : Machine.axisAt checks v a i = some w → CallM checks v w
  | splitFst {v w₁ w₂ a mid} : Machine.splitAxisAt checks v a mid = some (w₁, w₂) → CallM checks v w₁
  | splitSnd {v w₁ w₂ a mid} : Machine.splitAxisAt checks v a mid = some (w₁, w₂) → CallM checks v w₂
  | view {v w xs} : v.dims.length = xs.length → Machine.view checks v xs = some w → CallM checks v w
  | permute {v w perm} : perm.WF → Machine.viewPermute checks v perm = some w → CallM checks v w
  | reorder {v w} : Machine.viewReorder checks v = some w → CallM checks v w
  | reshape {v w ns} : ns.WF → Usize ns.dims → Machine.viewReshape checks v ns = some w → CallM checks v w
  | flatten {v w} : Machine.flatten checks v = some w → CallM checks v w
  | remap {v w ty L} : Machine.viewRemap checks v ty L = some w → CallM checks v w
  | row {v w i} : Machine.row checks v i = some w → CallM checks v w
  | col {v w i} : Machine.col checks v i = some w → CallM checks v w
  | diag {v w k} : FitsI k → Machine.diag checks v k = some w → CallM checks v w

/-- Views reached from `root` by finitely many calls with machine integers; without overflow checks only
calls on arrays of rank below 64 are followed (see `Props.C51`). -/
inductive ReachM (checks : Bool) (root : View) : View → Prop
  | refl : ReachM checks root root
  | call {v w} : ReachM checks root v → (checks = true ∨ v.dims.length < 64) →
      CallM checks v w → ReachM checks root w

end Spec
