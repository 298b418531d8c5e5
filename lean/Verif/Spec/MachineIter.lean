import Verif.Model.MachineIter
import Verif.Spec.Machine
import Verif.Spec.Pointer

/-! Expressions of views that exist in a 64-bit address space. -/

namespace Spec
open Model

/-- `v` is a view of an array of at most `2^62` elements, placed anywhere, reached by calls with 64-bit
integers. -/
def InMemory (checks : Bool) (v : View) : Prop :=
  ∃ (s : Shape) (base : Int), s.WF ∧ Usize s.dims ∧ size s.dims ≤ 2 ^ 62 ∧
    ReachM checks (whole s) ⟨v.ptr - base, v.map⟩

/-- All arrays in an expression are in memory. With overflow checks, views that are iterated over by element have
no stride of `isize::MIN`. Views that are iterated over by axis or by lane have elements. -/
def FitsMemory (checks : Bool) {σ : Type} : {α : Type} → Expr σ α → Prop
  | _, .view _ v => InMemory checks v ∧ (checks = true → ∀ i s, v.map.stride i = some s → s ≠ -2 ^ 63)
  | _, .axis _ v _ _ _ => InMemory checks v ∧ 0 < size v.dims
  | _, .lanes _ v _ _ _ => InMemory checks v ∧ 0 < size v.dims
  | _, .intoExpr s _ _ => size s.dims ≤ usizeMax
  | _, .map e _ => FitsMemory checks e
  | _, .enumerate e _ => FitsMemory checks e
  | _, .zip a b _ => FitsMemory checks a ∧ FitsMemory checks b
  | _, .fill _ => True
  | _, .fromElem _ _ => True
  | _, .fromFn _ _ _ => True

end Spec
