import Verif.Spec.Tensor
import Verif.Spec.Reshape

/-! Specification vocabulary for vectors and for conversions of owned arrays. -/

namespace Spec
open Model

/-- A vector with the elements `xs`. -/
def IsVec {T : Type} (o : Own T) (xs : List T) : Prop := o.len = xs.length ∧ xs.map some <+: o.cells

/-- Array types with only constant dimensions. -/
def constTy (dims : List Nat) : ShapeTy := .static (dims.map DimTy.const)

/-- The function returns its argument, whatever else it does. -/
def Faithful {σ T : Type} (c : T → M σ T) : Prop := ∀ y s z s', c y s = .ok z s' → z = y

end Spec
