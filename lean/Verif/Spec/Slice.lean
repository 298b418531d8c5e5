import Verif.Model.Slice
import Verif.Spec.Expr

/-! Specification of nested results, copies and owned types. -/

namespace Spec
open Model

/-- The nested array with the given dimensions whose elements are computed in row-major order. -/
def treeM {σ A : Type} : (dims : List Nat) → (List Nat → M σ A) → M σ (Arr A)
  | [], f => M.bind (f []) fun a => M.pure (.elem a)
  | d :: ds, f => M.bind ((List.range d).mapM fun i => treeM ds fun j => f (i :: j)) fun xs =>
      M.pure (.arr xs)

/-- Clone the `n`-th element of the view in row-major order. -/
def copyStep {σ T : Type} (v : View) (m : Int → Option T) (c : T → M σ T) (n : Nat) : M σ T :=
  M.bind (orUb (v.index (unrank v.dims n))) fun p => M.bind (orUb (m p)) c

/-- Only constant dimensions. -/
def AllConst : ShapeTy → Prop
  | .static ds => ∀ d ∈ ds, d ≠ .dyn
  | .dynRank => False

instance (ty : ShapeTy) : Decidable (AllConst ty) := by
  cases ty <;> unfold AllConst <;> infer_instance

/-- The shape type that an argument stands for. -/
def argTy : ShapeArg → ShapeTy
  | .shape s => s.ty
  | .array ds => .static (List.replicate ds.length .dyn)
  | .arrayRef _ | .slice _ | .boxed _ | .vec _ => .dynRank
  | .const n => .static [.const n]
  | .dyn _ => .static [.dyn]

end Spec
