import Verif.Model.Monad
import Verif.Model.View

/-!
Model of permuting with types that are defined outside of the crate. `into_permuted` accepts every type that implements
`IntoShape`, where the shape type implements `Permutation`. Both are public traits which are not `unsafe` to implement:
the associated types may be any types, and `into_dims` may give any numbers.

As in Model/View, sizes are not bounded.
-/

namespace Model

variable {σ : Type}

/-- A type implementing `IntoShape` (src/shape.rs:190-200), whose shape type implements `Permutation`
(src/index/permutation.rs:6-15). `into_dims` is generic in the result of the closure, which it can call once only; so
it does something, calls the closure with a slice, does something again, and returns the result, unless it panics.
`shape` and `layout` are taken to give types of the crate. -/
structure UserPerm (σ : Type) where
  shape : ShapeTy → ShapeTy
  layout : Layout → Layout
  dims : M σ (List Nat)
  after : M σ Unit

/-- `into_permuted`, src/view.rs:142-154 (`Slice::permute` and `permute_mut`). -/
def UserPerm.permute (p : UserPerm σ) (checks : Bool) (v : View) : M σ View := do
  let ds ← p.dims
  let m ← M.lift (v.map.permute checks ds (p.shape v.ty) (p.layout v.layout))
  p.after
  M.pure ⟨v.ptr, m⟩

/-- The shapes of the crate as permutations. -/
def UserPerm.ofShape (s : Shape) : UserPerm σ where
  shape := Perm.shapeTy s.ty
  layout := Perm.layout s.ty
  dims := M.pure s.dims
  after := M.pure ()

end Model
