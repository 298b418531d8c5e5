import Verif.Model.UserExpr
import Verif.Model.View

/-!
Model of views along an axis of a type that is defined outside of the crate. `Axis` (src/index/axis.rs:10-55) is a
public trait which is not `unsafe` to implement: the associated types may be any shape types, and `index` may return
different values in different calls. The functions `get`, `remove` and `resize` are taken as they are provided.

As in Model/View, sizes are not bounded.
-/

namespace Model

variable {σ ρ : Type}

/-- A type implementing `Axis`, src/index/axis.rs:10-27. What `index` depends on is part of the world `σ`. -/
structure UserAxis (σ : Type) where
  dim : ShapeTy → DimTy
  init : ShapeTy → ShapeTy
  rest : ShapeTy → ShapeTy
  remove : ShapeTy → ShapeTy
  insert : DimTy → ShapeTy → ShapeTy
  index : Nat → M σ Nat

namespace UserAxis

/-- `Keep<A, S, L>`, src/index/axis.rs:74. -/
def keep (a : UserAxis σ) (s : ShapeTy) (l : Layout) : Layout := (a.rest s).layout l

/-- `Split<A, S, L>`, src/index/axis.rs:77. -/
def split (a : UserAxis σ) (s : ShapeTy) (l : Layout) : Layout := (a.init s).layout l

/-- `Resize<A, S>`, src/index/axis.rs:71. -/
def resizeTy (a : UserAxis σ) (s : ShapeTy) : ShapeTy := a.insert .dyn (a.remove s)

/-- `Axis::get`, src/index/axis.rs:30-37. -/
def getMap (a : UserAxis σ) (m : Mapping) : M σ Mapping := do
  let index ← a.index m.rank
  let size ← M.lift (m.dim index)
  let stride ← M.lift (m.stride index)
  M.lift ((Mapping.dense ⟨.static [], []⟩).prependDim size stride (.static [a.dim m.shape.ty])
    (a.keep m.shape.ty m.layout))

/-- `Axis::remove`, src/index/axis.rs:40-45. -/
def removeMap (a : UserAxis σ) (m : Mapping) : M σ Mapping := do
  let index ← a.index m.rank
  M.lift (m.removeDim index (a.remove m.shape.ty) (a.split m.shape.ty m.layout))

/-- `Axis::resize`, src/index/axis.rs:48-54. -/
def resizeMap (a : UserAxis σ) (m : Mapping) (newSize : Nat) : M σ Mapping := do
  let index ← a.index m.rank
  M.lift (m.resizeDim index newSize (a.resizeTy m.shape.ty) (a.split m.shape.ty m.layout))

/-- `axis_at`, src/view.rs:248-267. -/
def axisAt (a : UserAxis σ) (v : View) (i : Nat) : M σ View := do
  let p ← a.index v.map.rank
  let size ← M.lift (v.map.dim p)
  M.lift (check (i < size))
  let m ← a.removeMap v.map
  let p ← a.index v.map.rank
  let stride ← M.lift (v.map.stride p)
  let offset := stride * (i : Int)
  let count := if m.isEmpty then 0 else offset
  M.pure ⟨v.ptr + count, m⟩

/-- `split_axis_at`, src/view.rs:269-298. -/
def splitAxisAt (a : UserAxis σ) (v : View) (mid : Nat) : M σ (View × View) := do
  let p ← a.index v.map.rank
  let size ← M.lift (v.map.dim p)
  M.lift (check (mid ≤ size))
  let first ← a.resizeMap v.map mid
  let second ← a.resizeMap v.map (size - mid)
  let stride ← M.lift (v.map.stride p)
  let offset := stride * (mid : Int)
  let count := if second.isEmpty then 0 else offset
  M.pure (⟨v.ptr, first⟩, ⟨v.ptr + count, second⟩)

/-- `get_unchecked` of `AxisExpr` and `AxisExprMut` with the mapping `m` along the axis, src/expr/sources.rs:164-174. The
last part of the world is the field `offset`. -/
def item (a : UserAxis σ) (v : View) (m : Mapping) (i : Nat) : M ((σ × ρ) × Int) View := fun w =>
  M.bind (M.up (M.up (a.removeMap v.map))) (fun r =>
    M.pure ⟨v.ptr + (if r.len = 0 then 0 else w.2 + m.innerStride * (i : Int)), r⟩) w

/-- `Expression` for `AxisExpr` and `AxisExprMut`, src/expr/sources.rs:155-187. -/
def expr (a : UserAxis σ) (v : View) (m : Mapping) : UserExpr ((σ × ρ) × Int) View where
  ty := .static [a.dim v.map.shape.ty]
  shape := M.pure m.shape
  innerRank := M.pure 1
  get i := a.item v m i
  resetDim _ _ := fun w => .ok () (w.1, 0)
  stepDim _ := fun w => .ok () (w.1, w.2 + m.innerStride)
  forEach := none

/-- `view.axis_expr(axis).for_each(f)` and `axis_expr_mut`, src/slice.rs:116-131, src/expr/sources.rs:137-144,
src/expr/expression.rs:116-121. -/
def forEach (a : UserAxis σ) (v : View) (f : View → M (σ × ρ) Unit) : M (σ × ρ) Unit := do
  let m ← M.up (a.getMap v.map)
  let _ ← M.scope 0 ((a.expr v m).runForEach fun x => M.up (f x))
  M.pure ()

/-- The axis types of the crate. -/
def ofAxis (a : Axis) : UserAxis σ where
  dim := a.dimTy
  init := a.init
  rest := a.rest
  remove := a.remove
  insert d s := a.insert d s
  index r := M.lift (a.index r)

end UserAxis
end Model
