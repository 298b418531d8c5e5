import Mathlib.Data.Nat.Notation

/-!
Model of the marker traits `Send` and `Sync` for the types of the crate: which types implement them, as the compiler
derives it from the fields, and from the explicit implementations where fields are raw pointers.

Shapes, mappings and axes implement both traits by their supertraits (src/shape.rs:13, src/mapping.rs:9,
src/index/axis.rs:10), and so do the layouts of the crate, which have no fields (src/layout.rs:14-17). Fields and type
parameters of these kinds are left out.
-/

namespace Model

/-- Whether a type implements `Send` and `Sync`. -/
structure Marks where
  send : Bool
  sync : Bool
  deriving DecidableEq, Repr

/-- Types of the crate, with type parameters `param n`. -/
inductive Ty
  | param (n : Nat)
  /-- `&T` -/
  | ref (t : Ty)
  /-- `&mut T` -/
  | refMut (t : Ty)
  /-- `ManuallyDrop<T>` -/
  | manuallyDrop (t : Ty)
  /-- `Slice<T, S, L>`, src/slice.rs:24-26 -/
  | slice (t : Ty)
  /-- `View<T, S, L>`, src/view.rs:18-21 -/
  | view (t : Ty)
  /-- `ViewMut<T, S, L>`, src/view.rs:24-27 -/
  | viewMut (t : Ty)
  /-- `Array<T, S>`, src/array.rs:22 -/
  | array (t : Ty)
  /-- `Tensor<T, S, A>`, src/tensor.rs:41-43 -/
  | tensor (t a : Ty)
  /-- `Drain<T, S, A>`, src/expr/buffer.rs:33-38 -/
  | drain (t a : Ty)
  /-- `IntoExpr<B>`, src/expr/into_expr.rs:11-14 -/
  | intoExpr (b : Ty)
  /-- `AxisExpr<T, S, L, A>`, src/expr/sources.rs:13-18 -/
  | axisExpr (t : Ty)
  /-- `AxisExprMut<T, S, L, A>`, src/expr/sources.rs:21-26 -/
  | axisExprMut (t : Ty)
  /-- `Lanes<T, S, L, A>`, src/expr/sources.rs:56-61 -/
  | lanes (t : Ty)
  /-- `LanesMut<T, S, L, A>`, src/expr/sources.rs:64-69 -/
  | lanesMut (t : Ty)
  /-- `Fill<T>`, src/expr/sources.rs:30-32 -/
  | fill (t : Ty)
  /-- `FillWith<F>`, src/expr/sources.rs:36-38 -/
  | fillWith (f : Ty)
  /-- `FromElem<T, S>`, src/expr/sources.rs:42-45 -/
  | fromElem (t : Ty)
  /-- `FromFn<S, F>`, src/expr/sources.rs:49-53 -/
  | fromFn (f : Ty)
  /-- `Cloned<E>`, src/expr/adapters.rs:9-11 -/
  | cloned (e : Ty)
  /-- `Copied<E>`, src/expr/adapters.rs:15-17 -/
  | copied (e : Ty)
  /-- `Enumerate<E>`, src/expr/adapters.rs:21-24 -/
  | enumerate (e : Ty)
  /-- `Map<E, F>`, src/expr/adapters.rs:28-31 -/
  | map (e f : Ty)
  /-- `Zip<A, B>`, src/expr/adapters.rs:35-39 -/
  | zip (a b : Ty)
  /-- `Iter<E>`, src/expr/iter.rs:10-16 -/
  | iter (e : Ty)
  deriving DecidableEq, Repr

namespace Marks

/-- The rule for auto traits: all fields must implement them. -/
def all (fields : List Marks) : Marks := ⟨fields.all Marks.send, fields.all Marks.sync⟩

/-- `&T` (std): both traits if `T: Sync`. -/
def ref (t : Marks) : Marks := ⟨t.sync, t.sync⟩

/-- `&mut T` (std): the same as `T`. -/
def refMut (t : Marks) : Marks := t

/-- `PhantomData<T>` and `ManuallyDrop<T>` (std): the same as `T`. -/
def same (t : Marks) : Marks := t

/-- `Slice`, src/slice.rs:24-26: one field `PhantomData<(T, S, L)>`. -/
def slice (t : Marks) : Marks := all [same t]

/-- Explicit implementations for `View`, src/view.rs:627-628. -/
def view (t : Marks) : Marks := ⟨t.sync, t.sync⟩

/-- Explicit implementations for `ViewMut`, src/view.rs:630-631. -/
def viewMut (t : Marks) : Marks := ⟨t.send, t.sync⟩

/-- Explicit implementations for `RawTensor`, src/raw_tensor.rs:322-323. -/
def rawTensor (t a : Marks) : Marks := ⟨t.send && a.send, t.sync && a.sync⟩

/-- `Tensor`, src/tensor.rs:41-43. -/
def tensor (t a : Marks) : Marks := all [rawTensor t a]

end Marks

/-- The marker traits of a type, where `ρ` are those of the type parameters. -/
def marks (ρ : Nat → Marks) : Ty → Marks
  | .param n => ρ n
  | .ref t => .ref (marks ρ t)
  | .refMut t => .refMut (marks ρ t)
  | .manuallyDrop t => .same (marks ρ t)
  | .slice t => .slice (marks ρ t)
  | .view t => .view (marks ρ t)
  | .viewMut t => .viewMut (marks ρ t)
  | .array t => .all [marks ρ t]
  | .tensor t a => .tensor (marks ρ t) (marks ρ a)
  | .drain t a => .all [.refMut (.tensor (marks ρ t) (marks ρ a)), .viewMut (.same (marks ρ t))]
  | .intoExpr b => .all [marks ρ b]
  | .axisExpr t => .all [.ref (.slice (marks ρ t))]
  | .axisExprMut t => .all [.refMut (.slice (marks ρ t))]
  | .lanes t => .all [.ref (.slice (marks ρ t))]
  | .lanesMut t => .all [.refMut (.slice (marks ρ t))]
  | .fill t => .all [marks ρ t]
  | .fillWith f => .all [marks ρ f]
  | .fromElem t => .all [marks ρ t]
  | .fromFn f => .all [marks ρ f]
  | .cloned e => .all [marks ρ e]
  | .copied e => .all [marks ρ e]
  | .enumerate e => .all [marks ρ e]
  | .map e f => .all [marks ρ e, marks ρ f]
  | .zip a b => .all [marks ρ a, marks ρ b]
  | .iter e => .all [marks ρ e]

end Model
