import Verif.Model.Markers

/-!
Model of the variance of the types of the crate in their type parameters, as the compiler derives it from the fields. It
decides which types are subtypes of each other when the type parameters contain lifetimes, for example if `View<&'a str>`
can be used as a `View<&'b str>` with a shorter lifetime `'b`.

Type parameters for shapes, layouts and axes are left out, and so are the lifetimes of the references in the types.
-/

namespace Model

/-- How a type depends on a type parameter: whether a subtype needs the parameter to be a subtype (`up`), and whether it needs
it to be a supertype (`down`). Covariant is `⟨true, false⟩`, invariant is `⟨true, true⟩`. -/
structure Var where
  up : Bool
  down : Bool
  deriving DecidableEq, Repr

namespace Var

/-- The parameter does not occur. -/
def none : Var := ⟨false, false⟩

/-- The rule for structures: the demands of all fields. -/
def all (fields : List Var) : Var := ⟨fields.any Var.up, fields.any Var.down⟩

/-- Invariant positions: behind `&mut`, and as argument of an associated type (Rust reference, "Subtyping and Variance"). -/
def inv (t : Var) : Var := ⟨t.up || t.down, t.up || t.down⟩

/-- `&T`, `NonNull<T>`, `PhantomData<T>` and `ManuallyDrop<T>` (std) are covariant. -/
def co (t : Var) : Var := t

/-- `Slice`, src/slice.rs:24-26: one field `PhantomData<(T, S, L)>`. -/
def slice (t : Var) : Var := all [co t]

/-- `RawSlice`, src/raw_slice.rs:8-11: the field `NonNull<T>`; the mapping does not have the parameter. -/
def rawSlice (t : Var) : Var := all [co t]

/-- `View`, src/view.rs:18-21: `RawSlice<T, S, L>` and `PhantomData<&'a T>`. -/
def view (t : Var) : Var := all [rawSlice t, co (co t)]

/-- `ViewMut`, src/view.rs:24-27: `RawSlice<T, S, L>` and `PhantomData<&'a mut T>`. -/
def viewMut (t : Var) : Var := all [rawSlice t, co (inv t)]

/-- `RawTensor`, src/raw_tensor.rs:29-36: `RawSlice<T, S, Dense>`, and the allocator in `PhantomData` or
`ManuallyDrop`. -/
def rawTensor (t a : Var) : Var := all [rawSlice t, co a]

/-- `Tensor`, src/tensor.rs:41-43. -/
def tensor (t a : Var) : Var := all [rawTensor t a]

end Var

/-- The variance of a type in parameter `n`. -/
def variance (n : Nat) : Ty → Var
  | .param m => if m = n then ⟨true, false⟩ else .none
  | .ref t => .co (variance n t)
  | .refMut t => .inv (variance n t)
  | .manuallyDrop t => .co (variance n t)
  | .slice t => .slice (variance n t)
  | .view t => .view (variance n t)
  | .viewMut t => .viewMut (variance n t)
  -- the field is `S::Inner<T>`
  | .array t => .all [.inv (variance n t)]
  | .tensor t a => .tensor (variance n t) (variance n a)
  | .drain t a => .all [.inv (.tensor (variance n t) (variance n a)), .viewMut (.co (variance n t))]
  | .intoExpr b => .all [variance n b]
  | .axisExpr t => .all [.co (.slice (variance n t))]
  | .axisExprMut t => .all [.inv (.slice (variance n t))]
  | .lanes t => .all [.co (.slice (variance n t))]
  | .lanesMut t => .all [.inv (.slice (variance n t))]
  | .fill t => .all [variance n t]
  | .fillWith f => .all [variance n f]
  | .fromElem t => .all [variance n t]
  | .fromFn f => .all [variance n f]
  | .cloned e => .all [variance n e]
  | .copied e => .all [variance n e]
  | .enumerate e => .all [variance n e]
  | .map e f => .all [variance n e, variance n f]
  -- the field `shape` is `<Zip<A, B> as Expression>::Shape`
  | .zip a b => .all [variance n a, variance n b, .inv (variance n a), .inv (variance n b)]
  -- the fields `outer_index` and `outer_limit` are `<E::Shape as Shape>::Dims<usize>`
  | .iter e => .all [variance n e, .inv (variance n e), .inv (variance n e)]

end Model
