/-!
Model of the representation of `DynRank` (src/shape.rs:202-331). Everywhere else in the model a shape of
type `DynRank` is just its list of dimensions; `Props.C56` justifies this.
-/

namespace Model

/-- `DynRank`, src/shape.rs:206-211. -/
inductive DynRank
  | dyn (dims : List Nat)
  | one (size : Nat)

namespace DynRank

/-- `DynRank::dims` and `with_dims`, src/shape.rs:218-223, 314-321. -/
def dims : DynRank → List Nat
  | .dyn ds => ds
  | .one n => [n]

/-- `Clone::clone`, src/shape.rs:227-238. -/
def clone : DynRank → DynRank
  | .one n => .one n
  | .dyn ds =>
    if ds.length = 1 then
      match ds with
      | d :: _ => .one d
      | [] => .dyn ds
    else .dyn ds

/-- `Clone::clone_from`, src/shape.rs:240-252; `clone_from_slice` of equal length copies the values. -/
def cloneFrom (self source : DynRank) : DynRank :=
  match self, source with
  | .dyn ds, .dyn src => if ds.length = src.length then .dyn src else (DynRank.dyn src).clone
  | _, src => src.clone

/-- `Default::default`, src/shape.rs:261-265. -/
def default : DynRank := .one 0

/-- `Shape::new`, src/shape.rs:310-312. -/
def new (rank : Nat) : DynRank := if rank = 1 then .one 0 else .dyn (List.replicate rank 0)

/-- `with_mut_dims`, src/shape.rs:323-330. The closure writes to the elements of a slice: `f` gives the
new value of each element from its index and all old values. -/
def withMutDims (s : DynRank) (f : Nat → List Nat → Nat) : DynRank :=
  match s with
  | .dyn ds => .dyn ((List.range ds.length).map fun i => f i ds)
  | .one n => .one (f 0 [n])

/-- Comparison of slices (std): the first difference decides, then the length. -/
def sliceCmp : List Nat → List Nat → Ordering
  | [], [] => .eq
  | [], _ :: _ => .lt
  | _ :: _, [] => .gt
  | x :: xs, y :: ys => if x < y then .lt else if y < x then .gt else sliceCmp xs ys

/-- `PartialEq::eq`, src/shape.rs:281-285; equality of slices (std). -/
def eq (a b : DynRank) : Bool := a.dims == b.dims

/-- `Ord::cmp`, src/shape.rs:275-279. -/
def cmp (a b : DynRank) : Ordering := sliceCmp a.dims b.dims

/-- `Hash::hash`, src/shape.rs:269-273: what is fed to the hasher; a slice feeds its length and then its
elements (std). -/
def hash (a : DynRank) : List Nat := a.dims.length :: a.dims

end DynRank

/-- The operations on shapes of dynamic rank, on numbered variables. -/
inductive ShapeOp
  | default (x : Nat)
  | new (x rank : Nat)
  | clone (x y : Nat)
  | cloneFrom (x y : Nat)
  | update (x : Nat) (f : Nat → List Nat → Nat)

/-- Change one variable. -/
def assignVar {α : Type} (vars : Nat → α) (x : Nat) (a : α) : Nat → α := fun y => if y = x then a else vars y

/-- Execution of an operation, src/shape.rs:227-252, 261-265, 310-330. -/
def ShapeOp.run (vars : Nat → DynRank) : ShapeOp → Nat → DynRank
  | .default x => assignVar vars x DynRank.default
  | .new x r => assignVar vars x (DynRank.new r)
  | .clone x y => assignVar vars x (vars y).clone
  | .cloneFrom x y => assignVar vars x ((vars x).cloneFrom (vars y))
  | .update x f => assignVar vars x ((vars x).withMutDims f)

end Model
