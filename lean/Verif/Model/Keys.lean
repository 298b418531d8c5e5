import Verif.Model.DynRank
import Verif.Model.Mapping

/-!
Model of comparing, hashing and copying shapes and mappings, as they are represented: a dimension of constant size stores
nothing, and a shape of dynamic rank has two representations.
-/

namespace Model

/-- A dimension: `Const<N>`, src/dim.rs:47-48, or `Dyn`, which is `usize`. -/
inductive DimRep
  | const (n : Nat)
  | dyn (size : Nat)

namespace DimRep

/-- `PartialEq::eq`, derived for `Const<N>`, src/dim.rs:47. A comparison of different types does not compile. -/
def eq : DimRep → DimRep → Bool
  | .dyn a, .dyn b => a == b
  | _, _ => true

/-- `Ord::cmp`, derived for `Const<N>`, src/dim.rs:47. -/
def cmp : DimRep → DimRep → Ordering
  | .dyn a, .dyn b => if a < b then .lt else if b < a then .gt else .eq
  | _, _ => .eq

/-- `Hash::hash`, derived for `Const<N>`, src/dim.rs:47: the numbers that are fed to the hasher. -/
def hash : DimRep → List Int
  | .const _ => []
  | .dyn n => [n]

end DimRep

/-- A shape: a tuple of dimensions or `DynRank`. -/
inductive ShapeRep
  | tuple (ds : List DimRep)
  | dynRank (s : DynRank)

namespace ShapeRep

/-- Equality of tuples (std). -/
def tupleEq : List DimRep → List DimRep → Bool
  | a :: as, b :: bs => a.eq b && tupleEq as bs
  | _, _ => true

/-- Comparison of tuples (std): the first components that are not equal decide. -/
def tupleCmp : List DimRep → List DimRep → Ordering
  | a :: as, b :: bs =>
    match a.cmp b with
    | .eq => tupleCmp as bs
    | c => c
  | _, _ => .eq

/-- `PartialEq::eq`: std for tuples, src/shape.rs:281-285 for `DynRank`. -/
def eq : ShapeRep → ShapeRep → Bool
  | .tuple as, .tuple bs => tupleEq as bs
  | .dynRank a, .dynRank b => a.eq b
  | _, _ => false

/-- `Ord::cmp`: std for tuples, src/shape.rs:275-279 for `DynRank`. -/
def cmp : ShapeRep → ShapeRep → Ordering
  | .tuple as, .tuple bs => tupleCmp as bs
  | .dynRank a, .dynRank b => a.cmp b
  | _, _ => .eq

/-- `Hash::hash`: std for tuples, src/shape.rs:269-273 for `DynRank`. -/
def hash : ShapeRep → List Int
  | .tuple ds => ds.flatMap DimRep.hash
  | .dynRank s => s.hash.map Int.ofNat

/-- `Clone::clone`: std for tuples, src/shape.rs:227-238 for `DynRank`. -/
def clone : ShapeRep → ShapeRep
  | .tuple ds => .tuple ds
  | .dynRank s => .dynRank s.clone

/-- `Clone::clone_from`: std for tuples, src/shape.rs:240-252 for `DynRank`. -/
def cloneFrom : ShapeRep → ShapeRep → ShapeRep
  | .dynRank s, .dynRank t => .dynRank (s.cloneFrom t)
  | _, t => t.clone

end ShapeRep

/-- `DenseMapping` and `StridedMapping`, src/mapping.rs:111-121. The strides are an array or a boxed slice. -/
inductive MapRep
  | dense (shape : ShapeRep)
  | strided (shape : ShapeRep) (strides : List Int)

namespace MapRep

/-- `PartialEq::eq`, derived, src/mapping.rs:111, 117. -/
def eq : MapRep → MapRep → Bool
  | .dense s, .dense t => s.eq t
  | .strided s st, .strided t st' => s.eq t && st == st'
  | _, _ => false

/-- `Hash::hash`, derived, src/mapping.rs:111, 117; arrays and slices feed their length and their elements (std). -/
def hash : MapRep → List Int
  | .dense s => s.hash
  | .strided s st => s.hash ++ (st.length : Int) :: st

/-- `Clone::clone`, src/mapping.rs:130-133, 259-262. -/
def clone : MapRep → MapRep
  | .dense s => .dense s.clone
  | .strided s st => .strided s.clone st

/-- `Clone::clone_from`, src/mapping.rs:135-137, 264-267. -/
def cloneFrom : MapRep → MapRep → MapRep
  | .dense s, .dense t => .dense (s.cloneFrom t)
  | .strided s _, .strided t st => .strided (s.cloneFrom t) st
  | _, t => t.clone

end MapRep

end Model
