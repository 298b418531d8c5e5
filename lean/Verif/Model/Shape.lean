import Verif.Spec.Index

/-!
Model of `src/dim.rs`, `src/layout.rs` and `src/shape.rs`.

A Rust panic is `none`. `usize` is `Nat`; the bound `usize::MAX` only matters where the code itself
tests for overflow (`checked_len`) or uses the value as a marker (`reshape`).
-/

namespace Model

/-- `usize::MAX` on a 64-bit target. -/
def usizeMax : Nat := 2 ^ 64 - 1

/-- A panicking check, `assert!(b)`. -/
def check (b : Prop) [Decidable b] : Option Unit := if b then some () else none

/-- Array layouts, src/layout.rs:5-29. -/
inductive Layout
  | dense
  | strided
  deriving DecidableEq, Repr

/-- Dimension types `Const<N>` and `Dyn = usize`, src/dim.rs:46-51. -/
inductive DimTy
  | const (n : Nat)
  | dyn
  deriving DecidableEq, Repr

/-- `Dim::from_size`, src/dim.rs:65-69 (`Const`) and 82-84 (`Dyn`). -/
def DimTy.fromSize : DimTy → Nat → Option Nat
  | .const n, s => if s = n then some n else none
  | .dyn, s => some s

/-- `Dim::Merge`, src/dim.rs:60 and 77. -/
def DimTy.merge : DimTy → DimTy → DimTy
  | .const n, _ => .const n
  | .dyn, d => d

/-- Size of the default value: `Const<N>` has size `N` (dim.rs:71-73), `usize` defaults to 0. -/
def DimTy.default : DimTy → Nat
  | .const n => n
  | .dyn => 0

/-- Shape types: tuples of dimension types (src/shape.rs:333-460) and `DynRank` (206-331).
The tuple implementations exist for at most six dimensions; see `ShapeTy.WF`. -/
inductive ShapeTy
  | static (ds : List DimTy)
  | dynRank
  deriving DecidableEq, Repr

/-- Shape types for which the trait is implemented: tuples with up to six dimensions. -/
def ShapeTy.WF : ShapeTy → Prop
  | .static ds => ds.length ≤ 6
  | .dynRank => True

instance ShapeTy.decidableWF : (ty : ShapeTy) → Decidable ty.WF
  | .static ds => inferInstanceAs (Decidable (ds.length ≤ 6))
  | .dynRank => inferInstanceAs (Decidable True)

namespace ShapeTy

/-- `Shape::RANK`, src/shape.rs:308, 348, 378, 432. -/
def rank? : ShapeTy → Option Nat
  | .static ds => some ds.length
  | .dynRank => none

/-- `Shape::Head`, src/shape.rs:294, 334, 364, 417. -/
def head : ShapeTy → DimTy
  | .static (d :: _) => d
  | _ => .dyn

/-- `Shape::Tail`, src/shape.rs:295, 335, 365, 418. -/
def tail : ShapeTy → ShapeTy
  | .static ds => .static ds.tail
  | .dynRank => .dynRank

/-- `Shape::Reverse`, src/shape.rs:297, 337, 367, 420. -/
def reverse : ShapeTy → ShapeTy
  | .static ds => .static ds.reverse
  | .dynRank => .dynRank

/-- `Shape::Prepend`, src/shape.rs:298, 338, 368, 421; for six dimensions the result is `DynRank`
(line 460). -/
def prepend (d : DimTy) : ShapeTy → ShapeTy
  | .static ds => if ds.length < 6 then .static (d :: ds) else .dynRank
  | .dynRank => .dynRank

/-- `Shape::Dyn`, src/shape.rs:300, 340, 370, 400-412, 423. -/
def toDyn : ShapeTy → ShapeTy
  | .static ds => .static (ds.map fun _ => .dyn)
  | .dynRank => .dynRank

/-- `Shape::Merge` for tuples, src/shape.rs:341, 371, 424-425 (recursion on the tuple). -/
def mergeStatic : List DimTy → ShapeTy → ShapeTy
  | [], s => s
  | x :: xs, s => (mergeStatic xs s.tail).prepend (x.merge s.head)

/-- `Shape::Merge`, src/shape.rs:301 (`DynRank`), 341, 371, 424-425 (tuples). -/
def merge : ShapeTy → ShapeTy → ShapeTy
  | .static ds, s => mergeStatic ds s
  | .dynRank, _ => .dynRank

/-- `Shape::Layout<L>`, src/shape.rs:303, 343, 373, 427. -/
def layout (l : Layout) : ShapeTy → Layout
  | .static [] => l
  | _ => .strided

/-- The stores in `with_mut_dims` through `from_size`, src/shape.rs:390-397, 444-451; for `DynRank`
the closure writes directly to the storage (322-330). -/
def writeBack : ShapeTy → List Nat → Option (List Nat)
  | .dynRank, dims => some dims
  | .static [], [] => some []
  | .static (d :: ds), n :: ns => do
    let n' ← d.fromSize n
    let ns' ← writeBack (.static ds) ns
    pure (n' :: ns')
  | .static _, _ => none

end ShapeTy

/-- A shape value: its type and its dimension sizes (`with_dims`), src/shape.rs:314-321, 354-356,
386-388, 440-442. Simplification: the two representations of rank 1 in `DynRank`
(`One(n)` / `Dyn([n])`) are identified since all observers go through `with_dims`
(see the notes in DESIGN.md for the representation itself). -/
structure Shape where
  ty : ShapeTy
  dims : List Nat
  deriving DecidableEq, Repr

namespace Shape

/-- `Shape::new`, src/shape.rs:310-312, 350-352, 380-384, 434-438. -/
def new (ty : ShapeTy) (rank : Nat) : Option Shape :=
  match ty with
  | .static ds => if rank = ds.length then some ⟨ty, ds.map DimTy.default⟩ else none
  | .dynRank => some ⟨ty, List.replicate rank 0⟩

/-- `Default` for shapes: tuples derive it per dimension, `DynRank` defaults to `One(0)`
(src/shape.rs:261-265). -/
def default (ty : ShapeTy) : Shape :=
  match ty with
  | .static ds => ⟨ty, ds.map DimTy.default⟩
  | .dynRank => ⟨ty, [0]⟩

/-- `with_mut_dims`, src/shape.rs:323-330, 358-360, 390-397, 444-451: run the closure on the
dimensions and store the result. -/
def withMutDims (s : Shape) (f : List Nat → Option (List Nat)) : Option Shape := do
  let dims ← f s.dims
  let dims' ← s.ty.writeBack dims
  pure ⟨s.ty, dims'⟩

/-- `<[usize]>::copy_from_slice`: panics if the lengths differ. -/
def copyFromSlice (dst src : List Nat) : Option (List Nat) :=
  if dst.length = src.length then some src else none

/-- `Shape::rank`, src/shape.rs:79-81. -/
abbrev rank (s : Shape) : Nat := s.dims.length

/-- `Shape::len`, src/shape.rs:74-76 (overflow of the product is not modelled). -/
def len (s : Shape) : Nat := s.dims.foldl (· * ·) 1

/-- `Shape::is_empty`, src/shape.rs:69-71. -/
def isEmpty (s : Shape) : Bool := s.len == 0

/-- `Shape::dim`, src/shape.rs:50-54. -/
def dim (s : Shape) (index : Nat) : Option Nat := s.dims[index]?

/-- `Shape::from_dims`, src/shape.rs:61-66. -/
def fromDims (ty : ShapeTy) (dims : List Nat) : Option Shape := do
  let shape ← new ty dims.length
  shape.withMutDims (fun dst => copyFromSlice dst dims)

/-- `Shape::checked_len`, src/shape.rs:93-95. -/
def checkedLen (s : Shape) : Option Nat :=
  s.dims.foldlM (fun acc x => if acc * x ≤ usizeMax then some (acc * x) else none) 1

/-- `Shape::prepend_dim`, src/shape.rs:98-107. -/
def prependDim (s : Shape) (ty : ShapeTy) (size : Nat) : Option Shape := do
  let shape ← new ty (s.rank + 1)
  shape.withMutDims fun dims =>
    match dims with
    | [] => none
    | _ :: rest => do
      let rest' ← copyFromSlice rest s.dims
      pure (size :: rest')

/-- `Shape::remove_dim`, src/shape.rs:110-123. -/
def removeDim (s : Shape) (ty : ShapeTy) (index : Nat) : Option Shape := do
  check (index < s.rank)
  let shape ← new ty (s.rank - 1)
  shape.withMutDims fun dims => do
    let a ← copyFromSlice (dims.take index) (s.dims.take index)
    let b ← copyFromSlice (dims.drop index) (s.dims.drop (index + 1))
    pure (a ++ b)

/-- First loop of `Shape::reshape`, src/shape.rs:129-138: replace the placeholder `usize::MAX`
by 1 and remember its position. -/
def inferLoop (dims : List Nat) : Option (List Nat × Option Nat) :=
  dims.zipIdx.foldlM
    (fun (acc : List Nat × Option Nat) (x : Nat × Nat) =>
      if x.1 = usizeMax then
        if acc.2.isNone then some (acc.1 ++ [1], some x.2) else none
      else some (acc.1 ++ [x.1], acc.2))
    ([], none)

/-- `Shape::reshape`, src/shape.rs:126-152. Remainder by zero panics. -/
def reshape (s : Shape) (newShape : Shape) : Option Shape := do
  let (dims, inferred) ← inferLoop newShape.dims
  let newShape ← newShape.withMutDims fun _ => some dims
  let oldLen := s.len
  let newLen ← newShape.checkedLen
  match inferred with
  | some i =>
    check (newLen ≠ 0 ∧ oldLen % newLen = 0)
    newShape.withMutDims fun dims => some (dims.set i (oldLen / newLen))
  | none =>
    check (newLen = oldLen)
    pure newShape

/-- `Shape::resize_dim`, src/shape.rs:155-166. -/
def resizeDim (s : Shape) (ty : ShapeTy) (index newSize : Nat) : Option Shape := do
  check (index < s.rank)
  let shape ← new ty s.rank
  shape.withMutDims fun dims => do
    let dims ← copyFromSlice dims s.dims
    pure (dims.set index newSize)

/-- `Shape::reverse`, src/shape.rs:169-178. -/
def reverse (s : Shape) : Option Shape := do
  let shape ← new s.ty.reverse s.rank
  shape.withMutDims fun dims => do
    let dims ← copyFromSlice dims s.dims
    pure dims.reverse

end Shape

end Model
