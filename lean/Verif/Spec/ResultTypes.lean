import Verif.Spec.View
import Verif.Spec.Expr

/-!
Specification of the documented result types of the operations on views: which layout and which shape
type the result has. The definitions use list surgery only, no type-level recursion.
-/

namespace Spec
open Model

/-- The position of an axis, if it is known at compile time (src/slice.rs:76-81). -/
def knownPos : Axis → ShapeTy → Option Nat
  | .const n, _ => some n
  | .cols, .static ds => some (ds.length - 2)
  | .rows, .static ds => some (ds.length - 1)
  | _, _ => none

/-- "If it is the first dimension the resulting array view has the same layout as the input", and otherwise
it is strided (src/slice.rs:80-81, 556-557). -/
def firstLayout (a : Axis) (ty : ShapeTy) (l : Layout) : Layout :=
  if knownPos a ty = some 0 then l else .strided

/-- "If it is the last dimension the resulting array views have the same layout as the input", and otherwise
they are strided (src/slice.rs:299-300). -/
def lastLayout (a : Axis) (ty : ShapeTy) (l : Layout) : Layout :=
  match a, ty with
  | .rows, _ => l
  | a, .static ds => if knownPos a (.static ds) = some (ds.length - 1) then l else .strided
  | _, .dynRank => .strided

/-- The arguments of `view` for which the layout of the input is kept: integers, then at most one range
without step, and then full ranges. -/
def KeepsLayout (xs : List DimIdx) : Prop :=
  ∃ pre mid post : List DimIdx, xs = pre ++ mid ++ post ∧ (∀ x ∈ pre, ∃ i, x = .int i) ∧
    mid.length ≤ 1 ∧ (∀ x ∈ mid, ∀ s e k, x ≠ .step s e k) ∧ ∀ x ∈ post, x = .full

/-- "If the permutation is an identity permutation and known at compile time, the resulting array view has the
same layout as the input" (src/slice.rs:363-366); for a single dimension it always has. -/
def permLayout (perm : ShapeTy) (l : Layout) : Layout :=
  match perm with
  | .static xs => if xs.length = 1 ∨ xs = (List.range xs.length).map .const then l else .strided
  | .dynRank => .strided

/-- Reversing the dimensions keeps the layout if there is at most one of them at compile time. -/
def reorderLayout (ty : ShapeTy) (l : Layout) : Layout :=
  match ty with
  | .static ds => if ds.length ≤ 1 then l else .strided
  | .dynRank => .strided

/-- All dimensions become dynamic. -/
def forget : ShapeTy → ShapeTy
  | .static ds => .static (List.replicate ds.length .dyn)
  | .dynRank => .dynRank

/-- The shape type without the dimension of an axis: constant sizes are kept if the axis is known at compile
time (src/slice.rs:79-80). -/
def withoutDim (a : Axis) (ty : ShapeTy) : ShapeTy :=
  match knownPos a ty, ty with
  | some p, .static ds => .static (ds.eraseIdx p)
  | none, .static ds => .static (List.replicate (ds.length - 1) .dyn)
  | _, .dynRank => .dynRank

/-- The shape type if the dimension of an axis is resized: the others are kept if the axis is known at compile
time (src/slice.rs:555-556). -/
def resizedDim (a : Axis) (ty : ShapeTy) : ShapeTy :=
  match knownPos a ty, ty with
  | some p, .static ds => .static (ds.set p .dyn)
  | none, .static ds => .static (List.replicate ds.length .dyn)
  | _, .dynRank => .dynRank

/-- The type of the dimension of an axis. -/
def dimAlong (a : Axis) (ty : ShapeTy) : DimTy :=
  match knownPos a ty, ty with
  | some p, .static ds => ds.getD p .dyn
  | _, _ => .dyn

/-- The dimension types of a view: integers remove a dimension, `..` keeps it, other ranges make it dynamic. -/
def viewDimTys (xs : List DimIdx) (ds : List DimTy) : List DimTy :=
  (xs.zip ds).filterMap fun p =>
    match p.1 with
    | .int _ => none
    | .full => some p.2
    | .range _ _ => some .dyn
    | .step _ _ _ => some .dyn

/-- The shape type of a permuted view: constant entries pick the type of a dimension, dynamic ones give a
dynamic dimension. -/
def permutedTy (perm ty : ShapeTy) : ShapeTy :=
  match perm, ty with
  | .static xs, .static ds => .static (xs.map fun x =>
      match x with
      | .const n => ds.getD n .dyn
      | .dyn => .dyn)
  | .static xs, .dynRank => .static (xs.map fun _ => .dyn)
  | .dynRank, ty => forget ty

/-- The type of a dimension of a merged expression: a constant size of the first or the second one. -/
def mergedDim : Option DimTy → Option DimTy → Option DimTy
  | some (.const n), _ => some (.const n)
  | some .dyn, none => some .dyn
  | _, y => y

end Spec
