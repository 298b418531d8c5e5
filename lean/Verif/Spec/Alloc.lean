import Verif.Model.Alloc
import Verif.Spec.Outcome
import Mathlib.Data.List.Perm.Basic

/-! Specification vocabulary for memory blocks and allocators. -/

namespace Spec
open Model Model.Alloc

/-- Numbers of handles and blocks are unique, and the next number is unused. -/
structure Numbered (H : Heap) : Prop where
  handles : (H.handles.map Prod.fst).Nodup
  blocks : (H.blocks.map Prod.fst).Nodup
  handle_lt : ∀ x ∈ H.handles, x.1 < H.next
  block_lt : ∀ x ∈ H.blocks, x.1 < H.next

/-- Exactly the handles `hs` are alive and exactly the blocks `bs` are allocated, each one once. -/
structure Tally (H : Heap) (hs : List (Nat × Nat)) (bs : List (Nat × Nat × Nat)) : Prop where
  numbered : Numbered H
  handles : H.handles.Perm hs
  blocks : H.blocks.Perm bs

/-- The block of a tensor with allocator `a`: none without capacity or for elements of size zero. -/
def blockOf (zst : Bool) (t : RawT) (a : Nat) : List (Nat × Nat × Nat) :=
  if zst = true ∨ t.cap = 0 then [] else t.ptr.toList.map fun b => (b, a, t.cap)

/-- The tensor has a block if it has capacity for elements with a size. -/
def HasBlock (zst : Bool) (t : RawT) : Prop := zst = true ∨ t.cap = 0 ∨ t.ptr ≠ none

/-- In the heap are exactly the handle and the block of the tensor, which belong to the allocator `a`, and the others. -/
def Owns (zst : Bool) (H : Heap) (t : RawT) (a : Nat) (hs : List (Nat × Nat)) (bs : List (Nat × Nat × Nat)) : Prop :=
  HasBlock zst t ∧ Tally H ((t.alloc, a) :: hs) (blockOf zst t a ++ bs)

/-- The same for any number of tensors with their allocators. -/
def OwnsAll (zst : Bool) (H : Heap) (ts : List (RawT × Nat)) (hs : List (Nat × Nat)) (bs : List (Nat × Nat × Nat)) :
    Prop :=
  (∀ x ∈ ts, HasBlock zst x.1) ∧
    Tally H (ts.map (fun x => (x.1.alloc, x.2)) ++ hs) (ts.flatMap (fun x => blockOf zst x.1 x.2) ++ bs)

/-- User code may do anything but invoke undefined behaviour. -/
def Fair {σ α : Type} (x : M σ α) : Prop := ∀ s, x s ≠ .ub

/-- The user code of the allocator and of destructors of elements. -/
structure FairEnv {σ : Type} (env : Env σ) : Prop where
  cloneA : ∀ a, Fair (env.cloneA a)
  dropA : ∀ a, Fair (env.dropA a)
  give : ∀ a n, Fair (env.give a n)
  dropT : Fair env.dropT

/-- The user code called by an operation. -/
def mutCode {σ : Type} : Mut σ → List (M σ Unit)
  | .expand _ _ _ _ _ f => [f]
  | .extend _ _ f => [f]
  | .resize _ _ _ _ _ f copy rest _ => [f, copy, rest]
  | .cloneFrom _ _ c => [c]
  | .drain _ x => [x]
  | .clear _ | .truncate _ _ _ | .reserve _ _ | .tryReserve _ _ | .shrink _ _ => []

/-- The user code called by an operation. -/
def makeCode {σ : Type} : Make σ → List (M σ Unit)
  | .fromExpr _ _ f => [f]
  | .new _ | .withCapacity _ _ => []

/-- The user code called by an operation. -/
def convCode {σ : Type} : Conv σ → List (M σ Unit)
  | .zipWith loop rest => [loop, rest]
  | .mapping _ | .flat | .expr | .rawParts => []

/-- The user code called by an operation. -/
def useCode {σ : Type} : Use σ → List (M σ Unit)
  | .expr rest => [rest]
  | .drop | .vec | .scalar _ => []

/-- The user code called by a step. -/
def stepCode {σ : Type} : Step σ → List (M σ Unit)
  | .make _ m => makeCode m
  | .clone _ c => [c]
  | .mutate _ m => mutCode m
  | .convert _ c => convCode c
  | .use _ u => useCode u

end Spec
