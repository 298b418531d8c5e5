import Verif.Model.Tensor

/-!
Model of how tensors with an allocator (feature `nightly`) handle their memory block and their allocator value.

The heap holds the blocks that allocators have given out and the allocator values ("handles") that are alive; a clone
of a handle is another handle of the same allocator. Moving a value, `ptr::read` and `ManuallyDrop::take` copy bits and
do not change the heap. Using or dropping a handle that is not alive, and giving a block back that is not allocated, to
another allocator or with another size, is undefined behaviour.

Simplified: of the elements only the number is kept, and of the mapping only the length. What is done with elements
(closures, clones, destructors) is user code on `σ`, which may panic at any time; the other models in this directory
say what happens to elements. Sizes of blocks are counted in elements. The value of the allocator may be a reference or
the like; then dropping it does nothing, which is a special case. Changes of the size of a block (`Allocator::grow`,
`shrink`) give a new block and release the old one.
-/

namespace Model
namespace Alloc

variable {σ α : Type}

/-- Allocator values that are alive, with their allocator; blocks that are allocated, with their allocator and size;
the next unused number. -/
structure Heap where
  handles : List (Nat × Nat)
  blocks : List (Nat × Nat × Nat)
  next : Nat
  deriving DecidableEq, Repr

/-- What the code depends on: whether elements have size zero, whether debug assertions are enabled, the largest number
of elements of a block; the user code of `A::clone`, `Drop for A`, `Allocator::allocate` (which says if there is memory)
and of destructors of elements; the capacity that `Vec` wants for a capacity and a needed capacity (not specified by
std). -/
structure Env (σ : Type) where
  zst : Bool
  debug : Bool
  limit : Nat
  cloneA : Nat → M σ Unit
  dropA : Nat → M σ Unit
  give : Nat → Nat → M σ Bool
  dropT : M σ Unit
  grow : Nat → Nat → Nat

/-- Abort of the process, `handle_alloc_error` (std). -/
def abort : M σ α := fun _ => .abort

/-- The allocator of a handle, which must be alive. -/
def live (h : Nat) : M (σ × Heap) Nat := fun s =>
  match s.2.handles.lookup h with
  | some a => .ok a s
  | none => .ub

/-- Change the heap. -/
def change (f : Heap → Heap) : M (σ × Heap) Unit := fun s => .ok () (s.1, f s.2)

/-- `A::clone` (user code). -/
def cloneHandle (env : Env σ) (h : Nat) : M (σ × Heap) Nat :=
  M.bind (live h) fun a =>
    M.bind (M.up (env.cloneA a)) fun _ =>
      M.bind M.get fun s =>
        M.bind (change fun H => { H with handles := (H.next, a) :: H.handles, next := H.next + 1 }) fun _ =>
          M.pure s.2.next

/-- Drop of a handle (user code); it is gone even if its destructor panics. -/
def dropHandle (env : Env σ) (h : Nat) : M (σ × Heap) Unit :=
  M.bind (live h) fun a =>
    M.bind (change fun H => { H with handles := H.handles.erase (h, a) }) fun _ => M.up (env.dropA a)

/-- `Allocator::allocate` as called by `Vec` (std): without elements there is no block, and the pointer is dangling.
The outer `none` is a failure. -/
def allocate (env : Env σ) (h n : Nat) : M (σ × Heap) (Option (Option Nat)) :=
  if env.zst = true ∨ n = 0 then M.pure (some none)
  else
    M.bind (live h) fun a =>
      M.bind (M.up (env.give a n)) fun got =>
        if got = true then
          M.bind M.get fun s =>
            M.bind (change fun H => { H with blocks := (H.next, a, n) :: H.blocks, next := H.next + 1 }) fun _ =>
              M.pure (some (some s.2.next))
        else M.pure none

/-- `Allocator::deallocate` as called by `Vec` (std). -/
def release (env : Env σ) (h : Nat) (p : Option Nat) (n : Nat) : M (σ × Heap) Unit :=
  if env.zst = true ∨ n = 0 then M.pure ()
  else
    match p with
    | none => M.ub
    | some b =>
      M.bind (live h) fun a =>
        M.bind M.get fun s =>
          if (b, a, n) ∈ s.2.blocks then change fun H => { H with blocks := H.blocks.erase (b, a, n) } else M.ub

/-- `Allocator::grow` and `shrink` as called by `Vec` (std): on failure, the old block is kept. -/
def regrow (env : Env σ) (h : Nat) (p : Option Nat) (old new : Nat) : M (σ × Heap) (Option (Option Nat)) :=
  M.bind (allocate env h new) fun
    | none => M.pure none
    | some q => M.bind (release env h p old) fun _ => M.pure (some q)

/-! The standard library's `Vec<T, A>`. -/

/-- `Vec<T, A>` (std); `cap` is zero for elements without size. -/
structure VecA where
  ptr : Option Nat
  len : Nat
  cap : Nat
  alloc : Nat
  deriving DecidableEq, Repr

/-- `Vec::capacity` (std). -/
def VecA.capacity (env : Env σ) (v : VecA) : Nat := if env.zst = true then 2 ^ 64 - 1 else v.cap

/-- `Vec::from_raw_parts_in` (std). -/
def vecFromRaw (env : Env σ) (p : Option Nat) (len cap h : Nat) : VecA :=
  ⟨p, len, if env.zst = true then 0 else cap, h⟩

/-- Drop of `RawVec` (std): the block is released, then the allocator is dropped. -/
def freeVec (env : Env σ) (v : VecA) : M (σ × Heap) Unit :=
  M.bind (release env v.alloc v.ptr v.cap) fun _ => dropHandle env v.alloc

/-- Drop of `Vec` (std): elements first; the rest is dropped also if a destructor panics. -/
def dropVec (env : Env σ) (v : VecA) : M (σ × Heap) Unit :=
  M.bind (M.onPanic (M.up env.dropT) (freeVec env v)) fun _ => freeVec env v

/-- `Vec::with_capacity_in` (std): the allocator is an argument, and is dropped by a panic. -/
def vecWithCapacity (env : Env σ) (n h : Nat) : M (σ × Heap) VecA :=
  M.bind (M.onPanic (M.bind (M.lift (check (env.zst = true ∨ n ≤ env.limit))) fun _ => allocate env h n)
    (dropHandle env h)) fun
    | none => abort
    | some p => M.pure ⟨p, 0, if env.zst = true then 0 else n, h⟩

/-- Read the vector. -/
def vec : M ((σ × Heap) × VecA) VecA := fun s => .ok s.2 s

/-- Change the vector. -/
def updVec (f : VecA → VecA) : M ((σ × Heap) × VecA) Unit := fun s => .ok () (s.1, f s.2)

/-- User code, which does not see the heap or the vector. -/
def user (x : M σ α) : M ((σ × Heap) × VecA) α := M.up (M.up x)

/-- `Vec::reserve`, `reserve_exact`, `try_reserve`, `try_reserve_exact` (std): `true` if there is room, `false` if there
is no memory. A capacity that is too large is reported by `full`. -/
def vecRoom (env : Env σ) (add : Nat) (full : M ((σ × Heap) × VecA) Bool) : M ((σ × Heap) × VecA) Bool :=
  M.bind vec fun v =>
    if v.len + add ≤ v.capacity env then M.pure true
    else if env.zst = true then full
    else
      let n := max (v.len + add) (env.grow v.cap (v.len + add))
      if n ≤ env.limit then
        M.bind (M.up (regrow env v.alloc v.ptr v.cap n)) fun
          | none => M.pure false
          | some p => M.bind (updVec fun v => { v with ptr := p, cap := n }) fun _ => M.pure true
      else full

/-- `Vec::reserve`, `reserve_exact` (std): "capacity overflow" is a panic, and missing memory an abort. -/
def vecReserveA (env : Env σ) (add : Nat) : M ((σ × Heap) × VecA) Unit :=
  M.bind (vecRoom env add M.panic) fun b => if b = true then M.pure () else abort

/-- `Vec::try_reserve`, `try_reserve_exact` (std). -/
def vecTryReserve (env : Env σ) (add : Nat) : M ((σ × Heap) × VecA) Bool := vecRoom env add (M.pure false)

/-- `Vec::shrink_to`, `shrink_to_fit` (std). -/
def vecShrink (env : Env σ) (least : Nat) : M ((σ × Heap) × VecA) Unit :=
  M.bind vec fun v =>
    if max v.len least < v.cap then
      M.bind (M.up (regrow env v.alloc v.ptr v.cap (max v.len least))) fun
        | none => abort
        | some p => updVec fun w => { w with ptr := p, cap := max v.len least }
    else M.pure ()

/-- `Vec::truncate`, `clear` (std): the length is set first. -/
def vecCut (env : Env σ) (n : Nat) : M ((σ × Heap) × VecA) Unit :=
  M.bind vec fun v =>
    if n ≤ v.len then M.bind (updVec fun v => { v with len := n }) fun _ => user env.dropT else M.pure ()

/-- Write an element made by user code after the last one, and count it. -/
def vecWrite (f : M σ Unit) : M ((σ × Heap) × VecA) Unit :=
  M.bind (user f) fun _ => updVec fun v => { v with len := v.len + 1 }

/-- `Vec::resize_with` (std). -/
def vecResize (env : Env σ) (n : Nat) (f : M σ Unit) : M ((σ × Heap) × VecA) Unit :=
  M.bind vec fun v =>
    if v.len < n then M.bind (vecReserveA env (n - v.len)) fun _ => repeatM (n - v.len) (vecWrite f)
    else vecCut env n

/-- `Vec::extend` (std), for an iterator with `n` more items. -/
def vecExtendA (env : Env σ) (n : Nat) (f : M σ Unit) : M ((σ × Heap) × VecA) Unit :=
  repeatM n (M.bind (user f) fun _ =>
    M.bind (vecReserveA env 1) fun _ => updVec fun v => { v with len := v.len + 1 })

/-- `Vec::clone_from` and `[T]::clone_into` (std): the allocator of the target is kept. -/
def vecCloneFromA (env : Env σ) (n : Nat) (c : M σ Unit) : M ((σ × Heap) × VecA) Unit :=
  M.bind (vecCut env n) fun _ =>
    M.bind vec fun v =>
      M.bind (repeatM (min v.len n) (user c)) fun _ =>
        M.bind (vecReserveA env (n - v.len)) fun _ => repeatM (n - v.len) (vecWrite c)

/-- Run code with a local vector, which is dropped by a panic. -/
def withVec (env : Env σ) (v : VecA) (x : M ((σ × Heap) × VecA) α) : M (σ × Heap) (α × VecA) :=
  M.scope v (M.onPanic x (M.bind vec fun v => M.up (dropVec env v)))

/-- `Vec::clone` (std): with a clone of the allocator. -/
def vecCloneA (env : Env σ) (v : VecA) (c : M σ Unit) : M (σ × Heap) VecA :=
  M.bind (cloneHandle env v.alloc) fun h =>
    M.bind (vecWithCapacity env v.len h) fun w =>
      M.bind (withVec env w (repeatM v.len (vecWrite c))) fun r => M.pure r.2

/-! src/raw_tensor.rs -/

/-- `RawTensor` with the `nightly` feature, src/raw_tensor.rs:28-35: pointer, length of the mapping, capacity and
allocator. -/
structure RawT where
  ptr : Option Nat
  len : Nat
  cap : Nat
  alloc : Nat
  deriving DecidableEq, Repr

/-- The vector made from the fields of a tensor, src/raw_tensor.rs:101-106, 236-243, 269-276, 311-318. -/
def rawVec (env : Env σ) (t : RawT) : VecA := vecFromRaw env t.ptr t.len t.cap t.alloc

/-- `RawTensor::from_parts`, src/raw_tensor.rs:79-90. A failing debug assertion drops the argument. -/
def fromParts (env : Env σ) (v : VecA) (len : Nat) : M (σ × Heap) RawT :=
  M.bind (M.onPanic (M.lift (check (env.debug = true → v.len = len))) (dropVec env v)) fun _ =>
    M.pure ⟨v.ptr, len, v.capacity env, v.alloc⟩

/-- `RawTensor::into_parts`, src/raw_tensor.rs:92-109. -/
def intoParts (env : Env σ) (t : RawT) : VecA × Nat := (rawVec env t, t.len)

/-- A closure given to `with_mut_parts` works on the vector and on the mapping of the tensor. -/
abbrev Parts (σ α : Type) : Type := M ((σ × Heap) × RawT × VecA) α

/-- Code of such a closure for the vector. -/
def onVec (x : M ((σ × Heap) × VecA) α) : Parts σ α := fun s =>
  match x (s.1, s.2.2) with
  | .ok a t => .ok a (t.1, s.2.1, t.2)
  | .panic t => .panic (t.1, s.2.1, t.2)
  | .ub => .ub
  | .abort => .abort

/-- Read the tensor and the vector. -/
def parts : Parts σ (RawT × VecA) := fun s => .ok s.2 s

/-- Change the mapping, where `none` is a panic. -/
def setMap (n : Option Nat) : Parts σ Unit :=
  M.bind (M.lift n) fun n => fun s => .ok () (s.1, { s.2.1 with len := n }, s.2.2)

/-- Write pointer, capacity and allocator of the vector back to the tensor, src/raw_tensor.rs:223-225, 249-253. The
allocator is copied with `ptr::read`. -/
def writeBack (env : Env σ) : Parts σ Unit := fun s =>
  .ok () (s.1, { s.2.1 with ptr := s.2.2.ptr, cap := s.2.2.capacity env, alloc := s.2.2.alloc }, s.2.2)

/-- `Drop` of the guard in `with_mut_parts`, src/raw_tensor.rs:220-234; `dflt` is the length of the default mapping. -/
def guardDrop (env : Env σ) (dflt : Nat) : Parts σ Unit :=
  M.bind (writeBack env) fun _ =>
    M.bind parts fun p =>
      if p.2.len ≠ p.1.len then M.bind (setMap (some dflt)) fun _ => onVec (user env.dropT) else M.pure ()

/-- Run code with a vector made from the tensor; afterwards the bits of the vector are forgotten. -/
def withBits (init : RawT → VecA) (x : Parts σ α) : M ((σ × Heap) × RawT) α := fun s =>
  match x (s.1, s.2, init s.2) with
  | .ok a t => .ok a (t.1, t.2.1)
  | .panic t => .panic (t.1, t.2.1)
  | .ub => .ub
  | .abort => .abort

/-- `RawTensor::with_mut_parts`, src/raw_tensor.rs:210-258. -/
def withMutPartsA (env : Env σ) (dflt : Nat) (f : Parts σ α) : M ((σ × Heap) × RawT) α :=
  withBits (rawVec env)
    (M.bind (M.onPanic
      (M.bind f fun r =>
        M.bind parts fun p =>
          M.bind (M.lift (check (env.debug = true → p.2.len = p.1.len))) fun _ => M.pure r)
      (guardDrop env dflt)) fun r => M.bind (writeBack env) fun _ => M.pure r)

/-- Assign a vector to the vector of the closure: the old one is dropped, and the new one is written also if that
panics (semantics of assignments). -/
def assignVec (env : Env σ) (w : VecA) : M ((σ × Heap) × VecA) Unit :=
  M.bind vec fun v =>
    M.bind (M.onPanic (M.up (dropVec env v)) (updVec fun _ => w)) fun _ => updVec fun _ => w

/-- The last case of `RawTensor::resize_with`, src/raw_tensor.rs:128-143: a new vector with a clone of the allocator.
The elements are moved and created by `copy_dim` (`copy`), whose guard drops the others (`rest`); the new vector then
has length `len`. -/
def resizeNew (env : Env σ) (len : Nat) (copy rest : M σ Unit) : M ((σ × Heap) × VecA) Unit :=
  M.bind vec fun v =>
    M.bind (M.up (cloneHandle env v.alloc)) fun h =>
      M.bind (M.up (vecWithCapacity env len h)) fun w =>
        M.bind (updVec fun v => { v with len := 0 }) fun _ =>
          M.bind (M.onPanic (M.bind (M.onPanic (user copy) (user rest)) fun _ => user rest)
            (M.up (dropVec env w))) fun _ => assignVec env { w with len := len }

/-- `RawTensor::resize_with`, src/raw_tensor.rs:111-151: `rank` and `len` say that the rank of the new dimensions is
right and what their length is (`none` if it overflows), `same` that only the first one differs. For rank 0 nothing is
done (`skip`); `map` is the length of the new mapping. -/
def resizeWithA (env : Env σ) (dflt : Nat) (rank skip same : Bool) (len : Option Nat) (f copy rest : M σ Unit)
    (map : Option Nat) : M ((σ × Heap) × RawT) Unit :=
  M.bind (M.lift (check (rank = true))) fun _ =>
    if skip = true then M.pure ()
    else
      M.bind (M.lift len) fun n =>
        withMutPartsA env dflt
          (M.bind
            (onVec (if n = 0 then vecCut env 0 else if same = true then vecResize env n f
              else resizeNew env n copy rest)) fun _ => setMap map)

/-- `RawTensor::clone`, src/raw_tensor.rs:286-289; `with_vec` (260-283) makes a vector from copied bits, which is never
dropped. -/
def cloneRaw (env : Env σ) (t : RawT) (c : M σ Unit) : M (σ × Heap) RawT :=
  M.bind (vecCloneA env (rawVec env t) c) fun v => fromParts env v t.len

/-- `RawTensor::clone_from`, src/raw_tensor.rs:291-298; of the source, only the length matters. -/
def cloneFromRaw (env : Env σ) (dflt n : Nat) (c : M σ Unit) : M ((σ × Heap) × RawT) Unit :=
  withMutPartsA env dflt (M.bind (onVec (vecCloneFromA env n c)) fun _ => setMap (some n))

/-- `Drop` of `RawTensor`, src/raw_tensor.rs:301-320. -/
def dropRaw (env : Env σ) (t : RawT) : M (σ × Heap) Unit := dropVec env (rawVec env t)

/-! src/tensor.rs -/

/-- `Tensor::new_in`, src/tensor.rs:267-276: a failing assertion drops the allocator. -/
def newIn (env : Env σ) (dflt : Option Nat) (h : Nat) : M (σ × Heap) RawT :=
  M.bind (M.onPanic (M.lift (check (dflt = some 0))) (dropHandle env h)) fun _ =>
    fromParts env ⟨none, 0, 0, h⟩ 0

/-- `Tensor::with_capacity_in`, src/tensor.rs:388-398. -/
def withCapacityIn (env : Env σ) (dflt : Option Nat) (n h : Nat) : M (σ × Heap) RawT :=
  M.bind (M.onPanic (M.lift (check (dflt = some 0))) (dropHandle env h)) fun _ =>
    M.bind (vecWithCapacity env n h) fun v => fromParts env v 0

/-- `clone_into_vec`, src/expr/expression.rs:184-198: for an expression of length `len` that gives `items` items. -/
def cloneInto (env : Env σ) (len items : Nat) (f : M σ Unit) : M ((σ × Heap) × VecA) Unit :=
  M.bind vec fun v =>
    M.bind (M.lift (check (len ≤ v.capacity env - v.len))) fun _ => repeatM items (vecWrite f)

/-- `Tensor::from_expr_in`, src/tensor.rs:411-421, as called by `from_elem_in`, `from_fn_in` (155-171) and
`to_tensor_in` (src/slice.rs:615-622). If there is no such shape, or its length overflows (`none`), the allocator is
dropped. Writes past the block are the subject of `Model/Tensor.lean`. -/
def fromExprIn (env : Env σ) (len : Option Nat) (items : Nat) (f : M σ Unit) (h : Nat) : M (σ × Heap) RawT :=
  M.bind (M.onPanic (M.lift len) (dropHandle env h)) fun n =>
    M.bind (vecWithCapacity env n h) fun v =>
      M.bind (withVec env v (cloneInto env n items f)) fun r => fromParts env r.2 n

/-- `Tensor::from_raw_parts_in`, src/tensor.rs:173-187. -/
def fromRawPartsIn (env : Env σ) (p : Option Nat) (len cap h : Nat) : M (σ × Heap) RawT :=
  fromParts env (vecFromRaw env p len cap h) len

/-- `Tensor::into_raw_parts_with_alloc`, src/tensor.rs:210-217. -/
def intoRawParts (env : Env σ) (t : RawT) : Option Nat × Nat × Nat × Nat :=
  let p := intoParts env t
  (p.1.ptr, p.2, p.1.capacity env, p.1.alloc)

/-- `Tensor::into_mapping`, `into_dyn` and `into_shape`, src/tensor.rs:189-208, 248-252: the vector is dropped if there
is no such mapping. -/
def intoMapping (env : Env σ) (len : Option Nat) (t : RawT) : M (σ × Heap) RawT :=
  let p := intoParts env t
  M.bind (M.onPanic (M.lift len) (dropVec env p.1)) fun n => fromParts env p.1 n

/-- `From<Vec>` for one-dimensional tensors, src/tensor.rs:742-748. -/
def fromVec (env : Env σ) (v : VecA) : M (σ × Heap) RawT := fromParts env v v.len

/-- `Tensor::into_flat`, src/tensor.rs:194-197; `into_vec` is 255-259. -/
def intoFlat (env : Env σ) (t : RawT) : M (σ × Heap) RawT := fromVec env (intoParts env t).1

/-- `Tensor::into_scalar`, src/tensor.rs:219-228: a failing assertion drops the tensor, and otherwise the vector is
dropped without the element. The conversions to arrays, src/tensor.rs:913-926, drop the vector after `set_len(0)` as
well. -/
def intoScalar (env : Env σ) (ok : Bool) (t : RawT) : M (σ × Heap) Unit :=
  M.bind (M.onPanic (M.lift (check (ok = true))) (dropRaw env t)) fun _ => freeVec env (intoParts env t).1

/-- `Drop` of the guard in `Tensor::zip_with`, src/tensor.rs:436-454: the vector is dropped after the elements (`rest`),
also if that panics. -/
def zipGuard (env : Env σ) (rest : M σ Unit) (t : RawT) : M (σ × Heap) Unit :=
  M.bind (M.onPanic (M.up rest) (freeVec env (intoParts env t).1)) fun _ => freeVec env (intoParts env t).1

/-- `Tensor::zip_with` and `map`, src/tensor.rs:427-470, 261-264; `loop` is the iteration. -/
def zipWithA (env : Env σ) (loop rest : M σ Unit) (t : RawT) : M (σ × Heap) RawT :=
  M.bind (M.onPanic (M.up loop) (zipGuard env rest t)) fun _ => M.pure t

/-- `Tensor::into_expr`, src/tensor.rs:855-862. -/
def intoExprA (env : Env σ) (t : RawT) : M (σ × Heap) RawT :=
  let p := intoRawParts env t
  fromRawPartsIn env p.1 p.2.1 p.2.2.1 p.2.2.2

/-- Use and drop of the expression made by `into_expr`, src/expr/into_expr.rs:69-78: the remaining elements are dropped
(`rest`), then the buffer, whose elements have no destructor. -/
def dropIntoExpr (env : Env σ) (rest : M σ Unit) (t : RawT) : M (σ × Heap) Unit :=
  M.bind (M.onPanic (M.up rest) (freeVec env (rawVec env t))) fun _ => freeVec env (rawVec env t)

/-- `Tensor::clear`, src/tensor.rs:81-90. -/
def clearA (env : Env σ) (dflt : Nat) : M ((σ × Heap) × RawT) Unit :=
  M.bind (M.lift (check (dflt = 0))) fun _ =>
    withMutPartsA env dflt (M.bind (onVec (vecCut env 0)) fun _ => setMap (some dflt))

/-- `Tensor::expand`, src/tensor.rs:120-153, for an expression of length `len` that gives `items` items; `map` is the
length of the new mapping, `none` a failing assertion. Also `append` and `eval_into`. -/
def expandA (env : Env σ) (dflt : Nat) (ok : Bool) (len items : Nat) (map : Option Nat) (f : M σ Unit) :
    M ((σ × Heap) × RawT) Unit :=
  M.bind (M.lift (check (ok = true))) fun _ =>
    if 0 < len then
      withMutPartsA env dflt
        (M.bind (onVec (vecReserveA env len)) fun _ =>
          M.bind (setMap map) fun _ => onVec (cloneInto env len items f))
    else M.pure ()

/-- `Tensor::truncate`, src/tensor.rs:356-368; `n` is the new length if it is shorter. -/
def truncateA (env : Env σ) (dflt : Nat) (ok : Bool) (n : Option Nat) : M ((σ × Heap) × RawT) Unit :=
  M.bind (M.lift (check (ok = true))) fun _ =>
    match n with
    | some n => withMutPartsA env dflt (M.bind (setMap (some n)) fun _ => onVec (vecCut env n))
    | none => M.pure ()

/-- `Extend::extend`, src/tensor.rs:705-714. -/
def extendA (env : Env σ) (dflt n : Nat) (f : M σ Unit) : M ((σ × Heap) × RawT) Unit :=
  withMutPartsA env dflt
    (M.bind (onVec (vecExtendA env n f)) fun _ => M.bind parts fun p => setMap (some p.2.len))

/-- `Tensor::reserve`, `reserve_exact`, src/tensor.rs:280-291. -/
def reserveA (env : Env σ) (dflt add : Nat) : M ((σ × Heap) × RawT) Unit :=
  withMutPartsA env dflt (onVec (vecReserveA env add))

/-- `Tensor::try_reserve`, `try_reserve_exact`, src/tensor.rs:375-386. -/
def tryReserveA (env : Env σ) (dflt add : Nat) : M ((σ × Heap) × RawT) Bool :=
  withMutPartsA env dflt (onVec (vecTryReserve env add))

/-- `Tensor::shrink_to`, `shrink_to_fit`, src/tensor.rs:322-333. -/
def shrinkA (env : Env σ) (dflt least : Nat) : M ((σ × Heap) × RawT) Unit :=
  withMutPartsA env dflt (onVec (vecShrink env least))

/-- `RawTensor::set_mapping`, src/raw_tensor.rs:153-160, as used by `Drain` (src/expr/buffer.rs:40-58, 74-83); `n` is the
length of the new mapping, `none` a failing assertion, and elements are moved or dropped by `x`. -/
def drainA (n : Option Nat) (x : M σ Unit) : M ((σ × Heap) × RawT) Unit :=
  M.bind (M.lift n) fun n =>
    M.bind (fun s => .ok () (s.1, { s.2 with len := n })) fun _ => M.up (M.up x)

/-! Programs that use tensors. -/

/-- Operations on a tensor that is borrowed mutably. -/
inductive Mut (σ : Type)
  | clear (dflt : Nat)
  | expand (dflt : Nat) (ok : Bool) (len items : Nat) (map : Option Nat) (f : M σ Unit)
  | truncate (dflt : Nat) (ok : Bool) (n : Option Nat)
  | extend (dflt n : Nat) (f : M σ Unit)
  | reserve (dflt add : Nat)
  | tryReserve (dflt add : Nat)
  | shrink (dflt least : Nat)
  | resize (dflt : Nat) (rank skip same : Bool) (len : Option Nat) (f copy rest : M σ Unit) (map : Option Nat)
  | cloneFrom (dflt n : Nat) (c : M σ Unit)
  | drain (n : Option Nat) (x : M σ Unit)

/-- Run such an operation. -/
def Mut.run (env : Env σ) : Mut σ → M ((σ × Heap) × RawT) Unit
  | .clear d => clearA env d
  | .expand d ok len items map f => expandA env d ok len items map f
  | .truncate d ok n => truncateA env d ok n
  | .extend d n f => extendA env d n f
  | .reserve d n => reserveA env d n
  | .tryReserve d n => M.bind (tryReserveA env d n) fun _ => M.pure ()
  | .shrink d n => shrinkA env d n
  | .resize d rank skip same len f copy rest map => resizeWithA env d rank skip same len f copy rest map
  | .cloneFrom d n c => cloneFromRaw env d n c
  | .drain n x => drainA n x

/-- Operations that create a tensor from an allocator. -/
inductive Make (σ : Type)
  | new (dflt : Option Nat)
  | withCapacity (dflt : Option Nat) (n : Nat)
  | fromExpr (len : Option Nat) (items : Nat) (f : M σ Unit)

/-- Run such an operation. -/
def Make.run (env : Env σ) (h : Nat) : Make σ → M (σ × Heap) RawT
  | .new d => newIn env d h
  | .withCapacity d n => withCapacityIn env d n h
  | .fromExpr len items f => fromExprIn env len items f h

/-- Operations that turn a tensor into another one with the same memory. -/
inductive Conv (σ : Type)
  | mapping (len : Option Nat)
  | flat
  | zipWith (loop rest : M σ Unit)
  | expr
  | rawParts

/-- Run such an operation; `rawParts` takes a tensor apart and puts it together again. -/
def Conv.run (env : Env σ) (t : RawT) : Conv σ → M (σ × Heap) RawT
  | .mapping len => intoMapping env len t
  | .flat => intoFlat env t
  | .zipWith loop rest => zipWithA env loop rest t
  | .expr => intoExprA env t
  | .rawParts =>
    let p := intoRawParts env t
    fromRawPartsIn env p.1 p.2.1 p.2.2.1 p.2.2.2

/-- Operations that consume a tensor. -/
inductive Use (σ : Type)
  | drop
  | vec
  | scalar (ok : Bool)
  | expr (rest : M σ Unit)

/-- Run such an operation; the vector made by `into_vec` is dropped. -/
def Use.run (env : Env σ) (t : RawT) : Use σ → M (σ × Heap) Unit
  | .drop => dropRaw env t
  | .vec => dropVec env (intoParts env t).1
  | .scalar ok => intoScalar env ok t
  | .expr rest => dropIntoExpr env rest t

/-- Steps of a program: create a tensor with a new allocator value of an allocator, clone the tensor with the given
position, change it, convert it or consume it. -/
inductive Step (σ : Type)
  | make (a : Nat) (m : Make σ)
  | clone (i : Nat) (c : M σ Unit)
  | mutate (i : Nat) (m : Mut σ)
  | convert (i : Nat) (c : Conv σ)
  | use (i : Nat) (u : Use σ)

/-- A new allocator value of an allocator. -/
def newHandle (a : Nat) : M (σ × Heap) Nat :=
  M.bind M.get fun s =>
    M.bind (change fun H => { H with handles := (H.next, a) :: H.handles, next := H.next + 1 }) fun _ =>
      M.pure s.2.next

/-- Read the tensors of the program. -/
def tensors : M ((σ × Heap) × List RawT) (List RawT) := fun s => .ok s.2 s

/-- Change the tensors of the program. -/
def setTensors (ts : List RawT) : M ((σ × Heap) × List RawT) Unit := fun s => .ok () (s.1, ts)

/-- Run an operation on the tensor with position `i`, which keeps the state that it has after a panic. -/
def atTensor (i : Nat) (t : RawT) (x : M ((σ × Heap) × RawT) Unit) : M ((σ × Heap) × List RawT) Unit := fun s =>
  match x (s.1, t) with
  | .ok a u => .ok a (u.1, s.2.set i u.2)
  | .panic u => .panic (u.1, s.2.set i u.2)
  | .ub => .ub
  | .abort => .abort

/-- Run a step. Steps for tensors that do not exist do nothing. -/
def Step.run (env : Env σ) : Step σ → M ((σ × Heap) × List RawT) Unit
  | .make a m =>
    M.bind (M.up (M.bind (newHandle a) fun h => m.run env h)) fun t =>
      M.bind tensors fun ts => setTensors (t :: ts)
  | .clone i c => M.bind tensors fun ts =>
    match ts[i]? with
    | none => M.pure ()
    | some t => M.bind (M.up (cloneRaw env t c)) fun u => M.bind tensors fun ts => setTensors (u :: ts)
  | .mutate i m => M.bind tensors fun ts =>
    match ts[i]? with
    | none => M.pure ()
    | some t => atTensor i t (m.run env)
  | .convert i c => M.bind tensors fun ts =>
    match ts[i]? with
    | none => M.pure ()
    | some t =>
      M.bind (setTensors (ts.eraseIdx i)) fun _ =>
        M.bind (M.up (c.run env t)) fun u => M.bind tensors fun ts => setTensors (u :: ts)
  | .use i u => M.bind tensors fun ts =>
    match ts[i]? with
    | none => M.pure ()
    | some t => M.bind (setTensors (ts.eraseIdx i)) fun _ => M.up (u.run env t)

/-- Catch a panic, as `catch_unwind` (std). -/
def caught (x : M σ Unit) : M σ Unit := fun s =>
  match x s with
  | .panic t => .ok () t
  | r => r

/-- Run the steps of a program, where panics are caught. -/
def runSteps (env : Env σ) : List (Step σ) → M ((σ × Heap) × List RawT) Unit
  | [] => M.pure ()
  | x :: xs => M.bind (caught (x.run env)) fun _ => runSteps env xs

end Alloc
end Model
