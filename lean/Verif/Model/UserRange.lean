import Verif.Model.Tensor
import Verif.Model.View

/-!
Model of ranges of types that are defined outside of the crate. `step(range, s)` and `drain` accept every type that
implements `std::ops::RangeBounds<usize>`, which is not `unsafe` to implement: the functions may return different
bounds in different calls, and may panic.

This is the build without `nightly`, where the crate has its own function for ranges. As in Model/View and
Model/Tensor, sizes are not bounded.
-/

namespace Model

variable {σ ρ T : Type}

/-- A type implementing `RangeBounds<usize>` (std): `start_bound` and `end_bound`. What they depend on is part of the
world `σ`. -/
structure UserRange (σ : Type) where
  start : M σ Bnd
  stop : M σ Bnd

namespace UserRange

/-- The range in a larger world. -/
def up (r : UserRange σ) : UserRange (σ × ρ) := ⟨M.up r.start, M.up r.stop⟩

/-- `index::range`, src/index/mod.rs:17-45. -/
def norm (r : UserRange σ) (len : Nat) : M σ (Nat × Nat) := do
  let b ← r.start
  let s ← M.lift (match b with
    | .included n => some n
    | .excluded n => if n + 1 ≤ usizeMax then some (n + 1) else none
    | .unbounded => some 0)
  let c ← r.stop
  let e ← M.lift (match c with
    | .included n => if n + 1 ≤ usizeMax then some (n + 1) else none
    | .excluded n => some n
    | .unbounded => some len)
  M.lift (check (s ≤ e))
  M.lift (check (e ≤ len))
  M.pure (s, e)

end UserRange

/-- Arguments of `view`: those of Model/View, and `StepRange` with a range of any other type,
src/index/view.rs:55-161. -/
inductive UserIdx (σ : Type)
  | own (x : DimIdx)
  | step (r : UserRange σ) (step : Int)

namespace UserIdx

/-- An argument with the same associated types, src/index/view.rs:55-139. -/
def kind : UserIdx σ → DimIdx
  | .own x => x
  | .step _ k => .step .unbounded .unbounded k

/-- `view_index`, src/index/view.rs:60-75 (usize), 83-94 (`..`), 104-124 (ranges), 141-160 (`StepRange`), 170-175
(`()`), 187-192 (tuples): the other arguments are evaluated first. -/
def viewIndex (m : Mapping) : List (UserIdx σ) → ShapeTy → M σ (Int × Mapping)
  | [], _ => M.pure (0, ViewIdx.unitMapping m.layout)
  | x :: rest, s => do
    let (offset, inner) ← viewIndex m rest s.tail
    let size ← M.lift (m.dim (m.rank - 1 - rest.length))
    let stride ← M.lift (m.stride (m.rank - 1 - rest.length))
    let ty := ViewIdx.shapeTy (kind x :: rest.map kind) s
    let l := ViewIdx.layout m.layout (kind x :: rest.map kind)
    match x with
    | .own (.int i) => do
      M.lift (check (i < size))
      let r ← M.lift (inner.remap ty l)
      M.pure (offset + stride * (i : Int), r)
    | .own .full => do
      let r ← M.lift (inner.prependDim size stride ty l)
      M.pure (offset, r)
    | .own (.range a b) => do
      let (start, stop) ← M.lift (rangeNorm a b size)
      let count := stride * (start : Int)
      let r ← M.lift (inner.prependDim (stop - start) stride ty l)
      M.pure (offset + count, r)
    | .own (.step a b k) => do
      let (start, stop) ← M.lift (rangeNorm a b size)
      M.lift (check (k.natAbs ≠ 0))
      let len := (stop - start + k.natAbs - 1) / k.natAbs
      let delta : Nat := if k < 0 ∧ start < stop then stop - 1 else start
      let r ← M.lift (inner.prependDim len (stride * k) ty l)
      M.pure (offset + stride * (delta : Int), r)
    | .step r k => do
      let (start, stop) ← r.norm size
      M.lift (check (k.natAbs ≠ 0))
      let len := (stop - start + k.natAbs - 1) / k.natAbs
      let delta : Nat := if k < 0 ∧ start < stop then stop - 1 else start
      let r ← M.lift (inner.prependDim len (stride * k) ty l)
      M.pure (offset + stride * (delta : Int), r)

/-- `into_view`, src/view.rs:467-482, 491-506 (`Slice::view`, src/slice.rs:695-720). -/
def view (v : View) (xs : List (UserIdx σ)) : M σ View := do
  let (offset, m) ← viewIndex v.map xs v.ty
  let count := if m.isEmpty then 0 else offset
  M.pure ⟨v.ptr + count, m⟩

end UserIdx

namespace UserRange

/-- `Tensor::drain` with `Drain::new`, src/tensor.rs:99-109, src/expr/buffer.rs:41-58. -/
def drainNew (r : UserRange σ) : M (σ × Own T) DrainSt := do
  checkHead
  let o ← Model.own
  let d0 := o.shape.dims.getD 0 0
  let r ← M.up (r.norm d0)
  M.lift (check (r.1 ≤ r.2 ∧ r.2 ≤ d0))
  let newSize := d0 - (r.2 - r.1)
  let t ← M.lift ((Axis.const 0).resizeMap (.dense o.shape) (newSize - r.1))
  setShape fun s => s.resizeDim s.ty 0 r.1
  let o ← Model.own
  let s ← M.lift (o.shape.resizeDim o.shape.ty 0 (r.2 - r.1))
  pure ⟨o.shape.len, s, newSize, t.shape.len⟩

/-- Drain a range, ask for `k` items (there may be less), and drop the drain or leak it. -/
def drainRun (r : UserRange σ) (k : Nat) (leak : Bool) : M (σ × Own T) (List T) :=
  M.bind r.drainNew fun d =>
    M.bind (takeItems d.pos 0 (min k d.shape.len)) fun xs =>
      if leak then M.pure xs
      else M.bind (dropItems d.pos d.shape.len (min k d.shape.len)) fun _ =>
        M.bind (drainDrop d) fun _ => M.pure xs

end UserRange
end Model
