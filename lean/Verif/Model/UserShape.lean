import Verif.Model.Shape
import Verif.Model.Monad
import Verif.Model.Mapping

/-!
Model of reshaping and indexing with shapes of types that are defined outside of the crate. `Shape` and `Dim`
(src/shape.rs:13-180, src/dim.rs:9-28) are public traits which are not `unsafe` to implement: what the functions of a
shape, or of the dimensions of a tuple, return may be different in different calls. The functions with a default
implementation are taken as they are provided.

As in Model/View, sizes are not bounded: `len` and `checked_len` do not overflow.
-/

namespace Model

variable {σ τ : Type}

/-- A value of a type implementing `Shape`, which is part of the world `σ`: `dims` is what `with_dims` passes to its
closure, `dimsMut` what `with_mut_dims` passes, and `store` what it does with the sizes that the closure leaves,
src/shape.rs:86-90. For a tuple these are the calls of `size` and `from_size` of its elements, src/shape.rs:386-397,
440-451. -/
structure UserShape (σ : Type) where
  dims : M σ (List Nat)
  dimsMut : M σ (List Nat)
  store : List Nat → M σ Unit

namespace UserShape

/-- `with_mut_dims` with closure `f`. -/
def withMutDims (u : UserShape σ) (f : List Nat → Option (List Nat × τ)) : M σ τ := do
  let ds ← u.dimsMut
  let q ← M.lift (f ds)
  u.store q.1
  M.pure q.2

/-- `Shape::rank`, src/shape.rs:79-81. -/
def rank (u : UserShape σ) : M σ Nat := M.bind u.dims fun ds => M.pure ds.length

/-- `Shape::len` and `Shape::checked_len`, src/shape.rs:74-76, 93-95. -/
def len (u : UserShape σ) : M σ Nat := M.bind u.dims fun ds => M.pure (ds.foldl (· * ·) 1)

/-- `Shape::dim`, src/shape.rs:50-54. -/
def dim (u : UserShape σ) (i : Nat) : M σ Nat := do
  let r ← u.rank
  M.lift (check (i < r))
  let ds ← u.dims
  M.lift ds[i]?

/-- `Shape::reshape` with the new shape `u`, src/shape.rs:126-152, for a dense array with `oldLen` elements and a shape of
the crate (`into_shape` of a view, src/view.rs:194-201, src/mapping.rs:223-225). -/
def reshape (u : UserShape σ) (oldLen : Nat) : M σ Unit := do
  let inferred ← u.withMutDims Shape.inferLoop
  let newLen ← u.len
  match inferred with
  | some i =>
    M.lift (check (newLen ≠ 0 ∧ oldLen % newLen = 0))
    u.withMutDims fun dims => (setM dims i (oldLen / newLen)).map fun ds => (ds, ())
  | none => M.lift (check (newLen = oldLen))

/-- The first debug assertion in `Mapping::offset`, src/mapping.rs:96. -/
def rankCheck (u : UserShape σ) (dbg : Bool) (idx : List Nat) : M σ Unit :=
  if dbg then M.bind u.rank fun r => M.lift (check (idx.length = r)) else M.pure ()

/-- The second debug assertion in `Mapping::offset`, src/mapping.rs:101. -/
def dimCheck (u : UserShape σ) (dbg : Bool) (idx : List Nat) (i : Nat) : M σ Unit :=
  if dbg then M.bind (M.lift idx[i]?) fun x => M.bind (u.dim i) fun d => M.lift (check (x < d)) else M.pure ()

/-- Loop of `DenseMapping::for_each_stride` with the closure of `Mapping::offset`, src/mapping.rs:166-173, 100-104, for
`i` from `n-1` down to 0. -/
def offsetLoop (u : UserShape σ) (dbg : Bool) (idx : List Nat) : Nat → Nat → Nat → M σ Nat
  | 0, _, offset => M.pure offset
  | i + 1, stride, offset =>
    M.bind (u.dimCheck dbg idx i) fun _ =>
      M.bind (M.lift idx[i]?) fun x =>
        M.bind (u.dim i) fun d => offsetLoop u dbg idx i (stride * d) (offset + stride * x)

/-- `Mapping::offset` for a dense mapping, src/mapping.rs:95-107. -/
def offset (u : UserShape σ) (dbg : Bool) (idx : List Nat) : M σ Nat := do
  u.rankCheck dbg idx
  let r ← u.rank
  u.offsetLoop dbg idx r 1 0

/-- Loop of `SliceIndex::index` for `&[usize]`, src/index/slice.rs:43-47, from dimension `i` on. -/
def checkLoop (u : UserShape σ) : Nat → List Nat → M σ Unit
  | _, [] => M.pure ()
  | i, x :: xs =>
    M.bind (u.dim i) fun d =>
      if x < d then checkLoop u (i + 1) xs else M.bind (u.dim i) fun _ => M.panic

/-- A reference to the element at position `p` of an array with `n` elements. -/
def elem (n p : Nat) : M σ Nat := if p < n then M.pure p else M.ub

/-- `slice[idx]` for a dense array with `n` elements, src/index/slice.rs:40-50, 32-34. -/
def index (u : UserShape σ) (dbg : Bool) (n : Nat) (idx : List Nat) : M σ Nat := do
  let r ← u.rank
  M.lift (check (idx.length = r))
  u.checkLoop 0 idx
  let p ← u.offset dbg idx
  elem n p

/-- The debug assertion in `DenseMapping::linear_offset`, src/mapping.rs:182. -/
def linearCheck (u : UserShape σ) (dbg : Bool) (k : Nat) : M σ Unit :=
  if dbg then M.bind u.len fun l => M.lift (check (k < l)) else M.pure ()

/-- `slice[k]` with a linear index, src/index/slice.rs:96-102, 88-90, src/mapping.rs:181-185. -/
def linear (u : UserShape σ) (dbg : Bool) (n k : Nat) : M σ Nat := do
  let l ← u.len
  if k < l then
    u.linearCheck dbg k
    elem n k
  else
    let _ ← u.len
    M.panic

/-- The shapes of the crate, with the functions in Model/Shape. -/
def ofShape : UserShape Shape where
  dims := fun s => .ok s.dims s
  dimsMut := fun s => .ok s.dims s
  store ds := fun s => match s.withMutDims fun _ => some ds with
    | some s' => .ok () s'
    | none => .panic s

end UserShape
end Model
