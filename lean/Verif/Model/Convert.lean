import Verif.Model.Tensor

/-!
Model of the conversions between nested arrays `[[T; B]; A]` and tensors or views
(`impl_from_array!`, `impl_try_from_array!` in src/tensor.rs, `impl_from_array_ref!`,
`impl_try_from_array_ref!` in src/view.rs).
-/

namespace Model

/-- A nested array of the language, of any depth. -/
inductive Arr (T : Type)
  | elem (x : T)
  | arr (xs : List (Arr T))

variable {σ T : Type}

/-- The memory of a nested array of the given sizes: the language stores the elements of an array one
after the other. -/
def Arr.flat : (dims : List Nat) → Arr T → List T
  | [], .elem x => [x]
  | _ :: ds, .arr xs => xs.flatMap (Arr.flat ds)
  | _, _ => []

/-- Read memory as a nested array of the given sizes (a pointer cast). -/
def Arr.unflat : (dims : List Nat) → List T → Option (Arr T)
  | [], [x] => some (.elem x)
  | [], _ => none
  | d :: ds, xs =>
    let n := ds.foldl (· * ·) 1
    ((List.range d).mapM fun i => Arr.unflat ds ((xs.drop (i * n)).take n)).map .arr

/-- `From<[[T; B]; A]>` for `Tensor`, src/tensor.rs:760-771 (the dimensions `X::from(Const)` have the
sizes of the array). The array is dropped if the length overflows. The vector takes over the allocation,
whose size must be the capacity. -/
def tensorFromArray (ty : ShapeTy) (dims : List Nat) (a : Arr T) : M (σ × Own T) Unit :=
  M.bind (M.onPanic (M.lift (Shape.checkedLen ⟨ty, dims⟩))
      (upd fun o => { o with log := o.log ++ a.flat dims })) fun cap =>
    if (a.flat dims).length = cap then
      upd fun o => { o with cells := (a.flat dims).map some, len := 0, shape := ⟨ty, dims⟩ }
    else M.ub

/-- `TryFrom<Tensor>` for `[[T; B]; A]`, src/tensor.rs:908-927; `none` gives the tensor back
unchanged. Otherwise the elements are moved out, and the vector is dropped with length 0. -/
def tensorTryArray (dims : List Nat) : M (σ × Own T) (Option (Arr T)) :=
  M.bind own fun o =>
    if o.shape.dims = dims then
      M.bind (takeItems 0 0 (dims.foldl (· * ·) 1)) fun xs =>
        match Arr.unflat dims xs with
        | some a => M.pure (some a)
        | none => M.ub
    else M.pure none

/-- `From<&[[T; B]; A]>` for `View` (and `&mut` for `ViewMut`), src/view.rs:568-594. Positions are
counted from the start of the array. -/
def viewFromArray (ty : ShapeTy) (dims : List Nat) : Option View :=
  (Shape.checkedLen ⟨ty, dims⟩).map fun _ => ⟨0, .dense ⟨ty, dims⟩⟩

/-- `TryFrom<View>` for `&[[T; B]; A]` (and `ViewMut` for `&mut`), src/view.rs:633-663, for a dense view
into the memory `m`. -/
def viewTryArray (dims : List Nat) (v : View) (m : List T) : Option (Arr T) :=
  if v.dims = dims then Arr.unflat dims ((m.drop v.ptr.toNat).take (dims.foldl (· * ·) 1)) else none

end Model
