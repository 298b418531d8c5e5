import Verif.Model.Expr

/-!
Model of comparison (`PartialEq` in src/ops.rs), `contains` and `Hash` (src/slice.rs), on positions of
elements. Comparing and hashing elements is done by closures.
-/

namespace Model

variable {σ α β : Type}

/-- `Iterator::eq` (std), through `next`. Running out of fuel is reported as undefined behaviour so
that it cannot be confused with a result. -/
def iterEq (cmp : α → β → M σ Bool) : (fuel : Nat) → Iter σ α → Iter σ β → M σ Bool
  | 0, _, _ => M.ub
  | fuel + 1, a, b => M.bind a.next fun p => M.bind b.next fun q =>
    match p.1, q.1 with
    | none, none => M.pure true
    | none, some _ => M.pure false
    | some _, none => M.pure false
    | some x, some y => M.bind (cmp x y) fun c => if c then iterEq cmp fuel p.2 q.2 else M.pure false

/-- `Iterator::any` (std), through `next`; fuel as in `iterEq`. -/
def iterAny (f : α → M σ Bool) : (fuel : Nat) → Iter σ α → M σ Bool
  | 0, _ => M.ub
  | fuel + 1, a => M.bind a.next fun p =>
    match p.1 with
    | none => M.pure false
    | some x => M.bind (f x) fun c => if c then M.pure true else iterAny f fuel p.2

/-- A bound for the number of items. -/
def Iter.bound (it : Iter σ α) : Nat := it.outerCount * it.innerLimit + 1

/-- Comparison of slices of equal length (std), elements at consecutive positions. -/
def sliceEq (cmp : Int → Int → M σ Bool) : (len : Nat) → Int → Int → M σ Bool
  | 0, _, _ => M.pure true
  | len + 1, p, q => M.bind (cmp p q) fun c => if c then sliceEq cmp len (p + 1) (q + 1) else M.pure false

/-- `<[T]>::contains` (std), elements at consecutive positions. -/
def sliceAny (f : Int → M σ Bool) : (len : Nat) → Int → M σ Bool
  | 0, _ => M.pure false
  | len + 1, p => M.bind (f p) fun c => if c then M.pure true else sliceAny f len (p + 1)

/-- `PartialEq::eq` of `Slice` (all other types forward to it), src/ops.rs:65-111. The recursion goes
through the rows; `fuel` bounds its depth, see `viewEq`. For dense arrays, `remap()[..]` is inlined: the position
and number of all elements. -/
def eqLoop (cmp : Int → Int → M σ Bool) : (fuel : Nat) → View → View → M σ Bool
  | 0, _, _ => M.ub
  | fuel + 1, v, w =>
    if v.dims = w.dims then
      if v.map.isDense ∧ w.map.isDense then
        if v.map.shape.len = w.map.shape.len then sliceEq cmp v.map.shape.len v.ptr w.ptr else M.pure false
      else if v.map.rank < 2 then
        let a := Iter.new (Expr.view true v)
        iterEq cmp a.bound a (Iter.new (Expr.view true w))
      else
        M.bind (M.lift (Expr.axisNew true v (.const 0))) fun a =>
          M.bind (M.lift (Expr.axisNew true w (.const 0))) fun b =>
            iterEq (eqLoop cmp fuel) (Iter.new a).bound (Iter.new a) (Iter.new b)
    else M.pure false

/-- Comparison of two arrays or views, src/ops.rs:55-141. -/
def viewEq (cmp : Int → Int → M σ Bool) (v w : View) : M σ Bool := eqLoop cmp (v.map.rank + 1) v w

/-- `contains`, src/slice.rs:898-906, with bounded depth and `remap()[..]` inlined. -/
def containsLoop (f : Int → M σ Bool) : (fuel : Nat) → View → M σ Bool
  | 0, _ => M.ub
  | fuel + 1, v =>
    if v.map.isDense then sliceAny f v.map.shape.len v.ptr
    else if v.map.rank < 2 then
      let a := Iter.new (Expr.view true v)
      iterAny f a.bound a
    else
      M.bind (M.lift (Expr.axisNew true v (.const 0))) fun a =>
        iterAny (containsLoop f fuel) (Iter.new a).bound (Iter.new a)

/-- `Slice::contains`, src/slice.rs:173-179; `f` compares an element with the value. -/
def viewContains (f : Int → M σ Bool) (v : View) : M σ Bool := containsLoop f (v.map.rank + 1) v

/-- `Hash::hash` of `Slice` (`Array`, `Tensor`, ... forward to it), src/slice.rs:823-834: `size` feeds a
dimension to the hasher and `elem` an element. -/
def viewHash (size : Nat → M σ Unit) (elem : Int → M σ Unit) (v : View) : M σ Unit :=
  M.bind (v.dims.foldlM (fun _ d => size d) ()) fun _ => (Expr.view true v).forEach elem

end Model
