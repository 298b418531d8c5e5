import Verif.Model.Expr

/-!
Model of the borrows of arrays: several arrays and the views of them that a safe program holds at the same time. The
signatures of the view-producing methods (receiver and lifetime of the result) are modelled as they are written; a
value can be used until something it has been borrowed from is used in a conflicting way, which is what Rust's borrow
checker demands of programs.

Simplifications: an array is a variable with an allocation of its own; references to `Slice` count as views; closures
and expressions hold views like variables do; `Drain` and `IntoExpr`, which own elements, are not included.
-/

namespace Model.Borrow

/-- What a value gives access to: the elements of a view; of a lane, of which no further views are modelled; or one
element. Positions are relative to the allocation. -/
inductive Area
  | view (v : View)
  | lane (v : View)
  | elem (p : Int)

/-- Position of an element that is addressed: indexing of views, src/index/slice.rs:40-50, 65-83; an element has the
index `[]`. `none`: out of bounds. -/
def Area.pos : Area → List Nat → Option Int
  | .view v, idx => v.index idx
  | .lane v, idx => v.index idx
  | .elem p, [] => some p
  | .elem _, _ :: _ => none

/-- Methods that produce views and references. `same`: `expr`, `expr_mut` (src/slice.rs:217-224), `Deref` and
`DerefMut` (src/view.rs:339-345, 562-566, src/array.rs:211-227, src/tensor.rs:685-697), `From<&I>` and `From<&mut I>`
(src/view.rs:390-397). `axes`: the items of `axis_expr`, `outer_expr`; `lanes`: of `lanes`, `rows`, `cols`; `iter`: of
`iter` and `IntoIterator`, in each case after `k` calls of `next`. -/
inductive Fn
  | at_ (i : Nat)
  | axisAt (a : Axis) (i : Nat)
  | splitAt (mid : Nat)
  | splitAxisAt (a : Axis) (mid : Nat)
  | view (xs : List DimIdx)
  | permute (perm : Shape)
  | reorder
  | reshape (s : Shape)
  | flatten
  | remap (ty : ShapeTy) (l : Layout)
  | row (i : Nat)
  | col (i : Nat)
  | diag (k : Int)
  | intoDyn
  | same
  | index (idx : List Nat)
  | axes (a : Axis) (k : Nat)
  | lanes (a : Axis) (k : Nat)
  | iter (k : Nat)

/-- The items among the results of `k` calls of `next` (`none`: a panic or undefined behaviour). -/
def nextItems {β : Type} : Nat → Iter Unit β → Option (List β)
  | 0, _ => some []
  | k + 1, it =>
    match it.next () with
    | .ok p _ => (nextItems k p.2).map fun xs => p.1.toList ++ xs
    | _ => none

/-- The results of a method (`none`: it panics). Left out are calls on views of rank 64 or more in builds without
overflow checks (see `Props.C51_violated`), iterators over elements and lanes in the cases in which they hand out
elements more than once (see `Props.C55_violated`); iteration over axes is the list of subarrays, see
`Props.C27_partial`. -/
def Fn.run (checks : Bool) (v : View) : Fn → Option (List Area)
  | .at_ i => do let w ← v.at' i; pure [.view w]
  | .axisAt a i => do let w ← v.axisAt a i; pure [.view w]
  | .splitAt mid => do let p ← v.splitAt mid; pure [.view p.1, .view p.2]
  | .splitAxisAt a mid => do let p ← v.splitAxisAt a mid; pure [.view p.1, .view p.2]
  | .view xs => do check (v.dims.length = xs.length); let w ← v.view xs; pure [.view w]
  | .permute perm => do let w ← v.permute checks perm; pure [.view w]
  | .reorder => do let w ← v.reorder; pure [.view w]
  | .reshape s => do let w ← v.reshape s; pure [.view w]
  | .flatten => do let w ← v.flatten; pure [.view w]
  | .remap ty l => do let w ← v.remap ty l; pure [.view w]
  | .row i => do let w ← v.row i; pure [.view w]
  | .col i => do let w ← v.col i; pure [.view w]
  | .diag k => do let w ← v.diag k; pure [.view w]
  | .intoDyn => do let w ← v.intoDyn; pure [.view w]
  | .same => some [.view v]
  | .index idx => do let p ← v.index idx; pure [.elem p]
  | .axes a k => do
    let p ← a.index v.map.rank
    let n ← v.map.dim p
    let ws ← (List.range (min k n)).mapM fun i => v.axisAt a i
    pure (ws.map .view)
  | .lanes a k =>
    match (Expr.lanesNew false v a : Option (Expr Unit View)) with
    | some e => do
      check (e.outerRank = 0)
      let ws ← nextItems k (Iter.new e)
      pure (ws.map .lane)
    | none => none
  | .iter k => do
    check (0 < v.map.len ∨ v.layout = .dense)
    check (k ≤ v.map.len + 1 ∨ v.layout = .dense)
    let ps ← nextItems k (Iter.new (Expr.view false v : Expr Unit Int))
    pure (ps.map .elem)

/-- Which method of a group is called: `f`, `f_mut` or `into_f`. -/
inductive Variant
  | plain
  | mut
  | into
  deriving DecidableEq, Repr

/-- Receivers: `&self`, `&mut self`, `self`. -/
inductive Recv
  | ref
  | refMut
  | own
  deriving DecidableEq, Repr

/-- Signature of a method: its receiver, and whether the results are mutable (`ViewMut`, `&mut T`) or not (`View`,
`&T`). The results have the lifetime of the reference with `&self` and `&mut self` (by lifetime elision), and the
lifetime `'a` of the view with `self`. -/
structure Sig where
  recv : Recv
  excl : Bool
  deriving DecidableEq, Repr

/-- The methods that exist with a given name, and their signatures; `excl` says whether the receiver is a `ViewMut` or
a `View` if the method takes `self`.

Plain, with `&self`: `Slice::at`, `axis_at`, `axis_expr`, `col`, `cols`, `diag`, `expr`, `flatten`, `iter`, `lanes`,
`outer_expr`, `permute`, `remap`, `reorder`, `reshape`, `row`, `rows`, `split_at`, `split_axis_at`, `view`, `index`,
src/slice.rs:64-569, 695-704, 836-842, 868-875. There is no plain version of `into_dyn`.

With `_mut` and `&mut self`: src/slice.rs:73-587, 711-720, 844-848, 877-884.

With `into_` and `self`, for `View` and `ViewMut`: src/view.rs:43-237, 467-507, and `IntoIterator`, src/view.rs:445-452.
There is no such version of `expr`, indexing, `axis_expr` and `lanes`. -/
def sig (excl : Bool) : Variant → Fn → Option Sig
  | .plain, .intoDyn => none
  | .plain, _ => some ⟨.ref, false⟩
  | .mut, .intoDyn => none
  | .mut, _ => some ⟨.refMut, true⟩
  | .into, .same => none
  | .into, .index _ => none
  | .into, .axes _ _ => none
  | .into, .lanes _ _ => none
  | .into, _ => some ⟨.own, excl⟩

/-- A value that gives access to elements: an array (`owner`), a view or a reference. `excl`: elements can be changed
(an array, `ViewMut`, `&mut T`; otherwise `View`, `&T`). `loans`: the values it has been borrowed from, directly or
indirectly, and whether as `&mut`. -/
structure Handle where
  owner : Bool
  excl : Bool
  alloc : Nat
  area : Area
  loans : List (Nat × Bool)

/-- The state of a program: its values by number, the numbers given so far, the allocations (with the shape of the
array) and their contents. -/
structure St (α : Type) where
  handles : Nat → Option Handle
  next : Nat
  shapes : Nat → Option Shape
  nextAlloc : Nat
  mem : Nat → Int → α

/-- Access to an element: through which value, and what that one has been borrowed from. -/
structure Touch where
  handle : Nat
  origins : List Nat
  alloc : Nat
  pos : Int
  write : Bool

/-- What a program does. `make`: creates an array. `call`: a method of an array or view; `read`, `write`: access to an
element through a view or reference; `change`: a method with `&mut self` that may give the array other memory, such as
`Tensor::resize`, `push`, `clear`, src/tensor.rs; `drop`: the value goes out of scope, or is moved away. -/
inductive Op (α : Type)
  | make (s : Shape) (init : Int → α)
  | call (h : Nat) (variant : Variant) (f : Fn)
  | read (h : Nat) (idx : List Nat)
  | write (h : Nat) (idx : List Nat) (x : α)
  | change (h : Nat) (s : Shape) (init : Int → α)
  | drop (h : Nat)

variable {α : Type}

/-- Whether a value ends if value `h` is used (`excl`: as `&mut` or by moving it, otherwise as `&`): it does if it has
been borrowed from `h` and one of the two borrows is mutable. -/
def ends (h : Nat) (excl : Bool) (x : Handle) : Bool :=
  x.loans.any fun l => l.1 == h && (excl || l.2)

/-- The values that remain when value `h` is used. -/
def St.use (st : St α) (h : Nat) (excl : Bool) : St α :=
  { st with handles := fun i => (st.handles i).filter fun x => !ends h excl x }

/-- The value `h` is gone. -/
def St.remove (st : St α) (h : Nat) : St α :=
  { st with handles := fun i => if i = h then none else st.handles i }

/-- A new value. -/
def St.add (st : St α) (x : Handle) : St α :=
  { st with handles := fun i => if i = st.next then some x else st.handles i, next := st.next + 1 }

/-- New values, all with the same allocation and lifetime. -/
def St.addAll (st : St α) (alloc : Nat) (excl : Bool) (loans : List (Nat × Bool)) : List Area → St α
  | [] => st
  | a :: as => (st.add ⟨false, excl, alloc, a, loans⟩).addAll alloc excl loans as

/-- One step of a program; `none`: the program is not accepted, or there is no such element. A method that panics is
a step without results. Methods with `self` leave a `View` in place, since views can be copied (`Clone`,
src/view.rs:550-560), and use up a `ViewMut`, which cannot. -/
def step (checks : Bool) (st : St α) : Op α → Option (St α × Option Touch)
  | .make s init => some ({ st.add ⟨true, true, st.nextAlloc, .view ⟨0, .dense s⟩, []⟩ with
      shapes := fun a => if a = st.nextAlloc then some s else st.shapes a,
      nextAlloc := st.nextAlloc + 1,
      mem := fun a => if a = st.nextAlloc then init else st.mem a }, none)
  | .call h variant f =>
    match st.handles h with
    | some ⟨owner, excl, alloc, .view v, loans⟩ => do
      let s ← sig excl variant f
      check (checks = true ∨ v.dims.length < 64)
      let areas := (f.run checks v).getD []
      match s.recv with
      | .ref => pure ((st.use h false).addAll alloc s.excl ((h, false) :: loans) areas, none)
      | .refMut => do
        check (excl = true)
        pure ((st.use h true).addAll alloc s.excl ((h, true) :: loans) areas, none)
      | .own => do
        check (owner = false)
        if excl then pure (((st.use h true).remove h).addAll alloc s.excl loans areas, none)
        else pure ((st.use h false).addAll alloc s.excl loans areas, none)
    | _ => none
  | .read h idx => do
    let x ← st.handles h
    let p ← x.area.pos idx
    pure (st.use h false, some ⟨h, x.loans.map Prod.fst, x.alloc, p, false⟩)
  | .write h idx y => do
    let x ← st.handles h
    check (x.excl = true)
    let p ← x.area.pos idx
    pure ({ st.use h true with
      mem := fun a q => if a = x.alloc ∧ q = p then y else st.mem a q },
      some ⟨h, x.loans.map Prod.fst, x.alloc, p, true⟩)
  | .change h s init => do
    let x ← st.handles h
    check (x.owner = true)
    pure ({ st.use h true with
      handles := fun i => if i = h then some ⟨true, true, st.nextAlloc, .view ⟨0, .dense s⟩, []⟩
        else (st.use h true).handles i,
      shapes := fun a => if a = st.nextAlloc then some s else if a = x.alloc then none else st.shapes a,
      nextAlloc := st.nextAlloc + 1,
      mem := fun a => if a = st.nextAlloc then init else st.mem a }, none)
  | .drop h => do
    let x ← st.handles h
    pure ({ (st.use h true).remove h with
      shapes := fun a => if x.owner = true ∧ a = x.alloc then none else st.shapes a }, none)

/-- A program: the state after its steps, and all accesses to elements. -/
def run (checks : Bool) (st : St α) : List (Op α) → Option (St α × List Touch)
  | [] => some (st, [])
  | op :: ops => do
    let p ← step checks st op
    let q ← run checks p.1 ops
    pure (q.1, p.2.toList ++ q.2)

/-- The state in which a program starts. -/
def start (mem : Nat → Int → α) : St α := ⟨fun _ => none, 0, fun _ => none, 0, mem⟩

end Model.Borrow
