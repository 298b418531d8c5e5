import Verif.Model.Owned

/-!
Functions that change the elements of an array in place, through references to them. Other than in
`Model/Assign.lean` the change of an element may end in a panic that leaves any value in it, and elements
that are overwritten are dropped.
-/

namespace Model

variable {σ T α β : Type}

/-- Call `u` with a reference to the element at a position: it sees and changes the element and the world, also
if it panics. Outside of the array this is undefined behaviour. -/
def updMem (p : Int) (u : M (σ × T) Unit) : M (σ × List T) Unit := fun s =>
  if 0 ≤ p then
    match s.2[p.toNat]? with
    | some x =>
      match u (s.1, x) with
      | .ok _ t => .ok () (t.1, s.2.set p.toNat t.2)
      | .panic t => .panic (t.1, s.2.set p.toNat t.2)
      | .ub => .ub
      | .abort => .abort
    | none => .ub
  else .ub

/-- `self.expr_mut().zip(expr).for_each(|(x, y)| …)`, where `u y` is what happens to `x`: `Slice::assign`,
src/slice.rs:55-57, with `IntoCloned::clone_to`, src/traits.rs:17-30; compound assignment, src/ops.rs:361-398. -/
def updateE (v : View) (e : Expr σ β) (u : β → M (σ × T) Unit) (s : σ × List T) : Out (σ × List T) Unit Left :=
  match Expr.zipNew (Expr.view false v) (e.up : Expr (σ × List T) β) with
  | some z => z.forEachE (fun py => updMem py.1 (u py.2)) s
  | none => .panic ⟨e⟩ s

/-- `self.expr_mut().for_each(|x| …)`: `Slice::fill` and `Slice::fill_with`, src/slice.rs:227-237. -/
def update (v : View) (u : M (σ × T) Unit) : M (σ × List T) Unit :=
  (Expr.view false v).forEach fun p => updMem p u

/-- `*x = y` (language): the old value is dropped, which may panic; the new value is stored in any case. The
second part of the world are the values that have been dropped. -/
def overwrite (bad : T → Bool) (y : T) : M ((σ × List T) × T) Unit := fun s =>
  let t := ((s.1.1, s.1.2 ++ [s.2]), y)
  if bad s.2 then .panic t else .ok () t

/-- `Slice::assign` with values, src/slice.rs:55-57 and src/traits.rs:28-30 (`c` is the identity), or with
references to elements that have no `clone_from` of their own, src/traits.rs:18-20 (`c` clones; `clone_from` is
`*self = source.clone()`). -/
def assignDropE (bad : T → Bool) (v : View) (e : Expr σ α) (c : α → M σ T) :
    (σ × List T) × List T → Out ((σ × List T) × List T) Unit Left :=
  updateE v e.up fun y => M.bind (M.up (M.up (c y))) (overwrite bad)

/-- `Slice::fill_with`, src/slice.rs:235-237, and `Slice::fill`, 227-232, for elements as above. -/
def fillDrop (bad : T → Bool) (v : View) (f : M σ T) : M ((σ × List T) × List T) Unit :=
  update v (M.bind (M.up (M.up f)) (overwrite bad))

end Model
