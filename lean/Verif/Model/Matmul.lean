import Verif.Model.Expr

/-!
Model of the example in the documentation of the crate, matrix multiplication and addition,
src/lib.rs:118-148: a program that is written with `rows`, `rows_mut`, `expr`, `expr_mut`, `zip` and `for` loops.
-/

namespace Model.Matmul

/-- The memory: the elements of each allocation. -/
abbrev Heap (T : Type) := Nat → List T

/-- A reference to a matrix: the allocation and the view. -/
structure Mat where
  alloc : Nat
  view : View

variable {σ α T : Type}

/-- Read an element. Outside of the allocation this is undefined behaviour. -/
def load (a : Nat) (p : Int) : M (Heap T) T := fun h =>
  if 0 ≤ p then
    match (h a)[p.toNat]? with
    | some x => .ok x h
    | none => .ub
  else .ub

/-- Write an element. Outside of the allocation this is undefined behaviour. -/
def store (a : Nat) (p : Int) (x : T) : M (Heap T) Unit := fun h =>
  if 0 ≤ p ∧ p.toNat < (h a).length then .ok () (Function.update h a ((h a).set p.toNat x)) else .ub

/-- A `for` loop: `next`, src/expr/iter.rs:96-108, is called until it returns `None`. The number of calls is bounded by
`fuel`; running out of it is reported as undefined behaviour so that it cannot be confused with a result. -/
def forFuel (f : α → M σ Unit) : (fuel : Nat) → Iter σ α → M σ Unit
  | 0, _ => M.ub
  | fuel + 1, it => M.bind it.next fun p =>
    match p.1 with
    | some x => M.bind (f x) fun _ => forFuel f fuel p.2
    | none => M.pure ()

/-- `for x in e { f(x) }`, with `IntoIterator` for `Zip`, src/expr/adapters.rs:392-399. -/
def forLoop (e : Expr σ α) (f : α → M σ Unit) : M σ Unit :=
  let it := Iter.new e
  forFuel f (it.outerCount * it.innerLimit + 1) it

/-- The function `matmul` in the documentation, src/lib.rs:128-136, for any element type and layouts. `mulAdd` is the
method `mul_add` of `f64`. `Slice::rows`, `rows_mut`: src/slice.rs:509-520; `expr`, `expr_mut`: src/slice.rs:217-224;
`Expression::zip`: src/expr/expression.rs:151-156. -/
def matmul (mulAdd : T → T → T → T) (a b c : Mat) : M (Heap T) Unit :=
  M.bind (M.lift (Expr.lanesNew false c.view .rows)) fun cs =>
  M.bind (M.lift (Expr.lanesNew true a.view .rows)) fun as =>
  M.bind (M.lift (Expr.zipNew cs as)) fun e₁ =>
  forLoop e₁ fun ca =>
    M.bind (M.lift (Expr.lanesNew true b.view .rows)) fun bs =>
    M.bind (M.lift (Expr.zipNew (Expr.view true ca.2) bs)) fun e₂ =>
    forLoop e₂ fun ab =>
      M.bind (M.lift (Expr.zipNew (Expr.view false ca.1) (Expr.view true ab.2))) fun e₃ =>
      forLoop e₃ fun cb =>
        M.bind (load a.alloc ab.1) fun x =>
        M.bind (load b.alloc cb.2) fun y =>
        M.bind (load c.alloc cb.1) fun z =>
        store c.alloc cb.1 (mulAdd x y z)

end Model.Matmul
