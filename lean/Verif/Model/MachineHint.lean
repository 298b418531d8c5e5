import Verif.Model.MachineIter

/-! The size hint of iterators with 64-bit integers. -/

namespace Model
namespace Machine
variable {σ α : Type}

/-- `x - y` for `usize`, which panics or wraps around if it is negative. -/
def subU (checks : Bool) (x y : Nat) : Option Nat :=
  if y ≤ x then some (x - y) else if checks then none else some (x + 2 ^ 64 - y)

/-- Loop of `size_hint`, src/expr/iter.rs:114-116. -/
def hintLoop (checks : Bool) (len : Nat) : List Nat → List Nat → Option Nat
  | l :: ls, i :: is => do
    let p ← retU checks (len * l)
    let d ← subU checks p i
    hintLoop checks d ls is
  | _, _ => some len

/-- `Iter::size_hint`, src/expr/iter.rs:110-121. Both bounds are the same number, which is also the result of
`ExactSizeIterator::len`. -/
def sizeHint (checks : Bool) (it : Iter σ α) : Option Nat := do
  let o := it.expr.outerRank
  let len ← hintLoop checks 1 (it.outerLimit.take o) (it.outerIndex.take o)
  let p ← retU checks (len * it.innerLimit)
  subU checks p it.innerIndex

end Machine
end Model
