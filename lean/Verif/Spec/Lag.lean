import Verif.Spec.Resume

/-! Iterators after calls of `next` some of which have panicked, with the number of panics. -/

namespace Spec
open Model

variable {σ α : Type}

/-- The number of panics in the row of length `w` to which the item number `n` belongs, if there are `k` in the
row of the item before. -/
def inRow (w n k : Nat) : Nat := if n % w = 0 then 0 else k

/-- `it` is the iterator of `e` after `n` calls of `next`, each of which returned an item or panicked; `k` of
the calls for the last row (of length `w`) have panicked. -/
inductive AfterRow (e : Expr σ α) (w : Nat) : Nat → Nat → Iter σ α → Prop
  | new : AfterRow e w 0 0 (Iter.new e)
  | item {n k it x it' s t} : AfterRow e w n k it → it.nextE s = .ok (some x) it' t →
      AfterRow e w (n + 1) (inRow w n k) it'
  | panic {n k it it' s t} : AfterRow e w n k it → it.nextE s = .panic it' t →
      AfterRow e w (n + 1) (inRow w n k + 1) it'

/-- `it` is the iterator of `e` after `n` calls of `next`, `k` of which have panicked while the others returned
an item. -/
inductive AfterAll (e : Expr σ α) : Nat → Nat → Iter σ α → Prop
  | new : AfterAll e 0 0 (Iter.new e)
  | item {n k it x it' s t} : AfterAll e n k it → it.nextE s = .ok (some x) it' t → AfterAll e (n + 1) k it'
  | panic {n k it it' s t} : AfterAll e n k it → it.nextE s = .panic it' t → AfterAll e (n + 1) (k + 1) it'

end Spec
