import Verif.Spec.MachineIter

/-! What iteration with 64-bit integers has to do where the offsets of axes and lanes, or overflow checks, matter. -/

namespace Spec
open Model

/-- All arrays in an expression are in memory. Views without elements, if they are iterated over by axis or by lane,
have other dimensions whose product is less than `2^63`. -/
def Placed (checks : Bool) {σ : Type} : {α : Type} → Expr σ α → Prop
  | _, .view _ v => InMemory checks v
  | _, .axis _ v _ _ _ => InMemory checks v ∧ (size v.dims = 0 → size (v.dims.filter (0 < ·)) < 2 ^ 63)
  | _, .lanes _ v _ _ _ => InMemory checks v ∧ (size v.dims = 0 → size (v.dims.filter (0 < ·)) < 2 ^ 63)
  | _, .intoExpr s _ _ => size s.dims ≤ usizeMax
  | _, .map e _ => Placed checks e
  | _, .enumerate e _ => Placed checks e
  | _, .zip a b _ => Placed checks a ∧ Placed checks b
  | _, .fill _ => True
  | _, .fromElem _ _ => True
  | _, .fromFn _ _ _ => True

/-- The first computation does the same as the second one, except that it may panic if there are overflow checks. -/
def SameOrChecked (checks : Bool) {σ α : Type} (x y : M σ α) : Prop :=
  ∀ s, x s = y s ∨ (checks = true ∧ ∃ t, x s = .panic t)

/-- `driveThenFold` with 64-bit integers: up to `k` calls of `next`, and then a `fold` over the remaining items unless
the end was reached. -/
def driveThenFold64 (checks : Bool) {σ : Type} {α τ : Type} (f : τ → α → M σ τ) : Nat → Iter σ α → τ → M σ τ
  | 0, it, acc => Machine.fold checks it acc f
  | k + 1, it, acc => M.bind (Machine.next checks it) fun p =>
    match p.1 with
    | some x => M.bind (f acc x) fun acc' => driveThenFold64 checks f k p.2 acc'
    | none => M.pure acc

end Spec
