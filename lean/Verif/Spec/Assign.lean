import Verif.Spec.Outcome
import Verif.Spec.Reach

/-! Specification of writing to the elements of a view. -/

namespace Spec
open Model

/-- Memory `m'` is memory `m` after writing the values `ys` to the first elements of `v` in row-major
order: these elements hold the values, and everything else is unchanged. -/
def Written {T : Type} (v : View) (m : List T) (ys : List T) (m' : List T) : Prop :=
  m'.length = m.length ∧
  (∀ j, Valid v.dims j → ∀ y, ys[rowMajor v.dims j]? = some y →
    ∃ p : Nat, v.index j = some (p : Int) ∧ m'[p]? = some y) ∧
  ∀ p : Nat, (∀ j, Valid v.dims j → rowMajor v.dims j < ys.length → v.index j ≠ some (p : Int)) →
    m'[p]? = m[p]?

/-- A view of a memory with `n` elements in which different indices address different elements
(see C04 and C05 for reachable views). -/
def Exclusive (v : View) (n : Nat) : Prop :=
  v.map.WF ∧ (∀ j, Valid v.dims j → ∃ p : Nat, p < n ∧ v.index j = some (p : Int)) ∧
    ∀ i j, Valid v.dims i → Valid v.dims j → v.index i = v.index j → i = j

/-- `e` can be assigned to an array with the given dimensions: its dimensions are the last ones of
the array, and all of them if it is consumed by iterating. -/
def CanCast {σ α : Type} (e : Expr σ α) (dims : List Nat) : Prop :=
  e.dims <:+ dims ∧ (e.repeatable = false → e.dims = dims)

/-- The item of `e` at the part of the `n`-th index of `dims` that matches its rank. -/
def castItem {σ α : Type} (dims : List Nat) (e : Expr σ α) (n : Nat) : M σ α :=
  item e n ((unrank dims n).drop (dims.length - e.dims.length))

/-- The element of `v` at its `n`-th index. -/
def elemAt {T : Type} (v : View) (m : List T) (n : Nat) : Option T :=
  (v.index (unrank v.dims n)).bind fun p => m[p.toNat]?

end Spec
