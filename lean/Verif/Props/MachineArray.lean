import Verif.Lemmas.MachineArray

/-!
C78: arrays with constant dimensions (`Array`) on a 64-bit machine, see `Model/MachineArray.lean`. The number of elements
is not bounded, as the elements may have no size.
-/

namespace Props
open Model Spec

variable {σ T : Type} {checks : Bool}

/-- A small array with 6 elements. -/
def array23 : Own Nat := ⟨[some 1, some 2, some 3, some 4, some 5, some 6], 0, ⟨constTy [2, 3], [2, 3]⟩, [], 0⟩

/-- `Array::into_shape` returns an array with the same elements and the dimensions of the new type, or panics and
drops each element once. It panics exactly if the number of elements differs, or the length of the old shape, or with
overflow checks of the new shape, cannot be computed.
Assumed: without overflow checks, the number of elements of the new type is a 64-bit number. Missing: the other case, see
`C78_exact` and `C78_violated`. -/
theorem C78_into_shape_partial (o : Own T) (xs : List T) (h : Holds o xs) (dims : List Nat)
    (hd : checks = false → size dims ≤ usizeMax) (s : σ) :
    M.Post (Machine.arrayIntoShape checks (constTy dims)) (s, o)
      (fun _ t => t.1 = s ∧ Holds t.2 xs ∧ t.2.shape = ⟨constTy dims, dims⟩ ∧ t.2.log = o.log)
      (fun t => t.1 = s ∧ t.2.log = o.log ++ xs ∧
        (size dims ≠ xs.length ∨ ¬ NoOverflow usizeMax o.shape.dims ∨
          (checks = true ∧ ¬ NoOverflow usizeMax dims))) := by
  have e := Machine.default_const dims
  have key : (checks = true → NoOverflow usizeMax dims) → size dims % 2 ^ 64 = size dims := by
    intro hn
    have : size dims ≤ usizeMax := by
      cases checks with
      | false => exact hd rfl
      | true => exact (Machine.noOverflow_fits (checks := true) (hn rfl)).1
    unfold usizeMax at this
    exact Nat.mod_eq_of_lt (by omega)
  refine (Machine.post_arrayIntoShape (constTy dims) h).mono ?_ ?_
  · rintro - t ⟨rfl, h1, h2, h3⟩
    rw [e] at h1 h3 ⊢
    rw [key h1] at h3
    exact ⟨rfl, ⟨by rw [← e]; exact Shape.default_wf _, h3.symm, h.2.2⟩, rfl, rfl⟩
  · rintro t ⟨h1, h2, h3⟩
    rw [e] at h3
    refine ⟨h1, h2, ?_⟩
    by_contra hc
    simp only [not_or, not_and, not_not] at hc
    exact h3 ⟨hc.2.2, hc.2.1, by rw [key hc.2.2]; exact hc.1⟩

example : Holds array23 [1, 2, 3, 4, 5, 6] ∧
    (match (Machine.arrayIntoShape true (constTy [3, 1, 2]) : M (Unit × Own Nat) Unit) ((), array23) with
      | .ok _ t => some (t.2.cells.length, t.2.shape.dims)
      | _ => none) = some (6, [3, 1, 2]) := by
  refine ⟨⟨?_, ?_, ?_⟩, ?_⟩ <;> decide +kernel

/-- Exactly what `into_shape` does without overflow checks: it compares the lengths modulo `2^64`. -/
theorem C78_exact (o : Own T) (xs : List T) (h : Holds o xs) (dims : List Nat) (s : σ) :
    M.Post (Machine.arrayIntoShape false (constTy dims)) (s, o)
      (fun _ t => t = (s, { o with shape := ⟨constTy dims, dims⟩ }) ∧ NoOverflow usizeMax o.shape.dims ∧
        size dims % 2 ^ 64 = xs.length)
      (fun t => t.1 = s ∧ t.2.log = o.log ++ xs ∧
        ¬ (NoOverflow usizeMax o.shape.dims ∧ size dims % 2 ^ 64 = xs.length)) := by
  have e := Machine.default_const dims
  refine (Machine.post_arrayIntoShape (constTy dims) h).mono ?_ ?_
  · rintro - t ⟨h1, -, h2, h3⟩
    rw [e] at h1 h3
    exact ⟨h1, h2, h3⟩
  · rintro t ⟨h1, h2, h3⟩
    rw [e] at h3
    exact ⟨h1, h2, fun hc => h3 ⟨nofun, hc.1, hc.2⟩⟩

example : (match (Machine.arrayIntoShape false (constTy [4, 2]) : M (Unit × Own Nat) Unit) ((), array23) with
      | .panic t => some t.2.log
      | _ => none) = some [1, 2, 3, 4, 5, 6] := by decide +kernel

/-- An array without elements. -/
def array0 : Own Unit := ⟨[], 0, ⟨constTy [0], [0]⟩, [], 0⟩

/-- Without overflow checks `into_shape` turns an array without elements into one that claims `2^64` of them. Then
taking an element out of it, or dropping it, has undefined behaviour. -/
theorem C78_violated : Holds array0 [] ∧
    (Machine.arrayIntoShape false (constTy [2 ^ 32, 2 ^ 32])) (5, array0) =
      .ok () (5, { array0 with shape := ⟨constTy [2 ^ 32, 2 ^ 32], [2 ^ 32, 2 ^ 32]⟩ }) ∧
    size [2 ^ 32, 2 ^ 32] = 2 ^ 64 ∧
    (takeCell 0 : M (Nat × Own Unit) Unit) (5, { array0 with shape := ⟨constTy [2 ^ 32, 2 ^ 32], [2 ^ 32, 2 ^ 32]⟩ }) =
      .ub ∧
    (dropCells 0 (2 ^ 64) : M (Nat × Own Unit) Unit)
      (5, { array0 with shape := ⟨constTy [2 ^ 32, 2 ^ 32], [2 ^ 32, 2 ^ 32]⟩ }) = .ub := by
  refine ⟨⟨?_, ?_, ?_⟩, ?_, ?_, ?_, ?_⟩ <;> decide +kernel

/-- `into_scalar` returns the only element; it panics exactly when the number of elements is not one, and then drops
them once. This does not depend on the build, nor on the number of elements being a 64-bit number. -/
theorem C78_into_scalar (o : Own T) (xs : List T) (h : Holds o xs) (s : σ) :
    M.Post (Machine.arrayIntoScalar checks) (s, o)
      (fun x t => t.1 = s ∧ xs = [x] ∧ t.2.log = o.log ∧ ∀ c ∈ t.2.cells.take 1, c = none)
      (fun t => t.1 = s ∧ xs.length ≠ 1 ∧ t.2.log = o.log ++ xs) := by
  have := post_arrayIntoScalar (s := s) h
  unfold M.Post at this ⊢
  rwa [Machine.arrayIntoScalar_eq h]

example : (match (Machine.arrayIntoScalar true : M (Unit × Own Nat) Nat)
      ((), ⟨[some 7], 0, ⟨constTy [1, 1], [1, 1]⟩, [], 0⟩) with
    | .ok x t => some (x, t.2.cells)
    | _ => none) = some (7, [none]) := by decide +kernel

/-- Construction of an array from an expression is the same as with exact integers (C42), if the number of elements is
a 64-bit number. -/
theorem C78_from_expr (ty : ShapeTy) (e : Expr σ T) (h : size e.dims ≤ usizeMax) (t : σ × Own T) :
    Machine.arrayFromExpr checks ty e t = arrayFromExpr ty e t :=
  Machine.arrayFromExpr_eq ty h t

example : (match Machine.arrayFromExpr true (constTy [2]) (.fromElem ⟨constTy [2], [2]⟩ (fun s => .ok s (s + 1)))
      (5, array23) with
    | .ok _ t => some (t.1, t.2.cells, t.2.shape.dims)
    | _ => none) = some (7, [some 5, some 6], [2]) := by decide +kernel

/-- Consuming an array as an expression or iterator panics exactly if its length overflows, so that all elements are
within reach of a 64-bit index. -/
theorem C78_into_expr (ty : ShapeTy) (dims : List Nat) (xs : List T) :
    (Machine.arrayIntoExpr ⟨ty, dims⟩ xs : Option (Expr σ T)) =
      if NoOverflow usizeMax dims then some (.intoExpr ⟨ty, dims⟩ xs 0) else none := by
  unfold Machine.arrayIntoExpr
  rw [Shape.checkedLen_eq]
  show Option.map _ (if NoOverflow usizeMax dims then _ else _) = _
  split <;> rfl

example : ¬ NoOverflow usizeMax [2 ^ 32, 2 ^ 32] ∧ NoOverflow usizeMax [2, 3] := by decide +kernel

end Props
