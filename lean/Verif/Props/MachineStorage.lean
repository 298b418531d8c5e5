import Verif.Lemmas.MachineStorage
import Verif.Props.Tensor

/-!
C77: the operations on tensors with 64-bit integers, see `Model/MachineStorage.lean`. `checks` says whether overflow is
checked (the default in debug builds) or wraps around.
-/

namespace Props
open Model Spec

variable {σ T : Type} {checks : Bool}

/-- A tensor with 4 rows on a 64-bit machine. -/
example : Fits64 true tensor42 ∧ Fits64 false tensor42 := by decide +kernel

/-- Every operation on tensors behaves on a 64-bit machine as with exact integers, and the tensors can exist on such a
machine afterwards. Assumed for expressions that are consumed as a whole: the length can be computed.
Missing: `resize` of an empty tensor in the case of `C77_resize`. -/
theorem C77_operations_partial (S : Sys σ T) (ha : Usable S.a) (hb : Usable S.b) (ha' : Fits64 checks S.a)
    (hb' : Fits64 checks S.b) (op : TensorOp σ T) (hop : op.Allowed S) (hs : op.Short checks)
    (hr : ∀ dims f, op = .resizeWith dims f → ¬ ResizeOverflows checks S.a dims) :
    op.run64 checks S = op.run S ∧ LeavesBoth (Fits64 checks) (op.run64 checks S) := by
  have e := Machine.run64_eq ha hb ha' hb' hs hr
  exact ⟨e, e ▸ Machine.run_leaves ha hb ha' hb' hop hs⟩

/-- Appending 2 rows to 4 rows. -/
example : (TensorOp.append : TensorOp Nat Nat).Allowed ⟨10, tensor42, tensor22⟩ ∧
    (TensorOp.append : TensorOp Nat Nat).Short true ∧
    (match (TensorOp.append : TensorOp Nat Nat).run64 true ⟨10, tensor42, tensor22⟩ with
      | .ok _ S => some (S.a.shape.dims, S.b.shape.dims)
      | _ => none) = some ([6, 2], [0, 2]) := ⟨trivial, trivial, by decide +kernel⟩

/-- A resize that is not excluded, of a tensor with too large dimensions behind a zero, without overflow checks. -/
example : ¬ ResizeOverflows false (⟨[], 0, ⟨.static [.dyn, .dyn, .dyn], [0, 2 ^ 40, 2 ^ 40]⟩, [], 100⟩ : Own Nat) [1, 1, 1] := by
  decide +kernel

/-- In the excluded case `resize` panics instead of creating the new elements, and the tensor remains as it is. -/
theorem C77_resize (S : Sys σ T) (ha' : Fits64 checks S.a) (dims : List Nat) (f : M σ T)
    (h : ResizeOverflows checks S.a dims) :
    (TensorOp.resizeWith dims f).run64 checks S = .panic ⟨S.world, { S.a with len := 0 }, S.b⟩ :=
  Machine.run64_bad ha' h

/-- A closure for new elements. -/
def nextNat : M Nat Nat := fun s => .ok s (s + 1)

/-- An empty tensor with large dimensions behind the zero. -/
def hollow : Own Nat := ⟨[], 0, ⟨.static [.dyn, .dyn, .dyn], [0, 2 ^ 40, 2 ^ 40]⟩, [], 100⟩

/-- Such a tensor is the result of `drain` or `truncate`, or of reshaping. -/
example : Holds hollow [] ∧ Fits64 true hollow ∧ ResizeOverflows true hollow [1, 1, 1] ∧
    (match Machine.tensorIntoShape true ⟨.static [.dyn, .dyn, .dyn], [0, 2 ^ 40, 2 ^ 40]⟩
        ((), (⟨[], 0, ⟨.static [.dyn], [0]⟩, [], 100⟩ : Own Nat)) with
      | .ok _ t => some t.2
      | _ => none) = some hollow := by
  refine ⟨⟨?_, ?_, ?_⟩, ?_, ?_, ?_⟩ <;> decide +kernel

/-- The claim does not hold for `resize`: with overflow checks, a resize of an empty tensor to one element panics. -/
theorem C77_violated : Machine.resizeWith true [1, 1, 1] nextNat (5, hollow) = .panic (5, hollow) ∧
    (match resizeWith [1, 1, 1] nextNat (5, hollow) with
      | .ok _ t => some (t.2.cells, t.2.shape.dims)
      | _ => none) = some ([some 5], [1, 1, 1]) := by
  decide +kernel

/-- Whatever is reached by operations on a 64-bit machine is also reached with exact integers, and the tensors can
still exist on the machine. In particular `C32` holds there: the tensors own as many elements as their dimensions
say. A further operation never has undefined behaviour, and aborts only as with exact integers. -/
theorem C77_history (S S' : Sys σ T) (h : History64 checks S S') (ha : Usable S.a) (hb : Usable S.b)
    (ha' : Fits64 checks S.a) (hb' : Fits64 checks S.b) :
    History S S' ∧ Usable S'.a ∧ Usable S'.b ∧ Fits64 checks S'.a ∧ Fits64 checks S'.b ∧
      ∀ op : TensorOp σ T, op.Allowed S' → op.Short checks → op.run64 checks S' ≠ .ub ∧
        (op.run64 checks S' = .abort → op.run S' = .abort) := by
  have key : History S S' ∧ Fits64 checks S'.a ∧ Fits64 checks S'.b := by
    induction h with
    | refl => exact ⟨.refl, ha', hb'⟩
    | @ok S' S'' op h0 hop hs hx ih =>
      obtain ⟨i1, i2, i3⟩ := ih
      obtain ⟨u1, u2, -⟩ := C32 _ _ i1 ha hb
      have hr : ∀ dims f, op = .resizeWith dims f → ¬ ResizeOverflows checks S'.a dims := by
        rintro dims f rfl hbad
        rw [Machine.run64_bad i2 hbad] at hx
        cases hx
      obtain ⟨e, hl⟩ := C77_operations_partial S' u1 u2 i2 i3 op hop hs hr
      rw [hx] at e hl
      exact ⟨.ok i1 hop e.symm, hl⟩
    | @caught S' S'' op h0 hop hs hc hx ih =>
      obtain ⟨i1, i2, i3⟩ := ih
      obtain ⟨u1, u2, -⟩ := C32 _ _ i1 ha hb
      by_cases hr : ∃ dims f, op = .resizeWith dims f ∧ ResizeOverflows checks S'.a dims
      · obtain ⟨dims, f, rfl, hbad⟩ := hr
        rw [Machine.run64_bad i2 hbad] at hx
        injection hx with hx
        subst hx
        exact ⟨.ok (op := .reserve 0) i1 trivial (Machine.reserve_zero u1 hbad), i2, i3⟩
      · have hr : ∀ dims f, op = .resizeWith dims f → ¬ ResizeOverflows checks S'.a dims :=
          fun dims f h1 h2 => hr ⟨dims, f, h1, h2⟩
        obtain ⟨e, hl⟩ := C77_operations_partial S' u1 u2 i2 i3 op hop hs hr
        rw [hx] at e hl
        exact ⟨.caught i1 hop hc e.symm, hl⟩
  obtain ⟨k1, k2, k3⟩ := key
  obtain ⟨u1, u2, u3⟩ := C32 _ _ k1 ha hb
  refine ⟨k1, u1, u2, k2, k3, fun op hop hs => ?_⟩
  by_cases hr : ∃ dims f, op = .resizeWith dims f ∧ ResizeOverflows checks S'.a dims
  · obtain ⟨dims, f, rfl, hbad⟩ := hr
    rw [Machine.run64_bad k2 hbad]
    exact ⟨nofun, nofun⟩
  · have e := (C77_operations_partial S' u1 u2 k2 k3 op hop hs fun dims f h1 h2 => hr ⟨dims, f, h1, h2⟩).1
    rw [e]
    exact ⟨(u3 op hop).1, id⟩

/-- A history: truncate, and a resize with a panic that is caught. -/
example : History64 true (⟨10, tensor42, tensor22⟩ : Sys Nat Nat) ⟨10, afterTruncate, tensor22⟩ := by
  refine .ok (op := .truncate 3) .refl trivial trivial ?_
  have : (Machine.tensorTruncate true 3 : M (Nat × Own Nat) Unit) (10, tensor42) = .ok () (10, afterTruncate) := by
    decide +kernel
  simp only [TensorOp.run64, onA, this]

/-- The operations that are not part of histories: cloning to a new tensor `o`, reserving memory with an error value,
and conversions to a vector, to a scalar and to an iterator, of which `k` items are asked for. -/
theorem C77_other (s : σ) (o b : Own T) (ho : Fits64 checks o) (hb : Fits64 checks b) :
    (∀ c, Machine.tensorClone checks b c (s, o) = tensorClone b c (s, o) ∧
      Leaves (Fits64 checks) (Machine.tensorClone checks b c (s, o))) ∧
    (∀ n, Machine.tensorTryReserve checks n (s, o) = tensorTryReserve n (s, o) ∧
      Leaves (Fits64 checks) (Machine.tensorTryReserve checks n (s, o))) ∧
    Machine.tensorIntoVec checks (s, o) = tensorIntoVec (s, o) ∧
    Machine.tensorIntoScalar checks (s, o) = tensorIntoScalar (s, o) ∧
    ∀ k, Machine.intoItems checks k (s, o) = intoItems k (s, o) := by
  refine ⟨fun c => ?_, fun n => ?_, Machine.tensorIntoVec_eq ho, Machine.tensorIntoScalar_eq ho, fun k =>
    Machine.intoItems_eq ho⟩
  · rw [Machine.tensorClone_eq hb c]
    exact ⟨rfl, Machine.leaves_of_part (Machine.tensorClone_kept ho hb c)⟩
  · rw [Machine.tensorTryReserve_eq ho n]
    exact ⟨rfl, Machine.leaves_of_part (Machine.tensorTryReserve_kept ho n)⟩

/-- Three items of a tensor with four elements. -/
example : (match (Machine.intoItems true 3 : M (Unit × Own Nat) _) ((), tensor22) with
    | .ok ys t => some (ys, t.2.log)
    | _ => none) = some ([1, 2, 3], [4]) := by
  decide +kernel

end Props
