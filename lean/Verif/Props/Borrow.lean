import Verif.Lemmas.BorrowStep

/-!
C87: values that a safe program holds at the same time, several views of several arrays, do not get in each other's
way.
-/

namespace Props
open Spec Model Model.Borrow

variable {α : Type}

/-- C87, values that share elements: if two values give access to the same element, one has been borrowed from the
other one, or neither can change elements. -/
theorem C87_apart (checks : Bool) (st : St α) (hst : State checks st) (i j : Nat) (hij : i ≠ j) (x y : Handle)
    (hx : st.handles i = some x) (hy : st.handles j = some y) (a : Nat) (p : Int) (hp : Covers x a p)
    (hq : Covers y a p) :
    BorrowedFrom x j ∨ BorrowedFrom y i ∨ (x.excl = false ∧ y.excl = false) := by
  rcases (inv_state hst).share i x j y a p hx hy hij hp hq with h | h | h
  · exact .inr (.inl h)
  · exact .inl h
  · exact .inr (.inr h)

/-- C87, no dangling: every value that can be used belongs to an array that exists, in its present memory, and gives
access to elements of this array only. -/
theorem C87_inside (checks : Bool) (st : St α) (hst : State checks st) (i : Nat) (x : Handle)
    (hx : st.handles i = some x) :
    (∃ o y, st.handles o = some y ∧ y.owner = true ∧ y.alloc = x.alloc ∧ (o = i ∨ BorrowedFrom x o)) ∧
    ∃ s, st.shapes x.alloc = some s ∧ ∀ p, Covers x x.alloc p → 0 ≤ p ∧ p < size s.dims := by
  have hi := inv_state hst
  refine ⟨hi.rooted i x hx, ?_⟩
  obtain ⟨s, hs, hf⟩ := hi.place i x hx
  exact ⟨s, hs, fun p hp => hf.2 _ p hp.2.choose_spec⟩

/-- C87, accesses: while a program holds a value, from one state up to another one, the elements of this value are
accessed only through it or through values that have been borrowed from it; if it is read-only they may also be read
through others, and they are not changed. -/
theorem C87_exclusive (checks : Bool) (st : St α) (hst : State checks st) (ops : List (Op α))
    (ho : ∀ op ∈ ops, Typed op) (st' : St α) (ts : List Touch) (hr : run checks st ops = some (st', ts)) (z : Nat)
    (x : Handle) (hz : st.handles z = some x) (hz' : st'.handles z = some x) :
    ∀ t ∈ ts, Covers x t.alloc t.pos →
      if x.excl = true then t.handle = z ∨ z ∈ t.origins else t.write = false := by
  intro t ht hc
  obtain ⟨h1, h2⟩ := touch_run (inv_state hst) ho hr hz hz' t ht hc
  cases he : x.excl with
  | true =>
    rw [if_pos rfl]
    rcases h1 with h | h | h
    · exact .inl h
    · exact .inr h
    · rw [he] at h; cases h.2
  | false =>
    rw [if_neg (by simp)]
    by_contra hw
    have hw : t.write = true := by simpa using hw
    rcases h1 with h | h | h
    · have := h2 hw (.inl h); rw [he] at this; cases this
    · have := h2 hw (.inr h); rw [he] at this; cases this
    · rw [hw] at h; cases h.1

/-- C87, values of elements: the elements of a read-only value do not change as long as a program holds it; those of
other values only if they are changed through the value or through others borrowed from it. -/
theorem C87_stable (checks : Bool) (st : St α) (hst : State checks st) (ops : List (Op α))
    (ho : ∀ op ∈ ops, Typed op) (st' : St α) (ts : List Touch) (hr : run checks st ops = some (st', ts)) (z : Nat)
    (x : Handle) (hz : st.handles z = some x) (hz' : st'.handles z = some x) (p : Int) (hp : Covers x x.alloc p)
    (hn : x.excl = true → ∀ t ∈ ts, t.handle ≠ z ∧ z ∉ t.origins) :
    st'.mem x.alloc p = st.mem x.alloc p := by
  have hi := inv_state hst
  obtain ⟨s, hs, -⟩ := hi.place z x hz
  refine mem_run hr (hi.shape _ _ hs).1 fun t ht hw ha hq => ?_
  have hc : Covers x t.alloc t.pos := ⟨ha.symm, by rw [hq]; exact hp.2⟩
  have := C87_exclusive checks st hst ops ho st' ts hr z x hz hz' t ht hc
  cases he : x.excl with
  | true =>
    rw [he, if_pos rfl] at this
    rcases this with h | h
    · exact (hn he t ht).1 h
    · exact (hn he t ht).2 h
  | false =>
    rw [he, if_neg (by simp), hw] at this
    cases this

/-- C87, where accesses go: to elements of arrays that exist. -/
theorem C87_access (checks : Bool) (st : St α) (hst : State checks st) (op : Op α) (st' : St α) (t : Touch)
    (hs : step checks st op = some (st', some t)) :
    ∃ s, st.shapes t.alloc = some s ∧ 0 ≤ t.pos ∧ t.pos < size s.dims := by
  obtain ⟨x, hx, -, hc, -⟩ := step_touch hs
  obtain ⟨s, h1, h2⟩ := (C87_inside checks st hst _ x hx).2
  have e := hc.1
  exact ⟨s, e ▸ h1, h2 _ (e ▸ hc)⟩

/-- A program for the examples: a 2 by 3 array (value 0) is split in two mutable views (1 and 2); from the second one
(the last two columns) a mutable row is borrowed (3), which is converted (4). Elements are changed through the views
and the row in turn. -/
def exProgram : List (Op Nat) :=
  [.make ⟨.static [.dyn, .dyn], [2, 3]⟩ fun p => p.toNat,
   .call 0 .mut (.splitAxisAt (.const 1) 1),
   .call 2 .mut (.row 1),
   .write 1 [1, 0] 10,
   .write 3 [0] 20,
   .call 3 .into .intoDyn,
   .write 1 [0, 0] 30,
   .write 4 [1] 40]

/-- A summary of a state: the values that exist, and the elements of the array. -/
def exState (r : Option (St Nat × List Touch)) : Option (List Bool × List Nat) :=
  r.map fun p => ((List.range 6).map fun i => (p.1.handles i).isSome,
    (List.range 6).map fun (i : Nat) => p.1.mem 0 (i : Int))

/-- The program is accepted; afterwards all values but the converted one are there. -/
example : exState (run true (start fun _ _ => 0) exProgram) =
    some ([true, true, true, false, true, false], [30, 1, 2, 10, 20, 40]) := by decide +kernel

/-- If the array is used all the views end. -/
example : exState (run true (start fun _ _ => 0) (exProgram ++ [.read 0 [0, 0]])) =
    some ([true, false, false, false, false, false], [30, 1, 2, 10, 20, 40]) := by decide +kernel

/-- If the second view is used the row ends; using it afterwards is not accepted. -/
example : run true (start fun _ _ => 0) (exProgram ++ [.read 2 [0, 0], .read 4 [0]]) = none := by decide +kernel

/-- Two mutable views borrowed from the array one after the other: the first one ends. Two views that cannot change
elements: both stay. -/
example : run true (start fun _ _ => 0) ([.make ⟨.static [.dyn], [4]⟩ fun p => p.toNat, .call 0 .mut (.view [.full]),
      .call 0 .mut (.view [.full]), .write 1 [0] 7] : List (Op Nat)) = none ∧
    exState (run true (start fun _ _ => 0) ([.make ⟨.static [.dyn], [4]⟩ fun p => p.toNat,
      .call 0 .plain (.view [.full]), .call 0 .plain (.view [.full]), .read 1 [0], .read 2 [0]] : List (Op Nat))) =
    some ([true, true, true, false, false, false], [0, 1, 2, 3, 4, 5]) := by decide +kernel

/-- References to elements that `iter_mut` hands out, and subarrays of `outer_expr_mut`, can be used in any order. -/
example : exState (run true (start fun _ _ => 0) ([.make ⟨.static [.dyn, .dyn], [2, 2]⟩ fun p => p.toNat,
      .call 0 .mut (.axes (.const 0) 2), .call 1 .into (.iter 2), .write 4 [] 5, .write 2 [0] 6, .write 3 [] 7] :
      List (Op Nat))) =
    some ([true, false, true, true, true, false], [7, 5, 6, 3, 4, 5]) := by decide +kernel

end Props
