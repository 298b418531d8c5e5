import Verif.Lemmas.UserBuffer

/-!
C92: moving elements out of buffers of types defined outside of the crate.
-/

namespace Props
open Model Spec

variable {σ T : Type}

/-- If both functions of a buffer always return the same slice, `for_each` hands out its elements once and in order,
and does not change other memory. If there is a panic (of the closure or of a function of the buffer), the elements
`ys` have been handed out and the elements `ds` dropped; at most one element between them is left out, and none if the
functions of the buffer do not panic. The process aborts only if they do. -/
theorem C92_partial (b : UserBuffer σ) (dbg : Bool) (s : Shape) (pre post : List (Option T)) (xs : List T)
    (m : BufMem T) (hm : Fresh m pre xs post) (h : SafeBuffer b m.cells.length) (hs : SteadyBuffer b pre.length s)
    (hx : xs.length = size s.dims) (hr : s.rank < 2 ^ 64) (f : T → M σ Unit) (hf : ∀ x, (f x).Tame) (w : σ) :
    M.PostA (b.forEach dbg f) (w, m) (fun _ t => Emptied t.2 pre xs [] [] post)
      (fun t => ∃ ys zs ds, xs = ys ++ zs ++ ds ∧ Emptied t.2 pre ys zs ds post ∧ zs.length ≤ 1 ∧
        (QuietBuffer b → zs = [])) (¬QuietBuffer b) :=
  UserBuffer.post_forEach h hs hx hr hf hm w

/-- Even then the elements must not be used later, which safe code (the destructor of the buffer) can do with
`ManuallyDrop::into_inner`. -/
theorem C92_used (b : UserBuffer σ) (dbg : Bool) (s : Shape) (pre post : List (Option T)) (xs : List T)
    (m : BufMem T) (hm : Fresh m pre xs post) (h : SafeBuffer b m.cells.length) (hs : SteadyBuffer b pre.length s)
    (hx : xs.length = size s.dims) (hr : s.rank < 2 ^ 64) (f : T → M σ Unit) (hf : ∀ x, (f x).Tame) (w : σ)
    (t : σ × BufMem T) (ht : b.forEach dbg f (w, m) = .ok () t) (i : Nat) (hi : i < size s.dims) :
    UserBuffer.takeAt (pre.length + i) t = .ub := by
  have := UserBuffer.post_forEach (dbg := dbg) h hs hx hr hf hm w
  unfold M.PostA at this
  rw [ht] at this
  unfold UserBuffer.takeAt
  have e : t.2.cells[pre.length + i]? = some none := by
    rw [this.1, List.append_assoc, List.append_assoc, List.append_assoc, List.getElem?_append_right (by omega),
      List.getElem?_append_left (by rw [List.length_replicate]; omega), List.getElem?_replicate, if_pos (by omega)]
  rw [e]

/-- A buffer with the given slices, where the number of calls counts. -/
def faces (a b : Nat → Nat × List Nat) : UserBuffer Nat where
  ty := .static [.dyn]
  asSlice := fun w => .ok ((a w).1, ⟨.static [.dyn], (a w).2⟩) (w + 1)
  asMutSlice := fun w => .ok ((b w).1, ⟨.static [.dyn], (b w).2⟩) (w + 1)

/-- Two elements. -/
def couple : BufMem Nat := ⟨[some 5, some 6], 0, [], []⟩

/-- Safe code can implement `Buffer` such that evaluating the expression is undefined behaviour: `as_mut_slice` returns
an empty slice though `as_slice` returns two elements; it starts at the second element in the first call, so that this
element is handed out twice; or `as_slice` returns an empty slice after the first two calls (in builds without debug
assertions, otherwise this panics). -/
theorem C92_violated :
    (∀ a b : Nat → Nat × List Nat, (∀ w, (a w).1 + size (a w).2 ≤ 2 ∧ (b w).1 + size (b w).2 ≤ 2) →
      SafeBuffer (faces a b) couple.cells.length) ∧
    (∀ dbg, (faces (fun _ => (0, [2])) fun _ => (2, [0])).forEach dbg (fun _ => M.pure ()) (0, couple) = .ub) ∧
    (∀ dbg, (faces (fun _ => (0, [2])) fun w => if w < 4 then (1, [1]) else (0, [2])).forEach dbg (fun _ => M.pure ())
      (0, couple) = .ub) ∧
    (faces (fun w => (0, [if w < 2 then 2 else 0])) fun _ => (0, [2])).forEach false (fun _ => M.pure ()) (0, couple) =
      .ub ∧
    (faces (fun w => (0, [if w < 2 then 2 else 0])) fun _ => (0, [2])).forEach true (fun _ => M.pure ()) (0, couple) =
      .panic (5, couple) := by
  refine ⟨fun a b h => ⟨fun w => (h w).1, fun w => (h w).2⟩, ?_, ?_, ?_, ?_⟩ <;> decide +kernel

/-- A buffer with the second and third of four elements, where the given call panics. -/
def middle (p : Nat) : UserBuffer Nat where
  ty := .static [.dyn]
  asSlice := fun w => if w = p then .panic (w + 1) else .ok (1, ⟨.static [.dyn], [2]⟩) (w + 1)
  asMutSlice := fun w => if w = p then .panic (w + 1) else .ok (1, ⟨.static [.dyn], [2]⟩) (w + 1)

/-- The hypotheses hold. Both elements are handed out; if the closure panics with the first one, the second one is
dropped; if the second call of `as_mut_slice` panics, the second element is left; and if a call panics in the
destructor after that, the process aborts. -/
example (p : Nat) : SafeBuffer (middle p) 4 ∧ SteadyBuffer (middle p) 1 ⟨.static [.dyn], [2]⟩ ∧
    Fresh ⟨[some 5, some 6, some 7, some 8], 0, [], []⟩ [some 5] [6, 7] [some 8] ∧ ¬QuietBuffer (middle p) ∧
    (middle 100).forEach false (fun _ => M.pure ()) (0, ⟨[some 5, some 6, some 7, some 8], 0, [], []⟩) =
      .ok () (9, ⟨[some 5, none, none, some 8], 2, [6, 7], []⟩) ∧
    (middle 100).forEach false (fun _ => M.panic) (0, ⟨[some 5, some 6, some 7, some 8], 0, [], []⟩) =
      .panic (5, ⟨[some 5, none, none, some 8], 1, [6], [7]⟩) ∧
    (middle 3).forEach false (fun _ => M.pure ()) (0, ⟨[some 5, some 6, some 7, some 8], 0, [], []⟩) =
      .panic (6, ⟨[some 5, none, some 7, some 8], 2, [6], []⟩) ∧
    (middle 3).forEach false (fun _ _ => .panic 3) (0, ⟨[some 5, some 6, some 7, some 8], 0, [], []⟩) = .abort := by
  have post : ∀ w, M.Post (fun w => if w = p then Res.panic (w + 1) else .ok (1, (⟨.static [.dyn], [2]⟩ : Shape)) (w + 1)) w
      (fun q _ => q.1 + size q.2.dims ≤ 4) fun _ => True := by
    intro w
    unfold M.Post
    by_cases h : w = p <;> simp [h, size]
  have ret : ∀ w (q : Nat × Shape) w', (if w = p then Res.panic (w + 1) else
      .ok (1, (⟨.static [.dyn], [2]⟩ : Shape)) (w + 1)) = .ok q w' → q = (1, ⟨.static [.dyn], [2]⟩) := by
    intro w q w' e
    split at e
    · cases e
    · injection e with e
      exact e.symm
  refine ⟨⟨post, post⟩, ⟨rfl, ret, ret⟩, rfl, fun h => (h p (p + 1)).1 (if_pos rfl), ?_, ?_, ?_, ?_⟩ <;> decide +kernel

/-- A buffer whose functions do not panic. -/
example : QuietBuffer (faces (fun _ => (0, [2])) fun _ => (0, [2])) := fun _ _ => ⟨nofun, nofun⟩

end Props
