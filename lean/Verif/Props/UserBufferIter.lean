import Verif.Lemmas.UserBufferIter
import Verif.Props.UserBuffer

/-!
C92: stepping through iterators over buffers of types defined outside of the crate.
-/

namespace Props
open Model Spec

variable {σ T : Type}

/-- If both functions of a buffer always return the same slice, `k` calls of `next` return its first elements in order
and then `None`, dropping the iterator drops the other elements, and other memory is not changed. If there is a panic,
the elements `ys` have been returned and the elements `ds` dropped; at most one element between them is left out, or all
of the rest if a function of the buffer panics while the iterator is dropped, and none if the functions of the buffer do
not panic. The process aborts only if they do. -/
theorem C92_next_partial (b : UserBuffer σ) (dbg : Bool) (s : Shape) (pre post : List (Option T)) (xs : List T)
    (m : BufMem T) (hm : Fresh m pre xs post) (h : SafeBuffer b m.cells.length) (hs : SteadyBuffer b pre.length s)
    (hx : xs.length = size s.dims) (hr : s.rank < 2 ^ 64) (k : Nat) (f : Option T → M σ Unit) (hf : ∀ x, (f x).Tame)
    (w : σ) :
    M.PostA (b.iterate dbg k f) (w, m)
      (fun rs t => rs = (xs.take k).map some ++ List.replicate (k - xs.length) none ∧
        Emptied t.2 pre (xs.take k) [] (xs.drop k) post)
      (fun t => ∃ ys zs ds, xs = ys ++ zs ++ ds ∧ Emptied t.2 pre ys zs ds post ∧ (zs.length ≤ 1 ∨ ds = []) ∧
        (QuietBuffer b → zs = [])) (¬QuietBuffer b) :=
  UserBuffer.post_iterate h hs hx hr k hf hm w

/-- With other buffers of safe code a single call of `next` can be undefined behaviour: `as_mut_slice` returns an empty
slice though `as_slice` returns two elements. If it starts at the second element in the first call, dropping the
iterator after this call is undefined behaviour. -/
theorem C92_next_violated :
    (∀ dbg, (faces (fun _ => (0, [2])) fun _ => (2, [0])).iterate dbg 1 (fun _ => M.pure ()) (0, couple) = .ub) ∧
    (∀ dbg, (faces (fun _ => (0, [2])) fun w => if w < 4 then (1, [1]) else (0, [2])).iterate dbg 1 (fun _ => M.pure ())
      (0, couple) = .ub) := by
  constructor <;> decide +kernel

/-- The hypotheses hold for the buffer `middle` (see Props/UserBuffer). One call of `next` returns the first element,
and the second one is dropped with the iterator; after both elements `next` returns `None`; if the closure panics with
the first element, the second one is dropped; if a call panics while the iterator is dropped, the second one is left. -/
example :
    (middle 100).iterate false 1 (fun _ => M.pure ()) (0, ⟨[some 5, some 6, some 7, some 8], 0, [], []⟩) =
      .ok [some 6] (5, ⟨[some 5, none, none, some 8], 1, [6], [7]⟩) ∧
    (middle 100).iterate false 4 (fun _ => M.pure ()) (0, ⟨[some 5, some 6, some 7, some 8], 0, [], []⟩) =
      .ok [some 6, some 7, none, none] (12, ⟨[some 5, none, none, some 8], 2, [6, 7], []⟩) ∧
    (middle 100).iterate false 2 (fun _ => M.panic) (0, ⟨[some 5, some 6, some 7, some 8], 0, [], []⟩) =
      .panic (5, ⟨[some 5, none, none, some 8], 1, [6], [7]⟩) ∧
    (middle 3).iterate false 1 (fun _ => M.pure ()) (0, ⟨[some 5, some 6, some 7, some 8], 0, [], []⟩) =
      .panic (4, ⟨[some 5, none, some 7, some 8], 1, [6], []⟩) := by
  refine ⟨?_, ?_, ?_, ?_⟩ <;> decide +kernel

end Props
