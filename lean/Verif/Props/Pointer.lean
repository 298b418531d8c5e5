import Verif.Lemmas.Pointer
import Verif.Lemmas.PointerView

/-! The pointers of views and iterators. Property numbers refer to `properties.jsonl`. -/

namespace Props
open Model Spec Iter

/-- C70, views: the pointer of every view that is reached by any sequence of calls with machine integers, on any
array of at most `2^62` elements, is the start of the array or points to one of its elements. This includes
empty views. -/
theorem C70_views (checks : Bool) (s : Shape) (hw : s.WF) (hu : Usize s.dims) (hs : size s.dims ≤ 2 ^ 62)
    (v : View) (h : ReachM checks (whole s) v) :
    v.ptr = 0 ∨ (0 ≤ v.ptr ∧ v.ptr < size s.dims) :=
  Machine.ptr_reach hw hu (by norm_num at hs; exact hs) h

/-- C70_views: the empty part after the end of a `[3, 4]` array keeps the pointer of the array. -/
example : ∃ v, ReachM true (whole ⟨.static [.dyn, .dyn], [3, 4]⟩) v ∧ v.dims = [0, 2] ∧ v.ptr = 0 :=
  ⟨⟨0, .strided ⟨.static [.dyn, .dyn], [0, 2]⟩ [4, 1]⟩,
    .call .refl (.inl rfl) (.view (xs := [.range (.included 3) .unbounded, .range (.included 1) (.excluded 3)]) rfl
      (by decide +kernel)), rfl, rfl⟩

/-- C70, iteration: as long as an expression is not empty, all pointers formed by an iterator when it goes on
to the next row (and when it goes back to the start in the end) point to elements of the views that are
iterated over. Missing for the full claim: expressions without elements that have an outer dimension greater
than 1; there it is false, `C70_violated`. -/
theorem C70_iter_partial {σ α : Type} (e : Expr σ α) (hb : Built e)
    (hne : 0 < size e.dims ∨ ∀ d ∈ e.dims.take e.outerRank, d ≤ 1) (it : Iter σ α) (h : Occurs e it)
    (hend : it.innerIndex = it.innerLimit) (m : Move σ α) (hm : m ∈ moves it) (e' : Expr σ α)
    (he : m.after = some e') : StaysIn e e' :=
  moves_stay (Expr.wf_of_built hb) hne h hend hm he

/-- C70: `moves` are the moves made by `step_outer`, one after the other. -/
theorem C70_moves {σ α : Type} (it it' : Iter σ α) (b : Bool) (h : it.stepOuter = some (b, it')) :
    Path it.expr (moves it) it'.expr := moves_path h

/-- C70: the states considered include all states between calls of `next`. -/
theorem C70_next {σ α : Type} (e : Expr σ α) (it it' : Iter σ α) (x : α) (s t : σ) (h : Occurs e it)
    (hn : it.next s = .ok (some x, it') t) : Occurs e it' := occurs_next h hn

/-- A reversed view of a `[2, 3]` array. -/
def backwards : View := ⟨3, .strided ⟨.static [.dyn, .dyn], [2, 3]⟩ [-3, 1]⟩

/-- C70_iter_partial, C70_moves and C70_next are about iterators such as this one, at the end of its first row:
it steps back by one row. -/
example : ∃ it e', Occurs (.view true backwards : Expr Unit Int) it ∧ it.innerIndex = it.innerLimit ∧
    (moves it).getLast?.bind Move.after = some e' ∧ leaves e' = [⟨0, backwards.map⟩] := by
  have h0 : Occurs (.view true backwards : Expr Unit Int) (Iter.new (.view true backwards)) := .new
  have h1 := Occurs.get (s := ()) h0 (by decide) rfl
  have h2 := Occurs.get (s := ()) h1 (by decide) rfl
  have h3 := Occurs.get (s := ()) h2 (by decide) rfl
  exact ⟨_, .view true ⟨0, backwards.map⟩, h3, rfl, rfl, rfl⟩

/-- All rows of a `[2, 4]` array in reversed order, without columns. -/
def noColumns : View := ⟨0, .strided ⟨.static [.dyn, .dyn], [2, 0]⟩ [-4, 1]⟩

/-- C70 is violated by iterating over an empty view: of a `[2, 4]` array all rows in reversed order and none of
the columns are selected. The view starts at the start of the array, has two rows, and the iterator steps from
the first one to the second one, to four elements before the array. -/
theorem C70_violated :
    ∃ v : View, ReachM true (whole ⟨.static [.dyn, .dyn], [2, 4]⟩) v ∧
      ∃ it m e', Occurs (.view true v : Expr Unit Int) it ∧ it.innerIndex = it.innerLimit ∧ m ∈ moves it ∧
        m.after = some e' ∧ leaves e' = [⟨-4, v.map⟩] := by
  refine ⟨noColumns, ?_, Iter.new (.view true noColumns), .step (.view true noColumns) 0,
    .view true ⟨-4, noColumns.map⟩, .new, rfl, ?_, rfl, rfl⟩
  · exact .call .refl (.inl rfl)
      (.view (xs := [.step .unbounded .unbounded (-1), .range (.included 0) (.excluded 0)]) rfl (by decide +kernel))
  · exact List.mem_cons_of_mem _ (List.mem_singleton.2 rfl)

end Props
