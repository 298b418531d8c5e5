import Verif.Lemmas.PointerExact
import Verif.Props.Pointer

/-! C70: exactly which pointers iteration forms. -/

namespace Props
open Model Spec Iter

/-- The pointers `ps`, one for each view in `e`, are formed when an iterator over `e` goes on to the next row or back to the
start. -/
def Formed {σ α : Type} (e : Expr σ α) (ps : List Int) : Prop :=
  ∃ it m e', Occurs e it ∧ it.innerIndex = it.innerLimit ∧ m ∈ moves it ∧ m.after = some e' ∧ ps = (leaves e').map View.ptr

/-- The pointers to the start of the row with outer index `pos`, for each view in `e`; the dimensions of the views are the last
ones of `e`. -/
def rowStart {σ α : Type} (e : Expr σ α) (pos : List Nat) : List Int :=
  (leaves e).map fun v => v.ptr + dot v.map.strides (pos.drop (e.dims.length - v.dims.length))

/-- The outer dimensions of `e`, where those of size 0 are passed as if they had size 1. -/
def outerDims {σ α : Type} (e : Expr σ α) : List Nat := (e.dims.take e.outerRank).map fun d => max d 1

/-- C70: iteration over any expression, empty or not, forms only pointers to starts of rows. -/
theorem C70_only {σ α : Type} (e : Expr σ α) (hb : Built e) (ps : List Int) (h : Formed e ps) :
    ∃ pos, Valid (outerDims e) pos ∧ ps = rowStart e pos := by
  obtain ⟨it, m, e', h1, h2, h3, h4, rfl⟩ := h
  obtain ⟨pos, hv, hl⟩ := moves_only (Expr.wf_of_built hb) h1 h2 h3 h4
  refine ⟨pos, hv, ?_⟩
  rw [hl, List.map_map]
  rfl

/-- C70, exactly: iteration over an expression with empty rows forms exactly the pointers to the starts of these rows,
except with a `from_fn` of dynamic rank, where it panics. -/
theorem C70_exact {σ α : Type} (e : Expr σ α) (hb : Built e) (hf : ¬ BadFn e)
    (he : size (e.dims.drop e.outerRank) = 0) (ps : List Int) :
    Formed e ps ↔ ∃ pos, Valid (outerDims e) pos ∧ ps = rowStart e pos := by
  refine ⟨C70_only e hb ps, ?_⟩
  rintro ⟨pos, hv, rfl⟩
  obtain ⟨it, m, e', h1, h2, h3, h4, h5⟩ := moves_all (Expr.wf_of_built hb) hf he hv
  refine ⟨it, m, e', h1, h2, h3, h4, ?_⟩
  rw [h5, List.map_map]
  rfl

/-- C70 for a view with empty rows in an array of `n` elements: its iterator stays inside of the array exactly if the starts of all
rows, though they have no elements, are inside of the array. -/
theorem C70_view_exact {σ : Type} (r : Bool) (v : View) (hb : Built (.view r v : Expr σ Int))
    (he : size (v.dims.drop (Expr.view r v : Expr σ Int).outerRank) = 0) (n : Nat) :
    (∀ p, Formed (.view r v : Expr σ Int) [p] → 0 ≤ p ∧ p ≤ n) ↔
      ∀ pos, Valid (outerDims (.view r v : Expr σ Int)) pos →
        0 ≤ v.ptr + dot v.map.strides pos ∧ v.ptr + dot v.map.strides pos ≤ n := by
  have key : ∀ pos, rowStart (.view r v : Expr σ Int) pos = [v.ptr + dot v.map.strides pos] := by
    intro pos
    show [v.ptr + dot v.map.strides (pos.drop (v.dims.length - v.dims.length))] = _
    rw [Nat.sub_self, List.drop_zero]
  have h := C70_exact (.view r v : Expr σ Int) hb (fun h => h) he
  constructor
  · intro H pos hv
    exact H _ ((h _).2 ⟨pos, hv, (key pos).symm⟩)
  · intro H p hp
    obtain ⟨pos, hv, e⟩ := (h _).1 hp
    rw [key] at e
    obtain rfl := List.singleton_inj.1 e
    exact H pos hv

/-- The hypotheses hold for the view of `C70_violated`; its second row is outside of the array. -/
example : Built (.view true noColumns : Expr Unit Int) ∧
    size (noColumns.dims.drop (Expr.view true noColumns : Expr Unit Int).outerRank) = 0 ∧
    outerDims (.view true noColumns : Expr Unit Int) = [2] ∧ Valid [2] [1] ∧
    rowStart (.view true noColumns : Expr Unit Int) [1] = [-4] ∧ Formed (.view true noColumns : Expr Unit Int) [-4] := by
  have hb : Built (.view true noColumns : Expr Unit Int) := .view (by decide)
  have hv : Valid [2] [1] := .cons (by decide) .nil
  exact ⟨hb, by decide, rfl, hv, rfl, (C70_exact _ hb (fun h => h) (by decide) _).2 ⟨[1], hv, rfl⟩⟩

end Props
