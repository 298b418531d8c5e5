import Verif.Lemmas.RawParts
import Verif.Props.Storage

/-! Raw parts and `set_mapping`: C81. -/

namespace Props
open Spec Model

variable {σ T : Type}

/-- What the caller of `from_raw_parts` has to guarantee. -/
def RawValid (r : RawParts T) (xs : List T) : Prop :=
  r.capacity = r.cells.length ∧ r.shape.WF ∧ xs.length = size r.shape.dims ∧ xs.map some <+: r.cells ∧
    NoOverflow usizeMax r.shape.dims

/-- `from_raw_parts` makes an array of the elements that are in the allocation, with the given shape and
capacity; nothing is dropped. -/
theorem C81_from_raw_parts (dbg : Bool) (r : RawParts T) (xs : List T) (h : RawValid r xs) (s : σ)
    (o : Own T) :
    M.Post (tensorFromRawParts dbg r) (s, o)
      (fun _ t => t.1 = s ∧ Holds t.2 xs ∧ t.2.shape = r.shape ∧ tensorCapacity t.2 = r.capacity ∧
        t.2.log = o.log)
      (fun _ => False) := by
  obtain ⟨h1, h2, h3, h4, h5⟩ := h
  have hl : r.shape.len = xs.length := by rw [Shape.len_eq, h3]
  have hle := h4.length_le
  rw [List.length_map] at hle
  have hall : (r.cells.take r.shape.len).all Option.isSome := by
    obtain ⟨rest, hr⟩ := h4
    rw [hl, ← hr, List.take_append_of_le_length (by simp), List.take_of_length_le (by simp)]
    simp
  refine M.post_of_eq (a := ())
    (t := (s, ({ o with cells := r.cells, len := r.shape.len, shape := r.shape } : Own T))) ?_
    ⟨rfl, ⟨h2, h3, h4⟩, rfl, h1.symm, rfl⟩
  unfold tensorFromRawParts
  rw [if_pos ⟨h1, by rw [hl, h1]; exact hle, hall⟩]
  unfold fromParts
  simp only [M.bind_eq, M.bind, own, M.onPanic, Shape.checkedLen_eq, if_pos h5,
    show check (dbg = true → some r.shape.len = some (size r.shape.dims)) = some () from
      if_pos fun _ => by rw [Shape.len_eq], M.lift_some, M.pure]
  rfl

/-- `into_raw_parts` gives parts that meet this contract, with the shape and the capacity of the array,
without dropping or moving an element. Together with `C81_from_raw_parts`: taking an array apart and
putting it together again gives the same array. -/
theorem C81_into_raw_parts (o : Own T) (xs : List T) (h : Holds o xs)
    (hn : NoOverflow usizeMax o.shape.dims) :
    RawValid (tensorIntoRawParts o) xs ∧ (tensorIntoRawParts o).shape = o.shape ∧
      (tensorIntoRawParts o).capacity = tensorCapacity o :=
  ⟨⟨rfl, h.1, h.2.1, h.2.2, hn⟩, rfl, rfl⟩

/-- `set_mapping` gives an array of the elements that are at the begin of the allocation. Elements behind
them are forgotten, not dropped. It panics only with debug assertions, if the dimensions overflow, and then
changes nothing. -/
theorem C81_set_mapping (dbg : Bool) (o : Own T) (new : Shape) (hw : new.WF) (zs : List T)
    (hz : zs.length = size new.dims) (hp : zs.map some <+: o.cells) (s : σ) :
    M.Post (tensorSetMapping dbg new) (s, o)
      (fun _ t => t.1 = s ∧ Holds t.2 zs ∧ t.2.shape = new ∧ t.2.cells = o.cells ∧ t.2.log = o.log)
      (fun t => t = (s, o) ∧ dbg = true ∧ ¬ NoOverflow usizeMax new.dims) := by
  have hle := hp.length_le
  rw [List.length_map, hz, ← Shape.len_eq] at hle
  by_cases hd : dbg = true → NoOverflow usizeMax new.dims
  · refine M.post_of_eq (a := ()) (t := (s, { o with shape := new })) ?_ ⟨rfl, ⟨hw, hz, hp⟩, rfl, rfl, rfl⟩
    unfold tensorSetMapping
    simp only [M.bind_eq, M.bind, own, Shape.checkedLen_eq,
      show check (dbg = true → (if NoOverflow usizeMax new.dims then some (size new.dims) else none).isSome =
        true) = some () from if_pos fun h => by rw [if_pos (hd h)]; rfl,
      show check (dbg = true → new.len ≤ o.cells.length) = some () from if_pos fun _ => hle, M.lift_some,
      M.pure]
    rfl
  · rw [Classical.not_imp] at hd
    refine M.post_panic_of_eq ?_ ⟨rfl, hd⟩
    unfold tensorSetMapping
    simp only [M.bind_eq, M.bind, own, Shape.checkedLen_eq,
      show check (dbg = true → (if NoOverflow usizeMax new.dims then some (size new.dims) else none).isSome =
        true) = none from if_neg fun h => by
          have := h hd.1
          rw [if_neg hd.2] at this
          cases this]
    rfl

/-- Values written to the spare capacity follow the elements of the array once `set_mapping` includes
them; no value is dropped. -/
theorem C81_fill (dbg : Bool) (o : Own T) (xs ys : List T) (h : Holds o xs)
    (hy : xs.length + ys.length ≤ tensorCapacity o) (new : Shape) (hw : new.WF)
    (hz : size new.dims = xs.length + ys.length) (hn : NoOverflow usizeMax new.dims) (s : σ) :
    M.Post (M.bind (writeSpare ys) fun _ => tensorSetMapping dbg new) (s, o)
      (fun _ t => t.1 = s ∧ Holds t.2 (xs ++ ys) ∧ t.2.shape = new ∧
        tensorCapacity t.2 = tensorCapacity o ∧ t.2.log = o.log)
      (fun _ => False) := by
  obtain ⟨o', h1, h2, h3, h4⟩ := writeSpare_eq (s := s) h hy
  refine M.Post.bind (M.post_of_eq h1 (Q := fun _ t => t = (s, o')) rfl) ?_
  rintro - t rfl
  refine (C81_set_mapping dbg o' new hw (xs ++ ys) (by rw [hz, List.length_append]) h2 s).mono ?_ ?_
  · rintro - t ⟨a, b, c, d, e⟩
    exact ⟨a, b, c, (congrArg List.length d).trans h3, by rw [e, h4.log, List.append_nil]⟩
  · rintro t ⟨-, -, h⟩
    exact h hn

/-- Until then the array is the same. -/
theorem C81_spare (o : Own T) (xs ys : List T) (h : Holds o xs)
    (hy : xs.length + ys.length ≤ tensorCapacity o) (s : σ) :
    M.Post (writeSpare ys) (s, o) (fun _ t => t.1 = s ∧ Same o t.2 xs) (fun _ => False) := by
  obtain ⟨o', h1, h2, h3, h4⟩ := writeSpare_eq (s := s) h hy
  refine M.post_of_eq h1 ⟨rfl, ⟨by rw [h4.shape]; exact h.1, by rw [h4.shape]; exact h.2.1, ?_⟩, h4.shape,
    by rw [h4.log, List.append_nil], h4.limit⟩
  rw [List.map_append] at h2
  exact (List.prefix_append _ _).trans h2

/-- An array with two spare cells grows by one row; an array is taken apart and given another shape. -/
example :
    let o : Own Nat := ⟨[some 1, some 2, none, none], 2, ⟨.static [.dyn, .const 2], [1, 2]⟩, [], 9⟩
    let new : Shape := ⟨.static [.dyn, .const 2], [2, 2]⟩
    Holds o [1, 2] ∧ new.WF ∧ 2 + 2 ≤ tensorCapacity o ∧ size new.dims = 2 + 2 ∧
      NoOverflow usizeMax new.dims ∧
      M.bind (writeSpare [3, 4]) (fun _ => tensorSetMapping true new) ((), o) =
        .ok () ((), ⟨[some 1, some 2, some 3, some 4], 2, new, [], 9⟩) ∧
      RawValid ⟨o.cells, ⟨.static [.dyn], [2]⟩, 4⟩ [1, 2] := by
  refine ⟨⟨by decide, by decide, by decide⟩, by decide, by decide, by decide, by decide, by rfl, by decide,
    by decide, by decide, by decide, by decide⟩

end Props
