import Verif.Lemmas.Convert
import Verif.Lemmas.Compare
import Verif.Props.Tensor

/-! Conversions between nested arrays and tensors or views (C50). -/

namespace Props
open Model Spec

variable {σ T : Type}

/-- The element that a tensor gives for an index. -/
def tensorAt (o : Own T) (idx : List Nat) : Option T :=
  ((whole o.shape).index idx).bind fun p => if 0 ≤ p then (o.cells[p.toNat]?).join else none

theorem tensorAt_eq {o : Own T} {xs : List T} (h : Holds o xs) (j : List Nat) (hj : Valid o.shape.dims j) :
    tensorAt o j = xs[rowMajor o.shape.dims j]? := by
  obtain ⟨rest, hc⟩ := h.2.2
  have hlt := rowMajor_lt hj
  rw [← h.2.1] at hlt
  unfold tensorAt
  rw [View.index_whole h.1, if_pos hj]
  simp only [Option.bind_some, Int.toNat_natCast, Int.natCast_nonneg, if_true]
  rw [← hc, List.getElem?_append_left (by simpa using hlt), List.getElem?_map,
    List.getElem?_eq_getElem hlt]
  rfl

/-- `Tensor::from` of a nested array: the element at index `(i, j, ..)` is the nested element
`[i][j]..`, nothing is dropped or duplicated. It panics exactly if the number of elements overflows,
and then drops the array. -/
theorem C50_from (ty : ShapeTy) (dims : List Nat) (hc : ty.Conforms dims) (a : Arr T)
    (ha : HasDims dims a) (s : σ) (o : Own T) :
    M.Post (tensorFromArray ty dims a) (s, o)
      (fun _ t => NoOverflow usizeMax dims ∧ t.1 = s ∧ t.2.log = o.log ∧ t.2.shape = ⟨ty, dims⟩ ∧
        (∃ xs, Holds t.2 xs ∧ t.2.cells.length = xs.length) ∧
        ∀ j, Valid dims j → ∃ x, nestedGet a j = some x ∧ tensorAt t.2 j = some x)
      (fun t => ¬ NoOverflow usizeMax dims ∧ t.1 = s ∧ ∃ xs, t.2.log = o.log ++ xs ∧
        xs.length = size dims ∧
        ∀ j, Valid dims j → ∃ x, nestedGet a j = some x ∧ xs[rowMajor dims j]? = some x) := by
  have hget : ∀ j, Valid dims j → ∃ x, nestedGet a j = some x ∧
      (a.flat dims)[rowMajor dims j]? = some x := by
    intro j hj
    have hlt := rowMajor_lt hj
    rw [← length_flat ha] at hlt
    have := getElem?_flat ha hj
    rw [List.getElem?_eq_getElem hlt] at this
    exact ⟨_, this.symm, List.getElem?_eq_getElem hlt⟩
  refine M.Post.bind (P := fun n t => t = (s, o) ∧ n = size dims ∧ NoOverflow usizeMax dims) ?_ ?_
  · refine M.post_onPanic (M.post_lift ?_ ?_)
    · intro n hn
      rw [Shape.checkedLen_eq] at hn
      by_cases h : NoOverflow usizeMax dims
      · rw [if_pos h] at hn
        exact ⟨rfl, by simpa using hn.symm, h⟩
      · rw [if_neg h] at hn; simp at hn
    · intro hn
      rw [Shape.checkedLen_eq] at hn
      have h : ¬ NoOverflow usizeMax dims := fun h => by simp [if_pos h] at hn
      exact ⟨h, rfl, a.flat dims, rfl, length_flat ha, hget⟩
  · rintro n t ⟨rfl, rfl, hno⟩
    rw [if_pos (length_flat ha)]
    have hh : Holds { o with cells := (a.flat dims).map some, len := 0, shape := ⟨ty, dims⟩ }
        (a.flat dims) := ⟨hc, length_flat ha, List.prefix_refl _⟩
    refine ⟨hno, rfl, rfl, rfl, ⟨_, hh, by simp⟩, fun j hj => ?_⟩
    obtain ⟨x, h1, h2⟩ := hget j hj
    exact ⟨x, h1, by rw [← h2]; exact tensorAt_eq hh j hj⟩

/-- Conversion back: succeeds exactly if the dimensions are those of the array type. Then each nested
element is the element of the tensor at that index, all elements have moved and nothing is dropped.
Otherwise the tensor is given back as it was. -/
theorem C50_back (dims : List Nat) (s : σ) (o : Own T) (xs : List T) (h : Holds o xs) :
    (o.shape.dims = dims → ∃ a t, tensorTryArray dims (s, o) = .ok (some a) (s, t) ∧ HasDims dims a ∧
      (∀ j, Valid dims j → ∃ x, nestedGet a j = some x ∧ tensorAt o j = some x) ∧
      t.log = o.log ∧ ∀ p : Nat, p < xs.length → t.cells[p]? = some none) ∧
    (o.shape.dims ≠ dims → tensorTryArray dims (s, o) = .ok none (s, o)) := by
  constructor
  · rintro rfl
    obtain ⟨a, h1, h2, h3⟩ := unflat_exists o.shape.dims xs h.2.1
    obtain ⟨rest, hc⟩ := h.2.2
    have ht := takeItems_eq s 0 rest xs 0 o [] (by rw [← hc]; rfl) rfl
    refine ⟨a, { o with cells := List.replicate xs.length none ++ rest }, ?_, h2, ?_, ?_, ?_⟩
    · rw [h.2.1] at ht
      simp only [tensorTryArray, own, M.bind, if_true, foldl_size, ht, h1, M.pure, List.nil_append, h.2.1]
    · intro j hj
      have hlt := rowMajor_lt hj
      rw [← h.2.1] at hlt
      have e := getElem?_flat h2 hj
      rw [h3, List.getElem?_eq_getElem hlt] at e
      exact ⟨_, e.symm, by rw [tensorAt_eq h j hj]; exact List.getElem?_eq_getElem hlt⟩
    · rfl
    · intro p hp
      show (List.replicate xs.length none ++ rest)[p]? = _
      rw [List.getElem?_append_left (by simpa using hp)]
      simp [hp]
  · intro hne
    simp only [tensorTryArray, own, M.bind, if_neg hne, M.pure]

/-- Round trip: a nested array converted to a tensor and back is the same nested array. -/
theorem C50_roundtrip (ty : ShapeTy) (dims : List Nat) (a : Arr T) (ha : HasDims dims a) (s : σ)
    (o : Own T) (hno : NoOverflow usizeMax dims) :
    ∃ t, M.bind (tensorFromArray ty dims a) (fun _ => tensorTryArray dims) (s, o) =
      .ok (some a) (s, t) ∧ t.log = o.log := by
  have h1 : tensorFromArray ty dims a (s, o) = .ok () (s, { o with
      cells := (a.flat dims).map some, len := 0, shape := ⟨ty, dims⟩ }) := by
    unfold tensorFromArray
    rw [Shape.checkedLen_eq]
    simp only [if_pos hno, M.bind, M.onPanic, M.lift, M.pure, length_flat ha, if_true, upd]
  have ht := takeItems_eq s 0 [] (a.flat dims) 0
    ({ o with cells := (a.flat dims).map some, len := 0, shape := ⟨ty, dims⟩ }) [] (by simp) rfl
  refine ⟨{ o with
    cells := List.replicate (a.flat dims).length none ++ [], len := 0, shape := ⟨ty, dims⟩ }, ?_, ?_⟩
  · rw [length_flat ha] at ht ⊢
    simp only [M.bind, h1, tensorTryArray, own, if_true, foldl_size, ht, unflat_flat ha, M.pure,
      List.nil_append]
  · rfl

/-- A view of a nested array: index `(i, j, ..)` addresses the nested element `[i][j]..`, and only the
indices of the array are accepted. -/
theorem C50_view (ty : ShapeTy) (dims : List Nat) (hc : ty.Conforms dims) (a : Arr T)
    (ha : HasDims dims a) :
    ((viewFromArray ty dims).isSome ↔ NoOverflow usizeMax dims) ∧
    ∀ v, viewFromArray ty dims = some v → v.dims = dims ∧ v.map.isDense = true ∧
      ∀ j, (¬ Valid dims j → v.index j = none) ∧
        (Valid dims j → ∃ (p : Nat) (x : T), v.index j = some (p : Int) ∧ nestedGet a j = some x ∧
          (a.flat dims)[p]? = some x) := by
  unfold viewFromArray
  rw [Shape.checkedLen_eq]
  constructor
  · by_cases h : NoOverflow usizeMax dims <;> simp [h]
  · intro v hv
    by_cases h : NoOverflow usizeMax dims
    · rw [if_pos h] at hv
      obtain rfl : whole ⟨ty, dims⟩ = v := by simpa [whole] using hv
      have hc : (⟨ty, dims⟩ : Shape).WF := hc
      refine ⟨rfl, rfl, fun j => ⟨fun hj => ?_, fun hj => ?_⟩⟩
      · rw [View.index_whole hc, if_neg hj]
      · have hlt := rowMajor_lt hj
        rw [← length_flat ha] at hlt
        have e := getElem?_flat ha hj
        rw [List.getElem?_eq_getElem hlt] at e
        exact ⟨rowMajor dims j, _, by rw [View.index_whole hc, if_pos hj], e.symm,
          List.getElem?_eq_getElem hlt⟩
    · rw [if_neg h] at hv; simp at hv

/-- Reading a dense view into the memory `m` as a nested array: succeeds exactly if the dimensions are
those of the array type, and then gives the elements of the view at the same indices. -/
theorem C50_view_back (dims : List Nat) (v : View) (h : v.map.WF) (hl : v.map.isDense = true) (p : Nat)
    (hp : v.ptr = p) (m : List T) (hm : p + size v.dims ≤ m.length) :
    (v.dims = dims → ∃ a, viewTryArray dims v m = some a ∧ HasDims dims a ∧
      ∀ j, Valid dims j → ∃ (q : Nat) (x : T), v.index j = some (q : Int) ∧ m[q]? = some x ∧
        nestedGet a j = some x) ∧
    (v.dims ≠ dims → viewTryArray dims v m = none) := by
  unfold viewTryArray
  constructor
  · rintro rfl
    have hlen : ((m.drop p).take (size v.dims)).length = size v.dims := by
      simp only [List.length_take, List.length_drop]; omega
    obtain ⟨a, h1, h2, h3⟩ := unflat_exists v.dims _ hlen
    refine ⟨a, by rw [if_pos rfl, hp, foldl_size]; exact h1, h2, fun j hj => ?_⟩
    have hlt := rowMajor_lt hj
    have e := getElem?_flat h2 hj
    rw [h3, List.getElem?_take, if_pos hlt, List.getElem?_drop,
      List.getElem?_eq_getElem (by omega)] at e
    refine ⟨p + rowMajor v.dims j, _, ?_, List.getElem?_eq_getElem (by omega), e.symm⟩
    rw [index_dense h hl hj, hp]
    simp
  · intro hne
    rw [if_neg hne]

/-- `[[1, 2, 3], [4, 5, 6]]`. -/
def nested23 : Arr Nat := .arr [.arr [.elem 1, .elem 2, .elem 3], .arr [.elem 4, .elem 5, .elem 6]]

example : HasDims [2, 3] nested23 ∧ nestedGet nested23 [1, 0] = some 4 ∧ NoOverflow usizeMax [2, 3] ∧
    tensorFromArray (.static [.dyn, .const 3]) [2, 3] nested23 ((), noTensor) =
      .ok () ((), ⟨[1, 2, 3, 4, 5, 6].map some, 0, ⟨.static [.dyn, .const 3], [2, 3]⟩, [], 100⟩) := by
  refine ⟨by simp [HasDims, nested23], by simp [nested23, nestedGet], by decide, ?_⟩
  simp [tensorFromArray, nested23, Arr.flat, M.bind, M.onPanic, M.lift, upd, noTensor]
  decide

end Props
