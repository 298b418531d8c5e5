import Verif.Lemmas.FormatName
import Verif.Props.Slice
import Verif.Props.Equality

/-!
# C90: texts given by `Debug`
-/

namespace Props
open Model Spec

/-- What is formatted, if formatting does not panic (see C59). -/
private theorem sliceText_some {alt : Bool} {f : Int → Text} {v : View} (hv : v.map.WF) {t : Text} (h : sliceText alt f v = some t) :
    ∃ a, t = arrText alt a ∧ HasDims v.dims a ∧ ∀ j, Valid v.dims j → nestedGet a j = some (elemText f v j) := by
  by_cases hf : RowsFit v.dims
  · obtain ⟨a, h1, h2, h3⟩ := C59_tree_partial v hv hf f ()
    rw [sliceText, h1] at h
    refine ⟨a, (Option.some.inj h).symm, h2, fun j hj => ?_⟩
    obtain ⟨p, hp, hg⟩ := h3 j hj
    rw [hg, elemText, hp]
  · rw [sliceText, (C59_exact _ v hv).2 hf] at h
    cases h

/-- The text of an array, if formatting does not panic: with `{:?}`, nested lists in one line; with `{:#?}`, for elements
that have no line breaks, one line for each bracket and each element, indented by the depth. -/
theorem C90_text (f : Int → Text) (v : View) (hv : v.map.WF) (t : Text) :
    (sliceText false f v = some t → t = nestedText v.dims (elemText f v)) ∧
    ((∀ p, '\n' ∉ f p) → sliceText true f v = some t → t = prettyText 0 v.dims (elemText f v)) := by
  refine ⟨fun h => ?_, fun hf h => ?_⟩
  · obtain ⟨a, rfl, h1, h2⟩ := sliceText_some hv h
    exact nestedText_eq h1 h2
  · obtain ⟨a, rfl, h1, h2⟩ := sliceText_some hv h
    rw [← prettyText_eq 0 h1 fun j hj => ⟨h2 j hj, ?_⟩]
    · have := shift_shift 0 0 (arrText true a)
      exact (shift_inj 0 this).symm
    · rw [elemText]
      split
      · exact hf _
      · simp

/-- The text of an array determines the array, in both formats: two arrays of the same rank, whatever their layouts, types
and origins, have the same text iff they have the same dimensions, up to the first dimension that is zero, and at each index
elements with the same text. The texts of elements must have matching brackets and no commas outside of them. -/
theorem C90_array (alt : Bool) (f g : Int → Text) (v w : View) (hv : v.map.WF) (hw : w.map.WF)
    (hf : ∀ p, Closed (f p)) (hg : ∀ p, Closed (g p)) (hr : v.dims.length = w.dims.length) (t u : Text)
    (ht : sliceText alt f v = some t) (hu : sliceText alt g w = some u) :
    t = u ↔ shownDims v.dims = shownDims w.dims ∧ ∀ j, Valid v.dims j → (v.index j).map f = (w.index j).map g := by
  obtain ⟨a, rfl, ha, hga⟩ := sliceText_some hv ht
  obtain ⟨b, rfl, hb, hgb⟩ := sliceText_some hw hu
  have closed : ∀ {f : Int → Text} {v : View} {a : Arr Text}, (∀ p, Closed (f p)) →
      (∀ j, nestedGet a j = (v.index j).map f) → ClosedElems a := by
    intro f v a hf h j t ht
    rw [h j] at ht
    obtain ⟨p, -, rfl⟩ := Option.map_eq_some_iff.1 ht
    exact hf p
  have ha' := nestedGet_index hv ha hga
  have hb' := nestedGet_index hw hb hgb
  have he : arrText alt a = arrText alt b ↔ a = b :=
    ⟨arrText_inj hr ha hb (closed hf ha') (closed hg hb'), fun h => h ▸ rfl⟩
  rw [he, arr_ext hr ha hb]
  simp only [ha', hb']

/-- The text of a mapping determines the mapping with its type, in both formats. -/
theorem C90_mapping (alt : Bool) (m m' : Mapping) (hm : m.shape.WF) (hm' : m'.shape.WF) :
    mappingText alt m = mappingText alt m' ↔ m = m' :=
  ⟨mappingText_inj hm hm', fun h => h ▸ rfl⟩

/-- The text of an expression determines all that it shows, in both formats, for expressions made of the same adapters. -/
theorem C90_expr (alt : Bool) (e e' : Shown) (hs : SameForm e e') (h : ShownFine e) (h' : ShownFine e') :
    (exprText alt e = exprText alt e' ↔ e = e') ∧ Closed (exprText alt e) :=
  ⟨⟨exprText_inj hs h h', fun h => h ▸ rfl⟩, closed_expr alt e h⟩

/-- The text also determines the adapters that the expression is made of, if its arrays have at least one dimension. -/
theorem C90_adapters (alt : Bool) (e e' : Shown) (h : ShownFine e) (h' : ShownFine e') (hl : ListsInside e)
    (hl' : ListsInside e') : exprText alt e = exprText alt e' ↔ e = e' :=
  ⟨fun he => exprText_inj (sameForm hl hl' h h' he) h h' he, fun h => h ▸ rfl⟩

/-- Arrays with at least one dimension show as lists. -/
theorem C90_lists (alt : Bool) (f : Int → Text) (v : View) (hv : v.map.WF) (hr : v.dims ≠ []) (t : Text)
    (h : sliceText alt f v = some t) : ListsInside (.array t) := by
  obtain ⟨a, rfl, ha, -⟩ := sliceText_some hv h
  cases hd : v.dims with
  | nil => exact absurd hd hr
  | cons d ds =>
    rw [hd] at ha
    cases a with
    | elem t => simp [HasDims] at ha
    | arr xs => simp [ListsInside, arrText, debugList]

/-- A dense tensor of dimensions 2 and 3 and the transposed view of one of dimensions 3 and 2. -/
example : let f : Int → Text := intText
    let v : View := ⟨0, .dense ⟨.static [.dyn, .dyn], [2, 3]⟩⟩
    let w : View := ⟨0, .strided ⟨.dynRank, [2, 3]⟩ [1, 2]⟩
    v.map.WF ∧ w.map.WF ∧ v.dims.length = w.dims.length ∧
    (sliceText false f v).map String.ofList = some "[[0, 1, 2], [3, 4, 5]]" ∧
    (sliceText false f w).map String.ofList = some "[[0, 2, 4], [1, 3, 5]]" ∧
    (sliceText true f w).map String.ofList =
      some "[\n    [\n        0,\n        2,\n        4,\n    ],\n    [\n        1,\n        3,\n        5,\n    ],\n]" := by
  decide +kernel

/-- Elements need not be numbers. -/
example : Closed "Some((1, -2))".toList ∧ Closed "P { x: 1, y: [2, 3] }".toList ∧ ¬ Closed "\"a, b\"".toList := by
  decide +kernel

/-- Without matching brackets in the texts of elements, different arrays can have the same text. -/
example : nestedText [1] (fun _ => "1, 1".toList) = nestedText [2] (fun _ => "1".toList) := by decide +kernel

/-- The arrays without elements show different dimensions. -/
example : shownDims [0, 3] = shownDims [0, 5] ∧ shownDims [3, 0] ≠ shownDims [5, 0] := by decide

/-- Mappings and expressions. -/
example : let m : Mapping := .strided ⟨.static [.const 1, .dyn], [1, 2]⟩ [-4, 15]
    let e : Shown := .zip (.map (.axis true false 1 (arrText false (.arr [.elem ['7'], .elem ['8']])))) (.fill ['2'])
    m.shape.WF ∧ String.ofList (mappingText false m) = "StridedMapping { shape: (Const(1), 2), strides: [-4, 15] }" ∧
    String.ofList (exprText false e) = "Zip { a: Map { expr: Lanes(1, [7, 8]) }, b: Fill(2) }" ∧
    SameForm e (.zip (.map (.axis true false 0 [])) (.fill ['2'])) ∧ ShownFine e := by
  refine ⟨by decide, by decide +kernel, by decide +kernel, ?_, ?_⟩
  · simp [SameForm]
  · simp only [ShownFine]
    decide +kernel

/-- Without dimensions, an array can look like another expression; different adapters have different names. -/
example : exprText false (.array "Fill(2)".toList) = exprText false (.fill ['2']) ∧
    ¬ ListsInside (.array "Fill(2)".toList) ∧
    let e : Shown := .zip (.copied (.array "[1, 2]".toList)) (.iter (.array "[]".toList))
    ShownFine e ∧ ListsInside e := by
  simp only [ShownFine, ListsInside]
  decide +kernel

end Props
