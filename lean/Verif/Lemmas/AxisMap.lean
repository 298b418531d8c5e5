import Verif.Lemmas.ViewOps

/-! The per-axis mappings used by `lanes` and `axis_expr`. -/

namespace Model.Axis
open Spec

theorem denseStrides_last {ds : List Nat} {p : Nat} (h : p + 1 = ds.length) :
    (denseStrides ds)[p]? = some 1 := by
  have hne : ds ≠ [] := by rintro rfl; simp at h
  obtain ⟨l, x, rfl⟩ : ∃ l x, ds = l ++ [x] := ⟨_, _, (List.dropLast_append_getLast hne).symm⟩
  rw [Mapping.denseStrides_append]
  have : p = l.length := by simp at h; omega
  subst this
  rw [List.getElem?_append_right (by simp [length_denseStrides])]
  simp [length_denseStrides, denseStrides, size]

theorem get_eq (a : Axis) (m : Mapping) (h : m.WF) :
    a.get m = (axisPos a m.dims.length).bind fun p =>
      some (Mapping.mk (.static [a.dimTy m.shape.ty]) [m.dims.getD p 0] [m.strides.getD p 0]
        (a.keep m.shape.ty m.layout)) := by
  unfold get
  rw [show m.rank = m.dims.length from rfl, axisIndex_eq]
  cases hp : axisPos a m.dims.length with
  | none => rfl
  | some p =>
    have hp' : a.index m.dims.length = some p := by rw [axisIndex_eq]; exact hp
    have hlt := index_lt hp'
    have hd : m.dim p = some (m.dims[p]) := List.getElem?_eq_getElem hlt
    have hsl : p < m.strides.length := by rw [h.len]; exact hlt
    have hs : m.stride p = some (m.strides[p]) := by
      rw [Mapping.stride_eq _ h, List.getElem?_eq_getElem hsl]
    simp only [hd, hs, Option.bind_eq_bind, Option.bind_some]
    rw [Mapping.prependDim_eq _ (by decide)]
    rw [if_pos]
    · simp [hlt, hsl]; rfl
    · refine ⟨?_, fun hL => ⟨rfl, ?_⟩⟩
      · exact ShapeTy.conforms_cons.2 ⟨dimTy_fits h.1 hp' hlt, by rw [ShapeTy.conforms_nil]⟩
      · obtain ⟨e1, e2⟩ := keep_dense h.1 hp' hL
        have := denseStrides_last e2
        rw [← Mapping.strides_of_dense e1, List.getElem?_eq_getElem hsl] at this
        show m.strides[p] = 1
        simpa using this

theorem removeMap_eq (a : Axis) (m : Mapping) (h : m.WF) :
    a.removeMap m = (axisPos a m.dims.length).bind fun p =>
      some (Mapping.mk (a.remove m.shape.ty) (m.dims.eraseIdx p) (m.strides.eraseIdx p)
        (a.split m.shape.ty m.layout)) := by
  unfold removeMap
  rw [show m.rank = m.dims.length from rfl, axisIndex_eq]
  cases hp : axisPos a m.dims.length with
  | none => rfl
  | some p =>
    have hp' : a.index m.dims.length = some p := by rw [axisIndex_eq]; exact hp
    have hlt := index_lt hp'
    simp only [Option.bind_eq_bind, Option.bind_some]
    rw [Mapping.removeDim_eq _ h, if_pos]
    exact ⟨hlt, remove_conforms h.1 hp', fun hL => split_dense h.1 hp' hL⟩

end Model.Axis
