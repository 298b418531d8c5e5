import Verif.Lemmas.AxisMap

/-! Layouts and shapes chosen by the type system: C17, C18. -/

namespace Props
open Spec Model

theorem view_layout {v v' : View} {xs : List DimIdx} (h : v.map.WF) (hx : v.dims.length = xs.length)
    (hv : v.view xs = some v') : v'.layout = ViewIdx.layout v.layout xs := by
  have hs : v.map.strides.length = xs.length := by rw [h.len]; exact hx
  obtain ⟨e, -⟩ := ViewIdx.viewIndex_eq v.map h xs v.ty [] v.dims [] v.map.strides rfl rfl hx hs h.1
  unfold View.view at hv
  rw [e] at hv
  cases ha : ViewIdx.apAll xs v.dims v.map.strides with
  | none => rw [ha] at hv; simp at hv
  | some r =>
    rw [ha] at hv
    simp only [Option.map_some, Option.bind_eq_bind, Option.bind_some] at hv
    injection hv with hv
    subst hv
    exact Mapping.mk_layout ..

theorem permute_layout {v v' : View} (h : v.map.WF) {checks : Bool} {perm : Shape}
    (hr : v.dims.length < 64) (hv : v.permute checks perm = some v') :
    v'.layout = Perm.layout perm.ty v.layout := by
  unfold View.permute at hv
  simp only [Option.bind_eq_bind, Option.bind_eq_some_iff] at hv
  obtain ⟨m, hm, e⟩ := hv
  injection e with e
  subst e
  show m.layout = _
  cases hL : Perm.layout perm.ty v.layout with
  | dense =>
    rw [hL, Mapping.permute_dense_eq _ h] at hm
    split at hm
    · injection hm with hm; rw [← hm]; rfl
    · simp at hm
  | strided =>
    rw [hL, Mapping.permute_strided_eq _ h _ _ _ hr] at hm
    split at hm
    · injection hm with hm; rw [← hm]; rfl
    · simp at hm

theorem reorder_layout {v v' : View} (h : v.map.WF) (hv : v.reorder = some v') :
    v'.layout = v.ty.tail.layout v.layout := by
  unfold View.reorder at hv
  simp only [Option.bind_eq_bind, Option.bind_eq_some_iff] at hv
  obtain ⟨m, hm, e⟩ := hv
  injection e with e
  subst e
  rw [Mapping.reorder_eq _ h] at hm
  split at hm
  · injection hm with hm; rw [← hm]; exact Mapping.mk_layout ..
  · simp at hm

/-! ### C17 -/

/-- Each operation produces the layout promised by the type system, and succeeds under its
documented conditions alone: when the promised layout is dense, the run-time checks of the dense
mapping never fail. -/
theorem C17 (v : View) (h : v.map.WF) (hu : ∀ d ∈ v.dims, d ≤ usizeMax) :
    -- axis_at
    (∀ a i, ((v.axisAt a i).isSome ↔ ∃ p, axisPos a v.dims.length = some p ∧ i < v.dims.getD p 0) ∧
      ∀ v', v.axisAt a i = some v' → v'.layout = a.split v.ty v.layout) ∧
    -- split_axis_at
    (∀ a mid, ((v.splitAxisAt a mid).isSome ↔
        ∃ p, axisPos a v.dims.length = some p ∧ mid ≤ v.dims.getD p 0) ∧
      ∀ v₁ v₂, v.splitAxisAt a mid = some (v₁, v₂) →
        v₁.layout = a.split v.ty v.layout ∧ v₂.layout = a.split v.ty v.layout) ∧
    -- the item mapping of axis_expr and the outer mapping of lanes
    (∀ a : Axis, ((a.removeMap v.map).isSome ↔ (axisPos a v.dims.length).isSome) ∧
      ∀ m, a.removeMap v.map = some m → m.layout = a.split v.ty v.layout) ∧
    -- the outer mapping of axis_expr and the item mapping of lanes
    (∀ a : Axis, ((a.get v.map).isSome ↔ (axisPos a v.dims.length).isSome) ∧
      ∀ m, a.get v.map = some m → m.layout = a.keep v.ty v.layout) ∧
    -- view
    (∀ xs, v.dims.length = xs.length →
      ((v.view xs).isSome ↔ (selectAll xs v.dims).isSome) ∧
      ∀ v', v.view xs = some v' → v'.layout = ViewIdx.layout v.layout xs) ∧
    -- permute
    (∀ perm : Shape, perm.WF → v.dims.length < 64 →
      ∀ checks, ((v.permute checks perm).isSome ↔ perm.dims.Perm (List.range v.dims.length)) ∧
      ∀ v', v.permute checks perm = some v' → v'.layout = Perm.layout perm.ty v.layout) ∧
    -- reorder
    (v.reorder.isSome ∧ ∀ v', v.reorder = some v' → v'.layout = v.ty.tail.layout v.layout) := by
  refine ⟨fun a i => ⟨View.axisAt_isSome v h a i, fun v' hv => ?_⟩,
    fun a mid => ⟨View.splitAxisAt_isSome v h a mid, fun v₁ v₂ hv => ?_⟩,
    fun a => ⟨?_, fun m hm => ?_⟩, fun a => ⟨?_, fun m hm => ?_⟩,
    fun xs hx => ⟨(View.view_spec v h xs hx hu).1, fun v' hv => view_layout h hx hv⟩,
    fun perm hp hr checks => ⟨View.permute_isSome v h hp hr, fun v' hv => permute_layout h hr hv⟩,
    View.reorder_isSome v h, fun v' hv => reorder_layout h hv⟩
  · rw [View.axisAt_eq v h] at hv
    simp only [Option.bind_eq_some_iff] at hv
    obtain ⟨p, _, hv⟩ := hv
    split at hv
    · injection hv with hv; subst hv; exact Mapping.mk_layout ..
    · simp at hv
  · rw [View.splitAxisAt_eq v h] at hv
    simp only [Option.bind_eq_some_iff] at hv
    obtain ⟨p, _, hv⟩ := hv
    split at hv
    · simp only [Option.some.injEq, Prod.mk.injEq] at hv
      obtain ⟨rfl, rfl⟩ := hv
      exact ⟨Mapping.mk_layout .., Mapping.mk_layout ..⟩
    · simp at hv
  · rw [Axis.removeMap_eq a _ h]
    cases axisPos a v.map.dims.length <;> simp
  · rw [Axis.removeMap_eq a _ h, Option.bind_eq_some_iff] at hm
    obtain ⟨p, _, hm⟩ := hm
    injection hm with hm; subst hm; exact Mapping.mk_layout ..
  · rw [Axis.get_eq a _ h]
    cases axisPos a v.map.dims.length <;> simp
  · rw [Axis.get_eq a _ h, Option.bind_eq_some_iff] at hm
    obtain ⟨p, _, hm⟩ := hm
    injection hm with hm; subst hm; exact Mapping.mk_layout ..

/-- The promise is not vacuous: dense results occur for each operation. -/
example : let v : View := ⟨0, .dense ⟨.static [.dyn, .const 3, .dyn], [2, 3, 4]⟩⟩
    v.map.WF ∧ (v.axisAt (.const 0) 1).map View.layout = some .dense ∧
    (v.axisAt (.const 1) 1).map View.layout = some .strided ∧
    (Axis.rows.get v.map).map Mapping.layout = some .dense ∧
    ((Axis.const 0).removeMap v.map).map Mapping.layout = some .dense ∧
    (v.view [.int 1, .range (.included 1) .unbounded, .full]).map View.layout = some .dense ∧
    (v.view [.full, .int 1, .full]).map View.layout = some .strided ∧
    (v.permute false ⟨.static [.const 0, .const 1, .const 2], [0, 1, 2]⟩).map View.layout = some .dense ∧
    (v.permute false ⟨.static [.dyn, .dyn, .dyn], [0, 1, 2]⟩).map View.layout = some .strided := by
  decide

/-! ### C18 -/

/-- The shape type of each result agrees with its run-time dimensions: the static rank is right and
every constant-size dimension has that size. -/
theorem C18 (v : View) (h : v.map.WF) (hu : ∀ d ∈ v.dims, d ≤ usizeMax) :
    (∀ a i v', v.axisAt a i = some v' → v'.ty = a.remove v.ty ∧ (a.remove v.ty).Conforms v'.dims) ∧
    (∀ a mid v₁ v₂, v.splitAxisAt a mid = some (v₁, v₂) →
      v₁.ty = a.resizeTy v.ty ∧ v₂.ty = a.resizeTy v.ty ∧
      (a.resizeTy v.ty).Conforms v₁.dims ∧ (a.resizeTy v.ty).Conforms v₂.dims) ∧
    (∀ (a : Axis) m, a.removeMap v.map = some m →
      m.shape.ty = a.remove v.ty ∧ (a.remove v.ty).Conforms m.dims) ∧
    (∀ (a : Axis) m, a.get v.map = some m →
      m.shape.ty = .static [a.dimTy v.ty] ∧ (ShapeTy.static [a.dimTy v.ty]).Conforms m.dims) ∧
    (∀ xs v', v.dims.length = xs.length → v.view xs = some v' →
      v'.ty = ViewIdx.shapeTy xs v.ty ∧ (ViewIdx.shapeTy xs v.ty).Conforms v'.dims) ∧
    (∀ checks perm v', v.dims.length < 64 → v.permute checks perm = some v' →
      v'.ty = Perm.shapeTy perm.ty v.ty ∧ (Perm.shapeTy perm.ty v.ty).Conforms v'.dims) ∧
    (∀ v', v.reorder = some v' → v'.ty = v.ty.reverse ∧ v.ty.reverse.Conforms v'.dims) := by
  have key : ∀ (v' : View) (t : ShapeTy), v'.map.WF → v'.ty = t → t.Conforms v'.dims :=
    fun v' t hw e => e ▸ hw.1
  refine ⟨fun a i v' hv => ?_, fun a mid v₁ v₂ hv => ?_, fun a m hm => ?_, fun a m hm => ?_,
    fun xs v' hx hv => ?_, fun checks perm v' hr hv => ?_, fun v' hv => ?_⟩
  · obtain ⟨p, _, _, _, hw, _, ht, _⟩ := View.axisAt_parts h hv
    exact ⟨ht, key v' _ hw ht⟩
  · obtain ⟨p, _, _, _, hw1, hw2, _, _, ht1, ht2, _⟩ := View.splitAxisAt_parts h hv
    exact ⟨ht1, ht2, key _ _ hw1 ht1, key _ _ hw2 ht2⟩
  · rw [Axis.removeMap_eq a _ h, Option.bind_eq_some_iff] at hm
    obtain ⟨p, hp, hm⟩ := hm
    injection hm with hm; subst hm
    refine ⟨by rw [Mapping.mk_shape], ?_⟩
    rw [Mapping.mk_dims]
    exact Axis.remove_conforms h.1 (by rw [axisIndex_eq]; exact hp)
  · rw [Axis.get_eq a _ h, Option.bind_eq_some_iff] at hm
    obtain ⟨p, hp, hm⟩ := hm
    injection hm with hm; subst hm
    refine ⟨by rw [Mapping.mk_shape], ?_⟩
    rw [Mapping.mk_dims]
    have hp' : a.index v.dims.length = some p := by rw [axisIndex_eq]; exact hp
    have hlt := Axis.index_lt hp'
    refine ShapeTy.conforms_cons.2 ⟨?_, by simp⟩
    have := Axis.dimTy_fits h.1 hp' hlt
    rw [List.getD_eq_getElem?_getD, List.getElem?_eq_getElem hlt]
    exact this
  · obtain ⟨h1, h2⟩ := View.view_spec v h xs hx hu
    obtain ⟨sel, hs⟩ := Option.isSome_iff_exists.1 (h1.1 (by rw [hv]; rfl))
    obtain ⟨hw, _, ht, _⟩ := h2 v' sel hv hs
    exact ⟨ht, key _ _ hw ht⟩
  · obtain ⟨_, hw, _, ht, _⟩ := View.permute_parts h (.inr hr) hv
    exact ⟨ht, key _ _ hw ht⟩
  · obtain ⟨hw, _, ht, _⟩ := View.reorder_parts h hv
    exact ⟨ht, key _ _ hw ht⟩

example : let v : View := ⟨0, .dense ⟨.static [.dyn, .const 3, .const 4], [2, 3, 4]⟩⟩
    v.map.WF ∧ (v.axisAt .rows 1).map View.ty = some (.static [.dyn, .const 3]) ∧
    (v.splitAxisAt (.const 1) 1).map (·.2.ty) = some (.static [.dyn, .dyn, .const 4]) ∧
    (v.view [.int 1, .full, .range .unbounded .unbounded]).map View.ty = some (.static [.const 3, .dyn]) ∧
    (v.permute true ⟨.static [.const 2, .const 0, .const 1], [2, 0, 1]⟩).map View.ty =
      some (.static [.const 4, .dyn, .const 3]) ∧
    v.reorder.map View.ty = some (.static [.const 4, .const 3, .dyn]) := by decide

end Props
