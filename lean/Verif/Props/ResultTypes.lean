import Verif.Props.Types
import Verif.Props.Expr
import Verif.Lemmas.ResultTypes

/-! The documented layouts and shape types of results: C66, C67. -/

namespace Props
open Spec Model

variable {σ α β : Type}

private theorem lane_map {v w : View} {a : Axis} {j : List Nat} (h : laneAt v a j = some w) :
    ∃ p, axisPos a v.dims.length = some p ∧ a.get v.map = some w.map := by
  unfold laneAt at h
  cases hp : axisPos a v.dims.length with
  | none => rw [hp] at h; cases h
  | some p =>
    cases hm : a.get v.map with
    | none => rw [hp, hm] at h; cases h
    | some m =>
      rw [hp, hm] at h
      refine ⟨p, rfl, ?_⟩
      simp only [Option.bind_eq_bind, Option.bind_some] at h
      split at h
      · injection h with h; rw [← h]
      · rw [Option.bind_eq_some_iff] at h
        obtain ⟨b, -, h⟩ := h
        injection h with h; rw [← h]

/-! ### C66 -/

/-- The layout of each result is the documented one, see `firstLayout`, `lastLayout`, `KeepsLayout`,
`permLayout`. -/
theorem C66 (v : View) (h : v.map.WF) :
    (∀ a i v', v.axisAt a i = some v' → v'.layout = firstLayout a v.ty v.layout) ∧
    (∀ i v', v.at' i = some v' → v'.layout = v.layout) ∧
    (∀ a mid v₁ v₂, v.splitAxisAt a mid = some (v₁, v₂) →
      v₁.layout = firstLayout a v.ty v.layout ∧ v₂.layout = firstLayout a v.ty v.layout) ∧
    (∀ mid v₁ v₂, v.splitAt mid = some (v₁, v₂) → v₁.layout = v.layout ∧ v₂.layout = v.layout) ∧
    (∀ a j w, laneAt v a j = some w → w.layout = lastLayout a v.ty v.layout) ∧
    (∀ xs v', v.dims.length = xs.length → v.view xs = some v' →
      (KeepsLayout xs → v'.layout = v.layout) ∧ (¬ KeepsLayout xs → v'.layout = .strided)) ∧
    (∀ checks perm v', perm.WF → perm.ty.WF → v.dims.length < 64 → v.permute checks perm = some v' →
      v'.layout = permLayout perm.ty v.layout) ∧
    (∀ v', v.reorder = some v' → v'.layout = reorderLayout v.ty v.layout) := by
  have hu : ∀ a i v', v.axisAt a i = some v' → v'.layout = a.split v.ty v.layout := by
    intro a i v' hv
    rw [View.axisAt_eq v h] at hv
    simp only [Option.bind_eq_some_iff] at hv
    obtain ⟨p, _, hv⟩ := hv
    split at hv
    · injection hv with hv; subst hv; exact Mapping.mk_layout ..
    · simp at hv
  have hs : ∀ a mid v₁ v₂, v.splitAxisAt a mid = some (v₁, v₂) →
      v₁.layout = a.split v.ty v.layout ∧ v₂.layout = a.split v.ty v.layout := by
    intro a mid v₁ v₂ hv
    rw [View.splitAxisAt_eq v h] at hv
    simp only [Option.bind_eq_some_iff] at hv
    obtain ⟨p, _, hv⟩ := hv
    split at hv
    · simp only [Option.some.injEq, Prod.mk.injEq] at hv
      obtain ⟨rfl, rfl⟩ := hv
      exact ⟨Mapping.mk_layout .., Mapping.mk_layout ..⟩
    · simp at hv
  have hpos : ∀ a p, axisPos a v.dims.length = some p → a.index v.dims.length = some p := fun a p hp => by
    rw [axisIndex_eq]; exact hp
  refine ⟨fun a i v' hv => ?_, fun i v' hv => ?_, fun a mid v₁ v₂ hv => ?_, fun mid v₁ v₂ hv => ?_,
    fun a j w hw => ?_, fun xs v' hx hv => ?_, fun checks perm v' hp hp6 hr hv => ?_, fun v' hv => ?_⟩
  · obtain ⟨p, hp, -⟩ := View.axisAt_parts h hv
    rw [hu a i v' hv, Axis.split_spec _ h.1 (hpos a p hp)]
  · obtain ⟨p, hp, -⟩ := View.axisAt_parts h hv
    rw [hu _ i v' hv, Axis.split_spec _ h.1 (hpos _ p hp)]
    rfl
  · obtain ⟨p, hp, -⟩ := View.splitAxisAt_parts h hv
    rw [← Axis.split_spec _ h.1 (hpos a p hp)]
    exact hs a mid v₁ v₂ hv
  · obtain ⟨p, hp, -⟩ := View.splitAxisAt_parts h hv
    have := hs _ mid v₁ v₂ hv
    rw [Axis.split_spec _ h.1 (hpos _ p hp)] at this
    exact this
  · obtain ⟨p, hp, hm⟩ := lane_map hw
    rw [← Axis.keep_spec _ h.1 (hpos a p hp)]
    rw [Axis.get_eq a _ h, Option.bind_eq_some_iff] at hm
    obtain ⟨q, _, hm⟩ := hm
    injection hm with hm
    show w.map.layout = _
    rw [← hm]; exact Mapping.mk_layout ..
  · rw [view_layout h hx hv]
    exact ViewIdx.layout_spec v.layout xs
  · rw [permute_layout h hr hv]
    have hp' := (View.permute_isSome v h hp hr).1 (Option.isSome_iff_exists.2 ⟨v', hv⟩)
    exact Perm.layout_spec v.layout hp hp6 (by
      rw [show perm.dims.length = v.dims.length from by simpa using hp'.length_eq]; exact hp')
  · rw [reorder_layout h hv, ShapeTy.layout_eq]
    cases v.ty with
    | dynRank => rfl
    | static ds =>
      unfold reorderLayout ShapeTy.tail
      have : ShapeTy.static ds.tail = .static [] ↔ ds.length ≤ 1 := by
        cases ds with
        | nil => simp
        | cons d ds => simp
      simp only [this]

/-- All operations on a dense array with three dimensions, with both results where there are two. -/
example : let v : View := ⟨0, .dense ⟨.static [.dyn, .const 3, .dyn], [2, 3, 4]⟩⟩
    v.map.WF ∧ (v.axisAt (.const 0) 1).map View.layout = some .dense ∧
    (v.axisAt (.dyn 0) 1).map View.layout = some .strided ∧
    (v.at' 1).map View.layout = some .dense ∧
    (v.splitAxisAt (.const 0) 1).map (fun p => p.2.layout) = some .dense ∧
    (v.splitAxisAt .cols 1).map (fun p => p.2.layout) = some .strided ∧
    (laneAt v .rows [1, 2]).map View.layout = some .dense ∧
    (laneAt v .cols [1, 2]).map View.layout = some .strided ∧
    (v.permute false ⟨.static [.const 0, .const 1, .const 2], [0, 1, 2]⟩).map View.layout = some .dense ∧
    (v.permute false ⟨.static [.dyn, .dyn, .dyn], [0, 1, 2]⟩).map View.layout = some .strided := by
  decide

example : KeepsLayout [.int 1, .range (.included 1) .unbounded, .full] :=
  ⟨[.int 1], [.range (.included 1) .unbounded], [.full], rfl, by simp, by simp, by simp, by simp⟩

/-! ### C67 -/

/-- The shape type of each result is the documented one: constant sizes are kept where possible. -/
theorem C67 (v : View) (h : v.map.WF) (h6 : v.ty.WF) (hu : ∀ d ∈ v.dims, d ≤ usizeMax) :
    (∀ a i v', v.axisAt a i = some v' → v'.ty = withoutDim a v.ty) ∧
    (∀ a mid v₁ v₂, v.splitAxisAt a mid = some (v₁, v₂) →
      v₁.ty = resizedDim a v.ty ∧ v₂.ty = resizedDim a v.ty) ∧
    (∀ a j w, laneAt v a j = some w → w.ty = .static [dimAlong a v.ty]) ∧
    (∀ ds xs v', v.ty = .static ds → v.dims.length = xs.length → v.view xs = some v' →
      v'.ty = .static (viewDimTys xs ds)) ∧
    (∀ checks perm v', perm.ty.WF → v.dims.length < 64 → v.permute checks perm = some v' →
      v'.ty = permutedTy perm.ty v.ty) ∧
    (∀ ds v', v.ty = .static ds → v.reorder = some v' → v'.ty = .static ds.reverse) := by
  have hpos : ∀ a p, axisPos a v.dims.length = some p → a.index v.dims.length = some p := fun a p hp => by
    rw [axisIndex_eq]; exact hp
  obtain ⟨-, -, -, -, k1, k2, k3⟩ := C18 v h hu
  refine ⟨fun a i v' hv => ?_, fun a mid v₁ v₂ hv => ?_, fun a j w hw => ?_, fun ds xs v' hd hx hv => ?_,
    fun checks perm v' hp6 hr hv => ?_, fun ds v' hd hv => ?_⟩
  · obtain ⟨p, hp, -, -, -, -, ht, -⟩ := View.axisAt_parts h hv
    rw [ht, Axis.remove_spec h6 h.1 (hpos a p hp)]
  · obtain ⟨p, hp, -, -, -, -, -, -, ht1, ht2, -⟩ := View.splitAxisAt_parts h hv
    rw [ht1, ht2, Axis.resizeTy_spec h6 h.1 (hpos a p hp)]
    exact ⟨rfl, rfl⟩
  · obtain ⟨p, hp, hm⟩ := lane_map hw
    rw [← Axis.dimTy_spec h.1 (hpos a p hp)]
    rw [Axis.get_eq a _ h, Option.bind_eq_some_iff] at hm
    obtain ⟨q, _, hm⟩ := hm
    injection hm with hm
    show w.map.shape.ty = _
    rw [← hm, Mapping.mk_shape]
  · have hd' : v.map.shape.ty = .static ds := hd
    have := (k1 xs v' hx hv).1
    rw [this, hd]
    have hl : v.dims.length = ds.length := by
      have := h.1
      unfold Shape.WF at this
      rw [hd'] at this
      exact (ShapeTy.conforms_static_length this).symm
    exact ViewIdx.shapeTy_spec xs ds (by omega) (by rw [hd] at h6; exact h6)
  · rw [(k2 checks perm v' hr hv).1]
    exact Perm.shapeTy_spec _ _ hp6
  · rw [(k3 v' hv).1, hd]; rfl

/-- Constant sizes are kept, or not. -/
example : let v : View := ⟨0, .dense ⟨.static [.dyn, .const 3, .dyn], [2, 3, 4]⟩⟩
    v.map.WF ∧ v.ty.WF ∧ (∀ d ∈ v.dims, d ≤ usizeMax) ∧ (v.axisAt (.const 0) 1).map View.ty = some (.static [.const 3, .dyn]) ∧
    (v.axisAt (.dyn 0) 1).map View.ty = some (.static [.dyn, .dyn]) ∧
    (v.splitAxisAt .rows 1).map (fun p => p.2.ty) = some (.static [.dyn, .const 3, .dyn]) ∧
    (v.splitAxisAt .cols 1).map (fun p => p.2.ty) = some (.static [.dyn, .dyn, .dyn]) ∧
    (laneAt v .cols [1, 2]).map View.ty = some (.static [.const 3]) ∧
    (v.view [.int 1, .full, .range (.included 1) .unbounded]).map View.ty = some (.static [.const 3, .dyn]) ∧
    (v.permute false ⟨.static [.const 1, .dyn, .const 2], [1, 0, 2]⟩).map View.ty =
      some (.static [.const 3, .dyn, .dyn]) ∧
    v.reorder.map View.ty = some (.static [.dyn, .const 3, .dyn]) := by
  decide

/-- The shape type of a merged expression: dimensions are aligned at the end, and each of them has a constant
size if it has one in either expression. -/
theorem C67_zip (a : Expr σ α) (b : Expr σ β) (ha : Built a) (hb : Built b) (e : Expr σ (α × β))
    (he : Expr.zipNew a b = some e) :
    (∀ xs ys, a.shape.ty = .static xs → b.shape.ty = .static ys → xs.length ≤ 6 → ys.length ≤ 6 →
      ∃ zs, e.shape.ty = .static zs ∧ zs.length = max xs.length ys.length ∧
        ∀ k : Nat, zs.reverse[k]? = mergedDim xs.reverse[k]? ys.reverse[k]?) ∧
    (a.shape.ty = .dynRank ∨ b.shape.ty = .dynRank → e.shape.ty = .dynRank) := by
  have ht := ((C23 a b ha hb).2 e he).2.2
  constructor
  · intro xs ys hx hy h6 h6'
    obtain ⟨l, h1, h2, h3⟩ := ShapeTy.mergeStatic_spec xs.reverse ys.reverse (by simpa) (by simpa)
    refine ⟨l.reverse, ?_, by simpa using h2, fun k => by rw [List.reverse_reverse]; exact h3 k⟩
    rw [ht, hx, hy]
    show (ShapeTy.mergeStatic xs.reverse (.static ys.reverse)).reverse = _
    rw [h1]; rfl
  · have hm : ∀ xs : List DimTy, ShapeTy.mergeStatic xs .dynRank = .dynRank := by
      intro xs
      induction xs with
      | nil => rfl
      | cons x xs ih => rw [ShapeTy.mergeStatic, ShapeTy.tail, ih]; rfl
    rw [ht]
    rintro (h | h)
    · rw [h]; rfl
    · rw [h]
      cases a.shape.ty with
      | dynRank => rfl
      | static xs => exact congrArg ShapeTy.reverse (hm xs.reverse)

/-- A dynamic dimension merged with a constant one, and broadcasting. -/
example : Expr.zipTy (.static [.dyn, .dyn]) (.static [.const 3]) = .static [.dyn, .const 3] ∧
    Expr.zipTy (.static [.const 2]) (.static [.dyn, .dyn]) = .static [.dyn, .const 2] ∧
    ((Expr.zipNew (.view true ⟨0, .dense ⟨.static [.dyn, .dyn], [2, 3]⟩⟩ : Expr Unit Int)
      (.view true ⟨0, .dense ⟨.static [.const 3], [3]⟩⟩)).map fun e => e.shape.ty) =
      some (.static [.dyn, .const 3]) := by decide

end Props
