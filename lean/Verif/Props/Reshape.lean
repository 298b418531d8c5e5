import Verif.Lemmas.ViewOps

/-! Reshaping and remapping: C12, C13, C14. -/

namespace Props
open Spec Model

/-! ### C12 -/

/-- Reshaping a dense array. `Resolves` is the inference rule for the placeholder `usize::MAX`. The
result keeps every element at its row-major position. -/
theorem C12 (v : View) (h : v.map.WF) (hl : v.layout = .dense) (ns : Shape) (hn : ns.WF) :
    ((v.reshape ns).isSome ↔
      ns.ty.Conforms (ns.dims.map fun d => if d = usizeMax then 1 else d) ∧
      NoOverflow usizeMax (ns.dims.map fun d => if d = usizeMax then 1 else d) ∧
      ∃ dims, Resolves usizeMax (size v.dims) ns.dims dims ∧ ns.ty.Conforms dims) ∧
    ∀ v', v.reshape ns = some v' →
      v'.layout = .dense ∧ v'.ty = ns.ty ∧ Resolves usizeMax (size v.dims) ns.dims v'.dims ∧
      size v'.dims = size v.dims ∧ ∀ k, v'.linIndex k = v.linIndex k := by
  constructor
  · rw [View.reshape_dense_isSome v hl, Shape.reshape_isSome _ _ hn]
  · intro v' hv
    obtain ⟨_, h2, h3, h4, h5, h6⟩ := View.reshape_spec h hn hv
    exact ⟨h5 hl, h2, h3, h4, h6⟩

/-- The inference rule in elementary terms. -/
theorem C12_resolves (hole n : Nat) (req : List Nat) :
    (∃ dims, Resolves hole n req dims) ↔
      (req.count hole = 0 ∧ size req = n) ∨
      (req.count hole = 1 ∧ 0 < size (req.erase hole) ∧ size (req.erase hole) ∣ n) := by
  constructor
  · rintro ⟨dims, hr⟩
    cases hr with
    | exact h1 h2 => left; exact ⟨List.count_eq_zero.2 h1, h2⟩
    | @infer a b m h1 h2 h3 h4 =>
      right
      have e : (a ++ hole :: b).erase hole = a ++ b := by
        rw [List.erase_append_right _ h1]; simp
      rw [e]
      refine ⟨by simp [List.count_eq_zero.2 h1, List.count_eq_zero.2 h2], h3, m, h4.symm⟩
  · rintro (⟨h1, h2⟩ | ⟨h1, h2, h3⟩)
    · exact ⟨req, .exact (List.count_eq_zero.1 h1) h2⟩
    · have hm : hole ∈ req := List.count_pos_iff.1 (by omega)
      obtain ⟨a, b, e, ha⟩ := List.append_of_mem hm |>.elim fun a ⟨b, e⟩ =>
        show ∃ a b, req = a ++ hole :: b ∧ hole ∉ a from by
          subst e
          have : a.count hole = 0 := by simp at h1; omega
          exact ⟨a, b, rfl, List.count_eq_zero.1 this⟩
      subst e
      have hb : hole ∉ b := List.count_eq_zero.1 (by simp at h1; omega)
      have e : (a ++ hole :: b).erase hole = a ++ b := by
        rw [List.erase_append_right _ ha]; simp
      rw [e] at h2 h3
      obtain ⟨m, hm⟩ := h3
      exact ⟨a ++ m :: b, .infer ha hb h2 hm.symm⟩

example : let v : View := ⟨0, .dense ⟨.static [.dyn, .const 6], [4, 6]⟩⟩
    let r ns := (v.reshape ns).map fun v' => (v'.dims, v'.linIndex 7)
    v.map.WF ∧
    r ⟨.static [.dyn, .dyn, .const 3], [2, usizeMax, 3]⟩ = some ([2, 4, 3], some 7) ∧
    r ⟨.dynRank, [usizeMax, usizeMax]⟩ = none ∧ r ⟨.dynRank, [5, usizeMax]⟩ = none ∧
    r ⟨.dynRank, [0, usizeMax]⟩ = none ∧ r ⟨.dynRank, [5, 5]⟩ = none := by decide +kernel

/-! ### C13 -/

/-- Reshaping never changes the row-major sequence of elements, whatever the strides. -/
theorem C13 (v v' : View) (h : v.map.WF) (ns : Shape) (hn : ns.WF) (hv : v.reshape ns = some v') :
    v'.ty = ns.ty ∧ ns.ty.Conforms v'.dims ∧ Resolves usizeMax (size v.dims) ns.dims v'.dims ∧
      size v'.dims = size v.dims ∧ ∀ k, v'.linIndex k = v.linIndex k := by
  obtain ⟨h1, h2, h3, h4, _, h6⟩ := View.reshape_spec h hn hv
  exact ⟨h2, h2 ▸ h1.1, h3, h4, h6⟩

/-- A strided reshape that succeeds, and one that must not. -/
example : let v : View := ⟨9, .strided ⟨.dynRank, [3, 4]⟩ [8, -2]⟩
    v.map.WF ∧
    ((v.reshape ⟨.dynRank, [3, 2, 2]⟩).map fun v' => (v'.linIndex 7, v.linIndex 7)) = some (some 11, some 11) ∧
    v.reshape ⟨.dynRank, [12]⟩ = none := by decide +kernel

/-- Success is not complete: a view whose elements are `0,1,2,3` in order and which holds a unit
dimension with an unusual stride is rejected although the target exists. -/
theorem C13_incomplete :
    ∃ (v : View) (ns : Shape), v.map.WF ∧ ns.WF ∧ size ns.dims = size v.dims ∧
      (∀ k < size v.dims, v.linIndex k = some (k : Int)) ∧ v.reshape ns = none :=
  ⟨⟨0, .strided ⟨.dynRank, [2, 1, 2]⟩ [2, 4, 1]⟩, ⟨.dynRank, [4]⟩, by decide, by decide, by decide,
    by decide, by decide +kernel⟩

/-! ### C14 -/

/-- Whether a reshape of a non-dense view to given dimensions succeeds only depends on the strides. -/
private theorem reshape_strided {v : View} (ns : Shape) (hn : ns.WF) (hh : usizeMax ∉ ns.dims)
    (ho : NoOverflow usizeMax ns.dims) (hs : size ns.dims = size v.dims)
    (hr : v.layout = .strided → ∃ r, Mapping.reshapeStrides v.dims v.map.strides ns.dims = some r) :
    (v.reshape ns).isSome := by
  have e : v.map.shape.reshape ns = some ns := by
    rw [Shape.reshape_none_eq _ _ hn hh, if_pos ⟨ho, hs⟩]
  obtain ⟨ptr, m⟩ := v
  cases m with
  | dense s =>
    show ((Mapping.reshape (.dense s) ns).bind _).isSome
    unfold Mapping.reshape
    rw [show (Mapping.dense s).shape.reshape ns = some ns from e]
    rfl
  | strided s st =>
    obtain ⟨r, hr⟩ := hr rfl
    show ((Mapping.reshape (.strided s st) ns).bind _).isSome
    unfold Mapping.reshape
    rw [show (Mapping.strided s st).shape.reshape ns = some ns from e]
    show ((Mapping.reshapeStrides s.dims st ns.dims).bind _ |>.bind _).isSome
    rw [show Mapping.reshapeStrides s.dims st ns.dims = some r from hr]
    rfl

/-- A reshape is only rejected if the result does not exist: if some view `w` with the requested
dimensions has the elements of `v` in the same order, the reshape of `v` succeeds. This holds for views
without dimensions of size one (see `C13_incomplete`). -/
theorem C13_complete (v w : View) (h : v.map.WF) (hw : w.map.WF) (hu : ∀ d ∈ v.dims, d ≠ 1)
    (ns : Shape) (hn : ns.WF) (hh : usizeMax ∉ ns.dims) (ho : NoOverflow usizeMax ns.dims)
    (hs : size ns.dims = size v.dims) (hd : w.dims = ns.dims)
    (he : ∀ k, k < size v.dims → w.linIndex k = v.linIndex k) : (v.reshape ns).isSome := by
  refine reshape_strided ns hn hh ho hs fun _ => ?_
  refine Mapping.reshapeStrides_complete (nst := w.map.strides) h.2 hs.symm hu ?_ ?_
  · rw [hw.2]; exact congrArg List.length hd
  · have key : ∀ k, k < size v.dims →
        w.ptr + lin ns.dims w.map.strides k = v.ptr + lin v.dims v.map.strides k := by
      intro k hk
      have := he k hk
      rw [View.linIndex_eq _ hw, View.linIndex_eq _ h, hd, if_pos (by rw [hs]; exact hk), if_pos hk] at this
      exact Option.some.inj this
    intro k hk
    rw [hs] at hk
    have h0 := key 0 (by omega)
    rw [lin_zero, lin_zero] at h0
    have := key k hk
    have e1 : w.ptr = v.ptr := by simpa using h0
    rw [e1] at this
    exact add_left_cancel this

/-- Reshaping to the own dimensions always succeeds, whatever the strides are. -/
theorem C13_same (v : View) (h : v.map.WF) (ty : ShapeTy) (hc : ty.Conforms v.dims)
    (hh : usizeMax ∉ v.dims) (ho : NoOverflow usizeMax v.dims) : (v.reshape ⟨ty, v.dims⟩).isSome :=
  reshape_strided ⟨ty, v.dims⟩ hc hh ho rfl fun _ => Mapping.reshapeStrides_same _ _ h.2

example : let v : View := ⟨5, .strided ⟨.dynRank, [2, 6]⟩ [20, 2]⟩
    v.map.WF ∧ v.reshape ⟨.dynRank, [2, 2, 3]⟩ = some ⟨5, .strided ⟨.dynRank, [2, 2, 3]⟩ [20, 6, 2]⟩ ∧
    v.reshape ⟨.dynRank, [2, 6]⟩ = some v ∧ v.reshape ⟨.dynRank, [4, 3]⟩ = none := by decide +kernel

/-- Contiguous views hold their elements at consecutive positions in row-major order. -/
theorem C14 (v : View) (h : v.map.WF) (hc : v.map.isContiguous = true) (k : Nat)
    (hk : k < size v.dims) : v.linIndex k = some (v.ptr + k) := by
  rw [View.linIndex_eq v h, if_pos hk, (Mapping.isContiguous_iff h).1 hc]
  rw [show v.map.dims = v.dims from rfl, lin_dense hk]

/-- Contiguity means that every stride is the product of the later dimensions. -/
theorem C14_strides (v : View) (h : v.map.WF) :
    v.map.isContiguous = true ↔
      ∀ k < v.dims.length, v.map.stride k = some (size (v.dims.drop (k + 1)) : Int) := by
  rw [Mapping.isContiguous_iff h]
  constructor
  · intro e k hk
    rw [Mapping.stride_eq _ h, e, Mapping.getElem?_denseStrides, if_pos (show k < v.map.dims.length from hk)]
  · intro e
    apply List.ext_getElem?
    intro k
    by_cases hk : k < v.dims.length
    · rw [← Mapping.stride_eq _ h, e k hk, Mapping.getElem?_denseStrides,
        if_pos (show k < v.map.dims.length from hk)]
    · rw [List.getElem?_eq_none (by rw [h.len]; exact Nat.le_of_not_lt hk),
        List.getElem?_eq_none (by rw [length_denseStrides]; exact Nat.le_of_not_lt hk)]

/-- Remapping fails exactly for non-contiguous views (dense target) or static shape mismatch, and
never changes which element an index addresses. -/
theorem C14_remap (v : View) (h : v.map.WF) (ty : ShapeTy) (L : Layout) :
    ((v.remap ty L).isSome ↔ ty.Conforms v.dims ∧ (L = .dense → v.map.isContiguous = true)) ∧
    ∀ v', v.remap ty L = some v' → v'.dims = v.dims ∧ v'.ty = ty ∧ v'.layout = L ∧
      ∀ j, v'.index j = v.index j := by
  refine ⟨View.remap_isSome v h ty L, fun v' hv => ?_⟩
  obtain ⟨_, h2, h3, h4, h5⟩ := View.remap_parts h hv
  exact ⟨h2, h3, h4, h5⟩

/-- A contiguous view of either layout can be reshaped to every shape a dense one can. -/
theorem C14_reshape (v : View) (h : v.map.WF) (hc : v.map.isContiguous = true) (ns : Shape)
    (hn : ns.WF) (hh : usizeMax ∉ ns.dims) (ho : NoOverflow usizeMax ns.dims)
    (hs : size ns.dims = size v.dims) : (v.reshape ns).isSome := by
  rw [View.reshape_contiguous_isSome v h hc, Shape.reshape_isSome _ _ hn]
  have e : (ns.dims.map fun d => if d = usizeMax then 1 else d) = ns.dims := by
    conv_rhs => rw [← List.map_id ns.dims]
    apply List.map_congr_left
    intro d hd
    rw [if_neg (show ¬ d = usizeMax from fun e => hh (e ▸ hd))]; rfl
  rw [e]
  exact ⟨hn, ho, ns.dims, .exact hh hs, hn⟩

example : let v : View := ⟨5, .strided ⟨.dynRank, [2, 3]⟩ [3, 1]⟩
    let w : View := ⟨5, .strided ⟨.dynRank, [2, 3]⟩ [6, 2]⟩
    v.map.WF ∧ v.map.isContiguous = true ∧ v.linIndex 4 = some 9 ∧ w.map.isContiguous = false ∧
    (v.remap (.static [.const 2, .dyn]) .dense).isSome ∧ (v.remap (.static [.const 3, .dyn]) .dense) = none ∧
    (w.remap .dynRank .dense) = none ∧ (v.reshape ⟨.dynRank, [6]⟩).isSome := by decide +kernel

end Props
