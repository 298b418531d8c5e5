import Verif.Lemmas.Post
import Verif.Lemmas.ViewOps
import Verif.Model.UserPerm

/-!
Permutations of types defined outside of the crate.
-/

namespace Model
open Spec

variable {σ : Type}

/-- Permuting with any types for the result. -/
theorem View.permuted_parts {v : View} (h : v.map.WF) {checks : Bool} {ds : List Nat} {ty : ShapeTy} {L : Layout}
    {m : Mapping} (hr : checks = true ∨ v.dims.length < 64) (hm : v.map.permute checks ds ty L = some m) :
    ds.Perm (List.range v.dims.length) ∧ m.WF ∧ m.dims = (ds.map fun c => v.dims.getD c 0) ∧ m.shape.ty = ty ∧
      m.layout = L ∧ ∀ i, i.length = v.dims.length →
        View.index ⟨v.ptr, m⟩ (ds.map fun c => i.getD c 0) = v.index i := by
  cases L with
  | dense =>
    rw [Mapping.permute_dense_eq _ h] at hm
    split at hm
    swap
    · simp at hm
    rename_i hc
    obtain ⟨h1, h2, h3⟩ := hc
    injection hm with hm
    subst hm
    have hid : ∀ l : List Nat, l.length = v.map.dims.length → (ds.map fun c => l.getD c 0) = l := fun l hl => by
      rw [h1]
      apply List.ext_getElem <;> simp [hl]
      intro k hk; rw [List.getElem?_eq_getElem (by omega)]; rfl
    have hw : (Mapping.dense ⟨ty, v.map.dims⟩).WF := Mapping.wf_dense.2 h2
    refine ⟨by rw [h1], hw, (hid _ rfl).symm, rfl, rfl, fun i hi => ?_⟩
    rw [hid i hi, index_eq _ hw, index_eq v h]
    rw [show (Mapping.dense ⟨ty, v.map.dims⟩).strides = v.map.strides from
      ((Mapping.isContiguous_iff h).1 h3).symm]
  | strided =>
    have hr' : v.map.dims.length < 64 := by
      rcases hr with rfl | hr
      · exact Mapping.permute_strided_checked hm
      · exact hr
    rw [Mapping.permute_strided_eq _ h _ _ _ hr'] at hm
    split at hm
    swap
    · simp at hm
    rename_i hc
    obtain ⟨h1, h2⟩ := hc
    have hm : Mapping.mk ty (ds.map fun c => v.map.dims.getD c 0) (ds.map fun p => v.map.strides.getD p 0)
      .strided = m := by simpa [Mapping.mk] using hm
    subst hm
    have hl : (ds.map fun p => v.map.strides.getD p 0).length = (ds.map fun c => v.map.dims.getD c 0).length := by
      simp
    refine ⟨h1, Mapping.mk_wf (L := .strided) h2 hl, rfl, rfl, rfl, fun i hi => ?_⟩
    rw [index_mk h2 hl (by simp), index_eq v h]
    simp only [valid_perm hi h1]
    rw [dot_perm (by rw [hi, h.len]) (by rw [h.len]; exact h1)]

/-- When permuting succeeds, with any types for the result. -/
theorem View.permuted_isSome {v : View} (h : v.map.WF) {checks : Bool} {ds : List Nat} {ty : ShapeTy} {L : Layout}
    (hr : v.dims.length < 64) (hp : ds.Perm (List.range v.dims.length))
    (hc : ty.Conforms (ds.map fun c => v.dims.getD c 0))
    (hd : L = .dense → ds = List.range v.dims.length ∧ v.map.isContiguous = true) :
    (v.map.permute checks ds ty L).isSome := by
  cases L with
  | dense =>
    obtain ⟨h1, h2⟩ := hd rfl
    rw [Mapping.permute_dense_eq _ h, if_pos]
    · rfl
    · refine ⟨h1, ?_, h2⟩
      have : (ds.map fun i => v.dims.getD i 0) = v.dims := by
        rw [h1]
        apply List.ext_getElem <;> simp
        intro k hk; rw [List.getElem?_eq_getElem (by omega)]; rfl
      rw [this] at hc; exact hc
  | strided => rw [Mapping.permute_strided_eq _ h _ _ _ hr, if_pos ⟨hp, hc⟩]; rfl

end Model
