import Verif.Lemmas.ViewIndex
import Verif.Lemmas.Reshape
import Verif.Lemmas.ShapeReshape
import Verif.Lemmas.Types
import Mathlib.Data.List.InsertIdx

/-! Closed forms of the view operations. -/

namespace Spec

theorem valid_insertIdx {ds j : List Nat} {p i : Nat} (hp : p < ds.length) :
    Valid ds (j.insertIdx p i) ↔ i < ds[p] ∧ Valid (ds.eraseIdx p) j := by
  induction p generalizing ds j with
  | zero =>
    cases ds with
    | nil => simp at hp
    | cons d ds => simp
  | succ p ih =>
    cases ds with
    | nil => simp at hp
    | cons d ds =>
      cases j with
      | nil => simp
      | cons a j =>
        simp at hp
        simp only [List.insertIdx_succ_cons, valid_cons, ih hp, List.eraseIdx_cons_succ,
          List.getElem_cons_succ]
        tauto

theorem dot_insertIdx {ss : List Int} {j : List Nat} {p i : Nat} (hp : p < ss.length)
    (hj : p ≤ j.length) : dot ss (j.insertIdx p i) = ss[p] * (i : Int) + dot (ss.eraseIdx p) j := by
  induction p generalizing ss j with
  | zero =>
    cases ss with
    | nil => simp at hp
    | cons d ds => simp
  | succ p ih =>
    cases ss with
    | nil => simp at hp
    | cons s ss =>
      cases j with
      | nil => simp at hj
      | cons a j =>
        simp at hp hj
        simp only [List.insertIdx_succ_cons, dot_cons, List.eraseIdx_cons_succ,
          List.getElem_cons_succ]
        rw [ih hp hj]; ring

theorem valid_set_le {ds j : List Nat} {p n : Nat} (hp : p < ds.length) (hn : n ≤ ds[p]) :
    Valid (ds.set p n) j ↔ Valid ds j ∧ j.getD p 0 < n := by
  induction p generalizing ds j with
  | zero =>
    cases ds with
    | nil => simp at hp
    | cons d ds =>
      cases j with
      | nil => simp
      | cons a j =>
        simp at hn
        simp
        constructor
        · rintro ⟨h1, h2⟩; exact ⟨⟨by omega, h2⟩, h1⟩
        · rintro ⟨⟨_, h2⟩, h1⟩; exact ⟨h1, h2⟩
  | succ p ih =>
    cases ds with
    | nil => simp at hp
    | cons d ds =>
      cases j with
      | nil => simp
      | cons a j =>
        simp at hp hn
        simp only [List.set_cons_succ, valid_cons, ih hp hn, List.getD_cons_succ]
        tauto

theorem valid_modify {ds j : List Nat} {p n : Nat} (hp : p < ds.length) (hn : n ≤ ds[p]) :
    Valid ds (j.modify p (· + n)) ↔ Valid (ds.set p (ds[p] - n)) j := by
  induction p generalizing ds j with
  | zero =>
    cases ds with
    | nil => simp at hp
    | cons d ds =>
      cases j with
      | nil => simp
      | cons a j =>
        simp at hn
        simp
        intro _; omega
  | succ p ih =>
    cases ds with
    | nil => simp at hp
    | cons d ds =>
      cases j with
      | nil => simp
      | cons a j =>
        simp at hp hn
        simp only [List.set_cons_succ, valid_cons, List.modify_succ_cons, List.getElem_cons_succ]
        rw [ih hp hn]

theorem dot_modify {ss : List Int} {j : List Nat} {p n : Nat} (hp : p < ss.length)
    (hj : p < j.length) : dot ss (j.modify p (· + n)) = ss[p] * (n : Int) + dot ss j := by
  induction p generalizing ss j with
  | zero =>
    cases ss with
    | nil => simp at hp
    | cons d ds =>
      cases j with
      | nil => simp at hj
      | cons a j => simp; ring
  | succ p ih =>
    cases ss with
    | nil => simp at hp
    | cons s ss =>
      cases j with
      | nil => simp at hj
      | cons a j =>
        simp at hp hj
        simp only [List.modify_succ_cons, dot_cons, List.getElem_cons_succ]
        rw [ih hp hj]; ring

theorem valid_reverse {ds j : List Nat} : Valid ds.reverse j ↔ Valid ds j.reverse := by
  unfold Valid
  rw [← List.forall₂_reverse_iff]; simp

theorem dot_reverse {ss : List Int} {j : List Nat} (h : ss.length = j.length) :
    dot ss.reverse j = dot ss j.reverse := by
  induction ss generalizing j with
  | nil => simp [dot_nil_left]
  | cons s ss ih =>
    cases j using List.reverseRecOn with
    | nil => simp at h
    | append_singleton j a =>
      simp at h
      rw [List.reverse_cons, dot_append (by simpa using h), ih h]
      simp; ring

theorem dot_map (f : Nat → Int) (g : Nat → Nat) (l : List Nat) :
    dot (l.map f) (l.map g) = (l.map fun c => f c * (g c : Int)).sum := by
  induction l with
  | nil => simp
  | cons a l ih => simp [ih]

theorem dot_perm {ss : List Int} {i p : List Nat} (h : i.length = ss.length)
    (hp : p.Perm (List.range ss.length)) :
    dot (p.map fun c => ss.getD c 0) (p.map fun c => i.getD c 0) = dot ss i := by
  rw [dot_map, List.Perm.sum_eq (hp.map _), ← dot_map]
  congr 1
  · apply List.ext_getElem <;> simp
    intro k h1; simp [h1]
  · apply List.ext_getElem <;> simp [h]
    intro k h1; rw [List.getElem?_eq_getElem (by omega)]; rfl

theorem valid_perm {ds i p : List Nat} (h : i.length = ds.length)
    (hp : p.Perm (List.range ds.length)) :
    Valid (p.map fun c => ds.getD c 0) (p.map fun c => i.getD c 0) ↔ Valid ds i := by
  rw [valid_iff, valid_iff]
  have hm : ∀ k, k < ds.length ↔ k ∈ p := fun k => by rw [hp.mem_iff]; simp
  constructor
  · rintro ⟨_, h2⟩
    refine ⟨h, fun k hk hk' => ?_⟩
    obtain ⟨n, hn, e⟩ := List.getElem_of_mem ((hm k).1 hk')
    have := h2 n (by simpa using hn) (by simpa using hn)
    simpa [e, hk, hk'] using this
  · rintro ⟨_, h2⟩
    refine ⟨by simp, fun n hn hn' => ?_⟩
    simp at hn
    have hk := (hm p[n]).2 (List.getElem_mem hn)
    have := h2 p[n] (by omega) hk
    simpa [hk, h ▸ hk] using this

end Spec

namespace Model
open Spec

namespace View

theorem boundsAux (m : Mapping) (idx : List Nat) (k : Nat) :
    ((idx.zipIdx k).foldlM (fun _ (x : Nat × Nat) => do
      let d ← m.dim x.2
      check (x.1 < d)) ()).isSome ↔ idx.length ≤ (m.dims.drop k).length ∧
        ∀ n (h : n < idx.length) (h' : n < (m.dims.drop k).length), idx[n] < (m.dims.drop k)[n] := by
  induction idx generalizing k with
  | nil => simp
  | cons a idx ih =>
    simp only [List.zipIdx_cons, List.foldlM_cons, Mapping.dim_eq]
    by_cases hk : k < m.dims.length
    · rw [List.getElem?_eq_getElem hk, List.drop_eq_getElem_cons hk]
      show (check (a < m.dims[k]) >>= _).isSome ↔ _
      rw [check_bind]
      by_cases ha : a < m.dims[k]
      · rw [if_pos ha]
        erw [ih (k+1)]
        constructor
        · rintro ⟨h1, h2⟩
          refine ⟨by simp only [List.length_cons]; omega, fun n h h' => ?_⟩
          cases n with
          | zero => simpa using ha
          | succ n => exact h2 n (by simpa using h) (by simp at h' ⊢; omega)
        · rintro ⟨h1, h2⟩
          refine ⟨by simp only [List.length_cons] at h1; omega, fun n h h' => ?_⟩
          have := h2 (n+1) (by simpa using h) (by simp at h' ⊢; omega)
          exact this
      · rw [if_neg ha]
        simp only [Option.isSome_none, Bool.false_eq_true, false_iff, not_and]
        intro _ h
        exact ha (h 0 (by simp) (by simp [hk]))
    · rw [List.getElem?_eq_none (by omega), List.drop_eq_nil_of_le (by omega)]
      simp

theorem boundsLoop_isSome (m : Mapping) (idx : List Nat) (hl : idx.length = m.dims.length) :
    (boundsLoop m idx).isSome ↔ Valid m.dims idx := by
  unfold boundsLoop
  rw [valid_iff]
  have := boundsAux m idx 0
  simp only [List.drop_zero] at this
  rw [this]
  constructor
  · rintro ⟨_, h⟩; exact ⟨hl, h⟩
  · rintro ⟨_, h⟩; exact ⟨by omega, h⟩

theorem index_eq (v : View) (h : v.map.WF) (idx : List Nat) :
    v.index idx = if Valid v.dims idx then some (v.ptr + dot v.map.strides idx) else none := by
  unfold index
  by_cases hl : idx.length = v.dims.length
  · rw [check_pos hl]
    by_cases hv : Valid v.dims idx
    · rw [if_pos hv]
      have := (boundsLoop_isSome v.map idx hl).2 hv
      obtain ⟨u, hu⟩ := Option.isSome_iff_exists.1 this
      rw [hu]
      show (v.map.offset idx >>= _) = _
      rw [Mapping.offset_eq _ _ (by rw [h.len]; exact hl)]; rfl
    · rw [if_neg hv]
      have := (boundsLoop_isSome v.map idx hl).not.2 hv
      rw [Option.not_isSome_iff_eq_none] at this
      rw [this]; rfl
  · rw [check_neg hl, if_neg (fun hv => hl hv.length)]

theorem index_isSome (v : View) (h : v.map.WF) (idx : List Nat) :
    (v.index idx).isSome ↔ Valid v.dims idx := by
  rw [index_eq v h]; split <;> simp_all

theorem linIndex_eq (v : View) (h : v.map.WF) (k : Nat) :
    v.linIndex k = if k < size v.dims then some (v.ptr + lin v.dims v.map.strides k) else none := by
  unfold linIndex
  rw [Mapping.len_eq]
  by_cases hk : k < size v.dims
  · rw [check_pos hk, if_pos hk, Mapping.linearOffset_eq _ h _ hk]; rfl
  · rw [check_neg hk, if_neg hk]

theorem linIndex_index (v : View) (h : v.map.WF) (k : Nat) :
    v.linIndex k = if k < size v.dims then v.index (unrank v.dims k) else none := by
  rw [linIndex_eq v h]
  by_cases hk : k < size v.dims
  · rw [if_pos hk, if_pos hk, index_eq v h, if_pos (unrank_valid hk)]; rfl
  · rw [if_neg hk, if_neg hk]

theorem index_linIndex (v : View) (h : v.map.WF) {idx} (hv : Valid v.dims idx) :
    v.index idx = v.linIndex (rowMajor v.dims idx) := by
  rw [linIndex_index v h, if_pos (rowMajor_lt hv), unrank_rowMajor hv]

/-- Views with the same dimensions and the same row-major sequence agree on every index. -/
theorem index_congr {v w : View} (h : v.map.WF) (h' : w.map.WF) (hd : w.dims = v.dims)
    (hk : ∀ k, w.linIndex k = v.linIndex k) (idx) : w.index idx = v.index idx := by
  by_cases hv : Valid v.dims idx
  · rw [index_linIndex v h hv, index_linIndex w h' (hd ▸ hv), hk, hd]
  · rw [index_eq v h, index_eq w h', if_neg hv, if_neg (hd ▸ hv)]

theorem index_mk {ptr ty dims st L} (hc : ty.Conforms dims) (hl : st.length = dims.length)
    (hL : L = .dense → st = denseStrides dims) (idx) :
    (View.mk ptr (Mapping.mk ty dims st L)).index idx =
      if Valid dims idx then some (ptr + dot st idx) else none := by
  rw [index_eq _ (Mapping.mk_wf hc hl), Mapping.mk_strides hL]
  show (if Valid (Mapping.mk ty dims st L).dims idx then _ else _) = _
  rw [Mapping.mk_dims]

/-- `axis_at` in closed form. -/
theorem axisAt_eq (v : View) (h : v.map.WF) (a : Axis) (i : Nat) :
    v.axisAt a i = (axisPos a v.dims.length).bind fun p =>
      if i < v.dims.getD p 0 then
        some ⟨v.ptr + (if size (v.dims.eraseIdx p) = 0 then 0 else v.map.strides.getD p 0 * (i : Int)),
          Mapping.mk (a.remove v.ty) (v.dims.eraseIdx p) (v.map.strides.eraseIdx p)
            (a.split v.ty v.layout)⟩
      else none := by
  unfold axisAt
  show ((a.index v.dims.length).bind _) = _
  rw [axisIndex_eq]
  cases hp : axisPos a v.dims.length with
  | none => rfl
  | some p =>
    have hp' : a.index v.dims.length = some p := by rw [axisIndex_eq, hp]
    have hlt := Axis.index_lt hp'
    simp only [Option.bind_some]
    rw [Mapping.dim_eq, List.getElem?_eq_getElem hlt]
    show (check (i < v.dims[p]) >>= _) = _
    have hg : v.dims.getD p 0 = v.dims[p] := by simp [hlt]
    rw [check_bind, hg]
    by_cases hi : i < v.dims[p]
    · rw [if_pos hi, if_pos hi]
      have e : a.removeMap v.map = some (Mapping.mk (a.remove v.ty) (v.dims.eraseIdx p)
          (v.map.strides.eraseIdx p) (a.split v.ty v.layout)) := by
        unfold Axis.removeMap
        show ((a.index v.dims.length).bind _) = _
        rw [hp', Option.bind_some, Mapping.removeDim_eq _ h, if_pos]
        exact ⟨hlt, Axis.remove_conforms h.1 hp', fun hd => Axis.split_dense h.1 hp' hd⟩
      rw [e, Mapping.stride_eq _ h, List.getElem?_eq_getElem (by rw [h.len]; exact hlt)]
      have hs : v.map.strides.getD p 0 = v.map.strides[p]'(by rw [h.len]; exact hlt) := by
        simp [h.len ▸ hlt]
      simp only [Option.bind_eq_bind, Option.bind_some, hs]
      show some _ = some _
      simp only [Mapping.isEmpty_iff, Mapping.mk_dims]
    · rw [if_neg hi, if_neg hi]

theorem axisAt_parts {v v' : View} (h : v.map.WF) {a : Axis} {i : Nat}
    (hv : v.axisAt a i = some v') :
    ∃ p, axisPos a v.dims.length = some p ∧ p < v.dims.length ∧ i < v.dims.getD p 0 ∧
      v'.map.WF ∧ v'.dims = v.dims.eraseIdx p ∧ v'.ty = a.remove v.ty ∧
      ∀ j, v'.index j = v.index (j.insertIdx p i) := by
  rw [axisAt_eq v h] at hv
  cases hp : axisPos a v.dims.length with
  | none => rw [hp] at hv; simp at hv
  | some p =>
    have hp' : a.index v.dims.length = some p := by rw [axisIndex_eq, hp]
    have hlt := Axis.index_lt hp'
    rw [hp, Option.bind_some] at hv
    split at hv
    swap
    · simp at hv
    rename_i hi
    injection hv with hv
    have hi' : i < v.dims[p] := by simpa [hlt] using hi
    have hc := Axis.remove_conforms h.1 hp'
    have hl : (v.map.strides.eraseIdx p).length = (v.dims.eraseIdx p).length := by
      rw [List.length_eraseIdx, List.length_eraseIdx, h.len]
    have hd : a.split v.ty v.layout = .dense →
        v.map.strides.eraseIdx p = denseStrides (v.dims.eraseIdx p) := fun hd => by
      obtain ⟨h1, rfl⟩ := Axis.split_dense h.1 hp' hd
      rw [Mapping.strides_of_dense h1]
      show (denseStrides v.dims).eraseIdx 0 = denseStrides (v.dims.eraseIdx 0)
      cases v.dims <;> simp [denseStrides]
    refine ⟨p, rfl, hlt, hi, ?_, ?_, ?_, fun j => ?_⟩
    · rw [← hv]; exact Mapping.mk_wf hc hl
    · rw [← hv]; exact Mapping.mk_dims ..
    · rw [← hv]; show (Mapping.mk ..).shape.ty = _; rw [Mapping.mk_shape]
    · rw [← hv, index_mk hc hl hd, index_eq v h]
      by_cases hj : Valid (v.dims.eraseIdx p) j
      · have hne : size (v.dims.eraseIdx p) ≠ 0 := by have := hj.size_pos; omega
        have hlen : p ≤ j.length := by
          rw [hj.length, List.length_eraseIdx, if_pos hlt]; omega
        rw [if_pos hj, if_pos ((valid_insertIdx hlt).2 ⟨hi', hj⟩), if_neg hne,
          dot_insertIdx (by rw [h.len]; exact hlt) hlen]
        simp [h.len ▸ hlt]; ring
      · rw [if_neg hj, if_neg (fun hh => hj ((valid_insertIdx hlt).1 hh).2)]


theorem axisAt_isSome (v : View) (h : v.map.WF) (a : Axis) (i : Nat) :
    (v.axisAt a i).isSome ↔ ∃ p, axisPos a v.dims.length = some p ∧ i < v.dims.getD p 0 := by
  rw [axisAt_eq v h]
  cases axisPos a v.dims.length with
  | none => simp
  | some p => simp only [Option.bind_some]; split <;> simp_all

theorem resizeMap_eq (v : View) (h : v.map.WF) {a : Axis} {p : Nat} (n : Nat)
    (hp : a.index v.dims.length = some p) :
    a.resizeMap v.map n = some (Mapping.mk (a.resizeTy v.ty) (v.dims.set p n)
      v.map.strides (a.split v.ty v.layout)) := by
  unfold Axis.resizeMap
  show ((a.index v.dims.length).bind _) = _
  rw [hp, Option.bind_some, Mapping.resizeDim_eq _ h, if_pos]
  exact ⟨Axis.index_lt hp, Axis.resizeTy_conforms h.1 hp, fun hd => Axis.split_dense h.1 hp hd⟩

theorem splitAxisAt_eq (v : View) (h : v.map.WF) (a : Axis) (mid : Nat) :
    v.splitAxisAt a mid = (axisPos a v.dims.length).bind fun p =>
      if mid ≤ v.dims.getD p 0 then
        some (⟨v.ptr, Mapping.mk (a.resizeTy v.ty) (v.dims.set p mid) v.map.strides
            (a.split v.ty v.layout)⟩,
          ⟨v.ptr + (if size (v.dims.set p (v.dims.getD p 0 - mid)) = 0 then 0
              else v.map.strides.getD p 0 * (mid : Int)),
          Mapping.mk (a.resizeTy v.ty) (v.dims.set p (v.dims.getD p 0 - mid)) v.map.strides
            (a.split v.ty v.layout)⟩)
      else none := by
  unfold splitAxisAt
  show ((a.index v.dims.length).bind _) = _
  rw [axisIndex_eq]
  cases hp : axisPos a v.dims.length with
  | none => rfl
  | some p =>
    have hp' : a.index v.dims.length = some p := by rw [axisIndex_eq, hp]
    have hlt := Axis.index_lt hp'
    simp only [Option.bind_some]
    rw [Mapping.dim_eq, List.getElem?_eq_getElem hlt]
    have hg : v.dims.getD p 0 = v.dims[p] := by simp [hlt]
    show (check (mid ≤ v.dims[p]) >>= _) = _
    rw [check_bind, hg]
    by_cases hi : mid ≤ v.dims[p]
    · rw [if_pos hi, if_pos hi]
      rw [resizeMap_eq v h mid hp', resizeMap_eq v h (v.dims[p] - mid) hp',
        Mapping.stride_eq _ h, List.getElem?_eq_getElem (by rw [h.len]; exact hlt)]
      have hs : v.map.strides.getD p 0 = v.map.strides[p]'(by rw [h.len]; exact hlt) := by
        simp [h.len ▸ hlt]
      simp only [Option.bind_eq_bind, Option.bind_some, hs]
      show some _ = some _
      simp only [Mapping.isEmpty_iff, Mapping.mk_dims]
    · rw [if_neg hi, if_neg hi]

theorem splitAxisAt_isSome (v : View) (h : v.map.WF) (a : Axis) (mid : Nat) :
    (v.splitAxisAt a mid).isSome ↔ ∃ p, axisPos a v.dims.length = some p ∧ mid ≤ v.dims.getD p 0 := by
  rw [splitAxisAt_eq v h]
  cases axisPos a v.dims.length with
  | none => simp
  | some p => simp only [Option.bind_some]; split <;> simp_all

theorem splitAxisAt_parts {v v1 v2 : View} (h : v.map.WF) {a : Axis} {mid : Nat}
    (hv : v.splitAxisAt a mid = some (v1, v2)) :
    ∃ p, axisPos a v.dims.length = some p ∧ p < v.dims.length ∧ mid ≤ v.dims.getD p 0 ∧
      v1.map.WF ∧ v2.map.WF ∧ v1.dims = v.dims.set p mid ∧
      v2.dims = v.dims.set p (v.dims.getD p 0 - mid) ∧
      v1.ty = a.resizeTy v.ty ∧ v2.ty = a.resizeTy v.ty ∧
      (∀ j, v1.index j = if j.getD p 0 < mid then v.index j else none) ∧
      ∀ j, v2.index j = v.index (j.modify p (· + mid)) := by
  rw [splitAxisAt_eq v h] at hv
  cases hp : axisPos a v.dims.length with
  | none => rw [hp] at hv; simp at hv
  | some p =>
    have hp' : a.index v.dims.length = some p := by rw [axisIndex_eq, hp]
    have hlt := Axis.index_lt hp'
    rw [hp, Option.bind_some] at hv
    split at hv
    swap
    · simp at hv
    rename_i hi
    injection hv with hv
    injection hv with hv1 hv2
    have hg : v.dims.getD p 0 = v.dims[p] := by simp [hlt]
    have hi' : mid ≤ v.dims[p] := hg ▸ hi
    have hc := fun n => Axis.resizeTy_conforms (x := n) h.1 hp'
    have hl : ∀ n, (v.map.strides).length = (v.dims.set p n).length := fun n => by
      rw [List.length_set, h.len]
    have hd : ∀ n, a.split v.ty v.layout = .dense →
        v.map.strides = denseStrides (v.dims.set p n) := fun n hd => by
      obtain ⟨h1, rfl⟩ := Axis.split_dense h.1 hp' hd
      rw [Mapping.strides_of_dense h1]
      show (denseStrides v.dims) = denseStrides (v.dims.set 0 n)
      cases v.dims <;> simp [denseStrides]
    refine ⟨p, rfl, hlt, hi, ?_, ?_, ?_, ?_, ?_, ?_, fun j => ?_, fun j => ?_⟩
    · rw [← hv1]; exact Mapping.mk_wf (hc _) (hl _)
    · rw [← hv2]; exact Mapping.mk_wf (hc _) (hl _)
    · rw [← hv1]; exact Mapping.mk_dims ..
    · rw [← hv2]; exact Mapping.mk_dims ..
    · rw [← hv1]; show (Mapping.mk ..).shape.ty = _; rw [Mapping.mk_shape]
    · rw [← hv2]; show (Mapping.mk ..).shape.ty = _; rw [Mapping.mk_shape]
    · rw [← hv1, index_mk (hc _) (hl _) (hd _), index_eq v h]
      simp only [valid_set_le hlt hi']
      by_cases h1 : Valid v.dims j <;> by_cases h2 : j.getD p 0 < mid <;> simp [h1, h2]
    · rw [← hv2, index_mk (hc _) (hl _) (hd _), index_eq v h]
      simp only [valid_modify hlt hi', hg]
      by_cases hj : Valid (v.dims.set p (v.dims[p] - mid)) j
      · rw [if_pos hj, if_pos hj, if_neg (by have := hj.size_pos; omega),
          dot_modify (by rw [h.len]; exact hlt) (by rw [hj.length]; simpa using hlt)]
        simp [h.len ▸ hlt]; ring
      · rw [if_neg hj, if_neg hj]

theorem remap_isSome (v : View) (h : v.map.WF) (ty : ShapeTy) (L : Layout) :
    (v.remap ty L).isSome ↔ ty.Conforms v.dims ∧ (L = .dense → v.map.isContiguous = true) := by
  unfold remap
  rw [Mapping.remap_eq _ h]
  split <;> simp_all

theorem remap_parts {v v' : View} (h : v.map.WF) {ty : ShapeTy} {L : Layout}
    (hv : v.remap ty L = some v') :
    v'.map.WF ∧ v'.dims = v.dims ∧ v'.ty = ty ∧ v'.layout = L ∧ ∀ j, v'.index j = v.index j := by
  unfold remap at hv
  rw [Mapping.remap_eq _ h] at hv
  split at hv
  swap
  · simp at hv
  rename_i hc
  have hv : (⟨v.ptr, Mapping.mk ty v.map.dims v.map.strides L⟩ : View) = v' := by simpa using hv
  subst hv
  have hL : L = .dense → v.map.strides = denseStrides v.map.dims := fun hL =>
    (Mapping.isContiguous_iff h).1 (hc.2 hL)
  refine ⟨Mapping.mk_wf hc.1 h.len, Mapping.mk_dims .., ?_, Mapping.mk_layout .., fun j => ?_⟩
  · show (Mapping.mk ..).shape.ty = _; rw [Mapping.mk_shape]
  · rw [index_mk hc.1 h.len hL, index_eq v h]

theorem reorder_isSome (v : View) (h : v.map.WF) : (v.reorder).isSome := by
  unfold reorder
  rw [Mapping.reorder_eq _ h, if_pos]
  · rfl
  · refine ⟨ShapeTy.conforms_reverse h.1, fun hd => ?_⟩
    obtain ⟨h1, h2⟩ := ShapeTy.layout_dense hd
    have := ShapeTy.tail_eq_nil h1 h.1
    exact ⟨h2, by show v.map.dims.length < 2; unfold Mapping.dims; omega⟩

theorem reorder_parts {v v' : View} (h : v.map.WF) (hv : v.reorder = some v') :
    v'.map.WF ∧ v'.dims = v.dims.reverse ∧ v'.ty = v.ty.reverse ∧
      ∀ j, v'.index j = v.index j.reverse := by
  unfold reorder at hv
  rw [Mapping.reorder_eq _ h] at hv
  split at hv
  swap
  · simp at hv
  rename_i hc
  have hv : (⟨v.ptr, Mapping.mk v.ty.reverse v.map.dims.reverse v.map.strides.reverse
      (v.ty.tail.layout v.layout)⟩ : View) = v' := by simpa using hv
  subst hv
  have hL : v.ty.tail.layout v.layout = .dense →
      v.map.strides.reverse = denseStrides v.map.dims.reverse := fun hL => by
    obtain ⟨h1, h2⟩ := hc.2 hL
    rw [Mapping.strides_of_dense h1]
    match hd : v.map.dims, h2 with
    | [], _ => simp [denseStrides]
    | [d], _ => simp [denseStrides]
  have hl : v.map.strides.reverse.length = v.map.dims.reverse.length := by simp [h.len]
  refine ⟨Mapping.mk_wf hc.1 hl, Mapping.mk_dims .., ?_, fun j => ?_⟩
  · show (Mapping.mk ..).shape.ty = _; rw [Mapping.mk_shape]
  · rw [index_mk hc.1 hl hL, index_eq v h]
    simp only [valid_reverse]
    by_cases hj : Valid v.dims j.reverse
    · rw [if_pos hj, if_pos hj, dot_reverse]
      rw [h.len, ← hj.length]; simp
    · rw [if_neg hj, if_neg hj]

/-- Success of `permute`: exactly the permutations (ranks below 64; with overflow checks the rank
bound is itself checked, without them it is a hypothesis). -/
theorem permute_parts {v v' : View} (h : v.map.WF) {checks : Bool} {perm : Shape}
    (hr : checks = true ∨ v.dims.length < 64) (hv : v.permute checks perm = some v') :
    perm.dims.Perm (List.range v.dims.length) ∧ v'.map.WF ∧
      v'.dims = (perm.dims.map fun c => v.dims.getD c 0) ∧ v'.ty = Perm.shapeTy perm.ty v.ty ∧
      ∀ i, i.length = v.dims.length →
        v'.index (perm.dims.map fun c => i.getD c 0) = v.index i := by
  unfold permute at hv
  cases hL : Perm.layout perm.ty v.layout with
  | dense =>
    rw [hL, Mapping.permute_dense_eq _ h] at hv
    split at hv
    swap
    · simp at hv
    rename_i hc
    obtain ⟨h1, h2, h3⟩ := hc
    have hv : (⟨v.ptr, Mapping.dense ⟨Perm.shapeTy perm.ty v.ty, v.map.dims⟩⟩ : View) = v' := by
      simpa using hv
    subst hv
    have hid : ∀ l : List Nat, l.length = v.map.dims.length →
        (perm.dims.map fun c => l.getD c 0) = l := fun l hl => by
      rw [h1]
      apply List.ext_getElem <;> simp [hl]
      intro k hk; rw [List.getElem?_eq_getElem (by omega)]; rfl
    have hw : (Mapping.dense ⟨Perm.shapeTy perm.ty v.ty, v.map.dims⟩).WF := Mapping.wf_dense.2 h2
    refine ⟨by rw [h1], hw, (hid _ rfl).symm, rfl, fun i hi => ?_⟩
    rw [hid i hi, index_eq _ hw, index_eq v h]
    rw [show (Mapping.dense ⟨Perm.shapeTy perm.ty v.ty, v.map.dims⟩).strides = v.map.strides from
      ((Mapping.isContiguous_iff h).1 h3).symm]
  | strided =>
    rw [hL] at hv
    have hr' : v.map.dims.length < 64 := by
      rcases hr with rfl | hr
      · cases hq : v.map.permute true perm.dims (Perm.shapeTy perm.ty v.ty) .strided with
        | none => rw [hq] at hv; simp at hv
        | some m => exact Mapping.permute_strided_checked hq
      · exact hr
    rw [Mapping.permute_strided_eq _ h _ _ _ hr'] at hv
    split at hv
    swap
    · simp at hv
    rename_i hc
    obtain ⟨h1, h2⟩ := hc
    have hv : (⟨v.ptr, Mapping.mk (Perm.shapeTy perm.ty v.ty)
      (perm.dims.map fun c => v.map.dims.getD c 0) (perm.dims.map fun p => v.map.strides.getD p 0)
      .strided⟩ : View) = v' := by simpa [Mapping.mk] using hv
    subst hv
    have hl : (perm.dims.map fun p => v.map.strides.getD p 0).length =
      (perm.dims.map fun c => v.map.dims.getD c 0).length := by simp
    refine ⟨h1, ?_, ?_, ?_, fun i hi => ?_⟩
    · exact Mapping.mk_wf (L := .strided) h2 hl
    · rfl
    · rfl
    · rw [index_mk h2 hl (by simp), index_eq v h]
      simp only [valid_perm hi h1]
      rw [dot_perm (by rw [hi, h.len]) (by rw [h.len]; exact h1)]

theorem permute_isSome (v : View) (h : v.map.WF) {checks : Bool} {perm : Shape} (hp : perm.WF)
    (hr : v.dims.length < 64) :
    (v.permute checks perm).isSome ↔ perm.dims.Perm (List.range v.dims.length) := by
  constructor
  · intro hs
    obtain ⟨v', hv⟩ := Option.isSome_iff_exists.1 hs
    exact (permute_parts h (.inr hr) hv).1
  · intro hperm
    have hlen : perm.dims.length = v.dims.length := by simpa using hperm.length_eq
    have hconf := Perm.shapeTy_conforms hp h.1 hperm
    unfold permute
    cases hL : Perm.layout perm.ty v.layout with
    | dense =>
      obtain ⟨h1, h2⟩ := Perm.layout_dense hp hL (by rw [hlen]; exact hperm)
      rw [hlen] at h2
      rw [Mapping.permute_dense_eq _ h, if_pos]
      · rfl
      · refine ⟨h2, ?_, (Mapping.isContiguous_iff h).2 (Mapping.strides_of_dense h1)⟩
        have : (perm.dims.map fun i => v.dims.getD i 0) = v.dims := by
          rw [h2]
          apply List.ext_getElem <;> simp
          intro k hk; rw [List.getElem?_eq_getElem (by omega)]; rfl
        rw [this] at hconf; exact hconf
    | strided =>
      rw [Mapping.permute_strided_eq _ h _ _ _ hr, if_pos ⟨hperm, hconf⟩]; rfl

/-- `view` in terms of the selections. -/
theorem view_spec (v : View) (h : v.map.WF) (xs : List DimIdx) (hx : v.dims.length = xs.length)
    (hd : ∀ d ∈ v.dims, d ≤ usizeMax) :
    ((v.view xs).isSome ↔ (selectAll xs v.dims).isSome) ∧
    ∀ v' sel, v.view xs = some v' → selectAll xs v.dims = some sel →
      v'.map.WF ∧ v'.dims = selDims sel ∧ v'.ty = ViewIdx.shapeTy xs v.ty ∧
      (∀ j i, pull sel j = some i → Valid v.dims i) ∧
      ∀ j, v'.index j = (pull sel j).bind v.index := by
  have hs : v.map.strides.length = xs.length := by rw [h.len]; exact hx
  obtain ⟨e, he⟩ := ViewIdx.viewIndex_eq v.map h xs v.ty [] v.dims [] v.map.strides rfl rfl hx hs h.1
  have hsp := ViewIdx.apAll_spec xs v.dims v.map.strides hx hs hd
  unfold view
  rw [e]
  cases ha : ViewIdx.apAll xs v.dims v.map.strides with
  | none =>
    rw [ha] at hsp
    cases hq : selectAll xs v.dims with
    | none => simp
    | some s => rw [hq] at hsp; exact hsp.elim
  | some r =>
    obtain ⟨off, nd, ns⟩ := r
    rw [ha] at hsp
    cases hq : selectAll xs v.dims with
    | none => rw [hq] at hsp; exact hsp.elim
    | some sel =>
      rw [hq] at hsp
      obtain ⟨h1, h2, h3, h4⟩ := hsp
      obtain ⟨g1, g2, g3, g4⟩ := he off nd ns ha
      refine ⟨by simp, ?_⟩
      rintro v' _ hv ⟨⟩
      simp only [Option.map_some, Option.bind_eq_bind, Option.bind_some, Mapping.isEmpty_iff,
        Mapping.mk_dims] at hv
      injection hv with hv
      subst hv
      refine ⟨Mapping.mk_wf g1 g2, ?_, ?_, fun j i hj => (h4 j i hj).1, fun j => ?_⟩
      · rw [h1]; exact Mapping.mk_dims ..
      · show (Mapping.mk ..).shape.ty = _; rw [Mapping.mk_shape]
      · rw [index_mk g1 g2 g3]
        by_cases hj : Valid nd j
        · obtain ⟨i, hi⟩ := Option.isSome_iff_exists.1 ((h3 j).2 hj)
          obtain ⟨k1, k2⟩ := h4 j i hi
          rw [if_pos hj, hi, Option.bind_some, index_eq v h, if_pos k1,
            if_neg (by have := hj.size_pos; omega), ← k2]
          congr 1; ring
        · rw [if_neg hj]
          have : pull sel j = none := by
            rw [← Option.not_isSome_iff_eq_none]; exact fun hh => hj ((h3 j).1 hh)
          rw [this]; rfl

theorem reshape_parts {v v' : View} (h : v.map.WF) {ns : Shape}
    (hv : v.reshape ns = some v') :
    ∃ s', v.map.shape.reshape ns = some s' ∧ v'.map.shape = s' ∧ v'.ptr = v.ptr ∧
      (v.layout = .dense → v'.layout = .dense) ∧
      (size s'.dims = size v.dims → s'.WF → v'.map.WF ∧ ∀ k, v'.linIndex k = v.linIndex k) := by
  unfold reshape Mapping.reshape at hv
  cases hs : v.map.shape.reshape ns with
  | none => rw [hs] at hv; simp at hv
  | some s' =>
    rw [hs] at hv
    refine ⟨s', rfl, ?_⟩
    obtain ⟨ptr, m⟩ := v
    cases m with
    | dense s =>
      have hv : (⟨ptr, Mapping.dense s'⟩ : View) = v' := by simpa using hv
      subst hv
      refine ⟨rfl, rfl, fun _ => rfl, fun hsz hw => ⟨Mapping.wf_dense.2 hw, fun k => ?_⟩⟩
      rw [linIndex_eq _ (Mapping.wf_dense.2 hw), linIndex_eq _ h]
      show (if k < size s'.dims then some (ptr + lin s'.dims (denseStrides s'.dims) k) else none) =
        if k < size s.dims then some (ptr + lin s.dims (denseStrides s.dims) k) else none
      have hsz : size s'.dims = size s.dims := hsz
      by_cases hk : k < size s.dims
      · rw [if_pos hk, if_pos (by omega), lin_dense (by omega), lin_dense hk]
      · rw [if_neg hk, if_neg (by omega)]
    | strided s st =>
      cases hr : Mapping.reshapeStrides s.dims st s'.dims with
      | none => simp [hr] at hv
      | some r =>
        have hv : (⟨ptr, Mapping.strided s' r⟩ : View) = v' := by simpa [hr] using hv
        subst hv
        refine ⟨rfl, rfl, fun hh => by simp [View.layout, Mapping.layout] at hh, fun hsz hw => ?_⟩
        have hw' : (Mapping.strided s' r).WF := ⟨hw, Mapping.reshapeStrides_length hr⟩
        refine ⟨hw', fun k => ?_⟩
        rw [linIndex_eq _ hw', linIndex_eq _ h]
        show (if k < size s'.dims then some (ptr + lin s'.dims r k) else none) =
          if k < size s.dims then some (ptr + lin s.dims st k) else none
        have hsz : size s'.dims = size s.dims := hsz
        by_cases hk : k < size s.dims
        · rw [if_pos hk, if_pos (by omega),
            Mapping.reshapeStrides_sound h.len hsz.symm hr k (by omega)]; rfl
        · rw [if_neg hk, if_neg (by omega)]


end View

namespace Shape

/-- Whatever `reshape` returns has the requested type and the old number of elements. -/
theorem reshape_result {s ns s' : Shape} (hw : ns.WF) (h : s.reshape ns = some s') :
    s'.ty = ns.ty ∧ s'.WF ∧ size s'.dims = size s.dims ∧ NoOverflow usizeMax
      (ns.dims.map fun d => if d = usizeMax then 1 else d) ∧
      Resolves usizeMax (size s.dims) ns.dims s'.dims := by
  have hmap : ∀ l : List Nat, usizeMax ∉ l → (l.map fun d => if d = usizeMax then 1 else d) = l := by
    intro l hl
    conv_rhs => rw [← List.map_id l]
    apply List.map_congr_left
    intro d hd
    have : d ≠ usizeMax := fun e => hl (e ▸ hd)
    simp [this]
  by_cases hm : usizeMax ∈ ns.dims
  · obtain ⟨a, b, he, ha⟩ := split_first hm
    by_cases hb : usizeMax ∈ b
    · rw [reshape_many s ns a b he ha hb] at h; simp at h
    · rw [reshape_infer_eq s ns a b he ha hb] at h
      split at h
      swap
      · simp at h
      rename_i hc
      obtain ⟨_, h2, h3, h4, h5⟩ := hc
      injection h with h; subst h
      have hdiv : size (a ++ b) * (size s.dims / size (a ++ b)) = size s.dims :=
        Nat.mul_div_cancel' (Nat.dvd_of_mod_eq_zero h4)
      refine ⟨rfl, h5, ?_, ?_, ?_⟩
      · generalize size s.dims / size (a ++ b) = m at hdiv
        rw [← hdiv]; simp only [size_append, size_cons]; ring
      · rw [he]; simpa [hmap a ha, hmap b hb] using h2
      · rw [he]; exact .infer ha hb (by omega) hdiv
  · rw [reshape_none_eq s ns hw hm] at h
    split at h
    swap
    · simp at h
    rename_i hc
    injection h with h; subst h
    exact ⟨rfl, hw, hc.2, by rw [hmap _ hm]; exact hc.1, .exact hm hc.2⟩

theorem resolves_unique {h n : Nat} {req d1 d2 : List Nat} (h1 : Resolves h n req d1)
    (h2 : Resolves h n req d2) : d1 = d2 := by
  cases h1 with
  | exact hn hs =>
    cases h2 with
    | exact _ _ => rfl
    | infer _ _ _ _ => simp at hn
  | @infer a b m ha hb hp he =>
    generalize hq : a ++ h :: b = req' at h2
    cases h2 with
    | exact hn _ => subst hq; simp at hn
    | @infer a' b' m' ha' hb' hp' he' =>
      have haa : a = a' ∧ b = b' := by
        clear hp he hp' he'
        induction a generalizing a' with
        | nil =>
          cases a' with
          | nil => simpa using hq
          | cons x a' => simp at hq; simp [hq.1] at ha'
        | cons x a ih =>
          cases a' with
          | nil => simp at hq; simp [hq.1] at ha
          | cons y a' =>
            simp at hq ha ha'
            obtain ⟨rfl, hq⟩ := hq
            obtain ⟨rfl, rfl⟩ := ih ha.2 ha'.2 hq
            simp
      obtain ⟨rfl, rfl⟩ := haa
      have : m = m' := Nat.eq_of_mul_eq_mul_left hp (by rw [he, he'])
      rw [this]

/-- Exact acceptance condition of `reshape`. -/
theorem reshape_isSome (s ns : Shape) (hw : ns.WF) :
    (s.reshape ns).isSome ↔
      ns.ty.Conforms (ns.dims.map fun d => if d = usizeMax then 1 else d) ∧
      NoOverflow usizeMax (ns.dims.map fun d => if d = usizeMax then 1 else d) ∧
      ∃ dims, Resolves usizeMax (size s.dims) ns.dims dims ∧ ns.ty.Conforms dims := by
  have hmap : ∀ l : List Nat, usizeMax ∉ l → (l.map fun d => if d = usizeMax then 1 else d) = l := by
    intro l hl
    conv_rhs => rw [← List.map_id l]
    apply List.map_congr_left
    intro d hd
    have : d ≠ usizeMax := fun e => hl (e ▸ hd)
    simp [this]
  constructor
  · intro hs
    obtain ⟨s', h⟩ := Option.isSome_iff_exists.1 hs
    obtain ⟨h1, h2, h3, h4, h5⟩ := reshape_result hw h
    refine ⟨?_, h4, s'.dims, h5, h1 ▸ h2⟩
    by_cases hm : usizeMax ∈ ns.dims
    · obtain ⟨a, b, he, ha⟩ := split_first hm
      by_cases hb : usizeMax ∈ b
      · rw [reshape_many s ns a b he ha hb] at h; simp at h
      · rw [reshape_infer_eq s ns a b he ha hb] at h
        split at h
        swap
        · simp at h
        rename_i hc
        rw [he]; simpa [hmap a ha, hmap b hb] using hc.1
    · rw [hmap _ hm]; exact hw
  · rintro ⟨h1, h2, dims, h3, h4⟩
    generalize hq : ns.dims = req at h3
    cases h3 with
    | exact hn hsz =>
      rw [reshape_none_eq s ns hw (hq ▸ hn), if_pos]
      · rfl
      · rw [hq, hmap _ hn] at h2; rw [hq]; exact ⟨h2, hsz⟩
    | @infer a b m ha hb hp he =>
      have hm : size s.dims / size (a ++ b) = m := by rw [← he, Nat.mul_div_cancel_left _ hp]
      rw [reshape_infer_eq s ns a b hq ha hb, if_pos]
      · rfl
      · rw [hq] at h1 h2
        simp only [List.map_append, List.map_cons, hmap a ha, hmap b hb, if_true] at h1 h2
        refine ⟨h1, h2, by omega, by rw [← he]; simp, by rw [hm]; exact h4⟩

end Shape

namespace View

theorem reshape_spec {v v' : View} (h : v.map.WF) {ns : Shape} (hw : ns.WF)
    (hv : v.reshape ns = some v') :
    v'.map.WF ∧ v'.ty = ns.ty ∧ Resolves usizeMax (size v.dims) ns.dims v'.dims ∧
      size v'.dims = size v.dims ∧ (v.layout = .dense → v'.layout = .dense) ∧
      ∀ k, v'.linIndex k = v.linIndex k := by
  obtain ⟨s', h1, h2, _, h4, h5⟩ := reshape_parts h hv
  obtain ⟨g1, g2, g3, _, g5⟩ := Shape.reshape_result hw h1
  subst h2
  obtain ⟨k1, k2⟩ := h5 g3 g2
  exact ⟨k1, g1, g5, g3, h4, k2⟩

theorem reshape_dense_isSome (v : View) (hl : v.layout = .dense) (ns : Shape) :
    (v.reshape ns).isSome ↔ (v.map.shape.reshape ns).isSome := by
  obtain ⟨ptr, m⟩ := v
  cases m with
  | strided s st => simp [View.layout, Mapping.layout] at hl
  | dense s =>
    unfold reshape Mapping.reshape
    cases h : Shape.reshape (Mapping.dense s).shape ns <;> simp [h]

theorem reshape_contiguous_isSome (v : View) (h : v.map.WF) (hc : v.map.isContiguous = true)
    (ns : Shape) :
    (v.reshape ns).isSome ↔ (v.map.shape.reshape ns).isSome := by
  obtain ⟨ptr, m⟩ := v
  cases m with
  | dense s => exact reshape_dense_isSome _ rfl ns
  | strided s st =>
    have hst : st = denseStrides s.dims := (Mapping.isContiguous_iff h).1 hc
    subst hst
    unfold reshape Mapping.reshape
    cases hq : Shape.reshape (Mapping.strided s (denseStrides s.dims)).shape ns with
    | none => simp [hq]
    | some s' =>
      obtain ⟨r, hr⟩ := Mapping.reshapeStrides_contiguous s.dims s'.dims
      simp [hq, hr]

/-- Reshaping to the current dimensions always succeeds if they are not placeholders. -/
theorem reshape_same (v : View) (h : v.map.WF) {ty : ShapeTy} (hc : ty.Conforms v.dims)
    (hd : usizeMax ∉ v.dims) (ho : NoOverflow usizeMax v.dims) :
    ∃ v', v.reshape ⟨ty, v.dims⟩ = some v' ∧ v'.map.WF ∧ v'.dims = v.dims ∧ v'.ty = ty ∧
      v'.layout = v.layout ∧ ∀ j, v'.index j = v.index j := by
  have hw : (⟨ty, v.dims⟩ : Shape).WF := hc
  have hs : v.map.shape.reshape ⟨ty, v.dims⟩ = some ⟨ty, v.dims⟩ := by
    rw [Shape.reshape_none_eq _ _ hw hd, if_pos ⟨ho, rfl⟩]
  have : ∃ v', v.reshape ⟨ty, v.dims⟩ = some v' ∧ v'.layout = v.layout := by
    obtain ⟨ptr, m⟩ := v
    unfold reshape Mapping.reshape
    cases m with
    | dense s => rw [hs]; exact ⟨_, rfl, rfl⟩
    | strided s st =>
      rw [hs]
      obtain ⟨r, hr⟩ := Mapping.reshapeStrides_same s.dims st h.len
      refine ⟨⟨ptr, .strided ⟨ty, s.dims⟩ r⟩, ?_, rfl⟩
      show (do let m ← (do let strides ← Mapping.reshapeStrides s.dims st s.dims
                           pure (Mapping.strided ⟨ty, s.dims⟩ strides))
               pure (⟨ptr, m⟩ : View)) = _
      rw [hr]; rfl
  obtain ⟨v', hv, hl⟩ := this
  obtain ⟨k1, k2, k3, k4, _, k5⟩ := reshape_spec h hw hv
  have hdim : v'.dims = v.dims := Shape.resolves_unique k3 (.exact hd rfl)
  exact ⟨v', hv, k1, hdim, k2, hl, index_congr h k1 hdim k5⟩

theorem flatten_dense_isSome (v : View) (hl : v.layout = .dense) (hn : size v.dims < usizeMax) :
    v.flatten.isSome := by
  unfold flatten
  rw [reshape_dense_isSome v hl, Mapping.len_eq]
  have hw : (⟨.static [.dyn], [size v.dims]⟩ : Shape).WF := by
    show (ShapeTy.static [.dyn]).Conforms _; simp
  rw [Shape.reshape_none_eq _ _ hw (by simp; omega), if_pos]
  · rfl
  · refine ⟨fun k hk => ?_, by simp⟩
    simp at hk
    rcases (by omega : k = 0 ∨ k = 1) with rfl | rfl
    · simp [usizeMax]
    · simp; omega

/-- Diagonal in closed form. -/
theorem diag_spec (v : View) (h : v.map.WF) (k : Int) :
    ((v.diag k).isSome ↔ ∃ r c : Nat, v.dims = [r, c] ∧ k ≤ c ∧ -k ≤ r) ∧
    ∀ v', v.diag k = some v' → ∃ r c : Nat, v.dims = [r, c] ∧ v'.map.WF ∧ v'.ty = .static [.dyn] ∧
      v'.dims = [min (r - (-k).toNat) (c - k.toNat)] ∧
      ∀ i, v'.index [i] = v.index [i + (-k).toNat, i + k.toNat] := by
  unfold diag
  by_cases hr : v.dims.length = 2
  swap
  · rw [check_neg hr]
    refine ⟨?_, by simp⟩
    simp only [Option.isSome_none, Bool.false_eq_true, false_iff, not_exists, not_and]
    intro r c e; rw [e] at hr; simp at hr
  rw [check_pos hr]
  have hl := h.len
  obtain ⟨r, c, hrc⟩ : ∃ r c, v.dims = [r, c] := by
    match hd : v.dims, hr with
    | [r, c], _ => exact ⟨r, c, rfl⟩
  obtain ⟨s0, s1, hss⟩ : ∃ s0 s1, v.map.strides = [s0, s1] := by
    have : v.map.strides.length = 2 := by rw [hl]; exact hr
    match hd : v.map.strides, this with
    | [r, c], _ => exact ⟨r, c, rfl⟩
  have hrc' : v.map.dims = [r, c] := hrc
  have hidx := index_eq v h
  simp only [Mapping.dim_eq, Mapping.stride_eq _ h, hrc', hss]
  rw [hrc, hss] at hidx
  simp only [List.getElem?_cons_zero, List.getElem?_cons_succ, Option.bind_eq_bind, Option.bind_some]
  have hnew : ∀ len : Nat, Mapping.newStrided ⟨.static [.dyn], [len]⟩ [s0 + s1] =
      some (Mapping.strided ⟨.static [.dyn], [len]⟩ [s0 + s1]) := fun len => rfl
  have hwf : ∀ len, (Mapping.strided ⟨.static [.dyn], [len]⟩ [s0 + s1]).WF := fun len => by
    refine ⟨?_, rfl⟩
    show (ShapeTy.static [.dyn]).Conforms _; simp
  have hix : ∀ (ptr : Int) (len i : Nat), (View.mk ptr
      (Mapping.strided ⟨.static [.dyn], [len]⟩ [s0 + s1])).index [i] =
      if i < len then some (ptr + (s0 + s1) * i) else none := fun ptr len i => by
    rw [index_eq _ (hwf len)]
    show (if Valid [len] [i] then some (ptr + dot [s0 + s1] [i]) else none) = _
    simp
  by_cases hk : 0 ≤ k
  · simp only [hk, if_true]
    by_cases hkc : k.toNat ≤ c
    · have e1 : check (k.toNat ≤ c) = some () := if_pos hkc
      simp only [e1, Option.bind_some, Option.pure_def, hnew]
      refine ⟨iff_of_true rfl ⟨r, c, rfl, by omega, by omega⟩, ?_⟩
      rintro v' hv
      injection hv with hv
      refine ⟨r, c, rfl, ?_⟩
      subst hv
      have e2 : (-k).toNat = 0 := by omega
      refine ⟨hwf _, rfl, by rw [e2]; rfl, fun i => ?_⟩
      rw [hix, hidx, e2]
      simp only [valid_cons, valid_nil, and_true, add_zero]
      by_cases hi : i < min r (c - k.toNat)
      · rw [if_pos hi, if_pos (show i < r ∧ i + k.toNat < c by omega), if_pos (by omega)]
        simp
        have : ((k.toNat : Nat) : Int) = k := by omega
        have : max k 0 = k := by omega
        rw [this]; ring
      · rw [if_neg hi, if_neg (show ¬ (i < r ∧ i + k.toNat < c) by omega)]
    · have e1 : check (k.toNat ≤ c) = none := if_neg hkc
      simp only [e1, Option.bind_none]
      refine ⟨?_, by simp⟩
      simp only [Option.isSome_none, Bool.false_eq_true, false_iff, not_exists, not_and]
      intro r' c' e h1; simp at e; omega
  · simp only [hk, if_false]
    by_cases hkc : (-k).toNat ≤ r
    · have e1 : check ((-k).toNat ≤ r) = some () := if_pos hkc
      simp only [e1, Option.bind_some, Option.pure_def, hnew]
      refine ⟨iff_of_true rfl ⟨r, c, rfl, by omega, by omega⟩, ?_⟩
      rintro v' hv
      injection hv with hv
      refine ⟨r, c, rfl, ?_⟩
      subst hv
      have e2 : k.toNat = 0 := by omega
      refine ⟨hwf _, rfl, by rw [e2, min_comm]; rfl, fun i => ?_⟩
      rw [hix, hidx, e2]
      simp only [valid_cons, valid_nil, and_true, add_zero]
      by_cases hi : i < min c (r - (-k).toNat)
      · rw [if_pos hi, if_pos (show i + (-k).toNat < r ∧ i < c by omega), if_pos (by omega)]
        have h3 : (((-k).toNat : Nat) : Int) = -k := by omega
        simp only [dot_cons, dot_nil_nil, Nat.cast_add, h3]
        congr 1; ring
      · rw [if_neg hi, if_neg (show ¬ (i + (-k).toNat < r ∧ i < c) by omega)]
    · have e1 : check ((-k).toNat ≤ r) = none := if_neg hkc
      simp only [e1, Option.bind_none]
      refine ⟨?_, by simp⟩
      simp only [Option.isSome_none, Bool.false_eq_true, false_iff, not_exists, not_and]
      intro r' c' e h1; simp at e; omega

theorem fromDims_two {ty : ShapeTy} {dims : List Nat} (hc : ty.Conforms dims) :
    Shape.fromDims (.static [ty.head, ty.tail.head]) dims =
      if dims.length = 2 then some ⟨.static [ty.head, ty.tail.head], dims⟩ else none := by
  rw [Shape.fromDims_eq]
  match dims, hc with
  | [], _ => simp
  | [_], _ => simp
  | [a, b], hc =>
    rw [if_pos]
    · simp
    · simp [ShapeTy.conforms_head hc, ShapeTy.conforms_head (ShapeTy.conforms_tail hc)]
  | _ :: _ :: _ :: _, _ => simp

/-- Row in closed form. -/
theorem row_spec (v : View) (h : v.map.WF) (i : Nat) (hd : ∀ d ∈ v.dims, d < usizeMax)
    (ho : NoOverflow usizeMax v.dims) :
    ((v.row i).isSome ↔ ∃ r c : Nat, v.dims = [r, c] ∧ i < r) ∧
    ∀ v', v.row i = some v' → ∃ r c : Nat, v.dims = [r, c] ∧ v'.map.WF ∧
      v'.dims = [c] ∧ ∀ j, v'.index j = v.index (i :: j) := by
  unfold row
  rw [fromDims_two h.1]
  by_cases hl : v.dims.length = 2
  swap
  · rw [if_neg hl]
    refine ⟨?_, by simp⟩
    simp only [Option.bind_eq_bind, Option.bind_none, Option.isSome_none, Bool.false_eq_true,
      false_iff, not_exists, not_and]
    intro r c e; rw [e] at hl; simp at hl
  obtain ⟨r, c, hrc⟩ : ∃ r c, v.dims = [r, c] := by
    match hd : v.dims, hl with
    | [r, c], _ => exact ⟨r, c, rfl⟩
  rw [if_pos hl]
  have hc : (ShapeTy.static [v.ty.head, v.ty.tail.head]).Conforms v.dims := by
    have := h.1
    have h' : v.ty.Conforms [r, c] := hrc ▸ this
    rw [hrc]
    simp [ShapeTy.conforms_head h', ShapeTy.conforms_head (ShapeTy.conforms_tail h')]
  obtain ⟨w, hw, hwf, hwd, _, _, hwi⟩ := reshape_same v h hc
    (fun hm => absurd (hd _ hm) (by omega)) ho
  simp only [Option.bind_eq_bind, Option.bind_some, hw]
  have hs := view_spec w hwf [.int i, .full] (by rw [hwd]; exact hl)
    (by rw [hwd]; exact fun d hm => by have := hd d hm; omega)
  rw [hwd, hrc] at hs
  have hsel : selectAll [.int i, .full] [r, c] =
      if i < r then some [.drop i, .keep (List.range c)] else none := by
    simp only [selectAll, select]
    split <;> simp
  rw [hsel] at hs
  by_cases hi : i < r
  · rw [if_pos hi] at hs
    refine ⟨hs.1.trans (iff_of_true rfl ⟨r, c, hrc, hi⟩), ?_⟩
    intro v' hv
    obtain ⟨a1, a2, _, a3, a4⟩ := hs.2 v' _ hv rfl
    refine ⟨r, c, hrc, a1, by rw [a2]; simp [selDims], fun j => ?_⟩
    rw [a4, ← hwi]
    match j with
    | [] =>
      rw [show pull [Sel.drop i, .keep (List.range c)] [] = none from rfl]
      rw [index_eq _ hwf, if_neg]; · rfl
      · rw [hwd, hrc]; simp
    | [j] =>
      by_cases hj : j < c
      · rw [show pull [Sel.drop i, .keep (List.range c)] [j] = some [i, j] by
          simp [pull, hj]]
        rfl
      · rw [show pull [Sel.drop i, .keep (List.range c)] [j] = none by
          simp [pull, hj]]
        rw [index_eq _ hwf, if_neg]; · rfl
        · rw [hwd, hrc]; simp [hj]
    | j :: j' :: js =>
      rw [show pull [Sel.drop i, .keep (List.range c)] (j :: j' :: js) = none by
        simp [pull]]
      rw [index_eq _ hwf, if_neg]; · rfl
      · rw [hwd, hrc]; simp
  · rw [if_neg hi] at hs
    refine ⟨?_, fun v' hv => ?_⟩
    · rw [hs.1]
      simp only [Option.isSome_none, Bool.false_eq_true, false_iff, not_exists, not_and]
      intro r' c' e; rw [hrc] at e; simp at e; omega
    · have := hs.1.1 (by rw [hv]; rfl); simp at this

/-- Column in closed form. -/
theorem col_spec (v : View) (h : v.map.WF) (i : Nat) (hd : ∀ d ∈ v.dims, d < usizeMax)
    (ho : NoOverflow usizeMax v.dims) :
    ((v.col i).isSome ↔ ∃ r c : Nat, v.dims = [r, c] ∧ i < c) ∧
    ∀ v', v.col i = some v' → ∃ r c : Nat, v.dims = [r, c] ∧ v'.map.WF ∧
      v'.dims = [r] ∧ ∀ j, v'.index j = v.index (j ++ [i]) := by
  unfold col
  rw [fromDims_two h.1]
  by_cases hl : v.dims.length = 2
  swap
  · rw [if_neg hl]
    refine ⟨?_, by simp⟩
    simp only [Option.bind_eq_bind, Option.bind_none, Option.isSome_none, Bool.false_eq_true,
      false_iff, not_exists, not_and]
    intro r c e; rw [e] at hl; simp at hl
  obtain ⟨r, c, hrc⟩ : ∃ r c, v.dims = [r, c] := by
    match hd : v.dims, hl with
    | [r, c], _ => exact ⟨r, c, rfl⟩
  rw [if_pos hl]
  have hc : (ShapeTy.static [v.ty.head, v.ty.tail.head]).Conforms v.dims := by
    have := h.1
    have h' : v.ty.Conforms [r, c] := hrc ▸ this
    rw [hrc]
    simp [ShapeTy.conforms_head h', ShapeTy.conforms_head (ShapeTy.conforms_tail h')]
  obtain ⟨w, hw, hwf, hwd, _, _, hwi⟩ := reshape_same v h hc
    (fun hm => absurd (hd _ hm) (by omega)) ho
  simp only [Option.bind_eq_bind, Option.bind_some, hw]
  have hs := view_spec w hwf [.full, .int i] (by rw [hwd]; exact hl)
    (by rw [hwd]; exact fun d hm => by have := hd d hm; omega)
  rw [hwd, hrc] at hs
  have hsel : selectAll [.full, .int i] [r, c] =
      if i < c then some [.keep (List.range r), .drop i] else none := by
    simp only [selectAll, select]
    split <;> simp
  rw [hsel] at hs
  by_cases hi : i < c
  · rw [if_pos hi] at hs
    refine ⟨hs.1.trans (iff_of_true rfl ⟨r, c, hrc, hi⟩), ?_⟩
    intro v' hv
    obtain ⟨a1, a2, _, a3, a4⟩ := hs.2 v' _ hv rfl
    refine ⟨r, c, hrc, a1, by rw [a2]; simp [selDims], fun j => ?_⟩
    rw [a4, ← hwi]
    match j with
    | [] =>
      rw [show pull [.keep (List.range r), Sel.drop i] [] = none from rfl]
      rw [index_eq _ hwf, if_neg]; · rfl
      · rw [hwd, hrc]; simp
    | [j] =>
      by_cases hj : j < r
      · rw [show pull [.keep (List.range r), Sel.drop i] [j] = some [j, i] by
          simp [pull, hj]]
        rfl
      · rw [show pull [.keep (List.range r), Sel.drop i] [j] = none by
          simp [pull, hj]]
        rw [index_eq _ hwf, if_neg]; · rfl
        · rw [hwd, hrc]; simp [hj]
    | j :: j' :: js =>
      rw [show pull [.keep (List.range r), Sel.drop i] (j :: j' :: js) = none by
        simp [pull]]
      rw [index_eq _ hwf, if_neg]; · rfl
      · rw [hwd, hrc]; simp
  · rw [if_neg hi] at hs
    refine ⟨?_, fun v' hv => ?_⟩
    · rw [hs.1]
      simp only [Option.isSome_none, Bool.false_eq_true, false_iff, not_exists, not_and]
      intro r' c' e; rw [hrc] at e; simp at e; omega
    · have := hs.1.1 (by rw [hv]; rfl); simp at this

end View
end Model
