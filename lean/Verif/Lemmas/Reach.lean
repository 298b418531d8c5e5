import Verif.Lemmas.ViewOps
import Verif.Spec.Reach

/-! Every view call yields a part of the view it is applied to. -/

namespace Model
open Spec
namespace View

/-- Invariant of views that exist at run time. -/
structure Inv (v : View) : Prop where
  wf : v.map.WF
  usize : Usize v.dims
  size : Spec.size v.dims ≤ usizeMax

/-- `v'` addresses, injectively, elements addressed by `v`. -/
def Sub (v' v : View) : Prop :=
  ∃ pb : List Nat → List Nat,
    (∀ j, Valid v'.dims j → Valid v.dims (pb j) ∧ v'.index j = v.index (pb j)) ∧
    ∀ j j', Valid v'.dims j → Valid v'.dims j' → pb j = pb j' → j = j'

theorem Sub.refl (v : View) : Sub v v := ⟨id, fun _ h => ⟨h, rfl⟩, fun _ _ _ _ h => h⟩

theorem Sub.trans {a b c : View} (h1 : Sub a b) (h2 : Sub b c) : Sub a c := by
  obtain ⟨p, hp, hp'⟩ := h1
  obtain ⟨q, hq, hq'⟩ := h2
  refine ⟨q ∘ p, fun j hj => ?_, fun j j' hj hj' e => ?_⟩
  · obtain ⟨h1, h2⟩ := hp j hj
    obtain ⟨h3, h4⟩ := hq _ h1
    exact ⟨h3, h2.trans h4⟩
  · exact hp' j j' hj hj' (hq' _ _ (hp j hj).1 (hp j' hj').1 e)

theorem Sub.size_le {a b : View} (h : Sub a b) : Spec.size a.dims ≤ Spec.size b.dims := by
  obtain ⟨p, hp, hp'⟩ := h
  rw [← length_allIdx a.dims, ← length_allIdx b.dims, ← List.length_map p]
  apply List.Subperm.length_le
  apply List.subperm_of_subset
  · apply List.Nodup.map_on _ (allIdx_nodup _)
    intro x hx y hy e
    exact hp' x y (mem_allIdx.1 hx) (mem_allIdx.1 hy) e
  · intro x hx
    obtain ⟨j, hj, rfl⟩ := List.mem_map.1 hx
    exact mem_allIdx.2 (hp j (mem_allIdx.1 hj)).1

/-- Result of a call: the invariant, and part of the original. -/
def Good (v' v : View) : Prop := v'.map.WF ∧ Usize v'.dims ∧ Sub v' v

theorem Good.inv {v' v : View} (h : Good v' v) (hv : v.Inv) : v'.Inv :=
  ⟨h.1, h.2.1, h.2.2.size_le.trans hv.size⟩

theorem Good.trans {a b c : View} (h1 : Good a b) (h2 : Good b c) : Good a c :=
  ⟨h1.1, h1.2.1, h1.2.2.trans h2.2.2⟩

theorem good_axisAt {v v' : View} {a i} (h : v.Inv) (hv : v.axisAt a i = some v') : Good v' v := by
  obtain ⟨p, _, hlt, hi, hw, hd, _, hidx⟩ := axisAt_parts h.wf hv
  refine ⟨hw, ?_, fun j => j.insertIdx p i, fun j hj => ⟨?_, hidx j⟩, fun j j' hj hj' e => ?_⟩
  · rw [hd]; exact fun d hm => h.usize d (List.eraseIdx_subset hm)
  · rw [hd] at hj
    exact (valid_insertIdx hlt).2 ⟨by simpa [hlt] using hi, hj⟩
  · exact List.insertIdx_injective p i e

theorem good_split {v v₁ v₂ : View} {a mid} (h : v.Inv)
    (hv : v.splitAxisAt a mid = some (v₁, v₂)) : Good v₁ v ∧ Good v₂ v := by
  obtain ⟨p, _, hlt, hi, hw1, hw2, hd1, hd2, _, _, hidx1, hidx2⟩ := splitAxisAt_parts h.wf hv
  have hg : v.dims.getD p 0 = v.dims[p] := by simp [hlt]
  rw [hg] at hi hd2
  have hus : ∀ n ≤ v.dims[p], Usize (v.dims.set p n) := fun n hn d hm => by
    rcases List.mem_or_eq_of_mem_set hm with hm | rfl
    · exact h.usize d hm
    · exact hn.trans (h.usize _ (List.getElem_mem _))
  constructor
  · refine ⟨hw1, by rw [hd1]; exact hus _ hi, id, fun j hj => ?_, fun _ _ _ _ e => e⟩
    rw [hd1, valid_set_le hlt hi] at hj
    refine ⟨hj.1, ?_⟩
    rw [hidx1, if_pos hj.2]; rfl
  · refine ⟨hw2, by rw [hd2]; exact hus _ (by omega), fun j => j.modify p (· + mid),
      fun j hj => ⟨?_, hidx2 j⟩, fun j j' hj hj' e => ?_⟩
    · rw [hd2] at hj; exact (valid_modify hlt hi).2 hj
    · apply List.ext_getElem?
      intro k
      have := congrArg (·[k]?) e
      simp only [List.getElem?_modify] at this
      by_cases hk : p = k
      · subst hk
        simp only [if_true] at this
        have inj : Function.Injective (fun x : Nat => x + mid) := fun x y hxy => by simpa using hxy
        exact Option.map_injective inj this
      · simpa [hk] using this

theorem selDims_usize {xs : List DimIdx} : ∀ {ds : List Nat} {sel}, selectAll xs ds = some sel →
    Usize ds → Usize (selDims sel) := by
  induction xs with
  | nil =>
    intro ds sel h hu
    cases ds with
    | nil => simp [selectAll] at h; subst h; simpa [selDims] using hu
    | cons d ds => simp [selectAll] at h
  | cons x xs ih =>
    intro ds sel h hu
    cases ds with
    | nil => simp [selectAll] at h
    | cons d ds =>
      simp only [selectAll, Option.bind_eq_bind, Option.bind_eq_some_iff] at h
      obtain ⟨s, hs, ss, hss, e⟩ := h
      have hd : d ≤ usizeMax := hu d (by simp)
      have := ih hss (fun y hy => hu y (by simp [hy]))
      simp at e; subst e
      cases s with
      | drop i => exact this
      | keep l =>
        intro y hy
        simp only [selDims, List.mem_cons] at hy
        rcases hy with rfl | hy
        · refine le_trans ?_ hd
          cases x with
          | int i => simp [select] at hs
          | full => simp [select] at hs; subst hs; simp
          | range a b =>
            simp only [select] at hs
            split at hs
            · simp at hs; subst hs; simp; omega
            · simp at hs
          | step a b st =>
            simp only [select] at hs
            split at hs
            · rename_i hc
              simp at hs; subst hs
              unfold stepCoords
              split
              · exact (List.length_filter_le ..).trans (by simp; omega)
              · rw [List.length_reverse]
                exact (List.length_filter_le ..).trans (by simp; omega)
            · simp at hs
        · exact this y hy

theorem select_nodup {x : DimIdx} {d : Nat} {l} (h : select x d = some (.keep l)) : l.Nodup := by
  cases x with
  | int i => simp [select] at h
  | full => simp [select] at h; subst h; exact List.nodup_range
  | range a b =>
    simp only [select] at h
    split at h
    · simp at h; subst h; exact List.nodup_range'
    · simp at h
  | step a b st =>
    simp only [select] at h
    split at h
    · simp at h; subst h
      unfold stepCoords
      split
      · exact List.Nodup.filter _ List.nodup_range'
      · rw [List.nodup_reverse]; exact List.Nodup.filter _ List.nodup_range'
    · simp at h

theorem pull_inj {xs : List DimIdx} : ∀ {ds : List Nat} {sel j j' i}, selectAll xs ds = some sel →
    pull sel j = some i → pull sel j' = some i → j = j' := by
  induction xs with
  | nil =>
    intro ds sel j j' i h h1 h2
    cases ds with
    | nil =>
      simp [selectAll] at h; subst h
      cases j <;> cases j' <;> simp_all [pull]
    | cons d ds => simp [selectAll] at h
  | cons x xs ih =>
    intro ds sel j j' i h h1 h2
    cases ds with
    | nil => simp [selectAll] at h
    | cons d ds =>
      simp only [selectAll, Option.bind_eq_bind, Option.bind_eq_some_iff] at h
      obtain ⟨s, hs, ss, hss, e⟩ := h
      simp at e; subst e
      cases s with
      | drop a =>
        simp only [pull, Option.bind_eq_bind, Option.bind_eq_some_iff] at h1 h2
        obtain ⟨r1, e1, f1⟩ := h1
        obtain ⟨r2, e2, f2⟩ := h2
        simp at f1 f2; subst f1; simp at f2; subst f2
        exact ih hss e1 e2
      | keep l =>
        cases j with
        | nil => simp [pull] at h1
        | cons c j =>
          cases j' with
          | nil => simp [pull] at h2
          | cons c' j' =>
            simp only [pull, Option.bind_eq_bind, Option.bind_eq_some_iff] at h1 h2
            obtain ⟨y1, g1, r1, e1, f1⟩ := h1
            obtain ⟨y2, g2, r2, e2, f2⟩ := h2
            simp at f1 f2; subst f1; simp at f2
            obtain ⟨rfl, rfl⟩ := f2
            have hn := select_nodup hs
            obtain ⟨b1, _⟩ := List.getElem?_eq_some_iff.1 g1
            have : c = c' := (List.getElem?_inj b1 hn).1 (g1.trans g2.symm)
            rw [this, ih hss e1 e2]

theorem good_view {v v' : View} {xs} (h : v.Inv) (hx : v.dims.length = xs.length)
    (hv : v.view xs = some v') : Good v' v := by
  obtain ⟨h1, h2⟩ := view_spec v h.wf xs hx h.usize
  obtain ⟨sel, hs⟩ := Option.isSome_iff_exists.1 (h1.1 (by rw [hv]; rfl))
  obtain ⟨hw, hd, _, hp, hidx⟩ := h2 v' sel hv hs
  refine ⟨hw, by rw [hd]; exact selDims_usize hs h.usize, fun j => (pull sel j).getD [],
    fun j hj => ?_, fun j j' hj hj' e => ?_⟩
  · rw [← index_isSome v' hw, hidx] at hj
    cases hq : pull sel j with
    | none => rw [hq] at hj; simp at hj
    | some i =>
      simp only [hq, Option.getD_some]
      exact ⟨hp j i hq, by rw [hidx, hq]; rfl⟩
  · rw [← index_isSome v' hw, hidx] at hj hj'
    cases hq : pull sel j with
    | none => rw [hq] at hj; simp at hj
    | some i =>
      cases hq' : pull sel j' with
      | none => rw [hq'] at hj'; simp at hj'
      | some i' =>
        simp only [hq, hq', Option.getD_some] at e; subst e
        exact pull_inj hs hq hq'

theorem gather_surj {p : List Nat} {n : Nat} (hp : p.Perm (List.range n)) {j : List Nat}
    (hj : j.length = n) : ∃ i : List Nat, i.length = n ∧ (p.map fun c => i.getD c 0) = j := by
  have hl : p.length = n := by simpa using hp.length_eq
  have hnd : p.Nodup := hp.nodup_iff.2 List.nodup_range
  have hm : ∀ c ∈ p, c < n := fun c hc => by simpa using hp.mem_iff.1 hc
  refine ⟨(List.range n).map fun c => j.getD (p.idxOf c) 0, by simp, ?_⟩
  apply List.ext_getElem
  · simp [hl, hj]
  · intro k h1 h2
    simp at h1
    have := hm _ (List.getElem_mem h1)
    simp only [List.getElem_map, List.getD_eq_getElem?_getD, List.getElem?_map,
      List.getElem?_range this, Option.map_some, Option.getD_some]
    rw [hnd.idxOf_getElem k h1, List.getElem?_eq_getElem h2]; rfl

theorem good_permute {v v' : View} {checks perm} (h : v.Inv)
    (hr : checks = true ∨ v.dims.length < 64) (hv : v.permute checks perm = some v') :
    Good v' v := by
  obtain ⟨hp, hw, hd, _, hidx⟩ := permute_parts h.wf hr hv
  have hl : perm.dims.length = v.dims.length := by simpa using hp.length_eq
  have key : ∀ j : List Nat, ∃ i : List Nat, j.length = v.dims.length → i.length = v.dims.length ∧
      (perm.dims.map fun c => i.getD c 0) = j := fun j => by
    by_cases hj : j.length = v.dims.length
    · obtain ⟨i, hi⟩ := gather_surj hp hj; exact ⟨i, fun _ => hi⟩
    · exact ⟨[], fun h => absurd h hj⟩
  choose pb hpb using key
  have hlen : ∀ j, Valid v'.dims j → j.length = v.dims.length := fun j hj => by
    rw [hj.length, hd]; simp [hl]
  refine ⟨hw, ?_, pb, fun j hj => ?_, fun j j' hj hj' e => ?_⟩
  · rw [hd]
    intro d hm
    obtain ⟨c, hc, rfl⟩ := List.mem_map.1 hm
    have hc' : c < v.dims.length := by simpa using hp.mem_iff.1 hc
    simp only [List.getD_eq_getElem?_getD, List.getElem?_eq_getElem hc', Option.getD_some]
    exact h.usize _ (List.getElem_mem _)
  · obtain ⟨h1, h2⟩ := hpb j (hlen j hj)
    have := hidx _ h1
    rw [h2] at this
    refine ⟨?_, this⟩
    rw [← index_isSome v h.wf, ← this, index_isSome v' hw]; exact hj
  · rw [← (hpb j (hlen j hj)).2, ← (hpb j' (hlen j' hj')).2, e]

theorem good_reorder {v v' : View} (h : v.Inv) (hv : v.reorder = some v') : Good v' v := by
  obtain ⟨hw, hd, _, hidx⟩ := reorder_parts h.wf hv
  refine ⟨hw, ?_, List.reverse, fun j hj => ⟨?_, hidx j⟩, fun j j' _ _ e => List.reverse_injective e⟩
  · rw [hd]; exact fun d hm => h.usize d (List.mem_reverse.1 hm)
  · rw [hd] at hj; exact valid_reverse.1 hj

/-- Same row-major sequence. -/
theorem sub_of_lin {v v' : View} (h : v.map.WF) (hw : v'.map.WF)
    (hs : Spec.size v'.dims = Spec.size v.dims)
    (hk : ∀ k, v'.linIndex k = v.linIndex k) : Sub v' v := by
  refine ⟨fun j => unrank v.dims (rowMajor v'.dims j), fun j hj => ?_, fun j j' hj hj' e => ?_⟩
  · have hlt := rowMajor_lt hj
    refine ⟨unrank_valid (by omega), ?_⟩
    rw [index_linIndex v' hw hj, hk, linIndex_index v h, if_pos (by omega)]
  · have h1 := rowMajor_lt hj
    have h2 := rowMajor_lt hj'
    have := congrArg (rowMajor v.dims) e
    rw [rowMajor_unrank (by omega), rowMajor_unrank (by omega)] at this
    exact rowMajor_inj hj hj' this

theorem resolves_usize {n : Nat} {req dims : List Nat} (h : Resolves usizeMax n req dims)
    (hn : n ≤ usizeMax) (hu : Usize req) : Usize dims := by
  cases h with
  | exact _ _ => exact hu
  | @infer a b m _ _ hp he =>
    intro d hd
    simp only [List.mem_append, List.mem_cons] at hd
    rcases hd with hd | rfl | hd
    · exact hu d (by simp [hd])
    · exact le_trans (Nat.le_mul_of_pos_left _ hp) (he ▸ hn)
    · exact hu d (by simp [hd])

theorem good_reshape {v v' : View} {ns : Shape} (h : v.Inv) (hw : ns.WF) (hu : Usize ns.dims)
    (hv : v.reshape ns = some v') : Good v' v := by
  obtain ⟨h1, _, h3, h4, _, h5⟩ := reshape_spec h.wf hw hv
  exact ⟨h1, resolves_usize h3 h.size hu, sub_of_lin h.wf h1 h4 h5⟩

theorem good_remap {v v' : View} {ty L} (h : v.Inv) (hv : v.remap ty L = some v') : Good v' v := by
  obtain ⟨h1, h2, _, _, h5⟩ := remap_parts h.wf hv
  refine ⟨h1, by rw [h2]; exact h.usize, id, fun j hj => ⟨h2 ▸ hj, h5 j⟩, fun _ _ _ _ e => e⟩

theorem good_flatten {v v' : View} (h : v.Inv) (hv : v.flatten = some v') : Good v' v := by
  unfold flatten at hv
  refine good_reshape h ?_ ?_ hv
  · show (ShapeTy.static [.dyn]).Conforms _; simp
  · intro d hd; simp at hd; subst hd; rw [Mapping.len_eq]; exact h.size

theorem good_line {v v' : View} {xs : List DimIdx} (h : v.Inv) (hx : xs.length = 2)
    (hv : (do
      let shape ← Shape.fromDims (.static [v.ty.head, v.ty.tail.head]) v.dims
      let w ← v.reshape shape
      w.view xs) = some v') : Good v' v := by
  rw [fromDims_two h.wf.1] at hv
  split at hv
  swap
  · simp at hv
  rename_i hl
  simp only [Option.bind_eq_bind, Option.bind_some, Option.bind_eq_some_iff] at hv
  obtain ⟨w, hw, hv⟩ := hv
  have hwf : (⟨.static [v.ty.head, v.ty.tail.head], v.dims⟩ : Shape).WF := by
    have := fromDims_two h.wf.1
    rw [Shape.fromDims_eq, if_pos hl] at this
    split at this
    · assumption
    · simp at this
  have hg := good_reshape h hwf h.usize hw
  refine (good_view (hg.inv h) ?_ hv).trans hg
  obtain ⟨h1, _, h3, h4, _, h5⟩ := reshape_spec h.wf hwf hw
  have : (ShapeTy.static [v.ty.head, v.ty.tail.head]).Conforms w.dims := by
    have := h1.1
    unfold Shape.WF at this
    rw [show w.map.shape.ty = _ from by assumption] at this
    exact this
  rw [← ShapeTy.conforms_static_length this, hx]; rfl

theorem good_diag {v v' : View} {k} (h : v.Inv) (hv : v.diag k = some v') : Good v' v := by
  obtain ⟨r, c, hrc, hw, _, hd, hidx⟩ := (diag_spec v h.wf k).2 v' hv
  have hr : r ≤ usizeMax := h.usize r (by rw [hrc]; simp)
  refine ⟨hw, ?_, fun j => match j with
    | [i] => [i + (-k).toNat, i + k.toNat]
    | _ => [], fun j hj => ?_, fun j j' hj hj' e => ?_⟩
  · rw [hd]; intro d hm; simp at hm; omega
  · rw [hd] at hj
    obtain ⟨i, is, rfl, hi, hj⟩ := valid_cons'.1 hj
    simp at hj; subst hj
    refine ⟨?_, hidx i⟩
    rw [hrc]; simp; omega
  · rw [hd] at hj hj'
    obtain ⟨i, is, rfl, hi, hj⟩ := valid_cons'.1 hj
    obtain ⟨i', is', rfl, hi', hj'⟩ := valid_cons'.1 hj'
    simp at hj hj'; subst hj; subst hj'
    simp at e; simp [e]

theorem good_call {v v' : View} {checks} (h : v.Inv) (hr : checks = true ∨ v.dims.length < 64)
    (hc : Call checks v v') : Good v' v := by
  cases hc with
  | at_ hv => exact good_axisAt h hv
  | axisAt hv => exact good_axisAt h hv
  | splitAtFst hv => exact (good_split h hv).1
  | splitAtSnd hv => exact (good_split h hv).2
  | splitAxisAtFst hv => exact (good_split h hv).1
  | splitAxisAtSnd hv => exact (good_split h hv).2
  | view hx hv => exact good_view h hx hv
  | permute _ hv => exact good_permute h hr hv
  | reorder hv => exact good_reorder h hv
  | reshape hw hu hv => exact good_reshape h hw hu hv
  | flatten hv => exact good_flatten h hv
  | remap hv => exact good_remap h hv
  | intoDyn hv => exact good_remap h hv
  | row hv => exact good_line h (xs := [_, _]) rfl hv
  | col hv => exact good_line h (xs := [_, _]) rfl hv
  | diag hv => exact good_diag h hv

theorem good_reach {root v : View} {checks} (h : root.Inv) (hr : Reach checks root v) :
    Good v root := by
  induction hr with
  | refl => exact ⟨h.wf, h.usize, .refl _⟩
  | call _ hr hc ih => exact (good_call (ih.inv h) hr hc).trans ih

theorem inv_whole {s : Shape} (hw : s.WF) (hu : Usize s.dims) (hs : Spec.size s.dims ≤ usizeMax) :
    (whole s).Inv := ⟨Mapping.wf_dense.2 hw, hu, hs⟩

theorem index_whole {s : Shape} (hw : s.WF) (j : List Nat) :
    (whole s).index j = if Valid s.dims j then some (rowMajor s.dims j : Int) else none := by
  rw [index_eq _ (Mapping.wf_dense.2 hw)]
  show (if Valid s.dims j then some (0 + dot (denseStrides s.dims) j) else none) = _
  by_cases hj : Valid s.dims j
  · rw [if_pos hj, if_pos hj, dot_denseStrides hj.length]; simp
  · rw [if_neg hj, if_neg hj]

end View
end Model
