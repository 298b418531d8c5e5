import Verif.Lemmas.MachineView

/-! Results of the mapping operations with machine integers, whatever the sizes: their shapes, and that
stored strides are `isize` values. -/

namespace Model
open Spec
namespace Machine

/-- Stored strides are `isize` values. -/
def FitM : Mapping → Prop
  | .dense _ => True
  | .strided _ st => ∀ s ∈ st, FitsI s

section
variable {checks : Bool} {m m' : Mapping}

theorem check_some {p : Prop} [Decidable p] {u} (h : check p = some u) : p := by
  unfold check at h
  split at h
  · assumption
  · simp at h

theorem dimsNew_any {ty : ShapeTy} {n st} (h : dimsNew ty n = some st) :
    st.length = n ∧ ∀ s ∈ st, FitsI s := by
  have hz : ∀ s ∈ List.replicate n (0 : Int), FitsI s := fun s hs => by
    rw [(List.mem_replicate.1 hs).2]; exact fits_zero
  unfold dimsNew at h
  cases ty with
  | dynRank => simp at h; subst h; exact ⟨by simp, hz⟩
  | static ds =>
    simp only at h
    split at h
    · simp at h; subst h; exact ⟨by simp, hz⟩
    · simp at h

theorem denseCalls_fit (g : Nat → Option Nat) (f : Nat → Int) (hf : ∀ n, FitsI (f n))
    {l : List (Nat × Nat)} {r}
    (h : l.foldr (fun x acc => do
      let (calls, stride) ← acc
      let stride' ← g (stride * x.1)
      pure (calls ++ [(x.2, f stride)], stride')) (some (([] : List (Nat × Int)), 1)) = some r) :
    ∀ c ∈ r.1, FitsI c.2 := by
  induction l generalizing r with
  | nil => simp at h; subst h; simp
  | cons x l ih =>
    simp only [List.foldr_cons, Option.bind_eq_bind, Option.bind_eq_some_iff] at h
    obtain ⟨⟨cs, k⟩, h1, k', h2, h3⟩ := h
    obtain rfl := Option.some.inj h3
    have := ih h1
    intro c hc
    rcases List.mem_append.1 hc with hc | hc
    · exact this c hc
    · rw [List.mem_singleton.1 hc]; exact hf _

theorem calls_any (hm : FitM m) {cs} (h : calls checks m = some cs) : ∀ c ∈ cs, FitsI c.2 := by
  cases m with
  | dense s =>
    simp only [calls, Option.map_eq_some_iff] at h
    obtain ⟨r, h1, rfl⟩ := h
    exact denseCalls_fit (retU checks) castI castI_fits h1
  | strided s st =>
    simp only [calls, Option.some.injEq] at h
    subst h
    intro c hc
    obtain ⟨i, x⟩ := c
    have := Mapping.mem_forEachStride.1 hc
    exact hm _ (List.mem_of_getElem? this)

theorem storeStrides_any {cs : List (Nat × Int)} {f : Nat → Option Nat} {st st' : List Int}
    (hc : ∀ c ∈ cs, FitsI c.2) (hs : ∀ s ∈ st, FitsI s)
    (h : Mapping.storeStrides cs f st = some st') : st'.length = st.length ∧ ∀ s ∈ st', FitsI s := by
  unfold Mapping.storeStrides at h
  induction cs generalizing st with
  | nil => simp at h; subst h; exact ⟨rfl, hs⟩
  | cons c cs ih =>
    rw [List.foldlM_cons, Option.bind_eq_bind, Option.bind_eq_some_iff] at h
    obtain ⟨st1, h1, h2⟩ := h
    have key : st1.length = st.length ∧ ∀ s ∈ st1, FitsI s := by
      split at h1
      · unfold setM at h1
        split at h1
        · simp at h1; subst h1
          refine ⟨by simp, fun s hs' => ?_⟩
          rcases List.mem_or_eq_of_mem_set hs' with h | rfl
          · exact hs s h
          · exact hc c (by simp)
        · simp at h1
      · simp at h1; subst h1; exact ⟨rfl, hs⟩
    obtain ⟨e1, e2⟩ := ih (fun c hc' => hc c (by simp [hc'])) key.2 h2
    exact ⟨e1.trans key.1, e2⟩

theorem fromDims_any {ty : ShapeTy} {dims s} (h : Shape.fromDims ty dims = some s) :
    s.WF ∧ s.dims = dims ∧ s.ty = ty := by
  rw [Shape.fromDims_eq] at h
  split at h
  · simp at h; subst h; exact ⟨by assumption, rfl, rfl⟩
  · simp at h

theorem remap_any (hm : FitM m) {ty L} (h : remap checks m ty L = some m') :
    m'.WF ∧ m'.dims = m.dims ∧ FitM m' := by
  cases L with
  | dense =>
    simp only [remap, Option.bind_eq_bind, Option.bind_eq_some_iff] at h
    obtain ⟨_, _, _, _, s, hs, h⟩ := h
    simp at h; subst h
    obtain ⟨h1, h2, _⟩ := fromDims_any hs
    exact ⟨Mapping.wf_dense.2 h1, h2, trivial⟩
  | strided =>
    simp only [remap, Option.bind_eq_bind, Option.bind_eq_some_iff] at h
    obtain ⟨st, hd, cs, hc, st', hst, s, hs, h⟩ := h
    simp at h; subst h
    obtain ⟨h1, h2, _⟩ := fromDims_any hs
    obtain ⟨d1, d2⟩ := dimsNew_any hd
    obtain ⟨e1, e2⟩ := storeStrides_any (calls_any hm hc) d2 hst
    exact ⟨⟨h1, e1.trans (d1.trans (congrArg List.length h2.symm))⟩, h2, e2⟩

theorem permute_any (hm : FitM m) {perm ty L} (hr : checks = true ∨ m.dims.length < 64)
    (h : permute checks m perm ty L = some m') :
    m'.WF ∧ m'.dims = perm.map (fun p => m.dims.getD p 0) ∧ perm.Perm (List.range m.dims.length) ∧
      FitM m' := by
  cases L with
  | dense =>
    simp only [permute, Option.bind_eq_bind, Option.bind_eq_some_iff] at h
    obtain ⟨_, h1, _, h2, h3⟩ := h
    have h1 := check_some h1
    have h2 := check_some h2
    have e : perm = List.range m.dims.length := by
      apply List.ext_getElem
      · simp [h1]
      · intro i hi _
        have := h2 (perm[i], i) (by rw [List.mem_zipIdx_iff_getElem?]; simp [hi])
        simpa using this
    obtain ⟨g1, g2, g3⟩ := remap_any hm h3
    refine ⟨g1, ?_, by rw [e], g3⟩
    rw [g2, e]
    apply List.ext_getElem
    · simp
    · intro i h1 h2; simp [List.getD, h1]
  | strided =>
    simp only [permute, Option.bind_eq_bind, Option.bind_eq_some_iff] at h
    obtain ⟨_, h1, _, h2, _, h3, sh, hsh, st, hd, inv, _, cs, hc, st', hst, dims, hdims, sh', hsh', h⟩ := h
    simp at h; subst h
    have h1 := check_some h1
    have h2 := check_some h2
    have h3 := check_some h3
    have hr' : m.dims.length < 64 := by
      rcases hr with rfl | hr
      · simp [Mapping.permMaskOk] at h3; exact h3.1
      · exact hr
    have hperm : perm.Perm (List.range m.dims.length) :=
      Mapping.perm_iff.1 ⟨h1, h2, (Mapping.permMaskOk_iff hr' h2).1 h3⟩
    rw [Mapping.mapM_dim m perm h2] at hdims
    simp at hdims; subst hdims
    rw [Shape.withMutDims_eq] at hsh'
    simp only [Option.bind_some] at hsh'
    split at hsh'
    swap
    · simp at hsh'
    rename_i hcf
    simp at hsh'; subst hsh'
    obtain ⟨d1, d2⟩ := dimsNew_any hd
    obtain ⟨e1, e2⟩ := storeStrides_any (calls_any hm hc) d2 hst
    exact ⟨⟨hcf, e1.trans (d1.trans (by show _ = (List.map _ perm).length; rw [List.length_map, h1]))⟩, rfl, hperm, e2⟩

theorem prependDim_any (hm : FitM m) {n s ty L} (hs : FitsI s) (h : prependDim checks m n s ty L = some m') :
    m'.WF ∧ m'.dims = n :: m.dims ∧ FitM m' := by
  cases L with
  | dense =>
    simp only [prependDim, Option.bind_eq_bind, Option.bind_eq_some_iff, Shape.prependDim_eq] at h
    obtain ⟨_, _, _, _, _, _, s', hs', h⟩ := h
    simp at h; subst h
    split at hs'
    · simp at hs'; subst hs'; exact ⟨Mapping.wf_dense.2 (by assumption), rfl, trivial⟩
    · simp at hs'
  | strided =>
    simp only [prependDim, Option.bind_eq_bind, Option.bind_eq_some_iff, Shape.prependDim_eq] at h
    obtain ⟨st, hd, st1, h1, cs, hc, st2, hst, s', hs', h⟩ := h
    simp at h; subst h
    split at hs'
    swap
    · simp at hs'
    rename_i hcf
    simp at hs'; subst hs'
    obtain ⟨d1, d2⟩ := dimsNew_any hd
    unfold setM at h1
    split at h1
    swap
    · simp at h1
    simp at h1; subst h1
    obtain ⟨e1, e2⟩ := storeStrides_any (calls_any hm hc) (fun x hx => by
      rcases List.mem_or_eq_of_mem_set hx with h | rfl
      · exact d2 x h
      · exact hs) hst
    exact ⟨⟨hcf, e1.trans (by rw [List.length_set, d1]; rfl)⟩, rfl, e2⟩

theorem removeDim_any (hm : FitM m) {i ty L} (h : removeDim checks m i ty L = some m') :
    m'.WF ∧ i < m.dims.length ∧ m'.dims = m.dims.eraseIdx i ∧ FitM m' := by
  cases L with
  | dense =>
    simp only [removeDim, Option.bind_eq_bind, Option.bind_eq_some_iff, Shape.removeDim_eq] at h
    obtain ⟨_, _, _, _, s', hs', h⟩ := h
    simp at h; subst h
    split at hs'
    · rename_i hc
      simp at hs'; subst hs'; exact ⟨Mapping.wf_dense.2 hc.2, hc.1, rfl, trivial⟩
    · simp at hs'
  | strided =>
    simp only [removeDim, Option.bind_eq_bind, Option.bind_eq_some_iff, Shape.removeDim_eq] at h
    obtain ⟨_, _, st, hd, cs, hc, st2, hst, s', hs', h⟩ := h
    simp at h; subst h
    split at hs'
    swap
    · simp at hs'
    rename_i hcf
    simp at hs'; subst hs'
    obtain ⟨d1, d2⟩ := dimsNew_any hd
    obtain ⟨e1, e2⟩ := storeStrides_any (calls_any hm hc) d2 hst
    refine ⟨⟨hcf.2, ?_⟩, hcf.1, rfl, e2⟩
    refine e1.trans (d1.trans ?_)
    show _ = (m.dims.eraseIdx i).length
    rw [List.length_eraseIdx, if_pos hcf.1]

theorem resizeDim_any (hm : FitM m) {i n ty L} (h : resizeDim checks m i n ty L = some m') :
    m'.WF ∧ i < m.dims.length ∧ m'.dims = m.dims.set i n ∧ FitM m' := by
  cases L with
  | dense =>
    simp only [resizeDim, Option.bind_eq_bind, Option.bind_eq_some_iff, Shape.resizeDim_eq] at h
    obtain ⟨_, _, _, _, s', hs', h⟩ := h
    simp at h; subst h
    split at hs'
    · rename_i hc
      simp at hs'; subst hs'; exact ⟨Mapping.wf_dense.2 hc.2, hc.1, rfl, trivial⟩
    · simp at hs'
  | strided =>
    simp only [resizeDim, Option.bind_eq_bind, Option.bind_eq_some_iff, Shape.resizeDim_eq] at h
    obtain ⟨st, hd, cs, hc, st2, hst, s', hs', h⟩ := h
    simp at h; subst h
    split at hs'
    swap
    · simp at hs'
    rename_i hcf
    simp at hs'; subst hs'
    obtain ⟨d1, d2⟩ := dimsNew_any hd
    obtain ⟨e1, e2⟩ := storeStrides_any (calls_any hm hc) d2 hst
    refine ⟨⟨hcf.2, e1.trans (d1.trans ?_)⟩, hcf.1, rfl, e2⟩
    show _ = (m.dims.set i n).length
    rw [List.length_set]

theorem reorder_any (hm : FitM m) {L} (h : reorder checks m L = some m') :
    m'.WF ∧ m'.dims = m.dims.reverse ∧ FitM m' := by
  cases L with
  | dense =>
    simp only [reorder, Option.bind_eq_bind, Option.bind_eq_some_iff, Shape.reverse_eq] at h
    obtain ⟨_, _, s', hs', h⟩ := h
    simp at h; subst h
    split at hs'
    · rename_i hc
      simp at hs'; subst hs'; exact ⟨Mapping.wf_dense.2 hc, rfl, trivial⟩
    · simp at hs'
  | strided =>
    simp only [reorder, Option.bind_eq_bind, Option.bind_eq_some_iff, Shape.reverse_eq] at h
    obtain ⟨st, hd, cs, hc, st2, hst, s', hs', h⟩ := h
    simp at h; subst h
    split at hs'
    swap
    · simp at hs'
    rename_i hcf
    simp at hs'; subst hs'
    obtain ⟨d1, d2⟩ := dimsNew_any hd
    obtain ⟨e1, e2⟩ := storeStrides_any (calls_any hm hc) d2 hst
    refine ⟨⟨hcf, e1.trans (d1.trans ?_)⟩, rfl, e2⟩
    show _ = (m.dims.reverse).length
    rw [List.length_reverse]

/-! Reshape. -/

theorem addRegion_fit {oldLen : Nat} (rem : List Nat) : ∀ (nl : Nat) (ns : Int) (acc : List Int) r,
    addRegion checks oldLen rem nl ns acc = some r → FitsI ns → (∀ s ∈ acc, FitsI s) →
    FitsI r.2.2.1 ∧ (∀ s ∈ r.2.2.2, FitsI s) ∧ r.1.length + r.2.2.2.length = rem.length + acc.length := by
  induction rem with
  | nil => intro nl ns acc r h h1 h2; simp [addRegion] at h; subst h; exact ⟨h1, h2, rfl⟩
  | cons d rem ih =>
    intro nl ns acc r h h1 h2
    simp only [addRegion, Option.bind_eq_bind, Option.bind_eq_some_iff] at h
    obtain ⟨p, hp, h⟩ := h
    split at h
    · simp at h; subst h; exact ⟨h1, h2, rfl⟩
    · rw [Option.bind_eq_some_iff] at h
      obtain ⟨q, hq, h⟩ := h
      obtain ⟨e1, e2, e3⟩ := ih p q (ns :: acc) r h (retI_fits hq) (by simpa using ⟨h1, h2⟩)
      refine ⟨e1, e2, ?_⟩
      rw [e3]; simp; omega

theorem addRemaining_fit (rem : List Nat) : ∀ (nl : Nat) (ns : Int) (acc : List Int) r,
    addRemaining checks rem nl ns acc = some r → FitsI ns → (∀ s ∈ acc, FitsI s) →
    (∀ s ∈ r.2, FitsI s) ∧ r.2.length = rem.length + acc.length := by
  induction rem with
  | nil => intro nl ns acc r h h1 h2; simp [addRemaining] at h; subst h; exact ⟨h2, by simp⟩
  | cons d rem ih =>
    intro nl ns acc r h h1 h2
    simp only [addRemaining, Option.bind_eq_bind, Option.bind_eq_some_iff] at h
    obtain ⟨p, hp, q, hq, h⟩ := h
    obtain ⟨e1, e2⟩ := ih p q (ns :: acc) r h (retI_fits hq) (by simpa using ⟨h1, h2⟩)
    refine ⟨e1, ?_⟩
    rw [e2]; simp; omega

theorem reshapeLoop_fit {nd : List Nat} (l : List (Nat × Int)) (hl : ∀ x ∈ l, FitsI x.2) :
    ∀ st, l.foldr (fun x st => st.bind fun st => reshapeStep checks st x.1 x.2)
      (some (Mapping.reshapeInit nd)) = some st →
    FitsI st.newStride ∧ (∀ s ∈ st.acc, FitsI s) ∧ st.rem.length + st.acc.length = nd.length := by
  induction l with
  | nil =>
    intro st h
    simp at h; subst h
    refine ⟨⟨?_, ?_⟩, ?_, ?_⟩ <;> simp [Mapping.reshapeInit]
  | cons x l ih =>
    intro st h
    rw [List.foldr_cons, Option.bind_eq_some_iff] at h
    obtain ⟨st0, h0, h⟩ := h
    obtain ⟨g1, g2, g3⟩ := ih (fun x hx => hl x (by simp [hx])) st0 h0
    simp only [reshapeStep, Option.bind_eq_bind, Option.bind_eq_some_iff] at h
    obtain ⟨_, _, _, _, ⟨rem, nl, ns, acc⟩, ha, h⟩ := h
    simp at h; subst h
    have hr : FitsI (regionStart st0 x.2).2.1 := by
      unfold regionStart
      split
      · exact hl x (by simp)
      · exact g1
    obtain ⟨e1, e2, e3⟩ := addRegion_fit _ _ _ _ _ ha hr g2
    exact ⟨e1, e2, e3.trans g3⟩

theorem reshapeStrides_any {ds nd : List Nat} {st st' : List Int} (hs : ∀ s ∈ st, FitsI s)
    (h : reshapeStrides checks ds st nd = some st') : st'.length = nd.length ∧ ∀ s ∈ st', FitsI s := by
  simp only [reshapeStrides, Option.bind_eq_bind, Option.bind_eq_some_iff] at h
  obtain ⟨r, hr, ⟨nl, ss⟩, ha, _, _, h⟩ := h
  simp at h; subst h
  obtain ⟨g1, g2, g3⟩ := reshapeLoop_fit (ds.zip st) (fun x hx => hs _ (List.of_mem_zip hx).2) r hr
  obtain ⟨e1, e2⟩ := addRemaining_fit _ _ _ _ _ ha g1 g2
  exact ⟨e2.trans g3, e1⟩

theorem reshape_any (hm : FitM m) {ns} (h : reshape checks m ns = some m') :
    ∃ s', shapeReshape checks m.shape ns = some s' ∧ m'.shape = s' ∧ (s'.WF → m'.WF) ∧ FitM m' := by
  simp only [reshape, Option.bind_eq_bind, Option.bind_eq_some_iff] at h
  obtain ⟨s', hs', h⟩ := h
  refine ⟨s', hs', ?_⟩
  cases m with
  | dense s => simp at h; subst h; exact ⟨rfl, fun h => Mapping.wf_dense.2 h, trivial⟩
  | strided s st =>
    simp only [Option.bind_eq_bind, Option.bind_eq_some_iff] at h
    obtain ⟨st', hst, h⟩ := h
    simp at h; subst h
    obtain ⟨e1, e2⟩ := reshapeStrides_any hm hst
    exact ⟨rfl, fun h => ⟨h, e1⟩, e2⟩

/-- Reshaping an empty array depends only on the sizes asked for. -/
theorem shapeReshape_empty {s ns s' : Shape} (h0 : size s.dims = 0)
    (h : shapeReshape checks s ns = some s') : s.reshape ns = some s' := by
  unfold shapeReshape at h
  unfold Shape.reshape
  have e : s.len = 0 := by rw [Shape.len_eq]; exact h0
  have hl : ∀ n, len checks s = some n → n = 0 := fun n hn => product_zero h0 hn
  cases h1 : Shape.inferLoop ns.dims with
  | none => rw [h1] at h; simp at h
  | some r =>
    obtain ⟨dims, inf⟩ := r
    rw [h1] at h
    simp only [Option.bind_eq_bind, Option.bind_some] at h ⊢
    cases h2 : ns.withMutDims fun _ => some dims with
    | none => rw [h2] at h; simp at h
    | some ns' =>
      rw [h2] at h
      simp only [Option.bind_some] at h ⊢
      cases h3 : len checks s with
      | none => rw [h3] at h; simp at h
      | some n =>
        rw [h3] at h
        obtain rfl := hl n h3
        rw [e]
        exact h

end

end Machine
end Model
