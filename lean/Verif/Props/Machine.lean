import Verif.Lemmas.MachineReach

/-! Properties of the view-producing functions with 64-bit integers. Property numbers refer to
`properties.jsonl`. -/

namespace Props
open Model Spec Machine

/-- C68: in builds with and without overflow checks, after any sequence of view calls that return, on any
array of at most `2^62` elements, every index within the dimensions of the view is answered by indexing
with an element of the array, different indices with different elements, and any other index panics. -/
theorem C68 (checks : Bool) (s : Shape) (hw : s.WF) (hu : Usize s.dims) (hs : size s.dims ≤ 2 ^ 62) (v : View)
    (h : ReachM checks (whole s) v) :
    (∀ j, Valid v.dims j → ∃ k : Nat, k < size s.dims ∧ Machine.index checks v j = some (k : Int)) ∧
    (∀ j j', Valid v.dims j → Valid v.dims j' → Machine.index checks v j = Machine.index checks v j' → j = j') ∧
    (∀ j, ¬ Valid v.dims j → Machine.index checks v j = none) := by
  have hk := known_reach hw hu (by norm_num at hs; exact hs) h
  have hnone : ∀ j, ¬ Valid v.dims j → Machine.index checks v j = none := index_none v
  have heq : ∀ j, Valid v.dims j → Machine.index checks v j = v.index j := fun j hj =>
    Machine.index_eq (hk.vfits hj.size_pos) j
  obtain ⟨pb, h1, h2⟩ := hk.good.2.2
  refine ⟨fun j hj => ?_, fun j j' hj hj' e => ?_, hnone⟩
  · obtain ⟨g1, g2⟩ := h1 j hj
    have g1' : Valid s.dims (pb j) := g1
    rw [heq j hj, g2, View.index_whole hw, if_pos g1']
    exact ⟨_, rowMajor_lt g1', rfl⟩
  · obtain ⟨g1, g2⟩ := h1 j hj
    obtain ⟨g1', g2'⟩ := h1 j' hj'
    have k1 : Valid s.dims (pb j) := g1
    have k1' : Valid s.dims (pb j') := g1'
    rw [heq j hj, heq j' hj', g2, g2', View.index_whole hw, View.index_whole hw, if_pos k1, if_pos k1'] at e
    have e : rowMajor s.dims (pb j) = rowMajor s.dims (pb j') := by simpa using e
    exact h2 j j' hj hj' (rowMajor_inj k1 k1' e)

/-- C68, for a build without overflow checks: a view after a step so large that the stride wraps around,
and then a reversal, of a `[2, 4]` array. -/
example : ∃ v, ReachM false (whole ⟨.static [.dyn, .dyn], [2, 4]⟩) v ∧ v.dims = [4, 1] ∧
    Machine.index false v [3, 0] = some 7 := by
  refine ⟨⟨4, .strided ⟨.static [.dyn, .dyn], [4, 1]⟩ [1, -4]⟩, ?_, rfl, by decide +kernel⟩
  refine .call (v := ⟨4, .strided ⟨.static [.dyn, .dyn], [1, 4]⟩ [-4, 1]⟩) ?_ (.inr (by decide))
    (.reorder (by decide +kernel))
  exact .call .refl (.inr (by decide))
    (.view (xs := [.step (.included 1) .unbounded 9223372036854775807, .full]) rfl (by decide +kernel))

/-- C69, functions that select no steps: on a non-empty view reached from an array of at most `2^62` elements
they give the same result, or the same panic, with 64-bit integers as with unbounded integers. -/
theorem C69_same (checks : Bool) (s : Shape) (hw : s.WF) (hu : Usize s.dims) (hs : size s.dims ≤ 2 ^ 62)
    (v : View) (h : ReachM checks (whole s) v) (hp : 0 < size v.dims) :
    (∀ a i, Machine.axisAt checks v a i = v.axisAt a i) ∧
    (∀ a mid, Machine.splitAxisAt checks v a mid = v.splitAxisAt a mid) ∧
    (∀ perm, Machine.viewPermute checks v perm = v.permute checks perm) ∧
    Machine.viewReorder checks v = v.reorder ∧
    (∀ ns : Shape, ns.WF → Machine.viewReshape checks v ns = v.reshape ns) ∧
    Machine.flatten checks v = v.flatten ∧
    (∀ ty L, Machine.viewRemap checks v ty L = v.remap ty L) ∧
    Machine.len checks v.map.shape = some (size v.dims) ∧
    Machine.isEmpty checks v.map.shape = some false := by
  have hv := (known_reach hw hu (by norm_num at hs; exact hs) h).vfits hp
  have hb := usizeMax_lt hv.2.bsize
  refine ⟨axisAt_eq hv, splitAxisAt_eq hv, viewPermute_eq hv, viewReorder_eq hv, fun ns hn => viewReshape_eq hv hn,
    flatten_eq hv, viewRemap_eq hv, ?_, ?_⟩
  · rw [len_eq hb, Shape.len_eq]
  · rw [isEmpty_eq hb]
    congr 1
    have : v.map.isEmpty ≠ true := fun hh => by
      have h0 : size v.map.dims = 0 := Mapping.isEmpty_iff.1 hh
      have hp : 0 < size v.map.dims := hp
      omega
    exact Bool.eq_false_iff.2 this

/-- C69, functions that may select a part of an axis or step through it: if they return, then what they
return with unbounded integers; and whenever unbounded integers give a non-empty view whose strides are
`isize` values, that view. Missing for the full claim: they must also return when the selected part is empty
or has a single index on an axis whose new stride is no `isize` value; with overflow checks they panic
there (`C69_step_panics`). -/
theorem C69_partial (checks : Bool) (s : Shape) (hw : s.WF) (hu : Usize s.dims) (hs : size s.dims ≤ 2 ^ 62)
    (v : View) (h : ReachM checks (whole s) v) (hp : 0 < size v.dims) :
    (∀ xs : List DimIdx, v.dims.length = xs.length →
      SoundResult (Machine.view checks v xs) (v.view xs) ∧ CompleteResult (Machine.view checks v xs) (v.view xs)) ∧
    (∀ i, SoundResult (Machine.row checks v i) (v.row i) ∧ CompleteResult (Machine.row checks v i) (v.row i)) ∧
    (∀ i, SoundResult (Machine.col checks v i) (v.col i) ∧ CompleteResult (Machine.col checks v i) (v.col i)) ∧
    (∀ k : Int, -2 ^ 63 ≤ k → k < 2 ^ 63 →
      SoundResult (Machine.diag checks v k) (v.diag k) ∧ CompleteResult (Machine.diag checks v k) (v.diag k)) := by
  have hk := known_reach hw hu (by norm_num at hs; exact hs) h
  have hv := hk.vfits hp
  refine ⟨fun xs hx => ⟨view_sound hv hx, view_complete hv hx⟩,
    fun i => ⟨hk.lineSound hp rfl, hk.lineComplete hp rfl⟩,
    fun i => ⟨hk.lineSound hp rfl, hk.lineComplete hp rfl⟩, fun k h1 h2 => ?_⟩
  have hf : FitsI k := by norm_num at h1 h2; exact ⟨h1, h2⟩
  exact ⟨diag_sound hv hf, diag_complete hv hf⟩

/-- C69 without overflow checks, on non-empty views: these functions return whenever they return with
unbounded integers, and then the same view. -/
theorem C69_release (s : Shape) (hw : s.WF) (hu : Usize s.dims) (hs : size s.dims ≤ 2 ^ 62)
    (v : View) (h : ReachM false (whole s) v) (hp : 0 < size v.dims) :
    (∀ xs : List DimIdx, v.dims.length = xs.length → SameResult (Machine.view false v xs) (v.view xs)) ∧
    (∀ i, SameResult (Machine.row false v i) (v.row i)) ∧
    (∀ i, SameResult (Machine.col false v i) (v.col i)) ∧
    (∀ k : Int, -2 ^ 63 ≤ k → k < 2 ^ 63 → SameResult (Machine.diag false v k) (v.diag k)) := by
  have hk := known_reach hw hu (by norm_num at hs; exact hs) h
  have hv := hk.vfits hp
  refine ⟨fun xs hx => sameResult (view_sound hv hx) (view_release hv hx),
    fun i => sameResult (hk.lineSound hp rfl) (hk.lineRelease hp (xs := [_, _]) rfl),
    fun i => sameResult (hk.lineSound hp rfl) (hk.lineRelease hp (xs := [_, _]) rfl), fun k h1 h2 => ?_⟩
  have hf : FitsI k := by norm_num at h1 h2; exact ⟨h1, h2⟩
  exact sameResult (diag_sound hv hf) (diag_release hv hf)

/-- C69_release applies to arrays as created, here with a negative step. -/
example : ∃ w, Machine.view false (whole ⟨.static [.dyn, .dyn], [3, 4]⟩)
      [.step .unbounded .unbounded (-2), .full] = some w ∧ w.dims = [2, 4] ∧ w.ptr = 8 :=
  ⟨_, rfl, by decide +kernel⟩

/-- C69_partial with overflow checks: a view whose strides are `isize` values. -/
example : ∃ v, Machine.view true (whole ⟨.static [.dyn, .dyn], [3, 4]⟩)
      [.step .unbounded .unbounded (-2), .range (.included 1) (.excluded 3)] = some v ∧ v.dims = [2, 2] ∧ v.ptr = 9 ∧
    StridesFit v := by
  refine ⟨⟨9, .strided ⟨.static [.dyn, .dyn], [2, 2]⟩ [-8, 1]⟩, by decide +kernel, rfl, rfl, fun i s hs => ?_⟩
  have hm : s ∈ [(-8 : Int), 1] := by
    rw [Mapping.stride_eq _ ⟨by show (ShapeTy.static [.dyn, .dyn]).Conforms _; simp, rfl⟩] at hs
    exact List.mem_of_getElem? hs
  simp at hm
  rcases hm with rfl | rfl <;> norm_num

/-- C69 fails with overflow checks: a step as large as `isize::MAX` along the first axis of a `[2, 4]` array
selects one row, and panics, as the new stride is no `isize` value; without overflow checks the row is
returned. -/
theorem C69_step_panics :
    let v := whole ⟨.static [.dyn, .dyn], [2, 4]⟩
    let xs := [DimIdx.step .unbounded .unbounded 9223372036854775807, .full]
    Machine.view true v xs = none ∧
    (Machine.view false v xs).map (fun w => (w.dims, Machine.index false w [0, 3])) = some ([1, 4], some 3) ∧
    (v.view xs).map (fun w => (w.dims, w.index [0, 3])) = some ([1, 4], some 3) := by
  decide +kernel

/-- C69 fails for empty arrays with overflow checks: an array of dimensions `[0, 2^40, 2^40]`, which can be
created, panics on `reorder`, `row`-major strides being no `usize` values; and the reversed view panics on
`len`. Without overflow checks both return. -/
theorem C69_empty_panics :
    let s : Shape := ⟨.static [.dyn, .dyn, .dyn], [0, 1099511627776, 1099511627776]⟩
    s.checkedLen = some 0 ∧
    Machine.viewReorder true (whole s) = none ∧
    ((Machine.viewReorder false (whole s)).map (·.dims) = some [1099511627776, 1099511627776, 0]) ∧
    ((whole s).reorder.map (·.dims) = some [1099511627776, 1099511627776, 0]) ∧
    Machine.len true ⟨.static [.dyn, .dyn, .dyn], [1099511627776, 1099511627776, 0]⟩ = none ∧
    Machine.len false ⟨.static [.dyn, .dyn, .dyn], [1099511627776, 1099511627776, 0]⟩ = some 0 := by
  decide +kernel

end Props
