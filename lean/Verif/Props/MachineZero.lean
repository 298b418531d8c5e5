import Verif.Lemmas.MachineZero
import Verif.Props.Machine

/-! View calls with 64-bit integers on views without elements. Property numbers refer to `properties.jsonl`. -/

namespace Props
open Model Spec Machine

/-- C69 on empty views: on a view without elements, reached from an array of at most `2^62` elements (which may be
empty and have other dimensions of any size), every call gives the same view, or the same panic, with 64-bit integers as
with unbounded integers, or it panics because of an overflow check. So without overflow checks the outcomes are the
same. The conversion of a strided view to the dense layout is the exception: there this is shown for conversions that
succeed with unbounded integers; see `C69_remap_violated`. -/
theorem C69_empty (checks : Bool) (s : Shape) (hw : s.WF) (hu : Usize s.dims) (hs : size s.dims ≤ 2 ^ 62)
    (v : View) (h : ReachM checks (whole s) v) (h0 : size v.dims = 0) :
    (∀ a i, SameOrOverflow checks (Machine.axisAt checks v a i) (v.axisAt a i)) ∧
    (∀ a mid, SameOrOverflow checks ((Machine.splitAxisAt checks v a mid).map (·.1)) ((v.splitAxisAt a mid).map (·.1)) ∧
      SameOrOverflow checks ((Machine.splitAxisAt checks v a mid).map (·.2)) ((v.splitAxisAt a mid).map (·.2))) ∧
    (∀ perm, checks = true ∨ v.dims.length < 64 →
      SameOrOverflow checks (Machine.viewPermute checks v perm) (v.permute checks perm)) ∧
    SameOrOverflow checks (Machine.viewReorder checks v) v.reorder ∧
    (∀ ns : Shape, ns.WF → SameOrOverflow checks (Machine.viewReshape checks v ns) (v.reshape ns)) ∧
    SameOrOverflow checks (Machine.flatten checks v) v.flatten ∧
    (∀ ty L, L = .strided ∨ v.layout = .dense ∨ (v.remap ty L).isSome →
      SameOrOverflow checks (Machine.viewRemap checks v ty L) (v.remap ty L)) ∧
    (∀ xs : List DimIdx, v.dims.length = xs.length →
      SameOrOverflow checks (Machine.view checks v xs) (v.view xs)) ∧
    (∀ i, SameOrOverflow checks (Machine.row checks v i) (v.row i)) ∧
    (∀ i, SameOrOverflow checks (Machine.col checks v i) (v.col i)) ∧
    (∀ k : Int, -2 ^ 63 ≤ k → k < 2 ^ 63 → SameOrOverflow checks (Machine.diag checks v k) (v.diag k)) ∧
    (Machine.len checks v.map.shape = some 0 ∨ (checks = true ∧ Machine.len checks v.map.shape = none)) := by
  have hk := known_reach hw hu (by norm_num at hs; exact hs) h
  have hm := hk.fit
  have hv := hk.inv.usize
  refine ⟨fun a i => Zero.outcome (Zero.axisAt_sim h0 hm a i), fun a mid => ?_,
    fun perm hr => Zero.outcome (Zero.viewPermute_sim h0 hm hv hr perm), Zero.outcome (Zero.viewReorder_sim h0 hm hv),
    fun ns hn => Zero.outcome (Zero.viewReshape_sim h0 hn), Zero.outcome (Zero.flatten_sim h0), fun ty L hc => ?_,
    fun xs hx => Zero.outcome (Zero.view_sim (Zero.Nothing.refl h0) hx), fun i => Zero.outcome (Zero.line_sim h0 rfl),
    fun i => Zero.outcome (Zero.line_sim h0 rfl), fun k h1 h2 => ?_, ?_⟩
  · have := Zero.splitAxisAt_sim (checks := checks) h0 hm hv a mid
    exact ⟨Zero.outcome (this.map fun _ _ h => h.1), Zero.outcome (this.map fun _ _ h => h.2)⟩
  · rcases hc with rfl | hc | hc
    · exact Zero.outcome (Zero.viewRemap_sim h0 ty nofun)
    · exact Zero.outcome (Zero.viewRemap_sim h0 ty fun _ => hc)
    · obtain ⟨w, hw⟩ := Option.isSome_iff_exists.1 hc
      rw [hw]
      exact Zero.outcome (Zero.viewRemap_complete h0 hm ty L hw)
  · exact Zero.outcome (Zero.diag_sim h0 (by norm_num at h1 h2; exact ⟨h1, h2⟩))
  · cases hn : Machine.len checks v.map.shape with
    | none => exact Or.inr ⟨product_none hn, rfl⟩
    | some n => left; rw [product_zero h0 hn]

/-- A view with wrapped strides: every third row of an array with dimensions `[0, 2^40, 2^40]`. -/
def wrapped : View := ⟨0, .strided ⟨.static [.dyn, .dyn, .dyn], [0, 1099511627776, 1099511627776]⟩ [0, 1099511627776, 1]⟩

/-- C69_empty applies to views with strides that have wrapped around: `wrapped` is reached without overflow checks,
and its columns are those of unbounded integers. With overflow checks the call that leads to it panics. -/
example : ReachM false (whole ⟨.static [.dyn, .dyn, .dyn], [0, 1099511627776, 1099511627776]⟩) wrapped ∧
    size wrapped.dims = 0 ∧ size [0, 1099511627776, 1099511627776] ≤ 2 ^ 62 ∧
    Usize [0, 1099511627776, 1099511627776] ∧
    ((Machine.view false wrapped [.full, .int 5, .step .unbounded .unbounded (-7)]).map (·.dims)) =
      some [0, 157073089683] ∧
    Machine.view true (whole ⟨.static [.dyn, .dyn, .dyn], [0, 1099511627776, 1099511627776]⟩)
      [.step .unbounded .unbounded 3, .full, .full] = none := by
  refine ⟨.call .refl (.inr (by decide)) (.view (xs := [.step .unbounded .unbounded 3, .full, .full]) rfl
    (by decide +kernel)), by decide, by decide, ?_, by decide +kernel, by decide +kernel⟩
  intro d hd
  simp only [List.mem_cons, List.not_mem_nil, or_false] at hd
  rcases hd with rfl | rfl | rfl <;> decide

/-- C69 fails for the conversion of an empty strided view to the dense layout, without overflow checks: the stride
`3 * 2^80` of the first axis and the stride `2^80` that a dense view has there are both 0 as 64-bit integers, so the
conversion succeeds, and with unbounded integers it panics. The view has no elements, so no element is at a wrong
place. -/
theorem C69_remap_violated :
    let s : Shape := ⟨.static [.dyn, .dyn, .dyn], [0, 1099511627776, 1099511627776]⟩
    let xs : List DimIdx := [.step .unbounded .unbounded 3, .full, .full]
    (((Machine.view false (whole s) xs).bind fun w => Machine.viewRemap false w s.ty .dense).map (·.dims) = some s.dims) ∧
    ((whole s).view xs).isSome ∧
    (((whole s).view xs).bind fun w => w.remap s.ty .dense) = none ∧
    wrapped.remap s.ty .dense = none ∧ (Machine.viewRemap false wrapped s.ty .dense).isSome := by
  decide +kernel

end Props
