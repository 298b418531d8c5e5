import Verif.Lemmas.SerdeCalls
import Verif.Props.Equality

/-! Calls to a serialiser: C80. -/

namespace Props
open Spec Model

variable {σ ε : Type}

/-- Serialising makes the calls that describe the array, in order, until one of them fails, whatever the
layout. `g` gives the position of each element. Missing (see `C80_exact` and `C80_violated`): empty arrays
with rows of more than `usize::MAX` elements, and dynamic ranks, which are not supported. -/
theorem C80_partial (act : SerCall → M σ (Option ε)) (v : View) (hv : v.map.WF) {tys : List DimTy}
    (hty : v.ty = .static tys) (hf : RowsFit v.dims) (g : List Nat → Int)
    (hg : ∀ j, Valid v.dims j → v.index j = some (g j)) :
    serializeCalls act v = runCalls act (callsOf v.dims g) := by
  unfold serializeCalls
  rw [hty]
  have hc : (ShapeTy.static tys).Conforms v.dims := by rw [← hty]; exact hv.1
  exact serCallsRank_eq act _ v g hv (ShapeTy.conforms_static_length hc).symm hf hg

/-- These calls follow the protocol, with exact lengths, and describe the nested sequence of the elements. -/
theorem C80_protocol (ds : List Nat) (g : List Nat → Int) :
    accept (callsOf ds g) [] .value = some (nest ds fun j => .leaf (g j)) := by
  rw [← List.append_nil (callsOf ds g), accept_callsOf, accept]

/-- Each element is serialised exactly once, in row-major order. -/
theorem C80_elements (ds : List Nat) (g : List Nat → Int) :
    (callsOf ds g).filterMap (fun c => match c with | .leaf p => some p | _ => none) =
      (allIdx ds).map g :=
  leaves_callsOf ds g

/-- If a call fails, its error is returned and no other call is made; if a call panics, no other call is
made; otherwise all calls have been made. There is no undefined behaviour unless the serialiser has. -/
theorem C80_stops_partial (act : SerCall → M σ (Option ε)) (v : View) (hv : v.map.WF) {tys : List DimTy}
    (hty : v.ty = .static tys) (hf : RowsFit v.dims) (g : List Nat → Int)
    (hg : ∀ j, Valid v.dims j → v.index j = some (g j)) (s : σ) :
    (∀ t, serializeCalls (recorded act) v (s, []) = .ok none t → t.2 = callsOf v.dims g) ∧
    (∀ e t, serializeCalls (recorded act) v (s, []) = .ok (some e) t →
      ∃ a c b s', callsOf v.dims g = a ++ c :: b ∧ t.2 = a ++ [c] ∧ act c s' = .ok (some e) t.1) ∧
    (∀ t, serializeCalls (recorded act) v (s, []) = .panic t →
      ∃ a c b s', callsOf v.dims g = a ++ c :: b ∧ t.2 = a ++ [c] ∧ act c s' = .panic t.1) ∧
    (serializeCalls (recorded act) v (s, []) = .ub → ∃ c s', act c s' = .ub) := by
  have h := runCalls_recorded act (callsOf v.dims g) [] s
  rw [C80_partial (recorded act) v hv hty hf g hg]
  refine ⟨fun t e => ?_, fun r t e => ?_, fun t e => ?_, fun e => ?_⟩ <;> rw [e] at h
  · simpa using h
  · simpa using h
  · simpa using h
  · obtain ⟨c, -, s', hs⟩ := h
    exact ⟨c, s', hs⟩

/-- C80, exactly: for a dynamic rank there is a panic before the first call. If the size of a row that
exists overflows, some of the right calls are made, and if none of them fails, there is a panic. -/
theorem C80_exact (act : SerCall → M σ (Option ε)) (v : View) (hv : v.map.WF) (g : List Nat → Int) :
    (v.ty = .dynRank → serializeCalls act v = M.panic) ∧
    (v.ty ≠ .dynRank → ¬ RowsFit v.dims → ∃ cs, cs <+: callsOf v.dims g ∧
      serializeCalls act v = M.bind (runCalls act cs) fun r =>
        match r with
        | some e => M.pure (some e)
        | none => M.panic) := by
  refine ⟨fun h => by unfold serializeCalls; rw [h]; rfl, fun h hf => ?_⟩
  cases hty : v.ty with
  | dynRank => exact absurd hty h
  | static tys =>
    have hc : (ShapeTy.static tys).Conforms v.dims := by rw [← hty]; exact hv.1
    unfold serializeCalls
    rw [hty]
    exact serCallsRank_panic act g _ v hv (ShapeTy.conforms_static_length hc).symm hf

/-- The code as it is: an empty array with a row of more than `usize::MAX` elements panics after the
first call. -/
theorem C80_violated : hugeRows.map.WF ∧
    serializeCalls (recorded (failsAt 1000)) hugeRows (0, []) = .panic (1, [.start (hugeRows.dims.getD 0 0)]) := by
  refine ⟨by decide +kernel, by rfl⟩

/-- A transposed array of 2 by 3 elements; a serialiser that fails at the call number 4. -/
example :
    let v := swapped 2 3
    let g : List Nat → Int := fun j => (v.index j).getD 0
    v.map.WF ∧ v.ty ≠ .dynRank ∧ RowsFit v.dims ∧ (∀ j ∈ allIdx v.dims, v.index j = some (g j)) ∧
    (callsOf v.dims g).length = 2 + 3 * 2 + 3 * (2 + 2 * 3) ∧
    serializeCalls (recorded (failsAt 4)) v (0, []) =
      .ok (some ()) (5, [.start 3, .element, .start 2, .element, .leaf 0]) := by
  refine ⟨by decide, by decide, C43_rows _ (by decide) (by decide), by decide, by decide, by rfl⟩

end Props
