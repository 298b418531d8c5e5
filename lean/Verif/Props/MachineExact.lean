import Verif.Lemmas.MachineExact
import Verif.Props.Machine

/-! Exactly when view calls panic in builds with overflow checks. Property numbers refer to `properties.jsonl`. -/

namespace Props
open Model Spec Machine

/-- C69, rows and columns: on a non-empty view reached from an array of at most `2^62` elements, `row` and `col` give
the same result, or the same panic, with 64-bit integers as with unbounded integers, in both kinds of builds. -/
theorem C69_lines (checks : Bool) (s : Shape) (hw : s.WF) (hu : Usize s.dims) (hs : size s.dims ≤ 2 ^ 62)
    (v : View) (h : ReachM checks (whole s) v) (hp : 0 < size v.dims) (i : Nat) :
    Machine.row checks v i = v.row i ∧ Machine.col checks v i = v.col i := by
  have hk := known_reach hw hu (by norm_num at hs; exact hs) h
  exact ⟨hk.line_eq hp (.inl ⟨i, rfl⟩), hk.line_eq hp (.inr ⟨i, rfl⟩)⟩

/-- C69 as the code is, with overflow checks: where unbounded integers give a non-empty view, `view` returns that view
if all its strides are `isize` values, and otherwise it panics; and the same for `diag`, also if the diagonal is
empty. Whatever `view` returns, empty or not, is what unbounded integers give. -/
theorem C69_exact (s : Shape) (hw : s.WF) (hu : Usize s.dims) (hs : size s.dims ≤ 2 ^ 62)
    (v : View) (h : ReachM true (whole s) v) (hp : 0 < size v.dims) :
    (∀ (xs : List DimIdx) (w : View), v.dims.length = xs.length →
      (v.view xs = some w → 0 < size w.dims →
        (StridesFit w → Machine.view true v xs = some w) ∧ (¬ StridesFit w → Machine.view true v xs = none)) ∧
      (Machine.view true v xs = some w → v.view xs = some w ∧ StridesFit w)) ∧
    (∀ (k : Int) (w : View), -2 ^ 63 ≤ k → k < 2 ^ 63 → v.diag k = some w →
      (StridesFit w → Machine.diag true v k = some w) ∧ (¬ StridesFit w → Machine.diag true v k = none)) := by
  have hv := (known_reach hw hu (by norm_num at hs; exact hs) h).vfits hp
  refine ⟨fun xs w hx => ⟨fun hv' hpw => ⟨fun hf => view_complete hv hx w hv' hpw hf, fun hf => ?_⟩,
    view_checked hv hx⟩, fun k w h1 h2 hd => ?_⟩
  · cases hm : Machine.view true v xs with
    | none => rfl
    | some u =>
      obtain ⟨g1, g2⟩ := view_checked hv hx hm
      rw [hv'] at g1
      obtain rfl := Option.some.inj g1
      exact absurd g2 hf
  · exact diag_checked hv (by norm_num at h1 h2; exact ⟨h1, h2⟩) hd

/-- The row that a step of `isize::MAX` selects from a `[2, 4]` array. -/
def farStep : View := ⟨0, .strided ⟨.static [.dyn, .dyn], [1, 4]⟩ [36893488147419103228, 1]⟩

/-- C69_lines, C69_exact: a `[2, 4]` array meets the hypotheses. The view `farStep` of it has a stride that is no
`isize` value, and a call that would select it panics. A diagonal that is empty is returned. -/
example : (whole ⟨.static [.dyn, .dyn], [2, 4]⟩).view [.step .unbounded .unbounded 9223372036854775807, .full] =
      some farStep ∧ 0 < size farStep.dims ∧ ¬ StridesFit farStep ∧
    ((whole ⟨.static [.dyn, .dyn], [2, 4]⟩).diag 4).map (·.dims) = some [0] ∧
    (Machine.diag true (whole ⟨.static [.dyn, .dyn], [2, 4]⟩) 4).map (·.dims) = some [0] ∧
    (Machine.col true (whole ⟨.static [.dyn, .dyn], [2, 4]⟩) 3).map (fun w => (w.ptr, w.dims)) = some (3, [2]) := by
  refine ⟨by decide +kernel, by decide, fun h => ?_, by decide +kernel, by decide +kernel, by decide +kernel⟩
  have := (h 0 36893488147419103228 (by decide)).2
  norm_num at this

end Props
