import Verif.Lemmas.MachineDrive
import Verif.Lemmas.MachineHint
import Verif.Props.MachineIter

/-! Properties of iteration with 64-bit integers, including expressions without elements. Property numbers refer to
`properties.jsonl`. -/

namespace Props
open Model Spec Machine
variable {σ α : Type}

/-- C71, internal iteration, empty expressions and all strides included: `fold` does with 64-bit integers what it does
with unbounded integers, or it panics because of an overflow check. Missing for the full claim: empty expressions with
phantom rows, for which it is false, `C71_phantom_violated`; the panics, which do occur, `C71_violated` and
`C71_empty_violated`; and axes and lanes of empty views whose other dimensions have a product of `2^63` or more. -/
theorem C71_outcome_partial (checks : Bool) (e : Expr σ α) (hb : Built e) (hf : Placed checks e)
    (hu : Usize e.dims) (hp : NoPhantomRows e) {τ : Type} (init : τ) (f : τ → α → M σ τ) :
    SameOrChecked checks (Machine.exprFold checks e init f) (e.fold init f) := by
  have hw := Expr.wf_of_built hb
  exact (drive_sim hw (fun hD => ⟨ok_of_placed hw hf (D := e.dims) (by simp) hD, size_of_placed hb hf hD⟩) hu hp f 0
    init (.inl rfl)).eq

/-- C71, internal iteration in builds without overflow checks: `fold` does with 64-bit integers what it does with
unbounded integers. Missing for the full claim: empty expressions with phantom rows, for which it is false,
`C71_phantom_violated`; and axes and lanes of empty views whose other dimensions have a product of `2^63` or more. -/
theorem C71_release_partial (e : Expr σ α) (hb : Built e) (hf : Placed false e)
    (hu : Usize e.dims) (hp : NoPhantomRows e) {τ : Type} (init : τ) (f : τ → α → M σ τ) :
    Machine.exprFold false e init f = e.fold init f := by
  funext s
  rcases C71_outcome_partial false e hb hf hu hp init f s with h | ⟨h, -⟩
  · exact h
  · cases h

/-- C71, external iteration, empty expressions and all strides included: any number of calls of `next` followed by a
`fold` over the remaining items do with 64-bit integers what they do with unbounded integers, or there is a panic
because of an overflow check. Missing: as for `C71_outcome_partial`, and empty expressions with several empty rows. -/
theorem C71_drive_partial (checks : Bool) (e : Expr σ α) (hb : Built e) (hf : Placed checks e)
    (hu : Usize e.dims) (hp : Plain e) {τ : Type} (f : τ → α → M σ τ) (k : Nat) (init : τ) :
    SameOrChecked checks
      (M.bind (M.lift (Machine.iterNew checks e)) fun it => driveThenFold64 checks f k it init)
      (driveThenFold f k (Iter.new e) init) := by
  have hw := Expr.wf_of_built hb
  have hph : NoPhantomRows e := fun h0 => by
    rcases hp with h | h
    · omega
    · exact h.1
  exact (drive_sim hw (fun hD => ⟨ok_of_placed hw hf (D := e.dims) (by simp) hD, size_of_placed hb hf hD⟩) hu hph f k
    init (.inr hp)).eq

/-- C71, external iteration in builds without overflow checks: any number of calls of `next` followed by a `fold` over
the remaining items do with 64-bit integers what they do with unbounded integers. Missing: as for
`C71_release_partial`, and empty expressions with several empty rows. -/
theorem C71_releaseDrive_partial (e : Expr σ α) (hb : Built e) (hf : Placed false e)
    (hu : Usize e.dims) (hp : Plain e) {τ : Type} (f : τ → α → M σ τ) (k : Nat) (init : τ) :
    (M.bind (M.lift (Machine.iterNew false e)) fun it => driveThenFold64 false f k it init) =
      driveThenFold f k (Iter.new e) init := by
  funext s
  rcases C71_drive_partial false e hb hf hu hp f k init s with h | ⟨h, -⟩
  · exact h
  · cases h

/-- C71, the size hint of an iterator over an expression whose rows are empty: 0, or a panic because of an overflow
check. -/
theorem C71_hintEmpty (checks : Bool) (e : Expr σ α) (h0 : size (e.dims.drop e.outerRank) = 0) (it : Iter σ α)
    (h : Machine.iterNew checks e = some it) :
    Machine.sizeHint checks it = some 0 ∨ (checks = true ∧ Machine.sizeHint checks it = none) :=
  sizeHint_empty h0 h

theorem hugeStep_inMemory : InMemory false hugeStep :=
  ⟨⟨.static [.dyn], [3]⟩, 0, by decide, by unfold Usize; decide, by decide,
    .call .refl (.inr (by decide)) (.view (xs := [.step (.included 2) .unbounded (-9223372036854775808)]) rfl
      (by decide +kernel))⟩

/-- C71_release_partial, C71_releaseDrive_partial: without overflow checks, the view with a stride of `isize::MIN` is
iterated over correctly. -/
example : Built (.view true hugeStep : Expr Unit Int) ∧ Placed false (.view true hugeStep : Expr Unit Int) ∧
    Usize (.view true hugeStep : Expr Unit Int).dims ∧ Plain (.view true hugeStep : Expr Unit Int) ∧
    NoPhantomRows (.view true hugeStep : Expr Unit Int) ∧
    (Machine.exprFold false (.view true hugeStep : Expr Unit Int) [] fun l x => M.pure (l ++ [x])) () = .ok [2] () :=
  ⟨.view (by decide), hugeStep_inMemory, by unfold Usize; decide, .inl (by decide), by unfold NoPhantomRows; decide,
    by decide +kernel⟩

theorem hollow_inMemory (checks : Bool) : InMemory checks (whole hollowType) := by
  refine ⟨hollowType, 0, by decide, ?_, by decide, .refl⟩
  intro d hd
  have : d ∈ [1099511627776, 1099511627776, 0] := hd
  simp only [List.mem_cons, List.not_mem_nil, or_false] at this
  rcases this with rfl | rfl | rfl <;> decide

/-- C71_outcome_partial, C71_drive_partial, C71_hintEmpty: an empty array type whose other dimensions are large meets
the hypotheses. Iterating over it gives no items without overflow checks, and panics with them. -/
example : Built (.view true (whole hollowType) : Expr Unit Int) ∧
    Placed true (.view true (whole hollowType) : Expr Unit Int) ∧
    Usize (.view true (whole hollowType) : Expr Unit Int).dims ∧ Plain (.view true (whole hollowType) : Expr Unit Int) ∧
    (Machine.exprFold false (.view true (whole hollowType) : Expr Unit Int) [] fun l x => M.pure (l ++ [x])) () =
      .ok [] () ∧
    (Machine.exprFold true (.view true (whole hollowType) : Expr Unit Int) [] fun l x => M.pure (l ++ [x])) () =
      .panic () := by
  refine ⟨.view (by decide), hollow_inMemory true, ?_, .inr ⟨by decide, nofun⟩, by decide +kernel, by decide +kernel⟩
  intro d hd
  have : d ∈ [1099511627776, 1099511627776, 0] := hd
  simp only [List.mem_cons, List.not_mem_nil, or_false] at this
  rcases this with rfl | rfl | rfl <;> decide

/-- The shape of the array type `Array<T, (Const<0>, Const<4>, Const<2^62>)>`, without elements. -/
def voidType : Shape := ⟨.static [.const 0, .const 4, .const 4611686018427387904], [0, 4, 4611686018427387904]⟩

/-- The view at index 0 of its last axis, as computed without overflow checks. -/
def voidPart : View :=
  ⟨0, .strided ⟨.static [.const 0, .const 4], [0, 4]⟩ [0, 4611686018427387904]⟩

/-- C71 is violated by phantom rows: an empty view that is iterated over gives out items although there are none, and
their offsets wrap around. -/
theorem C71_phantom_violated : InMemory false voidPart ∧ size voidPart.dims = 0 ∧
    Built (.view true voidPart : Expr Unit Int) ∧
    ((.view true voidPart : Expr Unit Int).fold [] fun l x => M.pure (l ++ [x])) () =
      .ok [0, 4611686018427387904, 9223372036854775808, 13835058055282163712] () ∧
    (Machine.exprFold false (.view true voidPart : Expr Unit Int) [] fun l x => M.pure (l ++ [x])) () =
      .ok [0, 4611686018427387904, -9223372036854775808, -4611686018427387904] () := by
  refine ⟨⟨voidType, 0, by decide, ?_, by decide, .call .refl (.inr (by decide))
    (.axisAt (a := .const 2) (i := 0) (by decide +kernel))⟩, by decide, .view (by decide), by decide +kernel,
    by decide +kernel⟩
  intro d hd
  have : d ∈ [0, 4, 4611686018427387904] := hd
  simp only [List.mem_cons, List.not_mem_nil, or_false] at this
  rcases this with rfl | rfl | rfl <;> decide

end Props
