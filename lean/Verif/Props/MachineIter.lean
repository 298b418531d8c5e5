import Verif.Lemmas.MachineIter

/-! Properties of iteration with 64-bit integers. Property numbers refer to `properties.jsonl`. -/

namespace Props
open Model Spec Machine
variable {σ α : Type}

/-- C71, internal iteration: in builds with and without overflow checks, `fold` over a non-empty expression of
arrays in memory does with 64-bit integers what it does with unbounded integers. Missing for the full claim:
views with a stride of `isize::MIN` in builds with overflow checks, for which it is false, `C71_violated`; and expressions without elements or
axes and lanes of views without elements, whose strides may be anything. -/
theorem C71_fold_partial (checks : Bool) (e : Expr σ α) (hb : Built e) (hf : FitsMemory checks e)
    (hne : 0 < size e.dims) {τ : Type} (init : τ) (f : τ → α → M σ τ) :
    Machine.exprFold checks e init f = e.fold init f := by
  have hw := Expr.wf_of_built hb
  have h64 := ok64_of_fitsMemory hw hf (D := e.dims) (by simp) hne
  have hu := size_of_fitsMemory hb hf hne
  by_cases hbf : BadFn e
  · unfold exprFold Expr.fold
    rw [iterNew_eq hne hu, M.lift_some, M.pure_bind]
    exact Machine.fold_bad hw h64 hne hbf f init
  · exact exprFold_eq hw h64 hne hu hbf f init

/-- C71, external iteration: `Iter::new` and every call of `next`, and `fold` after some calls of `next`, do with
64-bit integers what they do with unbounded integers. Missing: the same as for `C71_fold_partial`. -/
theorem C71_next_partial (checks : Bool) (e : Expr σ α) (hb : Built e) (hf : FitsMemory checks e)
    (hne : 0 < size e.dims) :
    Machine.iterNew checks e = some (Iter.new e) ∧ ∀ it, Occurs e it →
      Machine.next checks it = it.next ∧
      ∀ {τ : Type} (init : τ) (f : τ → α → M σ τ), Machine.fold checks it init f = it.fold init f := by
  have hw := Expr.wf_of_built hb
  have h64 := ok64_of_fitsMemory hw hf (D := e.dims) (by simp) hne
  have hu := size_of_fitsMemory hb hf hne
  refine ⟨iterNew_eq hne hu, fun it hit => ?_⟩
  by_cases hbf : BadFn e
  · obtain rfl := Iter.occurs_bad hw hbf hit
    exact ⟨next_bad hw h64 hne, fun init f => Machine.fold_bad hw h64 hne hbf f init⟩
  · exact ⟨next_occurs hw h64 hne hu hbf hit, fun init f => fold_occurs hw h64 hne hu hbf f init hit⟩

/-- Two columns of a `[2, 4]` array, in reversed order. -/
def columns : View := ⟨2, .strided ⟨.static [.dyn, .dyn], [2, 2]⟩ [4, -1]⟩

theorem columns_reach : ReachM true (whole ⟨.static [.dyn, .dyn], [2, 4]⟩) columns :=
  .call .refl (.inl rfl)
    (.view (xs := [.full, .step (.included 1) (.excluded 3) (-1)]) rfl (by decide +kernel))

/-- The elements of `columns` paired with the elements of an owned array. -/
def paired : Expr Unit (Int × Nat) :=
  .zip (.view true columns) (.intoExpr ⟨.static [.dyn, .dyn], [2, 2]⟩ [0, 1, 2, 3] 0) ⟨.static [.dyn, .dyn], [2, 2]⟩

/-- C71_fold_partial, C71_next_partial: an expression that meets the hypotheses. -/
example : Built paired ∧ FitsMemory true paired ∧ 0 < size paired.dims ∧
    (Machine.exprFold true paired [] fun l x => M.pure (l ++ [x])) () = .ok [(2, 0), (1, 1), (6, 2), (5, 3)] () := by
  refine ⟨.zip (a := .view true columns) (b := .intoExpr ⟨.static [.dyn, .dyn], [2, 2]⟩ [0, 1, 2, 3] 0)
    (.view (by decide)) (.intoExpr (by decide) rfl) rfl, ⟨⟨⟨⟨.static [.dyn, .dyn], [2, 4]⟩, 0, by decide,
    by unfold Usize; decide, by decide, columns_reach⟩, ?_⟩, show size [2, 2] ≤ usizeMax by decide⟩, by decide, by decide +kernel⟩
  intro _ i s h
  rw [Mapping.stride_eq _ (by decide)] at h
  have : s ∈ [4, -1] := List.mem_of_getElem? h
  simp at this
  omega

/-- One element of a `[3]` array, selected with a step of `isize::MIN`. -/
def hugeStep : View := ⟨2, .strided ⟨.static [.dyn], [1]⟩ [-9223372036854775808]⟩

/-- C71 is violated by a view with a stride of `isize::MIN`: the range `2..` of a `[3]` array taken with the step
`isize::MIN` is a view of one element. Iterating over it panics in builds with overflow checks, after the element
has been visited, since going back to the start negates the stride. -/
theorem C71_violated :
    ReachM true (whole ⟨.static [.dyn], [3]⟩) hugeStep ∧ Built (.view true hugeStep : Expr Unit Int) ∧
    ((.view true hugeStep : Expr Unit Int).fold [] fun l x => M.pure (l ++ [x])) () = .ok [2] () ∧
    (Machine.exprFold true (.view true hugeStep : Expr Unit Int) [] fun l x => M.pure (l ++ [x])) () = .panic () := by
  refine ⟨.call .refl (.inl rfl) (.view (xs := [.step (.included 2) .unbounded (-9223372036854775808)]) rfl
    (by decide +kernel)), .view (by decide), rfl, by decide +kernel⟩

/-- The shape of an array type without elements, with two other dimensions of size 2^40. -/
def hollowType : Shape :=
  ⟨.static [.const 1099511627776, .const 1099511627776, .const 0], [1099511627776, 1099511627776, 0]⟩

/-- C71 is violated as well for arrays without elements: the size of a row is computed from the left, so that iterating
panics with overflow checks if other dimensions are large. -/
theorem C71_empty_violated : InMemory true (whole hollowType) ∧ size hollowType.dims = 0 ∧
    Built (.view true (whole hollowType) : Expr Unit Int) ∧
    ((.view true (whole hollowType) : Expr Unit Int).fold [] fun l x => M.pure (l ++ [x])) () = .ok [] () ∧
    (Machine.exprFold true (.view true (whole hollowType) : Expr Unit Int) [] fun l x => M.pure (l ++ [x])) () = .panic () := by
  refine ⟨⟨hollowType, 0, by decide, ?_, by decide, .refl⟩, by decide, .view (by decide), rfl, by decide +kernel⟩
  intro d hd
  have : d ∈ [1099511627776, 1099511627776, 0] := hd
  simp only [List.mem_cons, List.not_mem_nil, or_false] at this
  rcases this with rfl | rfl | rfl <;> decide

end Props
