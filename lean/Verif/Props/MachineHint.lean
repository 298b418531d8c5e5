import Verif.Lemmas.MachineHint
import Verif.Props.MachineIter
import Verif.Props.Expr

/-! The size hint of iterators with 64-bit integers. Property numbers refer to `properties.jsonl`. -/

namespace Props
open Model Spec Machine
variable {σ α : Type}

/-- C71, the size hint: at every point of an iteration over a non-empty expression of arrays in memory, `size_hint`
and `len` return with 64-bit integers what they return with unbounded integers, which by `C20_partial` is the number
of items to come, and do not panic. Missing: the same as for `C71_fold_partial`. -/
theorem C71_hint_partial (checks : Bool) (e : Expr σ α) (hb : Built e) (hf : FitsMemory checks e)
    (hne : 0 < size e.dims) (it : Iter σ α) (hit : Occurs e it) :
    Machine.sizeHint checks it = it.sizeHint ∧ ∃ n, n ≤ size e.dims ∧ it.sizeHint = some n := by
  have hw := Expr.wf_of_built hb
  have hu := size_of_fitsMemory hb hf hne
  by_cases hbf : BadFn e
  · obtain rfl := Iter.occurs_bad hw hbf hit
    have hO := Iter.outerRank_le e
    obtain ⟨h1, h2⟩ := Machine.sizeHint_iterAt_eq (checks := checks) hne hu (it := Iter.new e) (q := 0) (c := 0)
      (Iter.rows_pos e) (Nat.zero_le _) rfl rfl (Iter.innerLimit_new e) (by
        simp only [Iter.new, Iter.iterAt]
        rw [unrank_zero, Iter.length_lims hO, ← List.replicate_add, Nat.add_sub_cancel' hO, List.map_const']) rfl
    exact ⟨h1, _, Nat.sub_le _ _, h2⟩
  · obtain ⟨q, c, hq, hc, rfl⟩ := Iter.occurs_iterAt hw hbf (.inl hne) hit
    obtain ⟨h1, h2⟩ := Machine.sizeHint_iterAt_eq (checks := checks) hne hu
      (it := Iter.iterAt e q c (q * Iter.row e + c)) hq hc (by simp [Iter.iterAt]) rfl rfl rfl rfl
    exact ⟨h1, _, Nat.sub_le _ _, h2⟩

/-- C71_hint_partial: the hint of `paired`, which meets the hypotheses, after three of the four items. -/
example : (M.bind (runNext 3 (Iter.new paired)) fun p => M.pure (Machine.sizeHint true p.2)) () = .ok (some 1) () ∧
    0 < size paired.dims := by
  refine ⟨by decide +kernel, by decide⟩

/-- C20 as the code is, in builds without overflow checks: after the first of the phantom items of an empty view, the
iterator says that 2^64 - 1 items are to come. With overflow checks asking for the number panics. -/
theorem C20_wraps :
    (M.bind (Iter.next (Iter.new (Expr.view true (swapped 3 0) : Expr Unit Int)))
      fun p => M.pure (p.1, Machine.sizeHint false p.2, Machine.sizeHint true p.2)) () =
      .ok (some 0, some 18446744073709551615, none) () := by
  decide +kernel

end Props
