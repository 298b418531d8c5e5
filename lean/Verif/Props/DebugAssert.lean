import Verif.Lemmas.DebugAssert
import Verif.Spec.DebugAssert
import Verif.Lemmas.MachineAny
import Verif.Lemmas.MachineArray
import Verif.Lemmas.Resume
import Verif.Model.Slice
import Verif.Props.MachineStorage

/-!
C82: the debug assertions of the crate never fail, see `Model/DebugAssert.lean`. The operations whose names end with `D`
are those of a build with debug assertions.
-/

namespace Props
open Model Spec

variable {σ T : Type}

/-- Every operation on tensors does the same with and without debug assertions: no assertion fails, whatever closures
and iterators do.
Missing: expressions whose length overflows, see `C82_long` and `C82_violated`. -/
theorem C82_operations_partial (S : Sys σ T) (ha : Usable S.a) (hb : Usable S.b) (ha' : Fits64 true S.a)
    (hb' : Fits64 true S.b) (op : TensorOp σ T) (hop : op.Allowed S) (hs : op.Short true) : op.runD S = op.run S := by
  obtain ⟨xs, hx⟩ := ha
  obtain ⟨ys, hy⟩ := hb
  cases op with
  | swap => rfl
  | expand e c => exact Machine.onA_eq (expandD_eq hop.1 (tameRaw_of_closures hop.1 hop.2.1) hop.2.2 hx ha')
  | append => exact Machine.onBoth_eq (tensorAppendD_eq hx hy ha' hb')
  | drain start stop k leak => exact Machine.onA_eq (Machine.bind_left_eq (drainRunD_eq hx ha'))
  | truncate n => exact Machine.onA_eq (tensorTruncateD_eq hx ha' n)
  | clear => exact Machine.onA_eq (tensorClearD_eq hx ha')
  | resizeWith dims f => exact Machine.onA_eq (resizeWithD_eq hop hx ha')
  | extend n step => exact Machine.onA_eq (tensorExtendD_eq hx ha' n step)
  | reserve n => exact Machine.onA_eq (tensorReserveD_eq hx ha' n)
  | shrinkTo n => exact Machine.onA_eq (tensorShrinkToD_eq ha' n)
  | cloneFrom c =>
    refine (Machine.onA_eq ?_).trans (Machine.cloneFrom_run ⟨ys, hy⟩ c)
    exact Machine.bind_congr_part (P := fun a t => a = ys ∧ t = (S.world, S.a)) (R := fun _ => True)
      (post_readElems hy ⟨rfl, rfl⟩).part (by rintro a t ⟨rfl, rfl⟩; exact cloneFromD_eq hop.2 hx ha' hy hb')
  | intoShape ns =>
    refine Machine.onA_eq (tensorIntoD_eq ha' fun s' h => ?_)
    obtain ⟨h1, h2⟩ := Machine.reshape_fits hop ha'.2.1 h
    exact ⟨h1, h2, (reshape_ok hop h).2⟩
  | intoMapping ty =>
    refine Machine.onA_eq (tensorIntoD_eq ha' fun s' h => ?_)
    obtain ⟨h1, h2, -⟩ := Machine.fromDims_any h
    exact ⟨h1, h2 ▸ ha'.2.1, h2 ▸ rfl⟩
  | intoFlat => exact Machine.onA_eq (tensorIntoFlatD_eq ha')
  | zipWith e f => rfl
  | fromExpr e =>
    exact Machine.onA_eq (tensorFromExprD_eq hop.1 (tameRaw_of_closures hop.1 hop.2.1) hs hop.2.2 ha'.2.2.2)

/-- Appending 2 rows to 4 rows. -/
example : Usable tensor42 ∧ Usable tensor22 ∧ Fits64 true tensor42 ∧ Fits64 true tensor22 ∧
    (TensorOp.append : TensorOp Nat Nat).Allowed ⟨10, tensor42, tensor22⟩ ∧
    (TensorOp.append : TensorOp Nat Nat).Short true ∧
    (match (TensorOp.append : TensorOp Nat Nat).runD ⟨10, tensor42, tensor22⟩ with
      | .ok _ S => some (S.a.shape.dims, S.b.shape.dims)
      | _ => none) = some ([6, 2], [0, 2]) := by
  refine ⟨⟨List.range 8, ?_, ?_, ?_⟩, ⟨[1, 2, 3, 4], ?_, ?_, ?_⟩, ?_, ?_, trivial, trivial, ?_⟩ <;> decide +kernel

/-- The assertion does fail for a wrong length: a tensor with 4 elements and the shape of 6. -/
example : (fromPartsD : M (Unit × Own Nat) Unit)
    ((), ⟨[some 1, some 2, some 3, some 4], 4, ⟨.static [.dyn, .dyn], [3, 2]⟩, [], 10⟩) =
      .panic ((), ⟨[none, none, none, none], 0, ⟨.static [.dyn, .dyn], [3, 2]⟩, [1, 2, 3, 4], 10⟩) := by
  decide +kernel

/-- Whatever is reached with debug assertions is also reached without, and no assertion fails in the next operation. -/
theorem C82_history (S S' : Sys σ T) (h : HistoryD S S') (ha : Usable S.a) (hb : Usable S.b) (ha' : Fits64 true S.a)
    (hb' : Fits64 true S.b) :
    History S S' ∧ Usable S'.a ∧ Usable S'.b ∧ Fits64 true S'.a ∧ Fits64 true S'.b ∧
      ∀ op : TensorOp σ T, op.Allowed S' → op.Short true → op.runD S' = op.run S' := by
  have key : History S S' ∧ Fits64 true S'.a ∧ Fits64 true S'.b := by
    induction h with
    | refl => exact ⟨.refl, ha', hb'⟩
    | @ok S' S'' op h0 hop hs hx ih =>
      obtain ⟨i1, i2, i3⟩ := ih
      obtain ⟨u1, u2, -⟩ := C32 _ _ i1 ha hb
      have hl := Machine.run_leaves u1 u2 i2 i3 hop hs
      rw [C82_operations_partial S' u1 u2 i2 i3 op hop hs] at hx
      rw [hx] at hl
      exact ⟨.ok i1 hop hx, hl⟩
    | @caught S' S'' op h0 hop hs hc hx ih =>
      obtain ⟨i1, i2, i3⟩ := ih
      obtain ⟨u1, u2, -⟩ := C32 _ _ i1 ha hb
      have hl := Machine.run_leaves u1 u2 i2 i3 hop hs
      rw [C82_operations_partial S' u1 u2 i2 i3 op hop hs] at hx
      rw [hx] at hl
      exact ⟨.caught i1 hop hc hx, hl⟩
  obtain ⟨k1, k2, k3⟩ := key
  obtain ⟨u1, u2, -⟩ := C32 _ _ k1 ha hb
  exact ⟨k1, u1, u2, k2, k3, fun op hop hs => C82_operations_partial S' u1 u2 k2 k3 op hop hs⟩

/-- A history: truncate to 3 rows. -/
example : HistoryD (⟨10, tensor42, tensor22⟩ : Sys Nat Nat) ⟨10, afterTruncate, tensor22⟩ := by
  refine .ok (op := .truncate 3) .refl trivial trivial ?_
  have : (tensorTruncateD 3 : M (Nat × Own Nat) Unit) (10, tensor42) = .ok () (10, afterTruncate) := by
    decide +kernel
  simp only [TensorOp.runD, onA, this]

/-- The operations that are not part of histories: no assertion fails when a tensor is cloned, memory is reserved with an
error value, a tensor is made of a vector, a slice or an iterator or with a given capacity, or is turned to an
expression. -/
theorem C82_other (s : σ) (o : Own T) (ho : Fits64 true o) :
    (∀ b c, Usable b → Fits64 true b → (∀ y, (c y).Tame) → tensorCloneD b c (s, o) = tensorClone b c (s, o)) ∧
    (Usable o → ∀ n, tensorTryReserveD n (s, o) = tensorTryReserve n (s, o)) ∧
    (o.len ≤ usizeMax → tensorFromVecD (s, o) = tensorFromVec (s, o)) ∧
    (∀ src c, (∀ y, (c y).Tame) → src.length ≤ usizeMax → tensorFromSliceD src c (s, o) = tensorFromSlice src c (s, o)) ∧
    (∀ n step, tensorFromIterD n step (s, o) = tensorFromIter n step (s, o)) ∧
    (∀ ty cap, tensorWithCapacityD ty cap (s, o) = tensorWithCapacity ty cap (s, o)) ∧
    tensorIntoExprD (s, o) = .ok () (s, { o with len := o.shape.len }) :=
  ⟨fun _ _ ⟨_, hb⟩ hb' hc => tensorCloneD_eq hb ho hb' hc, fun ⟨_, h⟩ n => tensorTryReserveD_eq h ho n,
    fun h => tensorFromVecD_eq h, fun _ _ hc hl => tensorFromSliceD_eq hc hl, fun _ _ => tensorFromIterD_eq ho.2.2.2,
    fun _ _ => tensorWithCapacityD_eq, tensorIntoExprD_eq ho⟩

/-- A clone of 2 rows. -/
example : (match (tensorCloneD tensor22 (fun x => M.pure (x + 10)) : M (Unit × Own Nat) Unit)
      ((), ⟨[], 0, ⟨.static [.dyn], [0]⟩, [], 10⟩) with
    | .ok _ t => some (t.2.cells, t.2.shape.dims)
    | _ => none) = some ([some 11, some 12, some 13, some 14], [2, 2]) := by
  decide +kernel

/-- Indexing does the same with and without debug assertions, for all views and all indices: either panics for indices
outside. The assertions of `get_unchecked` hold for the indices inside. -/
theorem C82_index (v : View) (hw : v.map.WF) :
    (∀ idx, v.indexD idx = v.index idx) ∧ (∀ k, v.linIndexD k = v.linIndex k) ∧
      ∀ idx, Valid v.map.dims idx → v.map.offsetD idx = v.map.offset idx :=
  ⟨indexD_eq hw, linIndexD_eq v, fun _ => offsetD_eq hw⟩

/-- The row 1 and the column 2 of 4 rows and 5 columns, and a column outside. -/
example : (whole ⟨.static [.dyn, .dyn], [4, 5]⟩).indexD [1, 2] = some 7 ∧
    (whole ⟨.static [.dyn, .dyn], [4, 5]⟩).indexD [1, 5] = none ∧
    (whole ⟨.static [.dyn, .dyn], [4, 5]⟩).map.offsetD [1, 5] = none ∧
    (whole ⟨.static [.dyn, .dyn], [4, 5]⟩).map.offset [1, 5] = some 10 := by
  decide +kernel

/-- The debug output of an iterator, after any calls of `next` that returned or panicked, shows the elements of arrays
only if none of them was moved out: either it panics with "iterator in use", or the assertions of `as_ref` hold. -/
theorem C82_shown {α : Type} (e : Expr σ α) (hb : Built e) (it : Iter σ α) (h : Called e it)
    (hd : iterDebug it = some ()) : ∀ p ∈ it.expr.owned, p.1 = 0 := by
  have take : ∀ (it it' : Iter σ α) (s t : σ), it.takeE s = .panic it' t → it'.innerIndex ≠ 0 := by
    intro it it' s t h
    unfold Iter.takeE at h
    cases hg : it.expr.getE it.innerIndex s <;> rw [hg] at h <;> cases h
    exact Nat.succ_ne_zero _
  have take' : ∀ (it it' : Iter σ α) (x : Option α) (s t : σ), it.takeE s = .ok x it' t → it'.innerIndex ≠ 0 := by
    intro it it' x s t h
    unfold Iter.takeE at h
    cases hg : it.expr.getE it.innerIndex s <;> rw [hg] at h <;> cases h
    exact Nat.succ_ne_zero _
  have key : it.innerIndex = 0 → it.expr.owned = e.owned := by
    clear hd
    induction h with
    | new => exact fun _ => rfl
    | @ok it x it' s t h0 hx ih =>
      intro h1
      unfold Iter.nextE at hx
      split at hx
      · obtain ⟨-, l1, l2, -⟩ := Iter.stepOuterE_later it
        split at hx
        · exact absurd h1 (take' _ _ _ _ _ hx)
        · rename_i heq
          cases hx
          rw [heq] at l1 l2
          rw [l1]
          exact ih (l2 ▸ h1)
        · cases hx
      · exact absurd h1 (take' _ _ _ _ _ hx)
    | @panic it it' s t h0 hx ih =>
      intro h1
      unfold Iter.nextE at hx
      split at hx
      · obtain ⟨-, l1, l2, -⟩ := Iter.stepOuterE_later it
        split at hx
        · exact absurd h1 (take _ _ _ _ hx)
        · cases hx
        · rename_i heq
          cases hx
          rw [heq] at l1 l2
          rw [l1]
          exact ih (l2 ▸ h1)
      · exact absurd h1 (take _ _ _ _ hx)
  rw [key (check_eq_some.1 hd)]
  exact Iter.owned_new (Expr.wf_of_built hb)

/-- An array whose elements are moved out with a closure that panics: the first call takes an element before it panics,
and the debug output panics afterwards. -/
example : (match Iter.nextE (Iter.new (.map (.intoExpr ⟨.static [.dyn], [2]⟩ [3, 4] 0) fun _ => M.panic :
        Expr Unit Nat)) () with
      | .panic it _ => some (it.expr.owned, iterDebug it)
      | _ => none) = some ([(1, 2)], none) ∧
    iterDebug (Iter.new (.intoExpr ⟨.static [.dyn], [2]⟩ [3, 4] 0 : Expr Unit Nat)) = some () := by
  decide +kernel

/-- If overflow is checked as well, `from_expr` of an expression whose length overflows panics before any assertion is
reached, and no closure is called. -/
theorem C82_long (s : σ) (o : Own T) (e : Expr σ T) (h : ¬ NoOverflow usizeMax e.dims) :
    Machine.tensorFromExpr true e (s, o) = .panic (s, { o with cells := [], len := 0, shape := e.shape }) := by
  have e1 : Machine.len true e.shape = none := Machine.product_bad h
  show M.bind (M.lift (Machine.len true e.shape)) _ (s, { o with cells := [], len := 0, shape := e.shape }) = _
  rw [e1]
  rfl

/-- References to the elements of an array with the dimensions 2⁴⁰, 2⁴⁰ and 0. -/
def longExpr : Expr Unit Int := .view false (whole ⟨.static [.dyn, .dyn, .dyn], [2 ^ 40, 2 ^ 40, 0]⟩)

/-- Too long for overflow checks, although there are no elements. -/
example : Built longExpr ∧ TameClosures longExpr ∧ NoPhantomRows longExpr ∧ ¬ NoOverflow usizeMax longExpr.dims ∧
    size longExpr.dims = 0 := by
  refine ⟨.view ?_, trivial, fun _ => ?_, ?_, ?_⟩ <;> decide +kernel

/-- If overflow is not checked, `from_expr` with debug assertions panics for every expression whose length overflows,
and no closure is called and no element dropped: either there are too many elements for the memory, or there are none,
and the assertion of `from_parts` fails. -/
theorem C82_exact (s : σ) (o : Own T) (hl : o.limit ≤ usizeMax) (e : Expr σ T) (hb : Built e) (ht : TameClosures e)
    (hp : NoPhantomRows e) (h : ¬ NoOverflow usizeMax e.dims) :
    ∃ o', tensorFromExprD e (s, o) = .panic (s, o') ∧ o'.log = o.log := by
  have post := post_tensorFromExpr_raw hb (tameRaw_of_closures hb ht) hp s o
  have len := len_tensorFromExpr (s := s) (o := o) hb (tameRaw_of_closures hb ht) hp
  have big : o.limit < size e.dims ∨ size e.dims = 0 := by
    rcases Nat.eq_zero_or_pos (size e.dims) with h0 | h0
    · exact .inr h0
    · refine .inl (Nat.lt_of_not_le fun h1 => h ?_)
      exact (LenFits.of_pos (checks := true) h0 (h1.trans hl)).2 rfl
  unfold tensorFromExprD M.bind
  rcases big with h0 | h0
  · have e1 : tensorFromExpr e (s, o) = .panic (s, { o with cells := [], len := 0, shape := e.shape }) := by
      show M.bind (M.lift (check (e.shape.len ≤ o.limit))) _ (s, { o with cells := [], len := 0, shape := e.shape }) = _
      rw [show check (e.shape.len ≤ o.limit) = none from
        if_neg (by rw [Shape.len_eq]; exact Nat.not_le.2 h0)]
      rfl
    rw [e1]
    exact ⟨_, rfl, rfl⟩
  · unfold M.Post at post
    unfold M.Part at len
    cases hx : tensorFromExpr e (s, o) with
    | ok a t =>
      rw [hx] at post len
      obtain ⟨ys, hy, -, h2, h3⟩ := post
      have hz : t.2.len = 0 := by
        have := show t.2.len = size t.2.shape.dims from len
        rw [h2] at this
        exact this.trans h0
      have hw : t.1 = s := by
        rw [h0] at hy
        cases hy
        rfl
      refine ⟨{ t.2 with len := 0 }, ?_, h3⟩
      show M.bind (M.onPanic (M.lift (check (true = true → some t.2.len = t.2.shape.checkedLen))) vecClear) _ t = _
      rw [show check (true = true → some t.2.len = t.2.shape.checkedLen) = none from if_neg (by
        rw [h2, Machine.checkedLen_none h]
        simp)]
      have e2 : (vecClear : M (σ × Own T) Unit) t = .ok () (s, { t.2 with len := 0 }) := by
        show dropCells 0 t.2.len (t.1, { t.2 with len := 0 }) = _
        rw [hz, hw]
        refine (dropCells_eq (o := { t.2 with len := 0 }) (pre := []) (ys := []) (xs := t.2.cells) s rfl rfl).trans ?_
        simp only [List.append_nil, List.nil_append, List.length_nil, List.replicate_zero]
      have e3 : (M.onPanic (M.lift none) vecClear : M (σ × Own T) Unit) t = .panic (s, { t.2 with len := 0 }) := by
        unfold M.onPanic
        simp only [M.lift, M.panic, e2]
      unfold M.bind
      rw [e3]
    | panic t =>
      rw [hx] at post
      rcases post with ⟨-, h1, h2⟩ | ⟨k, ys, h1, h2⟩
      · exact ⟨t.2, by rw [← h1], h2⟩
      · exact absurd h1.1 (by rw [h0]; exact Nat.not_lt_zero k)
    | ub => rw [hx] at post; exact post.elim
    | abort => rw [hx] at post; exact post.elim

/-- The claim does not hold if overflow is not checked and debug assertions are: `from_expr` of an expression without
elements, whose dimensions are too large together in front of the zero, panics in `from_parts`. Without debug assertions
the result is the empty tensor. -/
theorem C82_violated :
    (M.bind (Machine.tensorFromExpr false longExpr) (fun _ => fromPartsD))
        ((), ⟨[], 0, ⟨.static [.dyn], [0]⟩, [], 10⟩) =
      .panic ((), ⟨[], 0, ⟨.static [.dyn, .dyn, .dyn], [2 ^ 40, 2 ^ 40, 0]⟩, [], 10⟩) ∧
    Machine.tensorFromExpr false longExpr ((), ⟨[], 0, ⟨.static [.dyn], [0]⟩, [], 10⟩) =
      .ok () ((), ⟨[], 0, ⟨.static [.dyn, .dyn, .dyn], [2 ^ 40, 2 ^ 40, 0]⟩, [], 10⟩) := by
  decide +kernel

end Props
