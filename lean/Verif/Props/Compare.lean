import Verif.Lemmas.Compare
import Verif.Props.Expr

/-! Comparison, hashing and search: C43 to C45. -/

namespace Props
open Spec Model Model.Iter Model.Expr

variable {σ α β τ T U : Type}

/-! ### C43 -/

/-- Arrays that are not empty and fit into the address space meet the condition of `C43_partial`. -/
theorem C43_rows (ds : List Nat) (h0 : 0 < size ds) (h : size ds ≤ usizeMax) : RowsFit ds := by
  have hpos := size_pos_iff.1 h0
  have key : ∀ l l' : List Nat, l.Sublist l' → (∀ d ∈ l', 0 < d) → size l ≤ size l' := by
    intro l l' hs
    induction hs with
    | slnil => intro _; exact le_refl _
    | @cons l l' d _ ih =>
      intro hp
      rw [size_cons]
      exact le_trans (ih fun x hx => hp x (by simp [hx])) (Nat.le_mul_of_pos_left _ (hp d (by simp)))
    | @cons_cons l l' d _ ih =>
      intro hp
      rw [size_cons, size_cons]
      exact Nat.mul_le_mul_left _ (ih fun x hx => hp x (by simp [hx]))
  intro k _ _ i _
  exact le_trans (key _ _ ((List.take_sublist _ _).trans (List.drop_sublist _ _)) hpos) h

/-- The comparison as a computation: different dimensions give `false`; otherwise the elements at
equal indices are compared in row-major order until a difference is found, whatever the layouts.
Missing (see `C43_violated`): strided empty arrays that have rows of overflowing length. -/
theorem C43_steps_partial (cmp : Int → Int → M σ Bool) (v w : View) (hv : v.map.WF) (hw : w.map.WF)
    (hf : (v.layout = .dense ∧ w.layout = .dense) ∨ v.dims.length < 2 ∨ RowsFit v.dims) :
    viewEq cmp v w = if v.dims = w.dims then
      allM (fun j => M.bind (orUb (v.index j)) fun p => M.bind (orUb (w.index j)) fun q => cmp p q)
        (allIdx v.dims)
    else M.pure false := by
  by_cases hd : v.dims = w.dims
  · rw [if_pos hd]
    refine eqLoop_eq cmp _ v w hv hw hd (Nat.lt_succ_self _) ?_
    rcases hf with h | h
    · exact Or.inl ⟨Mapping.isDense_iff.2 h.1, Mapping.isDense_iff.2 h.2⟩
    · exact Or.inr h
  · rw [if_neg hd]
    unfold viewEq
    rw [eqLoop, if_neg hd]

/-- Two views compare equal exactly when their dimensions are the same and all elements at equal
indices are equal. -/
theorem C43_partial (v w : View) (hv : v.map.WF) (hw : w.map.WF)
    (hf : (v.layout = .dense ∧ w.layout = .dense) ∨ v.dims.length < 2 ∨ RowsFit v.dims)
    (m : Int → Option T) (m' : Int → Option U) (hm : Within v m) (hm' : Within w m')
    (eqv : T → U → Bool) (s : σ) :
    ∃ b, viewEq (compareAt m m' eqv) v w s = .ok b s ∧
      (b = true ↔ v.dims = w.dims ∧ ∀ j p q x y, v.index j = some p → w.index j = some q →
        m p = some x → m' q = some y → eqv x y = true) := by
  rw [C43_steps_partial _ v w hv hw hf]
  by_cases hd : v.dims = w.dims
  swap
  · rw [if_neg hd]
    exact ⟨false, rfl, by simp [hd]⟩
  rw [if_pos hd]
  have key : ∀ j ∈ allIdx v.dims, ∃ p q x y, v.index j = some p ∧ w.index j = some q ∧
      m p = some x ∧ m' q = some y := by
    intro j hj
    have hj := mem_allIdx.1 hj
    obtain ⟨p, hp⟩ := Option.isSome_iff_exists.1 ((View.index_isSome v hv j).2 hj)
    obtain ⟨q, hq⟩ := Option.isSome_iff_exists.1 ((View.index_isSome w hw j).2 (hd ▸ hj))
    obtain ⟨x, hx⟩ := Option.isSome_iff_exists.1 (hm j p hp)
    obtain ⟨y, hy⟩ := Option.isSome_iff_exists.1 (hm' j q hq)
    exact ⟨p, q, x, y, hp, hq, hx, hy⟩
  let g : List Nat → Bool := fun j =>
    ((do let x ← m (← v.index j); let y ← m' (← w.index j); pure (eqv x y)) : Option Bool).getD false
  have hall : allM (fun j => M.bind (orUb (v.index j)) fun p => M.bind (orUb (w.index j)) fun q =>
      (compareAt m m' eqv p q : M σ Bool)) (allIdx v.dims) = M.pure ((allIdx v.dims).all g) := by
    apply allM_pure
    intro j hj
    obtain ⟨p, q, x, y, hp, hq, hx, hy⟩ := key j hj
    simp [g, hp, hq, hx, hy, orUb, compareAt]
  rw [hall]
  refine ⟨_, rfl, ?_⟩
  rw [List.all_eq_true]
  constructor
  · intro h
    refine ⟨hd, fun j p q x y hp hq hx hy => ?_⟩
    have hj := (View.index_isSome v hv j).1 (by rw [hp]; rfl)
    have := h j (mem_allIdx.2 hj)
    simpa [g, hp, hq, hx, hy] using this
  · rintro ⟨-, h⟩ j hj
    obtain ⟨p, q, x, y, hp, hq, hx, hy⟩ := key j hj
    have := h j p q x y hp hq hx hy
    simpa [g, hp, hq, hx, hy] using this

/-- An empty array with two huge dimensions, permuted. -/
def hugeRows : View :=
  ⟨0, .strided ⟨.static [.dyn, .dyn, .dyn, .dyn], [1, 2 ^ 40, 2 ^ 40, 0]⟩ [0, 0, 1, 2 ^ 40]⟩

/-- The code as it is: comparing an empty view with itself can panic, since the checked length of a
row overflows. -/
theorem C43_violated :
    (whole ⟨.static [.dyn, .dyn, .dyn, .dyn], [1, 2 ^ 40, 0, 2 ^ 40]⟩).permute true
      ⟨.static [.const 0, .const 1, .const 3, .const 2], [0, 1, 3, 2]⟩ = some hugeRows ∧
    hugeRows.map.WF ∧
    viewEq (compareAt (fun _ => none) (fun _ => none) fun (x y : Nat) => x == y) hugeRows hugeRows () =
      .panic () := by
  refine ⟨by decide +kernel, by decide +kernel, by decide +kernel⟩

/-- A transposed 2 by 3 array against a dense 3 by 2 array: equal, then different. -/
example :
    let m : Int → Option Nat := fun p => [1, 2, 3, 4, 5, 6][p.toNat]?
    let m' : Int → Option Nat := fun p => [1, 4, 2, 5, 3, 6][p.toNat]?
    let w := whole ⟨.static [.const 3, .dyn], [3, 2]⟩
    (swapped 2 3).map.WF ∧ w.map.WF ∧ RowsFit (swapped 2 3).dims ∧
    Within (swapped 2 3) m ∧ Within w m' ∧
    viewEq (compareAt m m' (· == ·)) (swapped 2 3) w () = .ok true () ∧
    viewEq (compareAt m m (· == ·)) (swapped 2 3) w () = .ok false () := by
  have h : ∀ (v : View), v.map.WF → ∀ (m : Int → Option Nat),
      (∀ j ∈ allIdx v.dims, ∀ p ∈ v.index j, (m p).isSome) → Within v m := fun v hv m h j p hp =>
    h j (mem_allIdx.2 ((View.index_isSome v hv j).1 (by rw [hp]; rfl))) p hp
  refine ⟨by decide, by decide, C43_rows _ (by decide) (by decide), h _ (by decide) _ ?_,
    h _ (by decide) _ ?_, by decide +kernel, by decide +kernel⟩ <;> decide

/-! ### C44 -/

/-- `C19_view` also for empty views whose last dimension is zero. -/
theorem fold_view (v : View) (hv : v.map.WF) (hp : Visitable v) (r : Bool) (f : τ → Int → M σ τ)
    (init : τ) : (Expr.view r v : Expr σ Int).fold init f =
      (allIdx v.dims).foldlM (fun acc j => M.bind (orUb (v.index j)) fun x => f acc x) init := by
  by_cases hq : 0 < size v.dims ∨ v.layout = .dense
  · exact C19_view v hv r hq f init
  have hl : v.dims.getLast? = some 0 := by
    rcases hp with h | h | h
    · exact absurd (Or.inr h) hq
    · exact absurd (Or.inl h) hq
    · exact h
  have hnd : ¬ v.map.isDense = true := fun h => hq (Or.inr (Mapping.isDense_iff.1 h))
  obtain ⟨ds, hds⟩ := List.getLast?_eq_some_iff.1 hl
  have ho : (Expr.view r v : Expr σ Int).outerRank = ds.length := by
    unfold outerRank innerRank mapInnerRank
    have : v.map.rank = ds.length + 1 := by
      show v.dims.length = _
      rw [hds]; simp
    rw [if_neg hnd, if_pos (by omega)]
    show v.map.rank - 1 = _
    omega
  rw [C19_partial _ (Built.view hv) (by unfold Sound Regular; trivial) (by
    intro _
    rw [ho]
    show size (v.dims.drop ds.length) = 0
    rw [hds]
    simp [size])]
  unfold foldItems
  have : (allIdx v.dims) = ((allIdx v.dims).zipIdx).map (·.1) := by simp
  conv_rhs => rw [this, List.foldlM_map]
  rfl

/-- Hashing feeds the dimensions and then the elements in row-major order. -/
theorem C44_feed_partial (size : Nat → M σ Unit) (elem : Int → M σ Unit) (v : View) (hv : v.map.WF)
    (hp : Visitable v) :
    viewHash size elem v = M.bind (v.dims.foldlM (fun _ d => size d) ()) fun _ =>
      (allIdx v.dims).foldlM (fun _ j => M.bind (orUb (v.index j)) elem) () := by
  unfold viewHash forEach
  rw [fold_view v hv hp]

/-- Views that compare equal feed the same data to the hasher, if equal elements do. Missing (see
`C44_violated`): empty strided views whose last dimension is not zero. -/
theorem C44_partial (v w : View) (hv : v.map.WF) (hw : w.map.WF)
    (hf : (v.layout = .dense ∧ w.layout = .dense) ∨ v.dims.length < 2 ∨ RowsFit v.dims)
    (hp : Visitable v) (hp' : Visitable w)
    (m m' : Int → Option T) (hm : Within v m) (hm' : Within w m') (eqv : T → T → Bool) (s : σ)
    (he : viewEq (compareAt m m' eqv) v w s = .ok true s)
    (size : Nat → M τ Unit) (elem : T → M τ Unit) (hc : ∀ x y, eqv x y = true → elem x = elem y) :
    viewHash size (fun p => M.bind (orUb (m p)) elem) v =
      viewHash size (fun q => M.bind (orUb (m' q)) elem) w := by
  obtain ⟨b, hb, hiff⟩ := C43_partial v w hv hw hf m m' hm hm' eqv s
  rw [hb] at he
  injection he with he
  obtain ⟨hd, hall⟩ := hiff.1 he
  rw [C44_feed_partial _ _ v hv hp, C44_feed_partial _ _ w hw hp', ← hd]
  congr 1
  funext _
  have hj : ∀ j ∈ allIdx v.dims, Valid v.dims j := fun j hj => mem_allIdx.1 hj
  revert hj
  generalize allIdx v.dims = l
  intro hj
  induction l with
  | nil => rfl
  | cons j l ih =>
    have hjv := hj j (by simp)
    obtain ⟨p, hp⟩ := Option.isSome_iff_exists.1 ((View.index_isSome v hv j).2 hjv)
    obtain ⟨q, hq⟩ := Option.isSome_iff_exists.1 ((View.index_isSome w hw j).2 (hd ▸ hjv))
    obtain ⟨x, hx⟩ := Option.isSome_iff_exists.1 (hm j p hp)
    obtain ⟨y, hy⟩ := Option.isSome_iff_exists.1 (hm' j q hq)
    have hxy := hc x y (hall j p q x y hp hq hx hy)
    simp only [List.foldlM_cons, hp, hq, hx, hy, orUb, M.pure_bind, hxy]
    congr 1
    funext _
    exact ih fun j' hj' => hj j' (by simp [hj'])

/-- The code as it is: an empty transposed array equals an empty dense array of the same shape, but
hashing it reads elements that do not exist. -/
theorem C44_violated :
    let w := whole ⟨.static [.dyn, .dyn], [0, 3]⟩
    let m : Int → Option Nat := fun _ => none
    let elem : Nat → M (List Nat) Unit := fun x log => .ok () (log ++ [x])
    let size : Nat → M (List Nat) Unit := fun d log => .ok () (log ++ [d])
    (whole ⟨.static [.dyn, .dyn], [3, 0]⟩).reorder = some (swapped 3 0) ∧
    Within (swapped 3 0) m ∧ Within w m ∧
    viewEq (compareAt m m (· == ·)) (swapped 3 0) w () = .ok true () ∧
    viewHash size (fun p => M.bind (orUb (m p)) elem) w [] = .ok () [0, 3] ∧
    viewHash size (fun p => M.bind (orUb (m p)) elem) (swapped 3 0) [] = .ub := by
  have h : ∀ v : View, v.map.WF → allIdx v.dims = [] → Within v (fun _ => (none : Option Nat)) := by
    intro v hv h0 j p hp
    have := mem_allIdx.2 ((View.index_isSome v hv j).1 (by rw [hp]; rfl))
    rw [h0] at this
    simp at this
  refine ⟨by decide, h _ (by decide) (by decide), h _ (by decide) (by decide), by decide +kernel, by rfl,
    by rfl⟩

example :
    let m : Int → Option Nat := fun p => [1, 2, 3, 4, 5, 6][p.toNat]?
    let elem : Nat → M (List Nat) Unit := fun x log => .ok () (log ++ [x])
    let size : Nat → M (List Nat) Unit := fun d log => .ok () (log ++ [d])
    Visitable (swapped 2 3) ∧
    viewHash size (fun p => M.bind (orUb (m p)) elem) (swapped 2 3) [] =
      .ok () [3, 2, 1, 4, 2, 5, 3, 6] := ⟨Or.inr (Or.inl (by decide)), by rfl⟩

/-! ### C45 -/

/-- The search as a computation: elements are tested in row-major order until one is found. Missing
(see `C45_violated`): strided empty arrays that have rows of overflowing length. -/
theorem C45_steps_partial (f : Int → M σ Bool) (v : View) (hv : v.map.WF)
    (hf : v.layout = .dense ∨ v.dims.length < 2 ∨ RowsFit v.dims) :
    viewContains f v = anyM (fun j => M.bind (orUb (v.index j)) f) (allIdx v.dims) := by
  refine containsLoop_eq f _ v hv (Nat.lt_succ_self _) ?_
  rcases hf with h | h
  · exact Or.inl (Mapping.isDense_iff.2 h)
  · exact Or.inr h

/-- `contains` is true exactly when some valid index addresses a matching element. -/
theorem C45_partial (v : View) (hv : v.map.WF)
    (hf : v.layout = .dense ∨ v.dims.length < 2 ∨ RowsFit v.dims)
    (m : Int → Option T) (hm : Within v m) (test : T → Bool) (s : σ) :
    ∃ b, viewContains (fun p => M.bind (orUb (m p)) fun x => M.pure (test x)) v s = .ok b s ∧
      (b = true ↔ ∃ j p x, v.index j = some p ∧ m p = some x ∧ test x = true) := by
  rw [C45_steps_partial _ v hv hf]
  have key : ∀ j ∈ allIdx v.dims, ∃ p x, v.index j = some p ∧ m p = some x := by
    intro j hj
    obtain ⟨p, hp⟩ := Option.isSome_iff_exists.1 ((View.index_isSome v hv j).2 (mem_allIdx.1 hj))
    obtain ⟨x, hx⟩ := Option.isSome_iff_exists.1 (hm j p hp)
    exact ⟨p, x, hp, hx⟩
  let g : List Nat → Bool := fun j =>
    ((do let x ← m (← v.index j); pure (test x)) : Option Bool).getD false
  have hany : anyM (fun j => M.bind (orUb (v.index j)) fun p => M.bind (orUb (m p)) fun x =>
      (M.pure (test x) : M σ Bool)) (allIdx v.dims) = M.pure ((allIdx v.dims).any g) := by
    apply anyM_pure
    intro j hj
    obtain ⟨p, x, hp, hx⟩ := key j hj
    simp [g, hp, hx, orUb]
  rw [hany]
  refine ⟨_, rfl, ?_⟩
  rw [List.any_eq_true]
  constructor
  · rintro ⟨j, hj, h⟩
    obtain ⟨p, x, hp, hx⟩ := key j hj
    exact ⟨j, p, x, hp, hx, by simpa [g, hp, hx] using h⟩
  · rintro ⟨j, p, x, hp, hx, h⟩
    refine ⟨j, mem_allIdx.2 ((View.index_isSome v hv j).1 (by rw [hp]; rfl)), ?_⟩
    simpa [g, hp, hx] using h

/-- The code as it is: `contains` on an empty view can panic. -/
theorem C45_violated : hugeRows.map.WF ∧ size hugeRows.dims = 0 ∧
    viewContains (fun _ => M.pure false) hugeRows () = .panic () := by
  refine ⟨by decide +kernel, by decide +kernel, by decide +kernel⟩

example :
    let m : Int → Option Nat := fun p => [1, 2, 3, 4, 5, 6][p.toNat]?
    let find (k : Nat) := viewContains (fun p => M.bind (orUb (m p)) fun x => M.pure (x == k))
      (swapped 2 3) ()
    RowsFit (swapped 2 3).dims ∧ find 5 = .ok true () ∧ find 7 = .ok false () := by
  refine ⟨C43_rows _ (by decide) (by decide), by decide +kernel, by decide +kernel⟩

end Props
