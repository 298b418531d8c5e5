import Verif.Props.Tensor
import Verif.Props.Reshape
import Verif.Props.TensorExact
import Verif.Props.Exact

/-! Array sizes never overflow silently (C48). -/

namespace Props
open Model Spec Expr

variable {σ T α : Type}

/-- `from_elem` and `from_fn` accept a shape exactly if no partial product of the dimensions exceeds
`usize::MAX`, and the reported length is then the exact product. -/
theorem C48_sources (s : Shape) (f : M σ α) (g : List Nat → M σ α) :
    ((fromElemNew s f).isSome ↔ NoOverflow usizeMax s.dims) ∧
    ((fromFnNew s g).isSome ↔ NoOverflow usizeMax s.dims) ∧
    (∀ e, fromElemNew s f = some e → e.dims = s.dims ∧ e.shape.len = size s.dims ∧
      e.shape.len ≤ usizeMax) ∧
    (∀ e, fromFnNew s g = some e → e.dims = s.dims ∧ e.shape.len = size s.dims ∧
      e.shape.len ≤ usizeMax) := by
  have hb : NoOverflow usizeMax s.dims → size s.dims ≤ usizeMax := fun h => by
    have := h s.dims.length (Nat.le_refl _)
    rwa [List.take_length] at this
  unfold fromElemNew fromFnNew
  rw [Shape.checkedLen_eq]
  by_cases h : NoOverflow usizeMax s.dims
  · rw [if_pos h]
    refine ⟨by simp [h], by simp [h], fun e he => ?_, fun e he => ?_⟩
    · obtain rfl := Option.some.inj he
      exact ⟨rfl, Shape.len_eq s, (Shape.len_eq s).trans_le (hb h)⟩
    · obtain rfl := Option.some.inj he
      exact ⟨rfl, Shape.len_eq s, (Shape.len_eq s).trans_le (hb h)⟩
  · rw [if_neg h]
    refine ⟨by simp [h], by simp [h], fun e he => by simp at he, fun e he => by simp at he⟩

/-- A tensor made by `from_elem` stores exactly as many elements as the product of the dimensions
says. -/
theorem C48_from_elem (s : Shape) (hs : s.WF) (f : M σ T) (hf : f.Tame) (e : Expr σ T)
    (he : fromElemNew s f = some e) (w : σ) (o : Own T) (t : σ × Own T)
    (ht : tensorFromExpr e (w, o) = .ok () t) :
    NoOverflow usizeMax s.dims ∧ t.2.shape = s ∧ ∃ xs, Holds t.2 xs ∧ xs.length = size s.dims := by
  have hn := (C48_sources s f (fun _ => f)).1.1 (by rw [he]; rfl)
  have hb := Built.fromElem hs he
  simp only [fromElemNew, Option.map_eq_some_iff] at he
  obtain ⟨_, _, rfl⟩ := he
  have h := C31_tensor_partial _ hb trivial (tame_fromElem hf) (fun h => by
    simpa [outerRank, innerRank] using h) w o
  unfold M.Post at h
  rw [ht] at h
  obtain ⟨ys, -, h1, h2, -⟩ := h
  have h2 : t.2.shape = s := h2
  exact ⟨hn, h2, ys, h1, by rw [h1.2.1, h2]⟩

theorem drop_outer_fromFn (s : Shape) (i : List Nat) (f : List Nat → M σ T) :
    (Expr.fromFn s i f).dims.drop (Expr.fromFn s i f).outerRank = s.dims.getLast?.toList := by
  have : (Expr.fromFn s i f).outerRank = s.dims.length - 1 := by
    unfold outerRank innerRank
    by_cases h2 : s.dims.length > 0
    · rw [if_pos h2]; rfl
    · rw [if_neg h2]; exact (show 0 = s.dims.length - 1 by omega)
  rw [this, show (Expr.fromFn s i f).dims = s.dims from rfl]
  rcases List.eq_nil_or_concat s.dims with h | ⟨l, d, h⟩
  · rw [h]; rfl
  · rw [h]; simp

/-- A tensor made by `from_fn` stores exactly as many elements as the product of the dimensions says, if it is made
at all (for dynamic ranks see C26). Missing: arrays without elements whose last dimension is not 0, see
`C48_from_fn_exact` and `C48_violated`. -/
theorem C48_from_fn_partial (s : Shape) (hs : s.WF) (hp : size s.dims = 0 → s.dims.getLast? = some 0)
    (f : List Nat → M σ T) (hf : ∀ j, (f j).Tame) (e : Expr σ T)
    (he : fromFnNew s f = some e) (w : σ) (o : Own T) (t : σ × Own T)
    (ht : tensorFromExpr e (w, o) = .ok () t) :
    NoOverflow usizeMax s.dims ∧ t.2.shape = s ∧ ∃ xs, Holds t.2 xs ∧ xs.length = size s.dims := by
  have hn := (C48_sources s (f []) f).2.1.1 (by rw [he]; rfl)
  have hb := Built.fromFn hs he
  simp only [fromFnNew, Option.map_eq_some_iff] at he
  obtain ⟨_, _, rfl⟩ := he
  have h := C31_tensor_exact _ hb (tameRaw_of_closures hb hf) (fun h0 => by
    rw [drop_outer_fromFn, hp h0]; rfl) w o
  unfold M.Post at h
  rw [ht] at h
  obtain ⟨ys, -, h1, h2, -⟩ := h
  have h2 : t.2.shape = s := h2
  exact ⟨hn, h2, ys, h1, by rw [h1.2.1, h2]⟩

/-- Shapes of 6 elements and of none. -/
example : (∀ ds ∈ [[2, 3], [3, 0], [0, 0]], size ds = 0 → ds.getLast? = some 0) ∧
    (match (fromFnNew ⟨.static [.dyn, .dyn], [2, 3]⟩ (fun j => (M.pure (rowMajor [2, 3] j) : M Unit Nat))).map
        (fun e => tensorFromExpr e ((), noTensor)) with
      | some (.ok _ t) => some (t.2.cells, t.2.shape.dims)
      | _ => none) = some ([some 0, some 1, some 2, some 3, some 4, some 5], [2, 3]) := by
  decide +kernel

/-- The code as it is, exactly: if a static shape has no elements but its last dimension is not 0, then the function
is called for the index 0, and if it returns then the result is written outside of the allocation. -/
theorem C48_from_fn_exact (s : Shape) (hs : s.WF) (hd : s.ty ≠ .dynRank) (h0 : size s.dims = 0)
    (hl : s.dims.getLast? ≠ some 0) (f : List Nat → M σ T) (e : Expr σ T) (he : fromFnNew s f = some e)
    (w w' : σ) (o : Own T) (x : T) (hx : f (List.replicate s.dims.length 0) w = .ok x w') :
    tensorFromExpr e (w, o) = .ub := by
  have hb := Built.fromFn hs he
  simp only [fromFnNew, Option.map_eq_some_iff] at he
  obtain ⟨_, _, rfl⟩ := he
  refine C31_exact _ hb h0 ?_ w w' o x ?_
  · rw [drop_outer_fromFn]
    rcases List.eq_nil_or_concat s.dims with h | ⟨l, d, h⟩
    · rw [h]; simp [size]
    · rw [h] at hl ⊢
      simp at hl
      simpa [size] using hl
  · have : (visited (Expr.fromFn s (dimsDefault s.ty) f)).length = s.dims.length := by
      unfold visited
      rw [List.length_append, List.length_map, ← List.length_append, List.take_append_drop]
      rfl
    unfold rawNth
    rw [unrank_zero, this]
    show (if s.ty = .dynRank ∧ s.dims ≠ [] then _ else f _) w = _
    rw [if_neg fun h => hd h.1]
    exact hx

/-- The hypotheses for the shape `[0, 3]`; the result is in `C48_violated`. -/
example : (⟨.static [.dyn, .dyn], [0, 3]⟩ : Shape).WF ∧ size [0, 3] = 0 ∧ [0, 3].getLast? ≠ some 0 ∧
    (fromFnNew ⟨.static [.dyn, .dyn], [0, 3]⟩ (fun _ => (M.pure 1 : M Unit Nat))).isSome := by
  decide

/-- The code as it is: `Tensor::from_fn([0, 3], ..)` writes outside of the allocation. -/
theorem C48_violated :
    (fromFnNew ⟨.static [.dyn, .dyn], [0, 3]⟩ (fun _ => (M.pure 1 : M Unit Nat))).map
      (fun e => tensorFromExpr e ((), noTensor)) = some .ub := by
  decide +kernel

theorem noOverflow_resolves {n : Nat} {req dims : List Nat} (h : Resolves usizeMax n req dims)
    (hn : n ≤ usizeMax) (ho : NoOverflow usizeMax (req.map fun d => if d = usizeMax then 1 else d)) :
    NoOverflow usizeMax dims := by
  have hmap : ∀ l : List Nat, usizeMax ∉ l → (l.map fun d => if d = usizeMax then 1 else d) = l := by
    intro l hl
    conv_rhs => rw [← List.map_id l]
    apply List.map_congr_left
    intro d hd
    have : d ≠ usizeMax := fun e => hl (e ▸ hd)
    simp [this]
  cases h with
  | exact h1 h2 => rwa [hmap _ h1] at ho
  | @infer a b m h1 h2 h3 h4 =>
    intro k hk
    have hs : size (a ++ m :: b) = n := by
      rw [← h4, size_append, size_cons, size_append]
      rw [Nat.mul_comm m, Nat.mul_assoc]
    by_cases hka : k ≤ a.length
    · have := ho k (by simp at hk ⊢; omega)
      rw [List.map_append, List.take_append_of_le_length (by simpa using hka), hmap _ h1] at this
      rwa [List.take_append_of_le_length hka]
    · by_cases h0 : n = 0
      · have hm : m = 0 := by
          rw [h0] at h4
          rcases Nat.mul_eq_zero.1 h4 with h | h <;> omega
        have hz : size ((a ++ m :: b).take k) = 0 := by
          rw [List.take_append, size_append]
          obtain ⟨r, hr⟩ : ∃ r, k - a.length = r + 1 := ⟨k - a.length - 1, by omega⟩
          rw [hr, List.take_succ_cons, size_cons, hm]
          simp
        omega
      · have e : size ((a ++ m :: b).take k) * size ((a ++ m :: b).drop k) = n := by
          rw [← size_append, List.take_append_drop, hs]
        have : 0 < size ((a ++ m :: b).drop k) := by
          rcases Nat.eq_zero_or_pos (size ((a ++ m :: b).drop k)) with h | h
          · rw [h] at e; omega
          · exact h
        calc size ((a ++ m :: b).take k) ≤ size ((a ++ m :: b).take k) * size ((a ++ m :: b).drop k) :=
              Nat.le_mul_of_pos_right _ this
          _ ≤ usizeMax := by rw [e]; exact hn

/-- Reshaping never accepts dimensions for which a partial product overflows (neither as requested, a
placeholder counting as 1, nor as inferred), and the number of elements stays. -/
theorem C48_reshape (v v' : View) (h : v.map.WF) (hl : size v.dims ≤ usizeMax) (ns : Shape) (hn : ns.WF)
    (hv : v.reshape ns = some v') :
    NoOverflow usizeMax (ns.dims.map fun d => if d = usizeMax then 1 else d) ∧
      NoOverflow usizeMax v'.dims ∧ size v'.dims = size v.dims := by
  obtain ⟨_, _, h3, h4, _, _⟩ := View.reshape_spec h hn hv
  have hs : (v.map.shape.reshape ns).isSome := by
    simp only [View.reshape, Mapping.reshape, Option.bind_eq_bind, Option.bind_eq_some_iff] at hv
    obtain ⟨m, ⟨s', h1, -⟩, -⟩ := hv
    rw [h1]; rfl
  have ho := ((Shape.reshape_isSome _ _ hn).1 hs).2.1
  exact ⟨ho, noOverflow_resolves h3 hl ho, h4⟩

/-- `resize` never accepts dimensions for which a partial product overflows; when it accepts, the
stored length is the exact product. -/
theorem C48_resize (newDims : List Nat) (f : M σ T) (hf : f.Tame) (s : σ) (o : Own T) (xs : List T)
    (h : Holds o xs) (t : σ × Own T) (ht : resizeWith newDims f (s, o) = .ok () t) :
    NoOverflow usizeMax newDims ∧ t.2.shape.dims = newDims ∧
      ∃ ys, Holds t.2 ys ∧ ys.length = size newDims := by
  obtain ⟨h1, ys, h2, -⟩ := C33 newDims f hf s o xs h t ht
  refine ⟨?_, by rw [h1], ys, h2, by rw [h2.2.1, h1]⟩
  by_contra hno
  simp only [resizeWith, own, M.bind] at ht
  by_cases hr : newDims.length = o.shape.rank
  · rw [show check (newDims.length = o.shape.rank) = some () from if_pos hr] at ht
    by_cases hne : newDims ≠ []
    · simp only [M.lift, M.pure, if_pos hne, M.bind, Shape.checkedLen_eq, if_neg hno, M.panic] at ht
      cases ht
    · have : newDims = [] := by simpa using hne
      subst this
      exact hno (by decide)
  · rw [show check (newDims.length = o.shape.rank) = none from if_neg hr] at ht
    simp only [M.lift, M.panic] at ht
    cases ht

/-- `[2^33, 2^33]` overflows to 4 and `[2^32, 2^32]` to 0 in 64 bits: rejected. `[2^16, 2^16]` is fine. -/
example : ¬ NoOverflow usizeMax [2 ^ 33, 2 ^ 33] ∧ ¬ NoOverflow usizeMax [2 ^ 32, 2 ^ 32] ∧
    NoOverflow usizeMax [2 ^ 16, 2 ^ 16] ∧
    (fromElemNew ⟨.static [.dyn, .dyn], [2 ^ 16, 2 ^ 16]⟩ (M.pure 1 : M Unit Nat)).isSome ∧
    ((whole ⟨.static [.dyn], [6]⟩).reshape ⟨.static [.dyn, .dyn], [usizeMax, 2]⟩).map (·.dims) =
      some [3, 2] := by
  refine ⟨by decide, by decide, by decide, by decide, by decide⟩

example : (match resizeWith [3, 1] (M.pure 0 : M Unit Nat) ((), tensor22) with
    | .ok _ t => some t.2.shape.dims
    | _ => none) = some [3, 1] := by decide +kernel

end Props
