import Verif.Lemmas.RawOps
import Verif.Props.Tensor

/-!
Owned arrays and arbitrary expressions, including those with known defects other than phantom rows: the
memory is handled correctly in any case, and the elements are exactly those that iteration produces
(`rawNth`).
-/

namespace Props
open Model Spec
open Model.Expr Model.Iter

variable {σ α β τ T : Type}

/-! ### C31, C42 -/

/-- C31 and C42 for all expressions without phantom rows: the new tensor holds the items that iteration
produces. If the allocation fails, or there is a `from_fn` of dynamic rank in an expression without
elements, it panics and no item is computed. If an item panics, the elements before it are dropped. -/
theorem C31_tensor_exact (e : Expr σ T) (hb : Built e) (ht : TameRaw e) (hp : NoPhantomRows e)
    (s : σ) (o : Own T) :
    M.Post (tensorFromExpr e) (s, o)
      (fun _ t => ∃ ys, Ran (rawNth e) (size e.dims) s ys t.1 ∧
        Holds t.2 ys ∧ t.2.shape = e.shape ∧ t.2.log = o.log)
      (fun t => ((o.limit < size e.dims ∨ (BadFn e ∧ size e.dims = 0)) ∧ t.1 = s ∧ t.2.log = o.log) ∨
        ∃ k ys, Stopped (rawNth e) (size e.dims) s k ys t.1 ∧ t.2.log = o.log ++ ys) :=
  post_tensorFromExpr_raw hb ht hp s o

/-- The same for an array. -/
theorem C31_array_exact (ty : ShapeTy) (e : Expr σ T) (hb : Built e) (ht : TameRaw e)
    (hp : NoPhantomRows e) (s : σ) (o : Own T) :
    M.Post (arrayFromExpr ty e) (s, o)
      (fun _ t => ty.Conforms e.dims ∧
        ∃ ys, Ran (rawNth e) (size e.dims) s ys t.1 ∧
          Holds t.2 ys ∧ t.2.shape = ⟨ty, e.dims⟩ ∧ t.2.log = o.log ∧ t.2.cells = ys.map some)
      (fun t => (¬ ty.Conforms e.dims ∧ t = (s, o)) ∨ (ty.Conforms e.dims ∧
        ((BadFn e ∧ size e.dims = 0 ∧ t.1 = s ∧ t.2.log = o.log) ∨
          ∃ k ys, Stopped (rawNth e) (size e.dims) s k ys t.1 ∧ t.2.log = o.log ++ ys))) :=
  post_arrayFromExpr_raw hb ht hp s o

/-- `from_fn` of dynamic rank: the function is called once, then there is a panic. -/
example : (match (fromFnNew ⟨.dynRank, [3, 2]⟩ (fun j => fun s => .ok j.length (s + 1)) :
      Option (Expr Nat Nat)) with
    | some e => (match tensorFromExpr e (0, noTensor) with
      | .panic t => some (t.1, t.2.log)
      | _ => none)
    | none => none) = some (1, []) := by decide +kernel

/-- Lanes of a three-dimensional array: iteration yields lanes of the first subarray again. -/
example : (match (lanesNew true (whole ⟨.static [.dyn, .dyn, .dyn], [2, 2, 2]⟩) (.const 2) :
      Option (Expr Unit View)) with
    | some e => (match tensorFromExpr (map e fun w => M.pure w.ptr) ((), noTensor) with
      | .ok _ t => some t.2.cells
      | _ => none)
    | none => none) = some [some 0, some 2, some 0, some 2] := by decide +kernel

/-! ### C35 -/

/-- C35 for all expressions, also with phantom rows: what `expand` does. -/
theorem C35_expand_exact (e : Expr σ α) (hb : Built e) (ht : TameRaw e)
    (c : α → M σ T) (hc : ∀ y, (c y).Tame) (s : σ) (o : Own T) (xs : List T) (h : Holds o xs) :
    M.Post (expand e c) (s, o)
      (fun _ t => (0 < o.shape.dims.length ∧ o.shape.ty.head = .dyn) ∧
        ((size e.dims = 0 ∧ t = (s, o)) ∨
        (0 < size e.dims ∧ Fits o.shape e.dims ∧ ∃ ys,
          Ran (fun n => M.bind (rawNth e n) c) (size e.dims) s ys t.1 ∧
          Holds t.2 (xs ++ ys) ∧ t.2.shape.ty = o.shape.ty ∧ t.2.shape.dims =
            (if size o.shape.dims = 0 then e.dims else
              (o.shape.dims.getD 0 0 + e.dims.getD 0 0) :: o.shape.dims.tail) ∧ t.2.log = o.log)))
      (fun t => (t.1 = s ∧ Same o t.2 xs ∧ (¬ (0 < o.shape.dims.length ∧ o.shape.ty.head = .dyn) ∨
          (0 < size e.dims ∧ (¬ Fits o.shape e.dims ∨ o.limit < xs.length + size e.dims)))) ∨
        (0 < size e.dims ∧ Fits o.shape e.dims ∧ ∃ k ys,
          Stopped (fun n => M.bind (rawNth e n) c) (size e.dims) s k ys t.1 ∧
          Holds t.2 [] ∧ t.2.shape = Shape.default o.shape.ty ∧ t.2.log = o.log ++ (xs ++ ys))) := by
  refine (post_expand_raw hb ht hc (s := s) h).mono ?_ ?_
  · rintro - t ⟨h1, h2 | ⟨h2, h3, ys, h4, h5, h6, h7, h8, -⟩⟩
    · exact ⟨h1, .inl h2⟩
    · exact ⟨h1, .inr ⟨h2, h3, ys, h4, h5, h6, h7, h8⟩⟩
  · rintro t (h1 | ⟨h1, h2, k, ys, h3, h4, h5, h6, -⟩)
    · exact .inl h1
    · exact .inr ⟨h1, h2, k, ys, h3, h4, h5, h6⟩

/-- Phantom rows do no harm. -/
example : expand (view true (swapped 3 0) : Expr Unit Int) (fun x => M.pure (x.toNat + 10))
      ((), tensor22) = .ok () ((), tensor22) := by decide +kernel

/-- C35 does not hold as stated: an expression of the right size, whose function does not panic, is
refused (see DESIGN.md, B4). -/
theorem C35_violated :
    ∃ e : Expr Unit Nat, fromFnNew ⟨.dynRank, [2]⟩ (fun _ => M.pure 7) = some e ∧ size e.dims = 2 ∧
      Fits (⟨.static [.dyn], [0]⟩ : Shape) e.dims ∧
      (match expand e M.pure ((), (⟨[], 0, ⟨.static [.dyn], [0]⟩, [], 100⟩ : Own Nat)) with
        | .panic _ => true
        | _ => false) = true := by
  refine ⟨_, rfl, by decide, ?_, by decide +kernel⟩
  unfold Fits
  decide +kernel

/-! ### C40 -/

/-- C40 for all expressions without phantom rows. The items of the operand are those that iteration
produces together with the tensor. -/
theorem C40_exact (s : σ) (o : Own T) (xs : List T) (h : Holds o xs) (e : Expr σ β) (hb : Built e)
    (f : T → β → M σ T) (hf : ∀ x y, (f x y).Tame)
    (hs : ∀ z, zipNew (view false (whole o.shape)) e = some z → TameRaw z ∧ NoPhantomRows z) :
    M.Post (zipWith e f) (s, o)
      (fun _ t => ∃ z, zipNew (view false (whole o.shape)) e = some z ∧ ∃ ys,
        Ran (zipResult xs (operand z) f) (size o.shape.dims) s ys t.1 ∧ Holds t.2 ys ∧
          t.2.shape = o.shape ∧ t.2.log = o.log)
      (fun t => (¬ CanCast e o.shape.dims ∧ t.1 = s ∧ t.2.log = o.log ++ xs) ∨
        ∃ z, zipNew (view false (whole o.shape)) e = some z ∧
          ((BadFn z ∧ size o.shape.dims = 0 ∧ t.1 = s ∧ t.2.log = o.log) ∨ ∃ k ys,
          (ZipStops (size o.shape.dims) xs (operand z) f s k ys t.1 false ∧
            t.2.log = o.log ++ ys ++ xs.drop (k + 1)) ∨
          (ZipStops (size o.shape.dims) xs (operand z) f s k ys t.1 true ∧
            t.2.log = o.log ++ ys.take (k - 1) ++ xs.drop k))) :=
  post_zipWith_raw h hb hf hs

/-- An operand of dynamic rank that panics: all elements of the tensor are dropped. -/
example : (match (fromFnNew ⟨.dynRank, [2]⟩ (fun _ => M.pure 7) : Option (Expr Unit Nat)) with
    | some e => (match zipWith e (fun x y => M.pure (x + y)) ((), tensor22) with
      | .panic t => some t.2.log
      | _ => none)
    | none => none) = some [1, 2, 3, 4] := by decide +kernel

end Props
