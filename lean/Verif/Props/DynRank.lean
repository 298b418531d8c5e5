import Verif.Spec.DynRank

/-! Properties of the representation of shapes with dynamic rank (C56). -/

namespace Props
open Model Spec

private theorem dims_clone (s : DynRank) : s.clone.dims = s.dims := by
  cases s with
  | one n => rfl
  | dyn ds =>
    match ds with
    | [] => rfl
    | [d] => rfl
    | d :: d' :: ds => simp [DynRank.clone, DynRank.dims]

private theorem dims_cloneFrom (s t : DynRank) : (s.cloneFrom t).dims = t.dims := by
  unfold DynRank.cloneFrom
  split
  · split
    · rfl
    · exact dims_clone _
  · exact dims_clone _

private theorem dims_update (s : DynRank) (f : Nat → List Nat → Nat) :
    (s.withMutDims f).dims = s.dims.mapIdx fun i _ => f i s.dims := by
  cases s with
  | one n => rfl
  | dyn ds =>
    apply List.ext_getElem
    · simp [DynRank.withMutDims, DynRank.dims]
    · intro i h1 h2
      simp [DynRank.withMutDims, DynRank.dims]

private theorem dims_new (r : Nat) : (DynRank.new r).dims = List.replicate r 0 := by
  unfold DynRank.new
  split
  · next h => subst h; rfl
  · rfl

/-- C56: after any sequence of operations, every shape of dynamic rank has the dimensions that plain
lists would have, whatever representation each of them started with. -/
theorem C56 (ops : List ShapeOp) (vars : Nat → DynRank) :
    (fun x => (ops.foldl ShapeOp.run vars x).dims) = ops.foldl opMeans fun x => (vars x).dims := by
  induction ops generalizing vars with
  | nil => rfl
  | cons op ops ih =>
    rw [List.foldl_cons, List.foldl_cons, ih]
    congr 1
    funext z
    cases op <;> simp only [ShapeOp.run, assignVar, opMeans] <;> split
    · rfl
    · rfl
    · exact dims_new _
    · rfl
    · exact dims_clone _
    · rfl
    · exact dims_cloneFrom _ _
    · rfl
    · exact dims_update _ _
    · rfl

/-- Both representations of rank 1 occur, and cloning changes the representation. -/
example : (DynRank.dyn [5]).clone = .one 5 ∧ (DynRank.new 2).dims = [0, 0] ∧
    ((DynRank.dyn [5]).withMutDims fun _ ds => ds.sum + 1).dims = [6] ∧
    ((DynRank.dyn [5]).cloneFrom (.dyn [7])).dims = [7] ∧
    ((DynRank.one 5).cloneFrom (.dyn [7, 8])).dims = [7, 8] :=
  ⟨rfl, rfl, rfl, rfl, rfl⟩

/-- C56: equality, order and hash only depend on the dimensions, and equality and hash determine them. -/
theorem C56_eq (a b : DynRank) : (a.eq b = true ↔ a.dims = b.dims) ∧ (a.hash = b.hash ↔ a.dims = b.dims) :=
  ⟨by simp [DynRank.eq], ⟨fun h => by injection h, fun h => by simp [DynRank.hash, h]⟩⟩

private theorem lexLt_cons (x : Nat) (xs ys : List Nat) : LexLt (x :: xs) (x :: ys) ↔ LexLt xs ys := by
  constructor
  · rintro (⟨k, a, b, h1, h2, h3, h4⟩ | ⟨h1, h2⟩)
    · cases k with
      | zero => simp at h2 h3; omega
      | succ k => exact Or.inl ⟨k, a, b, by simpa using h1, by simpa using h2, by simpa using h3, h4⟩
    · exact Or.inr ⟨by simpa using h1, by simpa using h2⟩
  · rintro (⟨k, a, b, h1, h2, h3, h4⟩ | ⟨h1, h2⟩)
    · exact Or.inl ⟨k + 1, a, b, by simpa using h1, by simpa using h2, by simpa using h3, h4⟩
    · exact Or.inr ⟨by simpa using h1, by simpa using h2⟩

private theorem not_lexLt_nil (xs : List Nat) : ¬ LexLt xs [] := by
  rintro (⟨k, a, b, _, _, h, _⟩ | ⟨h, _⟩) <;> simp at h

private theorem lexLt_head {x y : Nat} (h : x < y) (xs ys : List Nat) : LexLt (x :: xs) (y :: ys) :=
  Or.inl ⟨0, x, y, rfl, rfl, rfl, h⟩

private theorem not_lexLt_head {x y : Nat} (h : x < y) (xs ys : List Nat) : ¬ LexLt (y :: ys) (x :: xs) := by
  rintro (⟨k, a, b, h1, h2, h3, h4⟩ | ⟨h1, h2⟩)
  · cases k with
    | zero => simp at h2 h3; omega
    | succ k => simp at h1; omega
  · simp at h2; omega

private theorem sliceCmp_spec (a b : List Nat) :
    (DynRank.sliceCmp a b = .lt ↔ LexLt a b) ∧ (DynRank.sliceCmp a b = .gt ↔ LexLt b a) ∧
    (DynRank.sliceCmp a b = .eq ↔ a = b) := by
  induction a generalizing b with
  | nil =>
    cases b with
    | nil => simp [DynRank.sliceCmp, not_lexLt_nil]
    | cons y ys =>
      simp [DynRank.sliceCmp, not_lexLt_nil]
      exact Or.inr ⟨by simp, by simp⟩
  | cons x xs ih =>
    cases b with
    | nil =>
      simp [DynRank.sliceCmp, not_lexLt_nil]
      exact Or.inr ⟨by simp, by simp⟩
    | cons y ys =>
      unfold DynRank.sliceCmp
      split
      · next h => simp [lexLt_head h, not_lexLt_head h]; omega
      · split
        · next h => simp [lexLt_head h, not_lexLt_head h]; omega
        · next h1 h2 =>
          obtain rfl : x = y := by omega
          simp only [lexLt_cons, List.cons.injEq, true_and]
          exact ih ys

/-- C56: the order is the lexicographic order of the dimensions and agrees with equality. -/
theorem C56_cmp (a b : DynRank) : (a.cmp b = .lt ↔ LexLt a.dims b.dims) ∧
    (a.cmp b = .gt ↔ LexLt b.dims a.dims) ∧ (a.cmp b = .eq ↔ a.eq b = true) := by
  rw [(C56_eq a b).1]
  exact sliceCmp_spec a.dims b.dims

example : (DynRank.dyn [2, 3]).cmp (.dyn [2, 4]) = .lt ∧ (DynRank.one 2).cmp (.dyn [2, 0]) = .lt ∧
    (DynRank.one 2).cmp (.dyn [2]) = .eq := ⟨rfl, rfl, rfl⟩

end Props
