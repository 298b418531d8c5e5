import Verif.Spec.Keys

/-!
Lemmas about shapes and mappings that are compared, hashed and copied.
-/

namespace Spec
open Model

theorem tupleEq_iff : ∀ {as bs : List DimRep}, as.map dimTyOf = bs.map dimTyOf →
    (ShapeRep.tupleEq as bs = true ↔ as.map dimSize = bs.map dimSize)
  | [], [], _ => by simp [ShapeRep.tupleEq]
  | [], _ :: _, h => by simp at h
  | _ :: _, [], h => by simp at h
  | a :: as, b :: bs, h => by
    simp only [List.map_cons, List.cons.injEq] at h
    have ih := tupleEq_iff h.2
    cases a <;> cases b <;> simp_all [ShapeRep.tupleEq, DimRep.eq, dimTyOf, dimSize]

theorem tupleHash_inj : ∀ {as bs : List DimRep} {r r' : List Int}, as.map dimTyOf = bs.map dimTyOf →
    as.flatMap DimRep.hash ++ r = bs.flatMap DimRep.hash ++ r' → as.map dimSize = bs.map dimSize ∧ r = r'
  | [], [], r, r', _, h => by simpa using h
  | [], _ :: _, _, _, h, _ => by simp at h
  | _ :: _, [], _, _, h, _ => by simp at h
  | a :: as, b :: bs, r, r', h, he => by
    simp only [List.map_cons, List.cons.injEq] at h
    cases a with
    | const m =>
      cases b with
      | const n =>
        have ih := tupleHash_inj h.2 (by simpa [DimRep.hash] using he)
        simpa [dimSize, dimTyOf, ih] using h.1
      | dyn n => simp [dimTyOf] at h
    | dyn m =>
      cases b with
      | const n => simp [dimTyOf] at h
      | dyn n =>
        have h1 : m = n ∧ as.flatMap DimRep.hash ++ r = bs.flatMap DimRep.hash ++ r' := by
          simpa [DimRep.hash, Int.natCast_inj] using he
        simp [dimSize, h1.1, tupleHash_inj h.2 h1.2]

theorem tupleHash_same : ∀ {as bs : List DimRep}, as.map dimTyOf = bs.map dimTyOf → as.map dimSize = bs.map dimSize →
    as.flatMap DimRep.hash = bs.flatMap DimRep.hash
  | [], [], _, _ => rfl
  | [], _ :: _, h, _ => by simp at h
  | _ :: _, [], h, _ => by simp at h
  | a :: as, b :: bs, h, h' => by
    simp only [List.map_cons, List.cons.injEq] at h h'
    have ih := tupleHash_same h.2 h'.2
    cases a <;> cases b <;> simp_all [DimRep.hash, dimTyOf, dimSize]

theorem lexLt_cons_same (x : Nat) (xs ys : List Nat) : LexLt (x :: xs) (x :: ys) ↔ LexLt xs ys := by
  constructor
  · rintro (⟨k, a, b, h1, h2, h3, h4⟩ | ⟨h1, h2⟩)
    · cases k with
      | zero => simp at h2 h3; omega
      | succ k => exact Or.inl ⟨k, a, b, by simpa using h1, by simpa using h2, by simpa using h3, h4⟩
    · exact Or.inr ⟨by simpa using h1, by simpa using h2⟩
  · rintro (⟨k, a, b, h1, h2, h3, h4⟩ | ⟨h1, h2⟩)
    · exact Or.inl ⟨k + 1, a, b, by simpa using h1, by simpa using h2, by simpa using h3, h4⟩
    · exact Or.inr ⟨by simpa using h1, by simpa using h2⟩

theorem lexLt_cons_lt {x y : Nat} (h : x < y) (xs ys : List Nat) :
    LexLt (x :: xs) (y :: ys) ∧ ¬ LexLt (y :: ys) (x :: xs) := by
  refine ⟨Or.inl ⟨0, x, y, rfl, rfl, rfl, h⟩, ?_⟩
  rintro (⟨k, a, b, h1, h2, h3, h4⟩ | ⟨h1, h2⟩)
  · cases k with
    | zero => simp at h2 h3; omega
    | succ k => simp at h1; omega
  · simp at h2; omega

theorem not_lexLt_nil_nil : ¬ LexLt [] [] := by
  rintro (⟨k, a, b, -, h, -⟩ | ⟨h, -⟩) <;> simp at h

theorem tupleCmp_spec : ∀ {as bs : List DimRep}, as.map dimTyOf = bs.map dimTyOf →
    (ShapeRep.tupleCmp as bs = .lt ↔ LexLt (as.map dimSize) (bs.map dimSize)) ∧
    (ShapeRep.tupleCmp as bs = .gt ↔ LexLt (bs.map dimSize) (as.map dimSize)) ∧
    (ShapeRep.tupleCmp as bs = .eq ↔ as.map dimSize = bs.map dimSize)
  | [], [], _ => by simp [ShapeRep.tupleCmp, not_lexLt_nil_nil]
  | [], _ :: _, h => by simp at h
  | _ :: _, [], h => by simp at h
  | a :: as, b :: bs, h => by
    simp only [List.map_cons, List.cons.injEq] at h
    have ih := tupleCmp_spec h.2
    cases a with
    | const m =>
      cases b with
      | const n =>
        obtain rfl : m = n := by simpa [dimTyOf] using h.1
        simp only [ShapeRep.tupleCmp, DimRep.cmp, List.map_cons, dimSize, lexLt_cons_same, ih, List.cons.injEq, true_and]
      | dyn n => simp [dimTyOf] at h
    | dyn m =>
      cases b with
      | const n => simp [dimTyOf] at h
      | dyn n =>
        simp only [ShapeRep.tupleCmp, DimRep.cmp, List.map_cons, dimSize]
        by_cases h1 : m < n
        · have := lexLt_cons_lt h1 (as.map dimSize) (bs.map dimSize)
          simp [h1, this]
          omega
        · by_cases h2 : n < m
          · have := lexLt_cons_lt h2 (bs.map dimSize) (as.map dimSize)
            simp [h1, h2, this]
            omega
          · obtain rfl : m = n := by omega
            simp only [Nat.lt_irrefl, if_false, lexLt_cons_same, ih, List.cons.injEq, true_and]

theorem dims_clone' (s : DynRank) : s.clone.dims = s.dims := by
  cases s with
  | one n => rfl
  | dyn ds =>
    match ds with
    | [] => rfl
    | [d] => rfl
    | d :: d' :: ds => simp [DynRank.clone, DynRank.dims]

theorem dims_cloneFrom' (s t : DynRank) : (s.cloneFrom t).dims = t.dims := by
  unfold DynRank.cloneFrom
  split
  · split
    · rfl
    · exact dims_clone' _
  · exact dims_clone' _

theorem shapeOf_clone (s : ShapeRep) : shapeOf s.clone = shapeOf s := by
  cases s <;> simp [ShapeRep.clone, shapeOf, dims_clone']

theorem shapeOf_cloneFrom (s t : ShapeRep) : shapeOf (s.cloneFrom t) = shapeOf t := by
  unfold ShapeRep.cloneFrom
  split
  · simp [shapeOf, dims_cloneFrom']
  · exact shapeOf_clone _

theorem shapeEq_iff {s t : ShapeRep} (h : (shapeOf s).ty = (shapeOf t).ty) : s.eq t = true ↔ shapeOf s = shapeOf t := by
  cases s with
  | tuple as =>
    cases t with
    | tuple bs =>
      have h' : as.map dimTyOf = bs.map dimTyOf := by simpa [shapeOf] using h
      simp [ShapeRep.eq, tupleEq_iff h', shapeOf, h']
    | dynRank b => simp [shapeOf] at h
  | dynRank a =>
    cases t with
    | tuple bs => simp [shapeOf] at h
    | dynRank b => simp [ShapeRep.eq, shapeOf, DynRank.eq]

theorem shapeHash_inj {s t : ShapeRep} {r r' : List Int} (h : (shapeOf s).ty = (shapeOf t).ty)
    (he : s.hash ++ r = t.hash ++ r') : shapeOf s = shapeOf t ∧ r = r' := by
  cases s with
  | tuple as =>
    cases t with
    | tuple bs =>
      have h' : as.map dimTyOf = bs.map dimTyOf := by simpa [shapeOf] using h
      obtain ⟨h1, h2⟩ := tupleHash_inj h' he
      exact ⟨by simp [shapeOf, h', h1], h2⟩
    | dynRank b => simp [shapeOf] at h
  | dynRank a =>
    cases t with
    | tuple bs => simp [shapeOf] at h
    | dynRank b =>
      simp only [ShapeRep.hash, DynRank.hash, List.map_cons, List.cons_append, List.cons.injEq, Int.ofNat.injEq] at he
      obtain ⟨h1, h2⟩ := (List.append_inj he.2 (by simpa using he.1))
      exact ⟨by simp [shapeOf, (List.map_inj_right (fun _ _ => Int.ofNat.inj)).1 h1], h2⟩

end Spec
