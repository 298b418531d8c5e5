import Verif.Lemmas.Matmul
import Mathlib.Data.Matrix.Mul
import Mathlib.Algebra.BigOperators.Fin

/-!
C88: the example in the documentation, `C = A * B + C`, works for all matrices.
-/

namespace Props
open Spec Model Model.Matmul

variable {T : Type}

/-- C88, `for` loops: the body runs once for each item of an expression, in row-major order. The conditions are those of
C19 and C20. -/
theorem C88_for {σ α : Type} (e : Expr σ α) (hb : Built e) (hs : Sound e) (hp : Plain e) (f : α → M σ Unit) :
    forLoop e f = foldItems e (fun _ x => f x) () := forLoop_eq hb hs hp f

/-- C88: if the dimensions fit, each element of `c` goes through `mul_add` with the elements of its row of `a` and its
column of `b`, in order, and nothing else is changed. The matrices may be arrays or views of any layout; `a` and `b` may
share elements, with `c` they may not. -/
theorem C88_result (mulAdd : T → T → T → T) (h : Heap T) (a b c : Mat) (m k n : Nat) (ha : IsMat h a m k)
    (hb : IsMat h b k n) (hc : IsMat h c m n) (sa : NoShared a c) (sb : NoShared b c) (A B C : Nat → Nat → T)
    (hA : ∀ i l, i < m → l < k → entry h a i l = some (A i l))
    (hB : ∀ l j, l < k → j < n → entry h b l j = some (B l j))
    (hC : ∀ i j, i < m → j < n → entry h c i j = some (C i j)) :
    ∃ h', matmul mulAdd a b c h = .ok () h' ∧
      (∀ i j, i < m → j < n → entry h' c i j =
        some ((List.range k).foldl (fun acc l => mulAdd (A i l) (B l j) acc) (C i j))) ∧
      (∀ alloc (q : Nat), ¬ InMat c alloc q → (h' alloc)[q]? = (h alloc)[q]?) ∧
      ∀ alloc, (h' alloc).length = (h alloc).length := by
  obtain ⟨h', h1, h2⟩ := loopI (mulAdd := mulAdd) (place hc) (place ha) (place hb) sa sb hA hB C h
    ⟨fun _ => rfl, hC, fun _ _ _ => rfl⟩
  refine ⟨h', h1, fun i j hi hj => ?_, h2.rest, h2.len⟩
  rw [h2.ent i j hi hj, all_eq, if_pos ⟨hi, hj⟩]

theorem foldl_add {R : Type} [AddCommMonoid R] (f : Nat → R) (z : R) (k : Nat) :
    (List.range k).foldl (fun acc l => f l + acc) z = ∑ l ∈ Finset.range k, f l + z := by
  induction k with
  | zero => simp
  | succ k ih =>
    rw [List.range_succ, List.foldl_append, ih, Finset.sum_range_succ]
    simp only [List.foldl_cons, List.foldl_nil]
    rw [← add_assoc, add_comm (f k)]

/-- C88 for exact arithmetic: the result is `A * B + C`, as defined in Mathlib. -/
theorem C88_matrix {R : Type} [NonUnitalSemiring R] (h : Heap R) (a b c : Mat) (m k n : Nat) (ha : IsMat h a m k)
    (hb : IsMat h b k n) (hc : IsMat h c m n) (sa : NoShared a c) (sb : NoShared b c) (A : Matrix (Fin m) (Fin k) R)
    (B : Matrix (Fin k) (Fin n) R) (C : Matrix (Fin m) (Fin n) R)
    (hA : ∀ (i : Fin m) (l : Fin k), entry h a i l = some (A i l))
    (hB : ∀ (l : Fin k) (j : Fin n), entry h b l j = some (B l j))
    (hC : ∀ (i : Fin m) (j : Fin n), entry h c i j = some (C i j)) :
    ∃ h', matmul (fun x y z => x * y + z) a b c h = .ok () h' ∧
      ∀ (i : Fin m) (j : Fin n), entry h' c i j = some ((A * B + C) i j) := by
  have := C88_result (fun x y z => x * y + z) h a b c m k n ha hb hc sa sb
    (fun i l => (entry h a i l).getD 0) (fun l j => (entry h b l j).getD 0) (fun i j => (entry h c i j).getD 0)
    (fun i l hi hl => by have := hA ⟨i, hi⟩ ⟨l, hl⟩; simp only at this; simp [this])
    (fun l j hl hj => by have := hB ⟨l, hl⟩ ⟨j, hj⟩; simp only at this; simp [this])
    (fun i j hi hj => by have := hC ⟨i, hi⟩ ⟨j, hj⟩; simp only at this; simp [this])
  obtain ⟨h', h1, h2, -⟩ := this
  refine ⟨h', h1, fun i j => ?_⟩
  rw [h2 i j i.2 j.2]
  congr 1
  rw [Matrix.add_apply, Matrix.mul_apply, hC, Option.getD_some, foldl_add, Finset.sum_range]
  congr 1
  exact Finset.sum_congr rfl fun l _ => by rw [hA, hB]; rfl

/-- C88, all other cases: dimensions that do not fit are found before anything is changed, unless a loop does not run
at all. There is never undefined behaviour. -/
theorem C88_panic (mulAdd : T → T → T → T) (h : Heap T) (a b c : Mat) (m m' k k' n n' : Nat) (ha : IsMat h a m' k)
    (hb : IsMat h b k' n') (hc : IsMat h c m n) (sa : NoShared a c) (sb : NoShared b c) :
    (matmul mulAdd a b c h = .panic h ↔ m ≠ m' ∨ (0 < m ∧ (k ≠ k' ∨ (0 < k ∧ n ≠ n')))) ∧
    (¬ (m ≠ m' ∨ (0 < m ∧ (k ≠ k' ∨ (0 < k ∧ n ≠ n')))) → ∃ h', matmul mulAdd a b c h = .ok () h') := by
  rw [matmul_eq (place hc) (place ha) (place hb)]
  by_cases hm : m = m'
  · subst hm
    rw [if_pos rfl]
    rcases Nat.eq_zero_or_pos m with rfl | hm
    · refine ⟨⟨fun h => (by cases h), fun h => (by omega)⟩, fun _ => ⟨h, rfl⟩⟩
    · by_cases hk : k = k'
      · subst hk
        rcases Nat.eq_zero_or_pos k with rfl | hk
        · have e : ((List.range m).foldlM (fun _ (i : Nat) => if (0 : Nat) = 0 then (List.range 0).foldlM (fun _ l =>
            if n = n' then (List.range n).foldlM (fun _ j => cell mulAdd a b c i l j) () else M.panic) ()
            else M.panic) () : M (Heap T) Unit) = M.pure () := foldlM_skip _
          rw [e]
          refine ⟨⟨fun h => (by cases h), fun h => (by omega)⟩, fun _ => ⟨h, rfl⟩⟩
        · by_cases hn : n = n'
          · subst hn
            rcases Nat.eq_zero_or_pos n with rfl | hn
            · have e : ((List.range m).foldlM (fun _ (i : Nat) => if k = k then (List.range k).foldlM (fun _ l =>
                if (0 : Nat) = 0 then (List.range 0).foldlM (fun _ j => cell mulAdd a b c i l j) () else M.panic) ()
                else M.panic) () : M (Heap T) Unit) = M.pure () :=
                (foldlM_congr fun i _ => (if_pos rfl).trans (foldlM_skip _)).trans (foldlM_skip _)
              rw [e]
              exact ⟨⟨fun h => (by cases h), fun h => (by omega)⟩, fun _ => ⟨h, rfl⟩⟩
            obtain ⟨p, -, hp⟩ := (place hc).index 0 0 hm hn
            have : Nonempty T := ⟨(h c.alloc)[p]⟩
            obtain ⟨A, hA⟩ := entries (place ha)
            obtain ⟨B, hB⟩ := entries (place hb)
            obtain ⟨C, hC⟩ := entries (place hc)
            obtain ⟨h', h1, -⟩ := C88_result mulAdd h a b c m k n ha hb hc sa sb A B C hA hB hC
            rw [matmul_eq (place hc) (place ha) (place hb), if_pos rfl] at h1
            rw [h1]
            exact ⟨⟨fun h => (by cases h), fun h => (by omega)⟩, fun _ => ⟨h', rfl⟩⟩
          · simp only [if_neg hn, if_pos, foldlM_panic hk, foldlM_panic hm]
            exact ⟨⟨fun _ => .inr ⟨hm, .inr ⟨hk, hn⟩⟩, fun _ => rfl⟩, fun h => absurd (.inr ⟨hm, .inr ⟨hk, hn⟩⟩) h⟩
      · simp only [if_neg hk, foldlM_panic hm]
        exact ⟨⟨fun _ => .inr ⟨hm, .inl hk⟩, fun _ => rfl⟩, fun h => absurd (.inr ⟨hm, .inl hk⟩) h⟩
  · rw [if_neg hm]
    exact ⟨⟨fun _ => .inl hm, fun _ => rfl⟩, fun h => absurd (.inl hm) h⟩

/-- The matrices of the example in the documentation, where `a` is given as the transpose of a 2 by 3 array. -/
def exMat (alloc m n : Nat) : Mat := ⟨alloc, whole ⟨.static [.dyn, .dyn], [m, n]⟩⟩

def exA : Mat := ⟨0, swapped 2 3⟩

def exHeap (c : List Int) : Heap Int := fun a => if a = 0 then [1, 2, 3, 4, 5, 6] else if a = 1 then [0, 1, 1, 1] else c

/-- They meet the hypotheses of `C88_result`. -/
example : IsMat (exHeap (List.replicate 6 0)) exA 3 2 ∧ IsMat (exHeap (List.replicate 6 0)) (exMat 1 2 2) 2 2 ∧
    IsMat (exHeap (List.replicate 6 0)) (exMat 2 3 2) 3 2 ∧ NoShared exA (exMat 2 3 2) ∧
    NoShared (exMat 1 2 2) (exMat 2 3 2) ∧ ((List.range 3).map fun i => (List.range 2).map fun l =>
      entry (exHeap (List.replicate 6 0)) exA i l) = [[some 1, some 4], [some 2, some 5], [some 3, some 6]] := by
  refine ⟨⟨rfl, true, ⟨.static [.dyn, .dyn], [2, 3]⟩, by decide, by unfold Usize; decide, by decide, ?_, rfl⟩,
    ⟨rfl, true, ⟨.static [.dyn, .dyn], [2, 2]⟩, by decide, by unfold Usize; decide, by decide, .refl, rfl⟩,
    ⟨rfl, true, ⟨.static [.dyn, .dyn], [3, 2]⟩, by decide, by unfold Usize; decide, by decide, .refl, rfl⟩,
    ?_, ?_, by decide⟩
  · exact .call .refl (.inl rfl) (.reorder (by decide))
  · rintro _ _ ⟨rfl, -⟩ ⟨h, -⟩; cases h
  · rintro _ _ ⟨rfl, -⟩ ⟨h, -⟩; cases h

/-- What a matrix holds after a run. -/
def exResult (r : Res (Heap Int) Unit) (x : Mat) (m n : Nat) : Option (List (List (Option Int))) :=
  match r with
  | .ok _ h => some ((List.range m).map fun i => (List.range n).map fun j => entry h x i j)
  | _ => none

/-- The result in the documentation, and with another matrix `c` than zero. -/
example : exResult (matmul (fun x y z => x * y + z) exA (exMat 1 2 2) (exMat 2 3 2) (exHeap [0, 0, 0, 0, 0, 0]))
      (exMat 2 3 2) 3 2 = some [[some 4, some 5], [some 5, some 7], [some 6, some 9]] ∧
    exResult (matmul (fun x y z => x * y + z) exA (exMat 1 2 2) (exMat 2 3 2) (exHeap [1, 0, 0, 0, 0, 10]))
      (exMat 2 3 2) 3 2 = some [[some 5, some 5], [some 5, some 7], [some 6, some 19]] := by decide +kernel

/-- Dimensions that do not fit: the number of rows of `b` differs; it does not matter if `c` has no rows. -/
example : (match matmul (fun x y z => x * y + z) exA (exMat 1 3 1) (exMat 2 3 1) (exHeap [0, 0, 0]) with
      | .panic h => h 2 == [0, 0, 0]
      | _ => false) = true ∧
    exResult (matmul (fun x y z => x * y + z) (exMat 0 0 2) (exMat 1 3 1) (exMat 2 0 1) (exHeap [])) (exMat 2 0 1) 0 1 =
      some [] := by decide +kernel

end Props
