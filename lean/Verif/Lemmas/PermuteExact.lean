import Verif.Lemmas.ViewOps

/-! `permute` without overflow checks, for rank 64 and more (C51). -/

namespace Model
open Spec
namespace Mapping

theorem mask_testBit_mod (perm : List Nat) (acc j : Nat) :
    (perm.foldl (fun acc p => acc ||| (1 <<< (p % 64))) acc).testBit j =
      (acc.testBit j || decide (∃ p ∈ perm, p % 64 = j)) := by
  induction perm generalizing acc with
  | nil => simp
  | cons p perm ih =>
    rw [List.foldl_cons, ih, Nat.testBit_or, Nat.one_shiftLeft, Nat.testBit_two_pow]
    by_cases h : p % 64 = j
    · simp [h]
    · simp [h]

theorem permMaskOk_mod (r : Nat) (perm : List Nat) :
    permMaskOk false r perm = true ↔ ∀ j < 64, (∃ p ∈ perm, p % 64 = j) ↔ j < r % 64 := by
  have ht := permMask_target (r % 64) (Nat.mod_lt _ (by omega))
  rw [Nat.mod_mod] at ht
  unfold permMaskOk
  simp only [ht, Bool.not_false, Bool.true_or, Bool.true_and, beq_iff_eq]
  constructor
  · intro h j _
    have := mask_testBit_mod perm 0 j
    rw [h, Nat.testBit_two_pow_sub_one] at this
    simp only [Nat.zero_testBit, Bool.false_or] at this
    exact (decide_eq_decide.1 this).symm
  · intro h
    apply Nat.eq_of_testBit_eq
    intro j
    rw [mask_testBit_mod, Nat.testBit_two_pow_sub_one, Nat.zero_testBit, Bool.false_or]
    refine decide_eq_decide.2 ?_
    by_cases hj : j < 64
    · exact h j hj
    · constructor
      · rintro ⟨p, -, hp⟩; omega
      · intro hj'; omega

theorem setLoop_some {l : List (Nat × Nat)} {init : List Nat} {n b : Nat} (h : ∀ x ∈ l, x.1 < n ∧ x.2 < b)
    (hn : init.length = n) (hi : ∀ d ∈ init, d < b) :
    ∃ r, l.foldlM (fun acc x => setM acc x.1 x.2) init = some r ∧ r.length = n ∧ ∀ d ∈ r, d < b := by
  induction l generalizing init with
  | nil => exact ⟨init, rfl, hn, hi⟩
  | cons x l ih =>
    have hx := h x (List.mem_cons_self ..)
    rw [List.foldlM_cons]
    have e : setM init x.1 x.2 = some (init.set x.1 x.2) := if_pos (by rw [hn]; exact hx.1)
    rw [e]
    refine ih (fun y hy => h y (List.mem_cons_of_mem _ hy)) (by simpa using hn) fun d hd => ?_
    rcases List.mem_or_eq_of_mem_set hd with hd | rfl
    · exact hi d hd
    · exact hx.2

theorem storeStrides_some {l : List (Nat × Int)} {t : Nat → Option Nat} {init : List Int}
    (h : ∀ i j, t i = some j → j < init.length) : ∃ r, storeStrides l t init = some r := by
  unfold storeStrides
  induction l generalizing init with
  | nil => exact ⟨init, rfl⟩
  | cons c l ih =>
    rw [List.foldlM_cons]
    cases e : t c.1 with
    | none => exact ih h
    | some j =>
      have e' : setM init j c.2 = some (init.set j c.2) := if_pos (h _ _ e)
      simp only [e']
      exact ih (by simpa using h)

/-- Without overflow checks: the test of `permute` and nothing else decides, if the result has dynamic rank. -/
theorem permute_release_isSome (m : Mapping) (perm : List Nat) (hr : 0 < m.dims.length) :
    (m.permute false perm .dynRank .strided).isSome ↔ perm.length = m.dims.length ∧
      (∀ p ∈ perm, p < m.dims.length) ∧ ∀ j < 64, (∃ p ∈ perm, p % 64 = j) ↔ j < m.dims.length % 64 := by
  unfold permute
  dsimp only
  rw [check_bind, check_bind, check_bind]
  by_cases h1 : perm.length = m.rank
  swap
  · rw [if_neg h1]; exact ⟨nofun, fun h => absurd h.1 h1⟩
  by_cases h2 : ∀ p ∈ perm, p < m.rank
  swap
  · rw [if_pos h1, if_neg h2]; exact ⟨nofun, fun h => absurd h.2.1 h2⟩
  rw [if_pos h1, if_pos h2]
  by_cases h3 : permMaskOk false m.rank perm = true
  swap
  · rw [if_neg h3]; exact ⟨nofun, fun h => absurd ((permMaskOk_mod _ _).2 h.2.2) h3⟩
  rw [if_pos h3]
  refine ⟨fun _ => ⟨h1, h2, (permMaskOk_mod _ _).1 h3⟩, fun _ => ?_⟩
  have hn : Shape.new .dynRank m.rank = some ⟨.dynRank, List.replicate m.rank 0⟩ := rfl
  have hd : dimsNew .dynRank m.rank = some (List.replicate m.rank 0) := rfl
  obtain ⟨inv, e1, e2, e3⟩ := setLoop_some (l := perm.zipIdx) (init := List.replicate m.rank 0) (n := m.rank)
    (b := m.rank) (fun x hx => by
      obtain ⟨a, b⟩ := x
      have := List.mem_zipIdx_iff_getElem?.1 hx
      obtain ⟨hb, e⟩ := List.getElem?_eq_some_iff.1 this
      exact ⟨h2 a (List.mem_of_getElem e), by rw [← h1]; exact hb⟩)
    (by simp) (fun d hd => by rw [List.eq_of_mem_replicate hd]; exact hr)
  obtain ⟨st, e4⟩ := storeStrides_some (l := m.forEachStride) (t := fun i => inv[i]?)
    (init := List.replicate m.rank 0) (fun i j hj => by
      simp only [List.length_replicate]
      obtain ⟨hi, e⟩ := List.getElem?_eq_some_iff.1 hj
      exact e3 j (e ▸ List.getElem_mem _))
  rw [hn, hd]
  simp only [Option.bind_eq_bind, Option.bind_some]
  rw [e1]
  simp only [Option.bind_some]
  rw [e4]
  simp only [Option.bind_some]
  rw [mapM_dim m perm h2]
  simp only [Option.bind_some]
  rw [Shape.withMutDims_eq]
  simp [ShapeTy.Conforms]

end Mapping
end Model
