import Verif.Props.Slice

/-!
C64: exactly when copies of owning expressions lose elements.
-/

namespace Props
open Model Spec M

variable {σ T : Type}

/-- When `clone_from` of an owning expression has returned, the old elements of the target have been dropped exactly if
there were none. When `clone` of an owning expression has panicked in the clone of an element, the clones made before have
been dropped exactly if there were none. -/
theorem C64_exact (b : Own T) (src : List T) (hb : Holds b src) (o : Own T) (xs : List T)
    (ho : Holds o xs) (hty : b.shape.ty = o.shape.ty) (idx idx' : Nat) (c : T → M σ T)
    (hc : ∀ y, (c y).Tame) (s : σ) :
    M.Post (intoExprCloneFrom idx b idx' c) (s, o)
      (fun _ t => t.2.log.Perm (o.log ++ xs) ↔ xs = []) (fun _ => True) ∧
    M.Post (intoExprClone b idx c) (s, o) (fun _ _ => True)
      (fun t => idx = 0 → src.length ≤ o.limit → ∃ k ys, Stopped (cloneStep src c) src.length s k ys t.1 ∧
        (t.2.log.Perm (o.log ++ ys) ↔ k = 0)) := by
  have drops : ∀ l m : List T, l.Perm (l ++ m) ↔ m = [] := by
    intro l m
    constructor
    · intro h
      have := h.length_eq
      rw [List.length_append] at this
      exact List.eq_nil_of_length_eq_zero (by omega)
    · rintro rfl
      rw [List.append_nil]
  refine ⟨(C64_clone_from_partial b src hb o xs ho hty idx idx' c hc s).mono ?_ fun _ _ => trivial,
    (C64_clone_partial b src hb idx c hc s o).mono (fun _ _ _ => trivial) ?_⟩
  · rintro _ t ⟨-, -, ys, -, -, -, e⟩
    rw [e]
    exact drops _ _
  · rintro t ⟨e, h⟩ hi hl
    rcases h with ⟨h, -⟩ | ⟨-, h, -⟩ | ⟨-, k, ys, h⟩
    · exact absurd hi h
    · omega
    · refine ⟨k, ys, h, ?_⟩
      rw [e, drops]
      obtain ⟨-, u, hr, -⟩ := h
      have : ys.length = k := hr.length
      rw [← this]
      exact List.length_eq_zero_iff.symm

/-- The hypotheses hold, and all of the cases occur: four old elements that are lost; two clones that are lost. -/
example : Holds tensor22 [1, 2, 3, 4] ∧ Holds spare22 [5, 6, 7, 8] ∧ (∀ y, (clone3 y).Tame) ∧
    intoExprClone spare22 0 clone3 (0, noTensor) = .panic (2, ⟨[none, none, none, none], 2, ⟨.dynRank, []⟩, [], 100⟩) ∧
    Stopped (cloneStep [5, 6, 7, 8] clone3) 4 0 2 [5, 6] 2 := by
  refine ⟨⟨by decide, by decide, by decide⟩, ⟨by decide, by decide, [none], rfl⟩, fun y s => ?_, by decide +kernel,
    ⟨by decide, 2, rfl, rfl⟩⟩
  unfold clone3 M.Post
  dsimp only
  by_cases h : s = 2
  · rw [if_pos h]; trivial
  · rw [if_neg h]; trivial

end Props
