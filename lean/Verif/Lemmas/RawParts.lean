import Verif.Model.RawParts
import Verif.Lemmas.Storage

namespace Model
open Spec

variable {σ T : Type}

theorem writeSpare_loop {ys : List T} {n first : Nat} (hn : ys.length ≤ n) : ∀ (k : Nat) (s : σ) (o : Own T)
    (xs : List T), k ≤ ys.length → first + ys.length ≤ o.cells.length → xs.length = first →
    xs.map some <+: o.cells →
    ∃ o', (List.range k).foldlM (m := M (σ × Own T)) (fun _ i => do
        M.lift (check (i < n))
        let y ← M.lift ys[i]?
        writeCell (first + i) y) () (s, o) = .ok () (s, o') ∧
      (xs ++ ys.take k).map some <+: o'.cells ∧ o'.cells.length = o.cells.length ∧ Eff o o' [] := by
  intro k
  induction k with
  | zero =>
    intro s o xs _ _ _ hp
    exact ⟨o, rfl, by simpa using hp, rfl, Eff.refl o⟩
  | succ k ih =>
    intro s o xs hk hc hx hp
    obtain ⟨o', h1, ⟨rest, h2⟩, h3, h4⟩ := ih s o xs (by omega) hc hx hp
    have hlen : ((xs ++ ys.take k).map some).length = first + k := by
      simp; omega
    obtain ⟨c, rest', rfl⟩ : ∃ c r, rest = c :: r := by
      cases rest with
      | nil =>
        rw [List.append_nil] at h2
        rw [h2] at hlen
        omega
      | cons c r => exact ⟨c, r, rfl⟩
    have hy : ys[k]? = some ys[k] := List.getElem?_eq_getElem _
    refine ⟨{ o' with cells := (xs ++ ys.take k).map some ++ some ys[k] :: rest' }, ?_, ?_, ?_, ?_⟩
    · rw [List.range_succ, List.foldlM_append]
      show M.bind _ _ _ = _
      rw [M.bind, h1]
      simp only [M.bind_eq, M.bind, List.foldlM_cons, List.foldlM_nil, hy, M.lift_some, M.pure,
        show check (k < n) = some () from if_pos (by omega)]
      rw [writeCell_eq s ys[k] h2.symm hlen.symm]
      rfl
    · refine ⟨rest', ?_⟩
      have : ys.take (k + 1) = ys.take k ++ [ys[k]] := by rw [List.take_add_one, hy]; rfl
      rw [this]
      simp only [List.map_append, List.map_cons, List.map_nil, List.append_assoc, List.singleton_append]
    · have := congrArg List.length h2
      simp only [List.length_append, List.length_cons] at this ⊢
      omega
    · exact ⟨h4.log, h4.shape, h4.limit⟩

/-- Writing the spare capacity. -/
theorem writeSpare_eq {s : σ} {o : Own T} {xs ys : List T} (h : Holds o xs)
    (hy : xs.length + ys.length ≤ o.cells.length) :
    ∃ o', writeSpare ys (s, o) = .ok () (s, o') ∧ (xs ++ ys).map some <+: o'.cells ∧
      o'.cells.length = o.cells.length ∧ Eff o o' [] := by
  obtain ⟨o', h1, h2, h3, h4⟩ := writeSpare_loop (n := o.cells.length - xs.length) (ys := ys)
    (first := xs.length) (by omega) ys.length s o xs (le_refl _) hy rfl h.2.2
  refine ⟨o', ?_, by simpa using h2, h3, h4⟩
  unfold writeSpare
  simp only [M.bind_eq, M.bind, own, tensorSpare_eq h, M.lift_some, M.pure]
  exact h1

end Model
