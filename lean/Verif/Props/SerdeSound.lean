import Verif.Lemmas.SerdeSound
import Verif.Props.Serde

/-! C47 without conditions on the data: panicking is the only deviation. -/

namespace Props
open Model Spec

variable {A T : Type}

/-- C47 for every shape type of static rank, all data with any length hints, and any memory limit: unless
reading panics, the result is the tensor that the data represents, and it is an error exactly if the data
is not rectangular or does not conform to the shape type. -/
theorem C47_sound (de : Val A → Option T) (tys : List DimTy) (val : Val A) (limit : Nat)
    {r : Option (Shape × List T)} (h : deserialize limit de (.static tys) val = some r) :
    (∀ s ys, r = some (s, ys) ↔ s.ty = .static tys ∧ Rect de tys val s.dims ys) ∧
      (r = none ↔ ¬ ∃ ds ys, Rect de tys val ds ys) := by
  have hs := deserRank_sound (de := de) (limit := limit) tys val r h
  refine ⟨hs, ?_, ?_⟩
  · rintro rfl ⟨ds, ys, hR⟩
    have := (hs ⟨.static tys, ds⟩ ys).2 ⟨rfl, hR⟩
    simp at this
  · intro hn
    rcases r with _ | ⟨s, ys⟩
    · rfl
    · exact (hn ⟨_, _, ((hs s ys).1 rfl).2⟩).elim

/-- A hint that is far too large but fits in memory, and a type with a constant dimension of
`usize::MAX`: nothing here is covered by `C47_partial`. -/
example : deserialize 1000 (A := Nat) (fun v => match v with | .leaf a => some a | _ => none)
    (.static [.dyn, .const 2]) (.seq 400 [.seq 9 [.leaf 3, .leaf 4], .seq 2 [.leaf 5, .leaf 6]]) =
    some (some (⟨.static [.dyn, .const 2], [2, 2]⟩, [3, 4, 5, 6])) := by decide

example : deserialize 1000 (A := Nat) (fun v => match v with | .leaf a => some a | _ => none)
    (.static [.const usizeMax, .dyn]) (.seq 400 [.seq 9 [.leaf 3], .seq 2 [.leaf 5]]) = some none := by
  decide

end Props
