import Verif.Lemmas.Markers

/-!
# C85: sending arrays, views and expressions to other threads
-/

namespace Props
open Model Spec

/-- If the compiler allows to send a value to another thread, then all that the other thread obtains by using it may be
there: what it can move or change is `Send`, and what it can read at the same time as other threads is `Sync`. -/
theorem C85_sound (ρ : Nat → Marks) (x : Hold × Ty) (hx : MaySend ρ x) :
    (∀ y, Obtains x y → MaySend ρ y) ∧ ∀ h n, Obtains x (h, .param n) → Needs ρ h n :=
  ⟨fun _ h => maySend_obtains h hx, fun _ _ h => maySend_param.1 (maySend_obtains h hx)⟩

/-- Nothing is refused without need: the compiler allows to send a value exactly if the type parameters that the other
thread obtains are as needed, unless shared references to `Drain` are involved. -/
theorem C85_exact (ρ : Nat → Marks) (x : Hold × Ty) (hd : ∀ t a, ¬ Obtains x (.shared, .drain t a)) :
    MaySend ρ x ↔ ∀ h n, Obtains x (h, .param n) → Needs ρ h n :=
  ⟨fun hx => (C85_sound ρ x hx).2, fun hx => maySend_of_fine x.2 x.1 ⟨hx, hd⟩⟩

/-- Shared references to `Drain` are the exception: they need `Sync` for the allocator, which they do not give access
to. -/
theorem C85_drain (ρ : Nat → Marks) :
    (MaySend ρ (.shared, .drain (.param 0) (.param 1)) ↔ (ρ 0).sync = true ∧ (ρ 1).sync = true) ∧
    ∀ h n, Obtains (.shared, .drain (.param 0) (.param 1)) (h, .param n) → h = .shared ∧ n = 0 := by
  refine ⟨?_, ?_⟩
  · simp only [MaySend, marks, Marks.ref, Marks.all, Marks.refMut, Marks.tensor, Marks.rawTensor, Marks.viewMut, Marks.same,
      List.all_cons, List.all_nil, Bool.and_true, Bool.and_eq_true]
    exact ⟨fun h => h.1, fun h => ⟨h, h.1⟩⟩
  · have key : ∀ y, Obtains (.shared, .drain (.param 0) (.param 1)) y →
        y = (.shared, .drain (.param 0) (.param 1)) ∨ y = (.shared, .slice (.manuallyDrop (.param 0))) ∨
        y = (.shared, .manuallyDrop (.param 0)) ∨ y = (.shared, .param 0) ∨
        ∃ h, y = (h, .view (.manuallyDrop (.param 0))) := by
      intro y hy
      induction hy with
      | refl => exact .inl rfl
      | tail _ hs ih =>
        rcases ih with rfl | rfl | rfl | rfl | ⟨h, rfl⟩ <;> cases hs <;> simp
    intro h n hy
    rcases key _ hy with e | e | e | e | ⟨_, e⟩ <;> simp_all

/-- With elements as `Cell<T>`, which are `Send` but not `Sync`, and an allocator which is both: tensors and mutable views
can be sent, views and shared references to tensors cannot, since elements can be read through them; a `Zip` of a mutable
view with lanes of an array cannot because of the latter. -/
example : let ρ : Nat → Marks := fun n => ⟨true, n ≠ 0⟩
    MaySend ρ (.own, .tensor (.param 0) (.param 1)) ∧ MaySend ρ (.own, .viewMut (.param 0)) ∧
    ¬ MaySend ρ (.own, .view (.param 0)) ∧ ¬ MaySend ρ (.shared, .tensor (.param 0) (.param 1)) ∧
    MaySend ρ (.own, .intoExpr (.drain (.param 0) (.param 1))) ∧
    ¬ MaySend ρ (.own, .zip (.viewMut (.param 0)) (.lanes (.param 0))) ∧
    Obtains (.own, .zip (.viewMut (.param 0)) (.lanes (.param 0))) (.shared, .param 0) ∧ ¬ Needs ρ .shared 0 ∧
    (∀ t a, ¬ Obtains (.own, .viewMut (.param 0)) (.shared, .drain t a)) := by
  refine ⟨rfl, rfl, fun h => absurd (h : false = true) nofun, fun h => absurd (h : false = true) nofun, rfl,
    fun h => absurd (h : false = true) nofun,
    .head .zipRight (.head .lanes (.head .view (.head .index .refl))), by simp [Needs], fun t a h => ?_⟩
  have key : ∀ y, Obtains (.own, .viewMut (.param 0)) y →
      y.1 ≠ .shared ∧ (y.2 = .viewMut (.param 0) ∨ y.2 = .slice (.param 0) ∨ y.2 = .param 0) := by
    intro y hy
    induction hy with
    | refl => exact ⟨nofun, .inl rfl⟩
    | tail _ hs ih =>
      rename_i b c _
      obtain ⟨i, b⟩ := b
      obtain ⟨hi, rfl | rfl | rfl⟩ := ih <;> cases hs <;> simp_all
  exact absurd rfl (key _ h).1

end Props
