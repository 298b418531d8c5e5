import Verif.Spec.Markers

/-!
Marker traits.
-/

namespace Spec
open Model

theorem maySend_gives {ρ : Nat → Marks} {x y : Hold × Ty} (h : Gives x y) (hx : MaySend ρ x) : MaySend ρ y := by
  cases h with
  | intoExprNext hh hb =>
    cases hb <;> rename Hold => i <;> cases i <;> simp_all [MaySend, marks, Marks.all, Marks.refMut, Marks.same, Marks.viewMut,
      Marks.rawTensor, Marks.tensor]
  | _ =>
    first
    | (simp_all [MaySend, marks, Marks.all, Marks.refMut, Marks.ref, Marks.same, Marks.slice, Marks.view, Marks.viewMut,
        Marks.rawTensor, Marks.tensor]; done)
    | (rename Hold => i
       cases i <;> simp_all [MaySend, marks, Marks.all, Marks.refMut, Marks.ref, Marks.same, Marks.slice, Marks.view,
        Marks.viewMut, Marks.rawTensor, Marks.tensor])

theorem maySend_obtains {ρ : Nat → Marks} {x y : Hold × Ty} (h : Obtains x y) (hx : MaySend ρ x) : MaySend ρ y := by
  induction h with
  | refl => exact hx
  | tail _ hs ih => exact maySend_gives hs ih

theorem maySend_param {ρ : Nat → Marks} {h : Hold} {n : Nat} : MaySend ρ (h, .param n) ↔ Needs ρ h n := by
  cases h <;> simp [MaySend, Needs, marks, Marks.ref, Marks.refMut]

/-- All type parameters obtained are as needed, and no shared reference to `Drain` is obtained. -/
def Fine (ρ : Nat → Marks) (x : Hold × Ty) : Prop :=
  (∀ h n, Obtains x (h, .param n) → Needs ρ h n) ∧ ∀ t a, ¬ Obtains x (.shared, .drain t a)

theorem Fine.step {ρ : Nat → Marks} {x y : Hold × Ty} (hx : Fine ρ x) (h : Gives x y) : Fine ρ y :=
  ⟨fun i n hy => hx.1 i n (.head h hy), fun t a hy => hx.2 t a (.head h hy)⟩

theorem maySend_of_fine {ρ : Nat → Marks} : ∀ (t : Ty) (h : Hold), Fine ρ (h, t) → MaySend ρ (h, t) := by
  intro t
  -- owners and mutable references give each other
  suffices H : (Fine ρ (.excl, t) → (marks ρ t).send = true) ∧ (Fine ρ (.shared, t) → (marks ρ t).sync = true) by
    intro h hf
    cases h with
    | own => exact H.1 (hf.step .borrowMut)
    | excl => exact H.1 hf
    | shared => exact H.2 hf
  have toOwn : ∀ {u}, Fine ρ (.excl, u) → Fine ρ (.own, u) := fun h => h.step .replace
  have toExcl : ∀ {u}, Fine ρ (.own, u) → Fine ρ (.excl, u) := fun h => h.step .borrowMut
  induction t with
  | param n => exact ⟨fun h => h.1 .excl n .refl, fun h => h.1 .shared n .refl⟩
  | ref t ih => exact ⟨fun h => ih.2 (h.step .ref), fun h => ih.2 (h.step .ref)⟩
  | refMut t ih => exact ⟨fun h => ih.1 (h.step .reborrow), fun h => ih.2 (h.step .refShared)⟩
  | manuallyDrop t ih => exact ⟨fun h => ih.1 (h.step .manuallyDrop), fun h => ih.2 (h.step .manuallyDrop)⟩
  | slice t ih =>
    simp only [marks, Marks.slice, Marks.all, Marks.same, List.all_cons, List.all_nil, Bool.and_true]
    exact ⟨fun h => ih.1 (h.step .indexMut), fun h => ih.2 (h.step .index)⟩
  | view t ih =>
    exact ⟨fun h => ih.2 ((h.step .view).step .index), fun h => ih.2 ((h.step .view).step .index)⟩
  | viewMut t ih =>
    exact ⟨fun h => ih.1 ((h.step .viewMutDeref).step .indexMut), fun h => ih.2 ((h.step .viewMutShared).step .index)⟩
  | array t ih =>
    simp only [marks, Marks.all, List.all_cons, List.all_nil, Bool.and_true]
    exact ⟨fun h => ih.1 (h.step .array), fun h => ih.2 (h.step .array)⟩
  | tensor t a ih iha =>
    simp only [marks, Marks.tensor, Marks.rawTensor, Marks.all, List.all_cons, List.all_nil, Bool.and_true, Bool.and_eq_true]
    exact ⟨fun h => ⟨ih.1 (h.step .tensor), iha.1 (h.step .allocator)⟩,
      fun h => ⟨ih.2 (h.step .tensor), iha.2 (h.step .allocator)⟩⟩
  | drain t a ih iha =>
    simp only [marks, Marks.tensor, Marks.rawTensor, Marks.viewMut, Marks.refMut, Marks.same, Marks.all, List.all_cons,
      List.all_nil, Bool.and_true, Bool.and_eq_true]
    refine ⟨fun h => ?_, fun h => absurd .refl (h.2 t a)⟩
    have h' := (toOwn h).step .drainDrop
    exact ⟨⟨ih.1 (h'.step .tensor), iha.1 (h'.step .allocator)⟩, ih.1 (h'.step .tensor)⟩
  | intoExpr b ih =>
    simp only [marks, Marks.all, List.all_cons, List.all_nil, Bool.and_true]
    exact ⟨fun h => ih.1 (h.step .intoExpr), fun h => ih.2 (h.step .intoExpr)⟩
  | axisExpr t ih =>
    simp only [marks, Marks.ref, Marks.slice, Marks.same, Marks.all, List.all_cons, List.all_nil, Bool.and_true]
    exact ⟨fun h => ih.2 (((h.step .axisExpr).step .view).step .index),
      fun h => ih.2 (((h.step .axisExpr).step .view).step .index)⟩
  | axisExprMut t ih =>
    simp only [marks, Marks.refMut, Marks.slice, Marks.same, Marks.all, List.all_cons, List.all_nil, Bool.and_true]
    exact ⟨fun h => ih.1 (((h.step (.axisExprMut nofun)).step .viewMut).step .indexMut),
      fun h => ih.2 ((h.step .axisExprShared).step .index)⟩
  | lanes t ih =>
    simp only [marks, Marks.ref, Marks.slice, Marks.same, Marks.all, List.all_cons, List.all_nil, Bool.and_true]
    exact ⟨fun h => ih.2 (((h.step .lanes).step .view).step .index),
      fun h => ih.2 (((h.step .lanes).step .view).step .index)⟩
  | lanesMut t ih =>
    simp only [marks, Marks.refMut, Marks.slice, Marks.same, Marks.all, List.all_cons, List.all_nil, Bool.and_true]
    exact ⟨fun h => ih.1 (((h.step (.lanesMut nofun)).step .viewMut).step .indexMut),
      fun h => ih.2 ((h.step .lanesShared).step .index)⟩
  | fill t ih =>
    simp only [marks, Marks.all, List.all_cons, List.all_nil, Bool.and_true]
    exact ⟨fun h => ih.1 (h.step .fill), fun h => ih.2 (h.step .fill)⟩
  | fillWith t ih =>
    simp only [marks, Marks.all, List.all_cons, List.all_nil, Bool.and_true]
    exact ⟨fun h => ih.1 (h.step .fillWith), fun h => ih.2 (h.step .fillWith)⟩
  | fromElem t ih =>
    simp only [marks, Marks.all, List.all_cons, List.all_nil, Bool.and_true]
    exact ⟨fun h => ih.1 (h.step .fromElem), fun h => ih.2 (h.step .fromElem)⟩
  | fromFn t ih =>
    simp only [marks, Marks.all, List.all_cons, List.all_nil, Bool.and_true]
    exact ⟨fun h => ih.1 (h.step .fromFn), fun h => ih.2 (h.step .fromFn)⟩
  | cloned t ih =>
    simp only [marks, Marks.all, List.all_cons, List.all_nil, Bool.and_true]
    exact ⟨fun h => ih.1 (h.step .cloned), fun h => ih.2 (h.step .cloned)⟩
  | copied t ih =>
    simp only [marks, Marks.all, List.all_cons, List.all_nil, Bool.and_true]
    exact ⟨fun h => ih.1 (h.step .copied), fun h => ih.2 (h.step .copied)⟩
  | enumerate t ih =>
    simp only [marks, Marks.all, List.all_cons, List.all_nil, Bool.and_true]
    exact ⟨fun h => ih.1 (h.step .enumerate), fun h => ih.2 (h.step .enumerate)⟩
  | map e f ihe ihf =>
    simp only [marks, Marks.all, List.all_cons, List.all_nil, Bool.and_true, Bool.and_eq_true]
    exact ⟨fun h => ⟨ihe.1 (h.step .mapExpr), ihf.1 (h.step .mapFn)⟩,
      fun h => ⟨ihe.2 (h.step .mapExpr), ihf.2 (h.step .mapFn)⟩⟩
  | zip a b iha ihb =>
    simp only [marks, Marks.all, List.all_cons, List.all_nil, Bool.and_true, Bool.and_eq_true]
    exact ⟨fun h => ⟨iha.1 (h.step .zipLeft), ihb.1 (h.step .zipRight)⟩,
      fun h => ⟨iha.2 (h.step .zipLeft), ihb.2 (h.step .zipRight)⟩⟩
  | iter t ih =>
    simp only [marks, Marks.all, List.all_cons, List.all_nil, Bool.and_true]
    exact ⟨fun h => ih.1 (h.step .iter), fun h => ih.2 (h.step .iter)⟩

end Spec
