import Verif.Spec.Expr

/-! The adapters `map` and `enumerate` follow the iteration of their operand step by step. -/

namespace Model
namespace Iter
open Expr

variable {σ α β τ : Type}

/-- The iterator of `e.map(g)` in the same state as an iterator of `e`. -/
def mapped (it : Iter σ α) (g : α → M σ β) : Iter σ β :=
  ⟨.map it.expr g, it.innerIndex, it.innerLimit, it.outerIndex, it.outerLimit⟩

/-- The iterator of `e.enumerate()` in the same state as an iterator of `e`, after `k` items. -/
def numbered (it : Iter σ α) (k : Nat) : Iter σ (Nat × α) :=
  ⟨.enumerate it.expr k, it.innerIndex, it.innerLimit, it.outerIndex, it.outerLimit⟩

theorem new_map (e : Expr σ α) (g : α → M σ β) : Iter.new (.map e g) = (Iter.new e).mapped g := rfl

theorem new_enumerate (e : Expr σ α) (k : Nat) : Iter.new (.enumerate e k) = (Iter.new e).numbered k := rfl

theorem stepLoop_map (limit : List Nat) (g : α → M σ β) (n : Nat) : ∀ (e : Expr σ α) (oi : List Nat),
    stepLoop limit n (.map e g) oi = (stepLoop limit n e oi).map fun r => (r.1, .map r.2.1 g, r.2.2) := by
  induction n with
  | zero => intro e oi; rfl
  | succ n ih =>
    intro e oi
    simp only [stepLoop]
    cases oi[n]? with
    | none => rfl
    | some x =>
      cases limit[n]? with
      | none => rfl
      | some l =>
        simp only [Option.bind_some]
        split
        · simp only [stepDim, Option.map_map]; rfl
        · simp only [resetDim]
          cases e.resetDim n x with
          | none => rfl
          | some e' => simp only [Option.map_some, Option.bind_some, ih]

theorem stepLoop_enumerate (limit : List Nat) (k n : Nat) : ∀ (e : Expr σ α) (oi : List Nat),
    stepLoop limit n (.enumerate e k) oi =
      (stepLoop limit n e oi).map fun r => (r.1, .enumerate r.2.1 k, r.2.2) := by
  induction n with
  | zero => intro e oi; rfl
  | succ n ih =>
    intro e oi
    simp only [stepLoop]
    cases oi[n]? with
    | none => rfl
    | some x =>
      cases limit[n]? with
      | none => rfl
      | some l =>
        simp only [Option.bind_some]
        split
        · simp only [stepDim, Option.map_map]; rfl
        · simp only [resetDim]
          cases e.resetDim n x with
          | none => rfl
          | some e' => simp only [Option.map_some, Option.bind_some, ih]

theorem stepOuter_map (it : Iter σ α) (g : α → M σ β) :
    (it.mapped g).stepOuter = it.stepOuter.map fun r => (r.1, r.2.mapped g) := by
  have h : (if (Expr.map it.expr g).outerRank < (Expr.map it.expr g).rank then
      (Expr.map it.expr g).resetDim ((Expr.map it.expr g).rank - 1) 0 else some (Expr.map it.expr g)) =
      (if it.expr.outerRank < it.expr.rank then it.expr.resetDim (it.expr.rank - 1) 0
        else some it.expr).map fun e' => .map e' g := by
    show (if it.expr.outerRank < it.expr.rank then (it.expr.resetDim (it.expr.rank - 1) 0).map _
      else some (Expr.map it.expr g)) = _
    split <;> rfl
  unfold stepOuter
  show Option.bind (if (Expr.map it.expr g).outerRank < (Expr.map it.expr g).rank then
      (Expr.map it.expr g).resetDim ((Expr.map it.expr g).rank - 1) 0 else some (Expr.map it.expr g)) _ =
    Option.map _ (Option.bind (if it.expr.outerRank < it.expr.rank then
      it.expr.resetDim (it.expr.rank - 1) 0 else some it.expr) _)
  rw [h]
  cases (if it.expr.outerRank < it.expr.rank then it.expr.resetDim (it.expr.rank - 1) 0
    else some it.expr) with
  | none => rfl
  | some e' =>
    simp only [Option.map_some, Option.bind_some]
    show (stepLoop it.outerLimit it.expr.outerRank (.map e' g) it.outerIndex).map _ = _
    rw [stepLoop_map, Option.map_map, Option.map_map]
    rfl

theorem stepOuter_enumerate (it : Iter σ α) (k : Nat) :
    (it.numbered k).stepOuter = it.stepOuter.map fun r => (r.1, r.2.numbered k) := by
  have h : (if (Expr.enumerate it.expr k).outerRank < (Expr.enumerate it.expr k).rank then
      (Expr.enumerate it.expr k).resetDim ((Expr.enumerate it.expr k).rank - 1) 0
        else some (Expr.enumerate it.expr k)) =
      (if it.expr.outerRank < it.expr.rank then it.expr.resetDim (it.expr.rank - 1) 0
        else some it.expr).map fun e' => .enumerate e' k := by
    show (if it.expr.outerRank < it.expr.rank then (it.expr.resetDim (it.expr.rank - 1) 0).map _
      else some (Expr.enumerate it.expr k)) = _
    split <;> rfl
  unfold stepOuter
  show Option.bind (if (Expr.enumerate it.expr k).outerRank < (Expr.enumerate it.expr k).rank then
      (Expr.enumerate it.expr k).resetDim ((Expr.enumerate it.expr k).rank - 1) 0
        else some (Expr.enumerate it.expr k)) _ =
    Option.map _ (Option.bind (if it.expr.outerRank < it.expr.rank then
      it.expr.resetDim (it.expr.rank - 1) 0 else some it.expr) _)
  rw [h]
  cases (if it.expr.outerRank < it.expr.rank then it.expr.resetDim (it.expr.rank - 1) 0
    else some it.expr) with
  | none => rfl
  | some e' =>
    simp only [Option.map_some, Option.bind_some]
    show (stepLoop it.outerLimit it.expr.outerRank (.enumerate e' k) it.outerIndex).map _ = _
    rw [stepLoop_enumerate, Option.map_map, Option.map_map]
    rfl

/-! ### `fold` -/

theorem innerLoop_map (g : α → M σ β) (f : τ → β → M σ τ) (is : List Nat) : ∀ (e : Expr σ α) (acc : τ),
    innerLoop f is (.map e g) acc =
      M.bind (innerLoop (fun acc x => M.bind (g x) fun y => f acc y) is e acc) fun p =>
        M.pure (p.1, .map p.2 g) := by
  induction is with
  | nil => intro e acc; rfl
  | cons i is ih =>
    intro e acc
    simp only [innerLoop, Expr.get, M.bind_assoc, M.pure_bind, ih]

theorem foldLoop_map (g : α → M σ β) (f : τ → β → M σ τ) (fuel : Nat) : ∀ (it : Iter σ α) (acc : τ),
    foldLoop f fuel (it.mapped g) acc =
      foldLoop (fun acc x => M.bind (g x) fun y => f acc y) fuel it acc := by
  induction fuel with
  | zero => intro it acc; rfl
  | succ fuel ih =>
    intro it acc
    simp only [foldLoop]
    show M.bind (innerLoop f (List.range' it.innerIndex (it.innerLimit - it.innerIndex))
      (.map it.expr g) acc) _ = _
    rw [innerLoop_map, M.bind_assoc]
    congr 1
    funext p
    rw [M.pure_bind]
    show M.bind (M.lift (Iter.mapped { it with expr := p.2 } g).stepOuter) _ = _
    rw [stepOuter_map]
    cases stepOuter { it with expr := p.2 } with
    | none => rfl
    | some q =>
      simp only [Option.map_some, M.lift_some, M.pure_bind]
      show (if q.1 = true then foldLoop f fuel (Iter.mapped { q.2 with innerIndex := 0 } g) p.1 else _) = _
      rw [ih]

/-- The function that a fold over an enumerated expression passes on, with the number of the item. -/
def numberedStep (f : τ → Nat × α → M σ τ) (p : Nat × τ) (x : α) : M σ (Nat × τ) :=
  M.bind (f p.2 (p.1, x)) fun acc => M.pure (p.1 + 1, acc)

theorem innerLoop_enumerate (f : τ → Nat × α → M σ τ) (is : List Nat) :
    ∀ (e : Expr σ α) (k : Nat) (acc : τ),
    innerLoop f is (.enumerate e k) acc =
      M.bind (innerLoop (numberedStep f) is e (k, acc)) fun p =>
        M.pure (p.1.2, .enumerate p.2 p.1.1) := by
  induction is with
  | nil => intro e k acc; rfl
  | cons i is ih =>
    intro e k acc
    simp only [innerLoop, Expr.get, M.bind_assoc, M.pure_bind, ih, numberedStep]

theorem foldLoop_enumerate (f : τ → Nat × α → M σ τ) (fuel : Nat) :
    ∀ (it : Iter σ α) (k : Nat) (acc : τ),
    foldLoop f fuel (it.numbered k) acc =
      M.bind (foldLoop (numberedStep f) fuel it (k, acc)) fun p => M.pure p.2 := by
  induction fuel with
  | zero => intro it k acc; rfl
  | succ fuel ih =>
    intro it k acc
    simp only [foldLoop]
    show M.bind (innerLoop f (List.range' it.innerIndex (it.innerLimit - it.innerIndex))
      (.enumerate it.expr k) acc) _ = _
    rw [innerLoop_enumerate, M.bind_assoc, M.bind_assoc]
    congr 1
    funext p
    rw [M.pure_bind]
    show M.bind (M.lift (Iter.numbered { it with expr := p.2 } p.1.1).stepOuter) _ = _
    rw [stepOuter_enumerate]
    cases stepOuter { it with expr := p.2 } with
    | none => rfl
    | some q =>
      simp only [Option.map_some, M.lift_some, M.pure_bind]
      show (if q.1 = true then foldLoop f fuel (Iter.numbered { q.2 with innerIndex := 0 } p.1.1) p.1.2
        else _) = _
      split
      · rw [ih]
      · rfl

/-! ### `next` -/

theorem next_map (it : Iter σ α) (g : α → M σ β) :
    (it.mapped g).next = M.bind it.next fun p =>
      match p.1 with
      | some x => M.bind (g x) fun y => M.pure (some y, p.2.mapped g)
      | none => M.pure (none, p.2.mapped g) := by
  unfold next
  show (if it.innerIndex = it.innerLimit then _ else _) = _
  split
  · rw [stepOuter_map]
    cases it.stepOuter with
    | none => rfl
    | some q =>
      simp only [Option.map_some, M.lift_some, M.pure_bind]
      split
      · show M.bind (Expr.get (.map q.2.expr g) 0) _ = _
        simp only [Expr.get, M.bind_assoc, M.pure_bind]
        rfl
      · rfl
  · show M.bind (Expr.get (.map it.expr g) it.innerIndex) _ = _
    simp only [Expr.get, M.bind_assoc, M.pure_bind]
    rfl

theorem next_enumerate (it : Iter σ α) (k : Nat) :
    (it.numbered k).next = M.bind it.next fun p =>
      match p.1 with
      | some x => M.pure (some (k, x), p.2.numbered (k + 1))
      | none => M.pure (none, p.2.numbered k) := by
  unfold next
  show (if it.innerIndex = it.innerLimit then _ else _) = _
  split
  · rw [stepOuter_enumerate]
    cases it.stepOuter with
    | none => rfl
    | some q =>
      simp only [Option.map_some, M.lift_some, M.pure_bind]
      split
      · show M.bind (Expr.get (.enumerate q.2.expr k) 0) _ = _
        simp only [Expr.get, M.bind_assoc, M.pure_bind]
        rfl
      · rfl
  · show M.bind (Expr.get (.enumerate it.expr k) it.innerIndex) _ = _
    simp only [Expr.get, M.bind_assoc, M.pure_bind]
    rfl

end Iter
end Model
