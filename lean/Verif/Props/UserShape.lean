import Verif.Lemmas.UserShape

/-!
C94: reshaping and indexing with shapes and dimensions of types defined outside of the crate.
-/

namespace Props
open Model Spec

variable {σ : Type}

/-- If a shape behaves like a list of sizes, `into_shape` panics or keeps the number of elements, where only a
placeholder is replaced. If no function of the shape panics, it succeeds whenever there is exactly one such result. -/
theorem C94_reshape_partial (u : UserShape σ) (val : σ → List Nat) (h : LawfulShape u val) (n : Nat) (w : σ) :
    M.Post (u.reshape n) w (fun _ w' => size (val w') = n ∧ Filled (val w) (val w'))
      fun _ => OpenShape u → ¬∃! es, Filled (val w) es ∧ size es = n :=
  UserShape.post_reshape h rfl

/-- Then indexing an array with this number of elements gives the element at the row-major position of the index. It
panics if the index is not valid, and otherwise only if a function of the shape does. -/
theorem C94_index_partial (u : UserShape σ) (val : σ → List Nat) (h : LawfulShape u val) (dbg : Bool) (idx : List Nat)
    (w : σ) :
    M.Post (u.index dbg (size (val w)) idx) w
      (fun p w' => Valid (val w) idx ∧ p = rowMajor (val w) idx ∧ val w' = val w)
      fun _ => QuietShape u → ¬Valid (val w) idx :=
  UserShape.post_index h rfl

/-- In the same way for linear indices. -/
theorem C94_linear_partial (u : UserShape σ) (val : σ → List Nat) (h : LawfulShape u val) (dbg : Bool) (k : Nat)
    (w : σ) :
    M.Post (u.linear dbg (size (val w)) k) w (fun p w' => k < size (val w) ∧ p = k ∧ val w' = val w)
      fun _ => QuietShape u → size (val w) ≤ k :=
  UserShape.post_linear h rfl

/-- Reshaping and then indexing any number of times is safe, and different valid indices give different elements. -/
theorem C94_elements_partial (u : UserShape σ) (val : σ → List Nat) (h : LawfulShape u val) (dbg : Bool) (n : Nat)
    (i j : List Nat) (w : σ) :
    M.Post (M.bind (u.reshape n) fun _ => M.bind (u.index dbg n i) fun p => M.bind (u.index dbg n j) fun q =>
      M.pure (p, q)) w (fun r _ => r.1 < n ∧ r.2 < n ∧ (r.1 = r.2 → i = j)) fun _ => True := by
  refine ((UserShape.post_reshape h rfl).mono (fun _ _ q => q) fun _ _ => trivial).bind ?_
  rintro _ w ⟨rfl, -⟩
  refine ((UserShape.post_index h rfl).mono (fun _ _ q => q) fun _ _ => trivial).bind ?_
  rintro p w' ⟨hi, rfl, e⟩
  rw [← e] at hi ⊢
  refine ((UserShape.post_index h rfl).mono (fun _ _ q => q) fun _ _ => trivial).bind ?_
  rintro q w ⟨hj, rfl, -⟩
  exact ⟨rowMajor_lt hi, rowMajor_lt hj, fun e => rowMajor_inj hi hj e⟩

/-- The shapes of the crate behave like lists of sizes, where sizes that do not match the type are refused. -/
theorem C94_own : LawfulShape UserShape.ofShape Shape.dims ∧ QuietShape UserShape.ofShape ∧
    ∀ (s : Shape) (ds : List Nat), UserShape.ofShape.store ds s =
      if s.ty.Conforms ds then .ok () ⟨s.ty, ds⟩ else .panic s := by
  have hs : ∀ (s : Shape) (ds : List Nat), UserShape.ofShape.store ds s =
      if s.ty.Conforms ds then .ok () ⟨s.ty, ds⟩ else .panic s := fun s ds => by
    unfold UserShape.ofShape
    simp only [Shape.withMutDims_eq, Option.bind_some]
    by_cases hc : s.ty.Conforms ds <;> simp [hc]
  refine ⟨⟨fun _ => ⟨rfl, rfl⟩, fun _ => ⟨rfl, rfl⟩, fun ds s => ?_⟩, fun w w' e => by simp [UserShape.ofShape] at e, hs⟩
  unfold M.Post
  rw [hs]
  by_cases hc : s.ty.Conforms ds <;> simp [hc]

/-- A shape where the number of calls counts. -/
def shifting (f : Nat → List Nat) : UserShape Nat where
  dims := fun w => .ok (f w) (w + 1)
  dimsMut := fun w => .ok (f w) (w + 1)
  store := fun _ w => .ok () (w + 1)

/-- Safe code can implement `Shape` or `Dim` such that indexing accesses memory outside of the array: after the three
calls in `into_shape` the shape has 5 elements instead of 1; or an array with 6 elements has dimensions `[2, 3]`,
but `[3, 2]` in one call, so that the bounds checks accept `[2, 2]`. -/
theorem C94_violated :
    (∀ f, SafeShape (shifting f)) ∧
    (∀ dbg, M.bind ((shifting fun w => if w < 3 then [1] else [5]).reshape 1)
      (fun _ => (shifting fun w => if w < 3 then [1] else [5]).index dbg 1 [3]) 0 = .ub) ∧
    (∀ dbg, M.bind ((shifting fun w => if w < 3 then [1] else [5]).reshape 1)
      (fun _ => (shifting fun w => if w < 3 then [1] else [5]).linear dbg 1 3) 0 = .ub) ∧
    M.bind ((shifting fun w => if w = 5 then [3, 2] else [2, 3]).reshape 6)
      (fun _ => (shifting fun w => if w = 5 then [3, 2] else [2, 3]).index false 6 [2, 2]) 0 = .ub :=
  ⟨fun _ => ⟨fun _ => trivial, fun _ => trivial, fun _ _ => trivial⟩, by rintro (_ | _) <;> rfl,
    by rintro (_ | _) <;> rfl, rfl⟩

/-- A shape with two dimensions, where the first is even: other sizes are refused. -/
def evenRows : UserShape (List Nat) where
  dims := fun w => .ok w w
  dimsMut := fun w => .ok w w
  store := fun ds w => match ds with
    | [a, b] => if a % 2 = 0 then .ok () [a, b] else .panic w
    | _ => .panic w

example : LawfulShape evenRows id ∧ QuietShape evenRows ∧
    evenRows.reshape 12 [4, usizeMax] = .ok () [4, 3] ∧ evenRows.reshape 12 [usizeMax, 3] = .panic [usizeMax, 3] ∧
    evenRows.reshape 12 [4, 2] = .panic [4, 2] ∧
    evenRows.index true 12 [3, 2] [4, 3] = .ok 11 [4, 3] ∧ evenRows.index true 12 [3, 3] [4, 3] = .panic [4, 3] ∧
    evenRows.linear false 12 7 [4, 3] = .ok 7 [4, 3] ∧ evenRows.linear false 12 12 [4, 3] = .panic [4, 3] := by
  refine ⟨⟨fun _ => ⟨rfl, rfl⟩, fun _ => ⟨rfl, rfl⟩, fun ds w => ?_⟩, fun w w' e => by simp [evenRows] at e,
    rfl, rfl, rfl, rfl, rfl, rfl, rfl⟩
  unfold M.Post evenRows
  dsimp only
  match ds with
  | [] => trivial
  | [_] => trivial
  | [a, b] =>
    by_cases e : a % 2 = 0
    · simp [e]
    · simp [e]
  | _ :: _ :: _ :: _ => trivial

/-- A shape that takes any sizes. -/
def anySizes : UserShape (List Nat) where
  dims := fun w => .ok w w
  dimsMut := fun w => .ok w w
  store := fun ds _ => .ok () ds

example : LawfulShape anySizes id ∧ OpenShape anySizes ∧ anySizes.reshape 12 [usizeMax, 3] = .ok () [4, 3] ∧
    anySizes.reshape 0 [usizeMax, 0] = .panic [1, 0] :=
  ⟨⟨fun _ => ⟨rfl, rfl⟩, fun _ => ⟨rfl, rfl⟩, fun _ _ => rfl⟩,
    ⟨fun _ _ e => by simp [anySizes] at e, fun _ _ e => by simp [anySizes] at e, fun _ _ _ e => by simp [anySizes] at e⟩, rfl, rfl⟩

end Props
