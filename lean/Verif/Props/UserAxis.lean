import Verif.Lemmas.UserAxis

/-!
C93: views along axes of types defined outside of the crate.
-/

namespace Props
open Model Spec

variable {σ : Type}

/-- If every call of `index` returns the same dimension, `axis_at` panics or returns the right view, whatever the
associated types are. -/
theorem C93_at_partial (a : UserAxis σ) (v : View) (hv : v.map.WF) (p i : Nat) (h : SafeAxis a)
    (hs : SteadyAxis a v.dims.length p) (w : σ) :
    M.Post (a.axisAt v i) w (fun v' _ => p < v.dims.length ∧ i < v.dims.getD p 0 ∧ SubView v p i v') fun _ => True :=
  UserAxis.post_axisAt h hs hv i w

/-- In the same way for `split_axis_at`. -/
theorem C93_split_partial (a : UserAxis σ) (v : View) (hv : v.map.WF) (p mid : Nat) (h : SafeAxis a)
    (hs : SteadyAxis a v.dims.length p) (w : σ) :
    M.Post (a.splitAxisAt v mid) w
      (fun q _ => p < v.dims.length ∧ mid ≤ v.dims.getD p 0 ∧ Halves v p mid q.1 q.2) fun _ => True :=
  UserAxis.post_splitAxisAt h hs hv mid w

/-- In the same way `axis_expr` hands out one view for each index in the dimension, in order, and after a panic some
first of them have been handed out. -/
theorem C93_expr_partial (a : UserAxis σ) (v : View) (hv : v.map.WF) (p : Nat) (h : SafeAxis a)
    (hs : SteadyAxis a v.dims.length p) (g : View → M σ Unit) (hg : ∀ x, (g x).Tame) (w : σ) :
    M.Post (a.forEach v (handedOut g)) (w, [])
      (fun _ t => p < v.dims.length ∧ t.2.length = v.dims.getD p 0 ∧
        ∀ i (hi : i < t.2.length), SubView v p i t.2[i])
      fun t => t.2.length ≤ v.dims.getD p 0 ∧ ∀ i (hi : i < t.2.length), SubView v p i t.2[i] := by
  let I : Nat → List View → Prop := fun n xs => xs.length = n ∧ ∀ i (hi : i < xs.length), SubView v p i xs[i]
  have step : ∀ i x (xs : List View), SubView v p i x → I i xs → I (i + 1) (xs ++ [x]) := by
    rintro i x xs hx ⟨rfl, hI⟩
    refine ⟨by simp, fun k hk => ?_⟩
    rw [List.length_append, List.length_singleton] at hk
    by_cases hl : k < xs.length
    · rw [List.getElem_append_left hl]; exact hI k hl
    · have : k = xs.length := by omega
      subst this
      rw [List.getElem_append_right (Nat.le_refl _)]
      simpa using hx
  refine (UserAxis.post_forEach h hs hv I (fun i x w r hi hx hI => ?_) w [] ⟨rfl, fun i hi => by simp at hi⟩).mono
    (fun _ t q => ⟨q.1, q.2.1, q.2.2⟩) ?_
  · show M.Post (M.up (g x)) (w, r ++ [x]) _ _
    exact M.post_up ((hg x w).mono (fun _ _ _ => step i x r hx hI) fun _ _ => ⟨i + 1, hi, step i x r hx hI⟩)
  · rintro t ⟨n, hn, e, hI⟩
    exact ⟨e ▸ hn, hI⟩

/-- For the axis types of the crate this is the model used elsewhere. -/
theorem C93_own (a : Axis) (v : View) (i : Nat) :
    (UserAxis.ofAxis (σ := σ) a).axisAt v i = M.lift (v.axisAt a i) ∧
    (UserAxis.ofAxis (σ := σ) a).splitAxisAt v i = M.lift (v.splitAxisAt a i) :=
  ⟨UserAxis.axisAt_ofAxis a v i, UserAxis.splitAxisAt_ofAxis a v i⟩

/-- An axis with the associated types of `usize`, where the number of calls counts. -/
def turns (f : Nat → Nat) : UserAxis Nat :=
  { UserAxis.ofAxis (σ := Nat) (.dyn 0) with index := fun _ w => .ok (f w) (w + 1) }

/-- A dense array of rank 2. -/
def sheet (m n : Nat) : View := ⟨0, .dense ⟨.static [.dyn, .dyn], [m, n]⟩⟩

/-- Safe code can implement `Axis` such that views have elements outside of the array, or that mutable views handed
out by `axis_expr_mut` overlap: `index` returns 1 in the first call, and 0 later. An array with 2 rows and 3 columns
has positions below 6. -/
theorem C93_violated :
    (∀ f, SafeAxis (turns f)) ∧
    (∃ v w, (turns fun w => if w = 0 then 1 else 0).axisAt (sheet 2 3) 2 0 = .ok v w ∧
      v.dims = [3] ∧ v.index [0] = some 6 ∧ v.index [2] = some 8) ∧
    (∃ q w, (turns fun w => if w = 0 then 1 else 0).splitAxisAt (sheet 2 3) 3 0 = .ok q w ∧
      q.1.dims = [3, 3] ∧ q.1.index [2, 2] = some 8) ∧
    (∃ x y w, (turns fun w => if w = 0 then 1 else 0).forEach (sheet 2 2) (handedOut fun _ => M.pure ()) (0, []) =
      .ok () (w, [x, y]) ∧ x.index [1] = some 1 ∧ y.index [0] = some 1) :=
  ⟨fun _ _ _ => trivial, ⟨_, _, rfl, rfl, rfl, rfl⟩, ⟨_, _, rfl, rfl, rfl⟩, ⟨_, _, _, rfl, rfl, rfl⟩⟩

/-- An axis that panics in every third call, for arrays with at least two dimensions. -/
def moody : UserAxis Nat := { UserAxis.ofAxis (σ := Nat) (.dyn 1) with
  index := fun _ w => if w % 3 = 2 then .panic w else .ok 1 (w + 1) }

example : SafeAxis moody ∧ SteadyAxis moody (sheet 2 3).dims.length 1 ∧ (sheet 2 3).map.WF ∧
    moody.axisAt (sheet 2 3) 2 0 = .panic 2 ∧ moody.splitAxisAt (sheet 2 3) 1 4 = .panic 5 ∧
    (∃ t, moody.forEach (sheet 2 3) (handedOut fun _ => M.pure ()) (0, []) = .panic t ∧
      t.2.map (fun x => x.index [1]) = [some 3]) ∧
    (∃ v w, (turns fun _ => 1).axisAt (sheet 2 3) 2 0 = .ok v w ∧ v.dims = [2] ∧ v.index [1] = some 5) ∧
    (∃ q w, (turns fun _ => 1).splitAxisAt (sheet 2 3) 1 0 = .ok q w ∧ q.1.dims = [2, 1] ∧ q.2.dims = [2, 2] ∧
      q.2.index [1, 1] = some 5) ∧
    (∃ t, (turns fun _ => 0).forEach (sheet 2 3) (handedOut fun _ => M.pure ()) (0, []) = .ok () t ∧
      t.2.map (fun x => x.index [1]) = [some 1, some 4]) ∧
    SteadyAxis (turns fun _ => 1) (sheet 2 3).dims.length 1 := by
  refine ⟨fun r w => ?_, fun w q w' => ?_, by decide, rfl, rfl, ⟨_, rfl, rfl⟩, ⟨_, _, rfl, rfl, rfl⟩,
    ⟨_, _, rfl, rfl, rfl, rfl⟩, ⟨_, rfl, rfl⟩, fun w q w' e => ?_⟩
  · unfold M.Post moody
    by_cases e : w % 3 = 2 <;> simp [e]
  · unfold moody
    by_cases e : w % 3 = 2 <;> simp [e]
    exact fun e _ => e.symm
  · injection e with e; exact e.symm

end Props
