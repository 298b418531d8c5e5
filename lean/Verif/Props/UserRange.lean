import Verif.Lemmas.UserRange
import Verif.Props.Tensor

/-!
C95: ranges of types defined outside of the crate.
-/

namespace Props
open Model Spec

variable {σ T : Type}

/-- `view` asks each range once for its start and its end, and gives the elements that are selected by the answers. If
no function panics, `view` panics only when the answers so far are out of bounds, whatever the others would be. -/
theorem C95_view (v : View) (hv : v.map.WF) (hu : Usize v.dims) (us : List (UserIdx σ))
    (hl : v.dims.length = us.length) (h : SafeArgs us) (w : σ) :
    M.Post (UserIdx.view v (us.map notedArg)) (w, [])
      (fun v' t => ∃ xs sel, Asked us xs t.2 ∧ selectAll xs v.dims = some sel ∧ v'.map.WF ∧ v'.dims = selDims sel ∧
        ∀ j, v'.index j = (pull sel j).bind v.index)
      (fun t => CalmArgs us → ∀ xs l, Asked us xs (t.2 ++ l) → selectAll xs v.dims = none) := by
  refine (UserIdx.post_view v us h w).mono ?_ ?_
  · rintro v' t ⟨xs, ha, hx⟩
    obtain ⟨h1, h2⟩ := View.view_spec v hv xs (by rw [hl, ha.count.2]) hu
    have : (selectAll xs v.dims).isSome := h1.1 (by rw [hx]; rfl)
    obtain ⟨sel, hs⟩ := Option.isSome_iff_exists.1 this
    obtain ⟨e1, e2, -, -, e3⟩ := h2 v' sel hx hs
    exact ⟨xs, sel, ha, hs, e1, e2, e3⟩
  · intro t ht c xs l ha
    obtain ⟨h1, -⟩ := View.view_spec v hv xs (by rw [hl, ha.count.2]) hu
    have := ht c xs l ha
    cases hs : selectAll xs v.dims with
    | none => rfl
    | some sel => rw [hs, this] at h1; exact absurd (h1.2 rfl) (by simp)

/-- Noting the answers has no influence on the result: without it, the view is also one that can be obtained with the
types of the standard library, so that everything that holds for these views holds for it. -/
theorem C95_call (checks : Bool) (v : View) (us : List (UserIdx σ)) (hl : v.dims.length = us.length)
    (h : SafeArgs us) (w : σ) :
    M.Post (UserIdx.view v us) w (fun v' _ => Call checks v v') fun _ => True :=
  (UserIdx.proj_view v us).post (l := []) <| (UserIdx.post_view v us h w).mono
    (fun _ _ ⟨_, ha, hx⟩ => .view (by rw [hl, ha.count.2]) hx) fun _ _ => trivial

/-- `drain` asks the range once for its start and its end, and removes the rows between the answers. If it panics, the
array is as before; and if also no function panics, the first dimension is not dynamically-sized (or there is none),
or the answers so far are out of bounds, whatever the others would be. -/
theorem C95_drain (r : UserRange σ) (h : SafeRange r) (k : Nat) (leak : Bool) (w : σ) (o : Own T) (xs : List T)
    (ho : Holds o xs) (d : Nat) (ds : List Nat) (hd : o.shape.dims = d :: ds) (hmax : d ≤ usizeMax) :
    M.Post ((notedRange r).drainRun k leak) ((w, []), o)
      (fun ys t => ∃ start stop, t.1.2 = [start, stop] ∧ o.shape.ty.head = .dyn ∧
        lo start ≤ hi d stop ∧ hi d stop ≤ d ∧
        ys = (rowsOf (size ds) (lo start) (hi d stop) xs).take k ∧
        if leak then
          Holds t.2 (xs.take (lo start * size ds)) ∧ t.2.shape = ⟨o.shape.ty, lo start :: ds⟩ ∧ t.2.log = o.log
        else
          Holds t.2 (xs.take (lo start * size ds) ++ xs.drop (hi d stop * size ds)) ∧
          t.2.shape = ⟨o.shape.ty, (d - (hi d stop - lo start)) :: ds⟩ ∧
          t.2.log = o.log ++ (rowsOf (size ds) (lo start) (hi d stop) xs).drop k)
      (fun t => t.2 = o ∧ (CalmRange r → o.shape.ty.head ≠ .dyn ∨
        ∀ a b, t.1.2 <+: [a, b] → ¬ (lo a ≤ hi d b ∧ hi d b ≤ d))) := by
  refine (UserRange.post_drainRun h k leak ho).mono ?_ ?_
  · rintro ys t ⟨start, stop, e, hh, d0, ds', a, b, e1, e2, e3, e4⟩
    rw [hd] at e1
    injection e1 with e1 e1'
    subst e1 e1'
    rw [rangeNorm_eq hmax] at e2
    split at e2
    swap
    · cases e2
    rename_i hc
    injection e2 with e2
    injection e2 with e2 e2'
    subst e2 e2'
    refine ⟨start, stop, e, hh, hc.1, hc.2, e3, ?_⟩
    rcases e4 with ⟨rfl, e4⟩ | ⟨rfl, e4⟩
    · exact e4
    · exact e4
  · rintro t ⟨e, hn⟩
    refine ⟨e, fun c => ?_⟩
    by_cases hh : o.shape.ty.head = .dyn
    · refine .inr fun a b ⟨l, hp⟩ hc => ?_
      have := hn ⟨by show 0 < o.shape.dims.length; rw [hd]; simp, hh⟩ c a b l hp.symm
      rw [hd, show (d :: ds).getD 0 0 = d from rfl, rangeNorm_eq hmax, if_pos hc] at this
      cases this
    · exact .inl hh

/-- A range that moves up by one with each call: it returns `n..` and `..n + 2` for the number `n` of the call. -/
def sliding : UserRange Nat := ⟨fun n => .ok (.included n) (n + 1), fun n => .ok (.excluded (n + 2)) (n + 1)⟩

/-- A range that panics when it is asked for its end. -/
def halfway : UserRange Nat := ⟨fun n => .ok (.excluded n) (n + 1), fun n => .panic n⟩

/-- A dense array with 5 rows and 6 columns. -/
def plot : View := ⟨0, .dense ⟨.static [.dyn, .dyn], [5, 6]⟩⟩

/-- The columns `0..3` are asked for before the rows `2..5`, of which every second one is taken, from the end; or the
columns are out of bounds, and the rows are not asked for; or a function panics. -/
example : plot.map.WF ∧ Usize plot.dims ∧ plot.dims.length = 2 ∧ SafeRange sliding ∧ CalmRange sliding ∧
    SafeArgs [.step sliding (-2), .step sliding 1] ∧ CalmArgs [.step sliding (-2), .step sliding 1] ∧
    SafeArgs [.own .full, .step halfway 1] ∧
    (match UserIdx.view plot ([.step sliding (-2), .step sliding 1].map notedArg) (0, []) with
      | .ok v t => some (v.dims, v.index [0, 0], v.index [1, 1], t.2)
      | _ => none) =
      some ([2, 3], some 24, some 13, [.included 0, .excluded 3, .included 2, .excluded 5]) ∧
    UserIdx.view plot ([.step sliding (-2), .step sliding 1].map notedArg) (4, []) =
      .panic (6, [.included 4, .excluded 7]) ∧
    UserIdx.view plot ([.own .full, .step halfway 1].map notedArg) (1, []) = .panic (2, [.excluded 1]) := by
  have hs : SafeRange sliding := ⟨fun _ => trivial, fun _ => trivial⟩
  have hc : CalmRange sliding := fun _ _ => ⟨(fun e => by cases e), (fun e => by cases e)⟩
  refine ⟨by decide, ?_, rfl, hs, hc, ?_, ?_, ?_, by decide, rfl, rfl⟩
  · intro d hd
    have : d = 5 ∨ d = 6 := by simpa using (show d ∈ [5, 6] from hd)
    rcases this with rfl | rfl <;> simp [usizeMax]
  · intro r k hm
    simp only [List.mem_cons, UserIdx.step.injEq, List.not_mem_nil, or_false] at hm
    rcases hm with ⟨rfl, -⟩ | ⟨rfl, -⟩ <;> exact hs
  · intro r k hm
    simp only [List.mem_cons, UserIdx.step.injEq, List.not_mem_nil, or_false] at hm
    rcases hm with ⟨rfl, -⟩ | ⟨rfl, -⟩ <;> exact hc
  · intro r k hm
    simp only [List.mem_cons, UserIdx.step.injEq, List.not_mem_nil, or_false, reduceCtorEq, false_or] at hm
    obtain ⟨rfl, -⟩ := hm
    exact ⟨fun _ => trivial, fun _ => trivial⟩

/-- Draining the rows `0..3` and `1..4` of four, taking 3 items; dropped and leaked; and a panic. -/
example : Holds tensor42 (List.range 8) ∧ tensor42.shape.dims = [4, 2] ∧ SafeRange sliding ∧ SafeRange halfway ∧
    (match ((notedRange sliding).drainRun 3 false : M _ (List Nat)) ((0, []), tensor42) with
      | .ok ys t => some (ys, t.2.cells.take 3, t.2.shape.dims, t.2.log, t.1.2)
      | _ => none) = some ([0, 1, 2], [some 6, some 7, none], [1, 2], [3, 4, 5], [.included 0, .excluded 3]) ∧
    (match ((notedRange sliding).drainRun 3 true : M _ (List Nat)) ((1, []), tensor42) with
      | .ok ys t => some (ys, t.2.cells.take 3, t.2.shape.dims, t.2.log, t.1.2)
      | _ => none) = some ([2, 3, 4], [some 0, some 1, none], [1, 2], [], [.included 1, .excluded 4]) ∧
    ((notedRange halfway).drainRun 3 true : M _ (List Nat)) ((1, []), tensor42) =
      .panic ((2, [.excluded 1]), tensor42) := by
  refine ⟨⟨by decide, by decide, by decide⟩, rfl, ⟨fun _ => trivial, fun _ => trivial⟩,
    ⟨fun _ => trivial, fun _ => trivial⟩, by decide +kernel, by decide +kernel, rfl⟩

end Props
