import Verif.Spec.SerdeCalls
import Verif.Lemmas.Serialize
import Verif.Lemmas.CompareExact

namespace Model
open Spec Model.Expr Model.Iter

variable {σ α ε : Type} {act : SerCall → M σ (Option ε)}

theorem tryThen_pure_none (x : M σ (Option ε)) : tryThen x (M.pure none) = x := by
  unfold tryThen
  conv_rhs => rw [← M.bind_pure x]
  congr 1
  funext r
  cases r <;> rfl

theorem tryThen_assoc (x y z : M σ (Option ε)) :
    tryThen (tryThen x y) z = tryThen x (tryThen y z) := by
  unfold tryThen
  rw [M.bind_assoc]
  congr 1
  funext r
  cases r <;> rfl

theorem tryThen_none (k : M σ (Option ε)) : tryThen (M.pure none) k = k := rfl

theorem runCalls_cons (c : SerCall) (cs : List SerCall) :
    runCalls act (c :: cs) = tryThen (act c) (runCalls act cs) := rfl

theorem runCalls_append (a b : List SerCall) :
    runCalls act (a ++ b) = tryThen (runCalls act a) (runCalls act b) := by
  induction a with
  | nil => rfl
  | cons c a ih => rw [List.cons_append, runCalls_cons, ih, runCalls_cons, tryThen_assoc]

theorem runCalls_single (c : SerCall) : runCalls act [c] = act c := tryThen_pure_none _

theorem bind_tryThen {x : M σ α} {f : α → M σ (Option ε)} {k : M σ (Option ε)} :
    tryThen (M.bind x f) k = M.bind x fun a => tryThen (f a) k := M.bind_assoc _ _ _

theorem forTry_iterN {e : Expr σ α} (hw : e.Wf) (hs : Sound e) (hp : Plain e)
    (f : α → M σ (Option ε)) (cs : Nat → List SerCall)
    (hf : ∀ i, i < size e.dims → M.bind (item e i (unrank e.dims i)) f = runCalls act (cs i)) :
    ∀ (k n fuel : Nat), n + k = size e.dims → k < fuel →
    forTry f fuel (iterN e n) = runCalls act ((List.range' n k).flatMap cs) := by
  intro k
  induction k with
  | zero =>
    intro n fuel hn hf
    obtain ⟨fuel, rfl⟩ := Nat.exists_eq_add_one_of_ne_zero (by omega : fuel ≠ 0)
    obtain rfl : n = size e.dims := by omega
    obtain ⟨c, hc⟩ := next_iterN_end hw hp
    rw [forTry, hc]
    rfl
  | succ k ih =>
    intro n fuel hn hfu
    obtain ⟨fuel, rfl⟩ := Nat.exists_eq_add_one_of_ne_zero (by omega : fuel ≠ 0)
    rw [forTry, next_iterN hw hs (by omega), List.range'_succ, List.flatMap_cons, runCalls_append,
      ← hf n (by omega), ← ih (n + 1) fuel (by omega) (by omega), bind_tryThen, M.bind_assoc]
    rfl

theorem serCallsRank_eq (act : SerCall → M σ (Option ε)) : ∀ (rank : Nat) (v : View) (g : List Nat → Int),
    v.map.WF → v.dims.length = rank → RowsFit v.dims → (∀ j, Valid v.dims j → v.index j = some (g j)) →
    serCallsRank act rank v = runCalls act (callsOf v.dims g) := by
  intro rank
  induction rank with
  | zero =>
    intro v g hv hl _ hg
    have h0 : v.dims = [] := List.eq_nil_of_length_eq_zero hl
    rw [serCallsRank, hg [] (by rw [h0]; simp), h0, callsOf, runCalls_single]
    rfl
  | succ rank ih =>
    intro v g hv hl hf hgi
    have hlp : 0 < v.dims.length := by omega
    obtain ⟨m, he, hm⟩ := axisNew_zero (σ := σ) hv hlp
    have hb := Built.axis (σ := σ) hv he
    cases hvd : v.dims with
    | nil => rw [hvd] at hl; simp at hl
    | cons d ds =>
      have hg : v.dims.getD 0 0 = d := by rw [hvd]; rfl
      have hd0 : v.map.dim 0 = some d := by
        rw [Mapping.dim_eq]
        show v.dims[0]? = _
        rw [hvd]; rfl
      have hsound := axis_sound (σ := σ) (m := m) (rowsFit_head hf hlp)
      have hbound := lt_bound (wf_of_built hb) hsound
      have hdm : (Expr.axis true v (.const 0) m 0 : Expr σ View).dims = [d] := by
        rw [← hg]; exact hm
      have hnew : Iter.new (Expr.axis true v (.const 0) m 0 : Expr σ View) = iterN _ 0 :=
        new_eq (wf_of_built hb) hsound
      rw [serCallsRank, hd0, he, M.lift_some, M.lift_some, M.pure_bind, M.pure_bind]
      show tryThen _ (tryThen (forTry _ (Iter.new _).bound (Iter.new _)) _) = _
      generalize hB : (Iter.new (Expr.axis true v (.const 0) m 0 : Expr σ View)).bound = B at hbound ⊢
      rw [hnew, forTry_iterN (act := act) (wf_of_built hb) hsound (axis_plain hm) _
        (fun i => .element :: callsOf ds (fun j => g (i :: j)) ++ [.finish]) ?_ _ 0 _ (by omega) hbound,
        hdm, callsOf, ← List.range_eq_range', show size [d] = d by simp [size], List.cons_append,
        runCalls_cons, runCalls_append, runCalls_single]
      intro i hi
      rw [hdm, show size [d] = d by simp [size]] at hi
      rw [hdm]
      have hu : unrank [d] i = [i] := by simp [unrank, size]
      obtain ⟨v', hv', hvw, hvd', hvi⟩ := row_zero hv hlp (i := i) (by rw [hg]; exact hi)
      have ht : v'.dims = ds := by rw [hvd', hvd]; rfl
      rw [hu, item]
      simp only [List.getD_cons_zero, hv', orUb, M.pure_bind]
      rw [ih v' (fun j => g (i :: j)) hvw (by rw [ht]; rw [hvd] at hl; simpa using hl)
        (by rw [ht]; exact rowsFit_tail (hvd ▸ hf : RowsFit (d :: ds)) (by omega))
        (fun j hj => by
          rw [hvi]; exact hgi _ (by rw [hvd, valid_cons]; exact ⟨hi, by rwa [ht] at hj⟩)), ht,
        List.cons_append, runCalls_cons, runCalls_append, runCalls_single]

/-- If the size of a row overflows, the calls before it are made. -/
theorem serCallsRank_panic (act : SerCall → M σ (Option ε)) (g : List Nat → Int) :
    ∀ (rank : Nat) (v : View), v.map.WF →
    v.dims.length = rank → ¬ RowsFit v.dims → ∃ cs, cs <+: callsOf v.dims g ∧
      serCallsRank act rank v = tryThen (runCalls act cs) M.panic := by
  intro rank
  induction rank generalizing g with
  | zero => intro v _ h hf; exact absurd (rowsFit_short (by omega)) hf
  | succ rank ih =>
    intro v hv hlen hfit
    obtain ⟨d, t, hdt, h0, hrest⟩ := not_rowsFit hfit
    have hl : 0 < v.dims.length := by rw [hdt]; simp
    obtain ⟨m, he, hm⟩ := axisNew_zero (σ := σ) hv hl
    have hdim : v.map.dim 0 = some d := by
      show v.dims[0]? = _
      rw [hdt]; rfl
    rw [serCallsRank, hdim, M.lift_some, M.pure_bind]
    rw [hdt] at hm
    change m.dims = [d] at hm
    rw [he, M.lift_some, M.pure_bind, hdt]
    obtain ⟨n, hn⟩ := bound_pos (Iter.new (Expr.axis true v (.const 0) m 0 : Expr σ View))
    show ∃ cs, _ ∧ tryThen _ (tryThen (forTry _ (Iter.new _).bound (Iter.new _)) _) = _
    rw [hn, forTry]
    by_cases ho : NoOverflow usizeMax t
    · obtain ⟨v', it, hvw, hvd, hva, hvn⟩ := (next_axis hv he hdt h0 hm).2 ho
      obtain ⟨cs, ⟨r, hcs⟩, h⟩ := ih (fun j => g (0 :: j)) v' hvw
        (by rw [hvd]; rw [hdt] at hlen; simpa using hlen) (by rw [hvd]; exact (hrest ho).1)
      refine ⟨.start d :: .element :: cs, ?_, ?_⟩
      · obtain ⟨d', rfl⟩ := Nat.exists_eq_add_one_of_ne_zero (by omega : d ≠ 0)
        rw [callsOf, List.range_succ_eq_map, List.flatMap_cons, ← hvd, ← hcs]
        exact ⟨r ++ (.finish :: (List.flatMap _ _ ++ [.stop])), by simp; rfl⟩
      · rw [hvn, M.pure_bind]
        show tryThen _ (tryThen (tryThen (tryThen (act .element) (tryThen (serCallsRank act rank v') _)) _) _) = _
        rw [h, runCalls_cons, runCalls_cons]
        simp only [tryThen_assoc]
        rfl
    · rw [(next_axis hv he hdt h0 hm).1 ho]
      exact ⟨[.start d], ⟨_, by rw [callsOf]; rfl⟩, by rw [runCalls_single]; rfl⟩

theorem accept_callsOf : ∀ (ds : List Nat) (g : List Nat → Int) (cs : List SerCall)
    (st : List (Nat × List (Val Int))),
    accept (callsOf ds g ++ cs) st .value = accept cs st (.got (nest ds fun j => .leaf (g j))) := by
  intro ds
  induction ds with
  | nil => intro g cs st; simp [callsOf, accept, nest]
  | cons d ds ih =>
    intro g cs st
    have key : ∀ (l : List Nat) (cs : List SerCall) (xs : List (Val Int)),
        accept (l.flatMap (fun i => .element :: callsOf ds (fun j => g (i :: j)) ++ [.finish]) ++ cs)
          ((d, xs) :: st) .next =
        accept cs ((d, xs ++ l.map fun i => nest ds fun j => .leaf (g (i :: j))) :: st) .next := by
      intro l
      induction l with
      | nil => intro cs xs; simp
      | cons i l ihl =>
        intro cs xs
        rw [List.flatMap_cons, List.cons_append, List.cons_append, List.cons_append, accept,
          List.append_assoc, List.append_assoc, ih, List.singleton_append, accept, ihl]
        simp
    rw [callsOf, List.append_assoc, List.cons_append, accept, key, List.singleton_append, accept,
      if_pos (by simp), nest]
    simp

theorem leaves_callsOf : ∀ (ds : List Nat) (g : List Nat → Int),
    (callsOf ds g).filterMap (fun c => match c with | .leaf p => some p | _ => none) =
      (allIdx ds).map g := by
  intro ds
  induction ds with
  | nil => intro g; simp [callsOf, allIdx]
  | cons d ds ih =>
    intro g
    rw [callsOf, allIdx]
    simp only [List.filterMap_append, List.filterMap_cons, List.filterMap_nil, List.append_nil,
      List.filterMap_flatMap, List.map_flatMap, List.cons_append, ih, List.map_map]
    rfl

theorem runCalls_recorded (act : SerCall → M σ (Option ε)) : ∀ (cs pre : List SerCall) (s : σ),
    match runCalls (recorded act) cs (s, pre) with
    | .ok none t => t.2 = pre ++ cs
    | .ok (some e) t => ∃ a c b s', cs = a ++ c :: b ∧ t.2 = pre ++ a ++ [c] ∧ act c s' = .ok (some e) t.1
    | .panic t => ∃ a c b s', cs = a ++ c :: b ∧ t.2 = pre ++ a ++ [c] ∧ act c s' = .panic t.1
    | .ub => ∃ c ∈ cs, ∃ s', act c s' = .ub
    | .abort => ∃ c ∈ cs, ∃ s', act c s' = .abort := by
  intro cs
  induction cs with
  | nil => intro pre s; simp [runCalls, M.pure]
  | cons c cs ih =>
    intro pre s
    rw [runCalls]
    simp only [M.bind, recorded, M.up]
    cases hc : act c s with
    | ok r s1 =>
      cases r with
      | some e => exact ⟨[], c, cs, s, rfl, by simp, hc⟩
      | none =>
        have := ih (pre ++ [c]) s1
        simp only
        split at this
        · simpa using this
        · obtain ⟨a, c', b, s', rfl, h2, h3⟩ := this
          exact ⟨c :: a, c', b, s', rfl, by simpa using h2, h3⟩
        · obtain ⟨a, c', b, s', rfl, h2, h3⟩ := this
          exact ⟨c :: a, c', b, s', rfl, by simpa using h2, h3⟩
        · obtain ⟨c', hm, h⟩ := this
          exact ⟨c', by simp [hm], h⟩
        · obtain ⟨c', hm, h⟩ := this
          exact ⟨c', by simp [hm], h⟩
    | panic s1 => exact ⟨[], c, cs, s, rfl, by simp, hc⟩
    | ub => exact ⟨c, by simp, s, hc⟩
    | abort => exact ⟨c, by simp, s, hc⟩

end Model
