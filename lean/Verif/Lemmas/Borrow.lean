import Verif.Spec.Borrow
import Verif.Props.Alias

/-! Lemmas about the results of view-producing methods: parts of the view, without common elements. -/

namespace Model.Borrow
open Spec Props

variable {α : Type}

/-- A shape that an array can have. -/
structure GoodShape (s : Shape) : Prop where
  wf : s.WF
  usize : Usize s.dims
  size : size s.dims ≤ usizeMax

/-- Views are reached from the array; everything else is inside of it. -/
def Fine (checks : Bool) (s : Shape) (a : Area) : Prop :=
  (∀ v, a = .view v → Reach checks (whole s) v) ∧
  ∀ idx p, a.pos idx = some p → 0 ≤ p ∧ p < size s.dims

def Inside (v : View) (a : Area) : Prop := ∀ idx p, a.pos idx = some p → ∃ j, v.index j = some p

def ApartA (a b : Area) : Prop := ∀ i j p, a.pos i = some p → b.pos j ≠ some p

theorem index_bounds {checks : Bool} {s : Shape} (hs : GoodShape s) {v : View} (hr : Reach checks (whole s) v)
    {idx : List Nat} {p : Int} (h : v.index idx = some p) : 0 ≤ p ∧ p < size s.dims := by
  have hc := C04 s hs.wf hs.usize hs.size checks v hr idx
  by_cases hv : Valid v.dims idx
  · obtain ⟨q, hq, e⟩ := hc.1 hv
    rw [e] at h
    cases h
    omega
  · rw [hc.2 hv] at h; cases h

theorem index_valid {checks : Bool} {s : Shape} (hs : GoodShape s) {v : View} (hr : Reach checks (whole s) v)
    {idx : List Nat} {p : Int} (h : v.index idx = some p) : Valid v.dims idx := by
  by_contra hv
  rw [(C04 s hs.wf hs.usize hs.size checks v hr idx).2 hv] at h
  cases h

theorem index_inj {checks : Bool} {s : Shape} (hs : GoodShape s) {v : View} (hr : Reach checks (whole s) v)
    {i j : List Nat} {p : Int} (h : v.index i = some p) (h' : v.index j = some p) : i = j :=
  C05 s hs.wf hs.usize hs.size checks v hr i j (index_valid hs hr h) (index_valid hs hr h') (h.trans h'.symm)

theorem inv_reach {checks : Bool} {s : Shape} (hs : GoodShape s) {v : View} (hr : Reach checks (whole s) v) :
    v.Inv := (View.good_reach (View.inv_whole hs.wf hs.usize hs.size) hr).inv (View.inv_whole hs.wf hs.usize hs.size)

theorem fine_view {checks : Bool} {s : Shape} (hs : GoodShape s) {v : View} (hr : Reach checks (whole s) v) :
    Fine checks s (.view v) := ⟨fun w e => by cases e; exact hr, fun _ _ h => index_bounds hs hr h⟩

theorem fine_inside {checks : Bool} {s : Shape} (hs : GoodShape s) {v : View} (hr : Reach checks (whole s) v)
    {a : Area} (ha : ∀ w, a ≠ .view w) (hi : Inside v a) : Fine checks s a :=
  ⟨fun w e => absurd e (ha w), fun idx p h => by
    obtain ⟨j, hj⟩ := hi idx p h
    exact index_bounds hs hr hj⟩

/-- The results of a method: parts of the view that have no element in common. -/
structure Parts (checks : Bool) (s : Shape) (v : View) (as : List Area) : Prop where
  fine : ∀ a ∈ as, Fine checks s a
  inside : ∀ a ∈ as, Inside v a
  apart : as.Pairwise ApartA

theorem parts_nil (checks : Bool) (s : Shape) (v : View) : Parts checks s v [] :=
  ⟨by simp, by simp, .nil⟩

theorem inside_call {checks : Bool} {s : Shape} (hs : GoodShape s) {v w : View} (hr : Reach checks (whole s) v)
    (hg : checks = true ∨ v.dims.length < 64) (hc : Call checks v w) : Inside v (.view w) := by
  intro idx p h
  obtain ⟨hwf, -, pb, hpb, -⟩ := View.good_call (inv_reach hs hr) hg hc
  have hv : Valid w.dims idx := index_valid hs (hr.call hg hc) h
  exact ⟨pb idx, (hpb idx hv).2 ▸ h⟩

theorem parts_call {checks : Bool} {s : Shape} (hs : GoodShape s) {v w : View} (hr : Reach checks (whole s) v)
    (hg : checks = true ∨ v.dims.length < 64) (hc : Call checks v w) : Parts checks s v [.view w] where
  fine := by
    simp only [List.mem_singleton, forall_eq]
    exact fine_view hs (hr.call hg hc)
  inside := by
    simp only [List.mem_singleton, forall_eq]
    exact inside_call hs hr hg hc
  apart := List.pairwise_singleton ..

theorem parts_split {checks : Bool} {s : Shape} (hs : GoodShape s) {v w₁ w₂ : View} (hr : Reach checks (whole s) v)
    (hg : checks = true ∨ v.dims.length < 64) {a : Axis} {mid : Nat} (h : v.splitAxisAt a mid = some (w₁, w₂)) :
    Parts checks s v [.view w₁, .view w₂] where
  fine := by
    simp only [List.mem_cons, List.not_mem_nil, or_false, forall_eq_or_imp, forall_eq]
    exact ⟨fine_view hs (hr.call hg (.splitAxisAtFst h)), fine_view hs (hr.call hg (.splitAxisAtSnd h))⟩
  inside := by
    simp only [List.mem_cons, List.not_mem_nil, or_false, forall_eq_or_imp, forall_eq]
    exact ⟨inside_call hs hr hg (.splitAxisAtFst h), inside_call hs hr hg (.splitAxisAtSnd h)⟩
  apart := by
    refine List.pairwise_pair.2 fun i j p hi hj => ?_
    exact C09_disjoint s hs.wf hs.usize hs.size checks v hr a mid w₁ w₂ h i j
      (index_valid hs (hr.call hg (.splitAxisAtFst h)) hi) (index_valid hs (hr.call hg (.splitAxisAtSnd h)) hj)
      (hi.trans hj.symm)

theorem runNext_nextItems {β : Type} (k : Nat) : ∀ (it : Iter Unit β) (res : List (Option β)) (it' : Iter Unit β),
    runNext k it () = .ok (res, it') () → nextItems k it = some (got res) := by
  induction k with
  | zero =>
    intro it res it' h
    cases h
    rfl
  | succ k ih =>
    intro it res it' h
    unfold runNext M.bind at h
    unfold nextItems
    generalize it.next () = r at h ⊢
    cases r with
    | ok p w =>
      simp only at h ⊢
      generalize hq : runNext k p.2 w = q at h
      cases q with
      | ok q w' =>
        cases h
        rw [ih p.2 q.1 q.2 hq]
        cases hp : p.1 <;> simp [got]
      | panic => cases h
      | ub => cases h
      | abort => cases h
    | panic => cases h
    | ub => cases h
    | abort => cases h

theorem parts_axes {checks : Bool} {s : Shape} (hs : GoodShape s) {v : View} (hr : Reach checks (whole s) v)
    (hg : checks = true ∨ v.dims.length < 64) {a : Axis} : ∀ {is : List Nat} {ws : List View}, is.Nodup →
    is.mapM (fun i => v.axisAt a i) = some ws →
    (∀ w ∈ ws, ∃ i ∈ is, v.axisAt a i = some w) ∧ Parts checks s v (ws.map .view) := by
  intro is
  induction is with
  | nil =>
    intro ws _ h
    cases h
    exact ⟨by simp, parts_nil ..⟩
  | cons i is ih =>
    intro ws hn h
    rw [List.mapM_cons] at h
    cases hw : v.axisAt a i with
    | none => rw [hw] at h; cases h
    | some w =>
      rw [hw] at h
      cases hws : is.mapM (fun i => v.axisAt a i) with
      | none => rw [hws] at h; cases h
      | some ws' =>
        rw [hws] at h
        cases h
        obtain ⟨hm, hp⟩ := ih (List.nodup_cons.1 hn).2 hws
        refine ⟨?_, ⟨?_, ?_, ?_⟩⟩
        · intro u hu
          rcases List.mem_cons.1 hu with rfl | hu
          · exact ⟨i, by simp, hw⟩
          · obtain ⟨i', hi', e⟩ := hm u hu
            exact ⟨i', by simp [hi'], e⟩
        · intro u hu
          rcases List.mem_cons.1 hu with rfl | hu
          · exact fine_view hs (hr.call hg (.axisAt hw))
          · exact hp.fine u hu
        · intro u hu
          rcases List.mem_cons.1 hu with rfl | hu
          · exact inside_call hs hr hg (.axisAt hw)
          · exact hp.inside u hu
        · refine List.pairwise_cons.2 ⟨?_, hp.apart⟩
          intro u hu j j' p hj hj'
          obtain ⟨u, hu', rfl⟩ := List.mem_map.1 hu
          obtain ⟨i', hi', e⟩ := hm u hu'
          obtain ⟨q, hq, hlt, hi, _, hd, _, hidx⟩ := View.axisAt_parts (inv_reach hs hr).wf hw
          obtain ⟨q', hq', _, _, _, hd', _, hidx'⟩ := View.axisAt_parts (inv_reach hs hr).wf e
          rw [hq] at hq'
          cases hq'
          have h1 : w.index j = some p := hj
          have h2 : u.index j' = some p := hj'
          have v1 := index_valid hs (hr.call hg (.axisAt hw)) h1
          have v2 := index_valid hs (hr.call hg (.axisAt e)) h2
          have l1 := v1.length
          have l2 := v2.length
          rw [hd, List.length_eraseIdx_of_lt hlt] at l1
          rw [hd', List.length_eraseIdx_of_lt hlt] at l2
          rw [hidx] at h1
          rw [hidx'] at h2
          have e2 := index_inj hs hr h1 h2
          have e3 := congrArg (fun l => l[q]?) e2
          rw [List.getElem?_insertIdx_self, List.getElem?_insertIdx_self, if_pos (by omega), if_pos (by omega)] at e3
          cases e3
          exact (List.nodup_cons.1 hn).1 hi'

theorem parts_run {checks : Bool} {s : Shape} (hs : GoodShape s) {v : View} (hr : Reach checks (whole s) v)
    (hg : checks = true ∨ v.dims.length < 64) {f : Fn} (hf : TypedFn f) {as : List Area}
    (h : f.run checks v = some as) : Parts checks s v as := by
  cases f <;> simp only [Fn.run, Option.bind_eq_bind, Option.pure_def, Option.bind_eq_some_iff,
    Option.some.injEq] at h
  case at_ i => obtain ⟨w, hw, rfl⟩ := h; exact parts_call hs hr hg (.at_ hw)
  case axisAt a i => obtain ⟨w, hw, rfl⟩ := h; exact parts_call hs hr hg (.axisAt hw)
  case splitAt mid => obtain ⟨p, hp, rfl⟩ := h; exact parts_split hs hr hg hp
  case splitAxisAt a mid => obtain ⟨p, hp, rfl⟩ := h; exact parts_split hs hr hg hp
  case view xs =>
    obtain ⟨_, hc, w, hw, rfl⟩ := h
    refine parts_call hs hr hg (.view ?_ hw)
    by_contra hn
    rw [check, if_neg hn] at hc
    cases hc
  case permute perm => obtain ⟨w, hw, rfl⟩ := h; exact parts_call hs hr hg (.permute hf hw)
  case reorder => obtain ⟨w, hw, rfl⟩ := h; exact parts_call hs hr hg (.reorder hw)
  case reshape ns => obtain ⟨w, hw, rfl⟩ := h; exact parts_call hs hr hg (.reshape hf.1 hf.2 hw)
  case flatten => obtain ⟨w, hw, rfl⟩ := h; exact parts_call hs hr hg (.flatten hw)
  case remap ty l => obtain ⟨w, hw, rfl⟩ := h; exact parts_call hs hr hg (.remap hw)
  case row i => obtain ⟨w, hw, rfl⟩ := h; exact parts_call hs hr hg (.row hw)
  case col i => obtain ⟨w, hw, rfl⟩ := h; exact parts_call hs hr hg (.col hw)
  case diag k => obtain ⟨w, hw, rfl⟩ := h; exact parts_call hs hr hg (.diag hw)
  case intoDyn => obtain ⟨w, hw, rfl⟩ := h; exact parts_call hs hr hg (.intoDyn hw)
  case same =>
    cases h
    refine ⟨?_, ?_, List.pairwise_singleton ..⟩
    · simp only [List.mem_singleton, forall_eq]; exact fine_view hs hr
    · simp only [List.mem_singleton, forall_eq]; exact fun idx p h => ⟨idx, h⟩
  case index idx =>
    obtain ⟨p, hp, rfl⟩ := h
    have hi : Inside v (.elem p) := by
      intro j q hq
      cases j with
      | nil => cases hq; exact ⟨idx, hp⟩
      | cons => cases hq
    refine ⟨?_, ?_, List.pairwise_singleton ..⟩
    · simp only [List.mem_singleton, forall_eq]
      exact fine_inside hs hr (fun w e => by cases e) hi
    · simp only [List.mem_singleton, forall_eq]; exact hi
  case axes a k =>
    obtain ⟨p, _, n, _, ws, hws, rfl⟩ := h
    exact (parts_axes hs hr hg List.nodup_range hws).2
  case lanes a k =>
    cases he : (Expr.lanesNew false v a : Option (Expr Unit View)) with
    | none => rw [he] at h; cases h
    | some e =>
      rw [he] at h
      simp only [Option.bind_eq_some_iff, Option.some.injEq] at h
      obtain ⟨_, hc, ws, hws, rfl⟩ := h
      have ho : e.outerRank = 0 := by
        by_contra hn
        rw [check, if_neg hn] at hc
        cases hc
      obtain ⟨res, it, h1, h2, h3, -⟩ := C55_lanes_partial s hs.wf hs.usize hs.size checks v hr false a he ho k ()
      rw [runNext_nextItems _ _ _ _ h1] at hws
      cases hws
      have hi : ∀ b ∈ (got res).map Area.lane, Inside v b := by
        intro b hb
        obtain ⟨u, hu, rfl⟩ := List.mem_map.1 hb
        exact fun idx p h => h3 u hu idx p h
      refine ⟨fun b hb => fine_inside hs hr (fun w e => ?_) (hi b hb), hi, ?_⟩
      · obtain ⟨u, hu, rfl⟩ := List.mem_map.1 hb
        cases e
      · exact List.pairwise_map.2 (h2.imp fun h i j p hp => h i j p hp)
  case iter k =>
    obtain ⟨_, hc, _, hc', ps, hps, rfl⟩ := h
    have h0 : 0 < size v.dims ∨ v.layout = .dense := by
      by_contra hn
      rw [check, if_neg (by rw [Mapping.len_eq]; exact hn)] at hc
      cases hc
    have hk : k ≤ size v.dims + 1 ∨ v.layout = .dense := by
      by_contra hn
      rw [check, if_neg (by rw [Mapping.len_eq]; exact hn)] at hc'
      cases hc'
    obtain ⟨res, it, h1, h2, -, h3⟩ := C55_elements_partial s hs.wf hs.usize hs.size checks v hr false h0 k hk ()
    rw [runNext_nextItems _ _ _ _ h1] at hps
    cases hps
    have hi : ∀ b ∈ (got res).map Area.elem, Inside v b := by
      intro b hb
      obtain ⟨x, hx, rfl⟩ := List.mem_map.1 hb
      intro idx p hp
      cases idx with
      | nil =>
        cases hp
        obtain ⟨_, _, _, j, _, hj⟩ := h3 x hx
        exact ⟨j, hj⟩
      | cons => cases hp
    refine ⟨fun b hb => fine_inside hs hr (fun w e => ?_) (hi b hb), hi, ?_⟩
    · obtain ⟨u, hu, rfl⟩ := List.mem_map.1 hb
      cases e
    · refine List.pairwise_map.2 (h2.imp fun {x y} hne i j p hp hq => ?_)
      cases i with
      | nil =>
        cases j with
        | nil => cases hp; cases hq; exact hne rfl
        | cons => cases hq
      | cons => cases hp

end Model.Borrow
