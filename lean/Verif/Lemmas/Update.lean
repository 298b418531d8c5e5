import Verif.Spec.Update
import Verif.Lemmas.OwnedZip
import Verif.Lemmas.Storage

/-! Changing the elements of a view in place (C79). -/

namespace Model
open Spec Expr Iter

variable {σ T α β γ : Type}

theorem updMem_eq {s : σ} {m : List T} {p : Nat} {x : T} (u : M (σ × T) Unit) (h : m[p]? = some x) :
    updMem (p : Int) u (s, m) = match u (s, x) with
      | .ok _ t => .ok () (t.1, m.set p t.2)
      | .panic t => .panic (t.1, m.set p t.2)
      | .ub => .ub
      | .abort => .abort := by
  simp only [updMem, Int.toNat_natCast, h, Int.natCast_nonneg, if_true]
  cases u (s, x) <;> rfl

theorem M.tame_up {ρ : Type} {x : M σ α} (h : x.Tame) : (M.up x : M (σ × ρ) α).Tame := fun s =>
  M.post_up (((h.post s.1).mono (fun _ _ _ => trivial) fun _ _ => trivial))

theorem up_tameClosures {ρ : Type} {e : Expr σ α} (h : TameClosures e) : TameClosures (e.up : Expr (σ × ρ) α) := by
  induction e with
  | fill f => exact M.tame_up h
  | fromElem s f => exact M.tame_up h
  | fromFn s i f => exact fun j => M.tame_up (h j)
  | map e f ih => exact ⟨ih h.1, fun x => M.tame_up (h.2 x)⟩
  | enumerate e k ih => exact ih h
  | zip a b s iha ihb => exact ⟨iha h.1, ihb h.2⟩
  | _ => trivial

/-- The loop, for an expression whose items are made of the address and an operand. -/
theorem update_loopE {v : View} {m : List T} (hv : Exclusive v m.length) {z : Expr σ γ} (hb : Built z)
    (he : BadFn z → 0 < row z) (hp : NoPhantomRows z) (hd : z.dims = v.dims) {op : Nat → M σ β} {mk : Int → β → γ}
    {body : γ → M (σ × List T) Unit} {u : β → M (σ × T) Unit}
    (hop : ∀ n, n < size v.dims → ∀ p, v.index (unrank v.dims n) = some p →
      rawNth z n = M.bind (op n) fun y => M.pure (mk p y))
    (hbody : ∀ p y, body (mk p y) = updMem p (u y))
    (ht : ∀ n, n < size v.dims → (op n).Tame) (hu : ∀ y, (u y).Tame) (s : σ) :
    ((z.up : Expr (σ × List T) γ).forEachE body (s, m)).Post
      (fun _ l t => AllMoved z l ∧ ∃ ys, Ran (updated v m op u) (size v.dims) s ys t.1 ∧ Written v m ys t.2)
      (fun l t => ∃ k, k < size z.dims ∧ ((SomeMoved z k l ∧ OperandStops v m op u s k t) ∨
        (Moved z (k + 1) l ∧ ChangeStops v m op u s k t))) := by
  refine (post_forEachE' hb he hp
    (fun n t => ∃ ys, Ran (updated v m op u) n s ys t.1 ∧ Written v m ys t.2)
    (OperandStops v m op u s) (ChangeStops v m op u s) ?_ (s := (s, m)) ⟨[], ran_zero, written_nil v m⟩).mono
    ?_ fun _ _ h => h
  · rintro n hn ⟨t, m'⟩ ⟨ys, hr, hw⟩
    rw [hd] at hn
    have hlen := hr.length
    obtain ⟨p, hpl, hpi⟩ := hv.2.1 _ (unrank_valid hn)
    subst hlen
    have hpm := hw.elem hv hn hpi
    rw [List.getElem?_eq_getElem hpl] at hpm
    have hel : elemAt v m ys.length = some m[p] := by
      unfold elemAt
      rw [hpi]
      exact List.getElem?_eq_getElem hpl
    rw [hop _ hn _ hpi]
    simp only [M.up_bind, M.up_pure]
    refine M.Post.bind (P := fun y w => op ys.length t = .ok y w.1 ∧ w.2 = m') (M.post_up
      (((ht _ hn).post t).mono (fun y t' h => ⟨h, rfl⟩) fun t' h => ⟨hn, ys, t, hr, h, hw⟩)) ?_
    rintro y ⟨t', m''⟩ ⟨hy, rfl⟩
    refine M.post_pure ?_
    rw [hbody]
    unfold M.Post
    rw [updMem_eq _ hpm]
    have hh := (hu y).post (t', m[p])
    unfold M.Post at hh
    cases hc : u y (t', m[p]) with
    | ok a w =>
      refine ⟨ys ++ [w.2], hr.succ ?_, hw.snoc hv hn hpi w.2⟩
      simp only [updated, M.bind, hy, hel, orUb, M.pure, newValue, hc]
    | panic w => exact ⟨hn, ys, t, y, t', m[p], w.2, hr, hy, hel, hc, hw.snoc hv hn hpi w.2⟩
    | ub => rw [hc] at hh; exact hh.elim
    | abort => rw [hc] at hh; exact hh.elim
  · rintro - l t ⟨h1, ys, h2, h3⟩
    rw [hd] at h2
    exact ⟨h1, ys, h2, h3⟩

/-! ### Values that are overwritten -/

theorem written_unique {v : View} {m m1 m2 ys : List T} (h1 : Written v m ys m1) (h2 : Written v m ys m2) :
    m1 = m2 := by
  apply List.ext_getElem?
  intro p
  by_cases h : ∀ j, Valid v.dims j → rowMajor v.dims j < ys.length → v.index j ≠ some (p : Int)
  · rw [h1.2.2 p h, h2.2.2 p h]
  · push Not at h
    obtain ⟨j, hj, hl, hi⟩ := h
    obtain ⟨p1, e1, g1⟩ := h1.2.1 j hj _ (List.getElem?_eq_getElem hl)
    obtain ⟨p2, e2, g2⟩ := h2.2.1 j hj _ (List.getElem?_eq_getElem hl)
    rw [hi] at e1 e2
    have q1 : p = p1 := by injection e1 with e1; omega
    have q2 : p = p2 := by injection e2 with e2; omega
    subst q1
    subst q2
    rw [g1, g2]

theorem perm_set {l : List T} {p : Nat} {x : T} (h : l[p]? = some x) (y : T) : (l.set p y ++ [x]).Perm (l ++ [y]) := by
  induction l generalizing p with
  | nil => simp at h
  | cons a l ih =>
    cases p with
    | zero =>
      simp only [List.getElem?_cons_zero, Option.some.injEq] at h
      subst h
      simp only [List.set_cons_zero, List.cons_append]
      exact (List.perm_append_singleton _ _).cons _ |>.trans ((List.Perm.swap _ _ _).trans
        ((List.perm_append_singleton _ _).symm.cons _))
    | succ p => exact (ih h).cons _

/-- Each value that was in the view is in the memory or among the values that have been overwritten. -/
theorem written_perm {v : View} {m : List T} (hv : Exclusive v m.length) : ∀ {ys : List T}, ys.length ≤ size v.dims →
    ∃ m' olds, Written v m ys m' ∧ (List.range ys.length).mapM (elemAt v m) = some olds ∧
      (m' ++ olds).Perm (m ++ ys) := by
  intro ys
  induction ys using List.reverseRecOn with
  | nil => exact fun _ => ⟨m, [], written_nil v m, rfl, List.Perm.refl _⟩
  | append_singleton ys y ih =>
    intro hl
    rw [List.length_append, List.length_singleton] at hl
    obtain ⟨m', olds, h1, h2, h3⟩ := ih (by omega)
    obtain ⟨p, hpl, hpi⟩ := hv.2.1 _ (unrank_valid (show ys.length < size v.dims by omega))
    have hpm := h1.elem hv (by omega) hpi
    rw [List.getElem?_eq_getElem hpl] at hpm
    have hel : elemAt v m ys.length = some m[p] := by
      unfold elemAt
      rw [hpi]
      exact List.getElem?_eq_getElem hpl
    refine ⟨m'.set p y, olds ++ [m[p]], h1.snoc hv (by omega) hpi y, ?_, ?_⟩
    · rw [List.length_append, List.length_singleton, List.range_succ, List.mapM_append, h2]
      simp [hel]
    · have e1 : (m'.set p y ++ (olds ++ [m[p]])).Perm ((m'.set p y ++ [m[p]]) ++ olds) := by
        rw [List.append_assoc]
        exact (List.perm_append_comm).append_left _
      have e2 : ((m' ++ [y]) ++ olds).Perm (m' ++ olds ++ [y]) := by
        rw [List.append_assoc, List.append_assoc]
        exact (List.perm_append_comm).append_left _
      rw [← List.append_assoc m]
      exact e1.trans (((perm_set hpm y).append_right _).trans (e2.trans (h3.append_right _)))

theorem mapM_range_succ {f : Nat → Option α} {k : Nat} {xs : List α} {x : α}
    (h : (List.range k).mapM f = some xs) (hx : f k = some x) : (List.range (k + 1)).mapM f = some (xs ++ [x]) := by
  rw [List.range_succ, List.mapM_append, h]
  simp [hx]

theorem overwritten_perm {v : View} {m : List T} (hv : Exclusive v m.length) {ys m' olds log : List T}
    (hl : ys.length ≤ size v.dims) (hw : Written v m ys m')
    (ho : (List.range ys.length).mapM (elemAt v m) = some olds) : (m' ++ (log ++ olds)).Perm (m ++ log ++ ys) := by
  obtain ⟨m1, olds1, h1, h2, h3⟩ := written_perm hv hl
  obtain rfl := written_unique hw h1
  rw [ho] at h2
  injection h2 with h2
  subst h2
  have e1 : (m' ++ (log ++ olds)).Perm (m' ++ olds ++ log) := by
    rw [List.append_assoc]
    exact (List.perm_append_comm).append_left _
  have e2 : (m ++ ys ++ log).Perm (m ++ log ++ ys) := by
    rw [List.append_assoc, List.append_assoc]
    exact (List.perm_append_comm).append_left _
  exact e1.trans ((h3.append_right _).trans e2)

theorem overwrite_ok {bad : T → Bool} {y x : T} {s : σ} {log : List T} (h : bad x = false) :
    overwrite bad y ((s, log), x) = .ok () ((s, log ++ [x]), y) := by simp [overwrite, h]

theorem overwrite_panic {bad : T → Bool} {y x : T} {s : σ} {log : List T} (h : bad x = true) :
    overwrite bad y ((s, log), x) = .panic ((s, log ++ [x]), y) := by simp [overwrite, h]

theorem ran_drops {bad : T → Bool} {v : View} {m : List T} {op : Nat → M σ α} {c : α → M σ T} {s : σ} {log : List T} :
    ∀ {k : Nat} {ys : List T} {t : σ × List T},
      Ran (updated v m (fun n => (M.up (op n) : M (σ × List T) α)) fun y => M.bind (M.up (M.up (c y))) (overwrite bad))
        k (s, log) ys t →
      Ran (fun n => M.bind (op n) c) k s ys t.1 ∧ ∃ olds, (List.range k).mapM (elemAt v m) = some olds ∧
        t.2 = log ++ olds ∧ ∀ x ∈ olds, bad x = false := by
  intro k
  induction k with
  | zero =>
    intro ys t h
    injection (h : Res.ok [] (s, log) = .ok ys t) with h1 h2
    subst h1 h2
    exact ⟨ran_zero, [], rfl, (List.append_nil _).symm, by simp⟩
  | succ k ih =>
    intro ys t h
    obtain ⟨zs, z, ⟨t1, log1⟩, rfl, h1, h2⟩ := ran_succ_iff.1 h
    obtain ⟨h3, olds, h4, h5, h6⟩ := ih h1
    simp only at h3 h5
    subst h5
    unfold updated M.bind at h2
    simp only [M.up] at h2
    cases hy : op k t1 with
    | ok y t2 =>
      rw [hy] at h2
      cases hx : elemAt v m k with
      | none => rw [hx] at h2; cases h2
      | some x =>
        rw [hx] at h2
        simp only [orUb, M.pure, newValue] at h2
        cases hc : c y t2 with
        | ok w t3 =>
          simp only [hc] at h2
          cases hbx : bad x with
          | true => simp only [overwrite_panic hbx] at h2; cases h2
          | false =>
            simp only [overwrite_ok hbx] at h2
            injection h2 with h7 h8
            subst h7 h8
            refine ⟨h3.succ ?_, olds ++ [x], mapM_range_succ h4 hx, by simp, ?_⟩
            · simp only [M.bind, hy, hc]
            · intro a ha
              rcases List.mem_append.1 ha with ha | ha
              · exact h6 a ha
              · rw [List.mem_singleton.1 ha, hbx]
        | panic t3 => simp only [hc] at h2; cases h2
        | ub => simp only [hc] at h2; cases h2
        | abort => simp only [hc] at h2; cases h2
    | panic t2 => rw [hy] at h2; cases h2
    | ub => rw [hy] at h2; cases h2
    | abort => rw [hy] at h2; cases h2

theorem written_same {v : View} {m : List T} (hv : Exclusive v m.length) {ys m' : List T} {x : T}
    (hl : ys.length < size v.dims) (hw : Written v m (ys ++ [x]) m') (hx : elemAt v m ys.length = some x) :
    Written v m ys m' := by
  obtain ⟨m1, -, h1, -⟩ := written_perm hv (ys := ys) hl.le
  obtain ⟨p, hpl, hpi⟩ := hv.2.1 _ (unrank_valid hl)
  have hpm := h1.elem hv hl hpi
  unfold elemAt at hx
  rw [hpi] at hx
  replace hx : m[p]? = some x := hx
  rw [hx] at hpm
  have h2 := h1.snoc hv hl hpi x
  have h3 : m1.set p x = m1 := by
    obtain ⟨h, rfl⟩ := List.getElem?_eq_some_iff.1 hpm
    exact List.set_getElem_self h
  rw [h3] at h2
  exact (written_unique hw h2) ▸ h1

theorem quiet_of {bad : T → Bool} {v : View} {m : List T} : ∀ {k : Nat} {olds : List T},
    (List.range k).mapM (elemAt v m) = some olds → (∀ x ∈ olds, bad x = false) → Quiet bad v m k := by
  intro k
  induction k with
  | zero => intro _ _ _ i hi; omega
  | succ k ih =>
    intro olds ho hb i hi x hx
    rw [List.range_succ, List.mapM_append] at ho
    cases h1 : (List.range k).mapM (elemAt v m) with
    | none => rw [h1] at ho; simp at ho
    | some xs =>
      rw [h1] at ho
      cases h2 : elemAt v m k with
      | none => simp [h2] at ho
      | some y =>
        simp only [List.mapM_cons, List.mapM_nil, h2, Option.pure_def, Option.bind_eq_bind, Option.bind_some] at ho
        injection ho with ho
        subst ho
        rcases Nat.lt_succ_iff_lt_or_eq.1 hi with hi | rfl
        · exact ih h1 (fun a ha => hb a (List.mem_append_left _ ha)) i hi x hx
        · rw [h2] at hx
          injection hx with hx
          subst hx
          exact hb _ (by simp)

theorem replaced_of {v : View} {m : List T} (hv : Exclusive v m.length) {ys m' olds log : List T}
    (hl : ys.length ≤ size v.dims) (hw : Written v m ys m')
    (ho : (List.range ys.length).mapM (elemAt v m) = some olds) : Replaced v m log ys m' (log ++ olds) :=
  ⟨hw, ⟨olds, ho, rfl⟩, overwritten_perm hv hl hw ho⟩

/-- An assignment that stops. -/
theorem stops_drops {bad : T → Bool} {v : View} {m : List T} (hv : Exclusive v m.length) {op : Nat → M σ α}
    {c : α → M σ T} {s : σ} {log : List T} {k : Nat} {t : (σ × List T) × List T}
    (h : OperandStops v m (fun n => (M.up (op n) : M (σ × List T) α))
        (fun y => M.bind (M.up (M.up (c y))) (overwrite bad)) (s, log) k t ∨
      ChangeStops v m (fun n => (M.up (op n) : M (σ × List T) α))
        (fun y => M.bind (M.up (M.up (c y))) (overwrite bad)) (s, log) k t) :
    OverwriteStops bad v m (fun n => M.bind (op n) c) s log k t := by
  obtain ⟨⟨t0, log0⟩, m'⟩ := t
  rcases h with ⟨hk, ys, ⟨t1, log1⟩, h1, h2, h3⟩ | ⟨hk, ys, ⟨t1, log1⟩, y, ⟨t2, log2⟩, x, x', h1, h2, h3, h4, h5⟩
  · obtain ⟨g1, olds, g2, g3, g4⟩ := ran_drops h1
    have hl := h1.length
    subst hl
    simp only at g1 g3 h2
    subst g3
    have e : op ys.length t1 = .panic t0 ∧ log ++ olds = log0 := by
      unfold M.up at h2
      cases hy : op ys.length t1 <;> simp only [hy] at h2 <;> cases h2
      exact ⟨rfl, rfl⟩
    obtain ⟨e1, rfl⟩ := e
    exact ⟨quiet_of g2 g4, ys, replaced_of hv hk.le h3 g2, .inl ⟨hk, t1, g1, by simp only [M.bind, e1]⟩⟩
  · obtain ⟨g1, olds, g2, g3, g4⟩ := ran_drops h1
    have hl := h1.length
    subst hl
    simp only at g1 g3 h2 h4
    subst g3
    have e : op ys.length t1 = .ok y t2 ∧ log ++ olds = log2 := by
      unfold M.up at h2
      cases hy : op ys.length t1 <;> simp only [hy] at h2 <;> cases h2
      exact ⟨rfl, rfl⟩
    obtain ⟨e1, rfl⟩ := e
    unfold M.bind M.up at h4
    simp only at h4
    cases hc : c y t2 with
    | ok w t3 =>
      simp only [hc] at h4
      cases hbx : bad x with
      | true =>
        simp only [overwrite_panic hbx] at h4
        injection h4 with h4
        simp only [Prod.mk.injEq] at h4
        obtain ⟨⟨rfl, rfl⟩, rfl⟩ := h4
        refine ⟨quiet_of g2 g4, ys ++ [w], ?_, .inr ⟨hk, g1.succ (by simp only [M.bind, e1, hc]), x, h3, hbx⟩⟩
        simp only [List.append_assoc]
        exact replaced_of hv (by rw [List.length_append, List.length_singleton]; exact hk) h5 (by
          rw [List.length_append, List.length_singleton]
          exact mapM_range_succ g2 h3)
      | false => simp only [overwrite_ok hbx] at h4; cases h4
    | panic t3 =>
      simp only [hc] at h4
      injection h4 with h4
      simp only [Prod.mk.injEq] at h4
      obtain ⟨⟨rfl, rfl⟩, rfl⟩ := h4
      exact ⟨quiet_of g2 g4, ys, replaced_of hv hk.le (written_same hv hk h5 h3) g2,
        .inl ⟨hk, t1, g1, by simp only [M.bind, e1, hc]⟩⟩
    | ub => simp only [hc] at h4; cases h4
    | abort => simp only [hc] at h4; cases h4

end Model
