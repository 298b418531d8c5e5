import Verif.Lemmas.TensorOps
import Mathlib.Data.List.Perm.Basic

/-! Rules for `resize_with`. -/

namespace Spec
open Model
variable {σ α : Type}

theorem Ran.append {step : Nat → M σ α} {a b : Nat} {s t u : σ} {ys zs : List α}
    (h : Ran step a s ys t) (h' : Ran (fun n => step (a + n)) b t zs u) :
    Ran step (a + b) s (ys ++ zs) u := by
  unfold Ran at *
  rw [List.range_add, List.mapM_append, Iter.mapM_map']
  simp only [M.bind_eq, M.bind, h, h', M.pure_eq, M.pure]

theorem Ran.congr {step step' : Nat → M σ α} {n : Nat} {s t : σ} {ys : List α}
    (h : Ran step n s ys t) (he : ∀ k, k < n → step k = step' k) : Ran step' n s ys t := by
  unfold Ran at *
  rw [← h]
  congr 1
  have : ∀ l : List Nat, (∀ k ∈ l, step k = step' k) → l.mapM step' = l.mapM step := by
    intro l
    induction l with
    | nil => intro _; rfl
    | cons x l ih =>
      intro hl
      rw [List.mapM_cons, List.mapM_cons, ih (fun k hk => hl k (List.mem_cons_of_mem _ hk)),
        hl x List.mem_cons_self]
  exact congrFun (this _ fun k hk => he k (List.mem_range.1 hk)) s

theorem ran_pure {step : Nat → M σ α} {l : List α} {s : σ}
    (h : ∀ n (hn : n < l.length), step n = M.pure l[n]) : Ran step l.length s l s := by
  induction l using List.reverseRecOn with
  | nil => exact ran_zero
  | append_singleton l x ih =>
    rw [List.length_append]
    have h1 : Ran step l.length s l s := ih fun n hn => by
      rw [h n (by rw [List.length_append]; omega), List.getElem_append_left hn]
    refine h1.succ ?_
    rw [h l.length (by simp)]
    simp [M.pure]

theorem calls_nil {f : M σ α} {s : σ} : Calls f s [] s := ⟨0, ran_zero⟩

theorem Calls.append {f : M σ α} {s t u : σ} {ys zs : List α} (h : Calls f s ys t)
    (h' : Calls f t zs u) : Calls f s (ys ++ zs) u := by
  obtain ⟨a, ha⟩ := h
  obtain ⟨b, hb⟩ := h'
  exact ⟨a + b, ha.append hb⟩

end Spec

namespace Model
open Spec

variable {σ T α : Type}

/-- State of the copying loop: `r` are the remaining old elements, `w` the elements of the new vector. -/
def Copy (u : (σ × Own T) × Loc T) (r w : List T) : Prop :=
  (∃ pre rest, u.1.2.cells = pre ++ r.map some ++ rest ∧ pre.length = u.2.pos) ∧
    u.2.cnt = r.length ∧ w.map some <+: u.2.newCells ∧ u.2.newLen = w.length ∧
    u.1.2.len = 0

theorem post_moveOld {u : (σ × Own T) × Loc T} {a r w : List T} {n : Nat} {R}
    (h : Copy u (a ++ r) w) (hn : n = a.length) (hc : w.length + n ≤ u.2.newCells.length) :
    M.Post (moveOld n) u (fun _ u' => u'.1.1 = u.1.1 ∧ Copy u' r (w ++ a) ∧ Eff u.1.2 u'.1.2 [] ∧
      u'.2.newCells.length = u.2.newCells.length) R := by
  subst hn
  obtain ⟨⟨s, o⟩, l⟩ := u
  obtain ⟨⟨pre, rest, h1, h2⟩, h3, ⟨rest', h4⟩, h5, h6⟩ := h
  simp only at h1 h2 h3 h4 h5 h6 hc
  rw [List.map_append] at h1
  have e1 : (o.cells.drop l.pos).take a.length = a.map some := by
    rw [h1, ← h2, List.append_assoc, List.drop_left, List.append_assoc,
      show a.length = (a.map some).length by simp, List.take_left]
  have e2 : o.cells.take l.pos = pre := by rw [h1, ← h2, List.append_assoc, List.take_left]
  have e3 : o.cells.drop (l.pos + a.length) = r.map some ++ rest := by
    rw [h1, ← h2, show pre.length + a.length = (pre ++ a.map some).length by simp,
      ← List.append_assoc, List.append_assoc (pre ++ a.map some), List.drop_left]
  have e4 : l.newCells.take l.newLen = w.map some := by
    rw [← h4, h5, show w.length = (w.map some).length by simp, List.take_left]
  have hr' : a.length ≤ rest'.length := by
    rw [← h4, List.length_append, List.length_map] at hc; omega
  have e5 : l.newCells.drop (l.newLen + a.length) = rest'.drop a.length := by
    rw [← h4, h5, ← List.drop_drop, show w.length = (w.map some).length by simp, List.drop_left]
  refine M.post_of_eq (a := ()) (t := ((s, { o with
      cells := pre ++ List.replicate a.length none ++ (r.map some ++ rest) }),
      ⟨l.pos + a.length, l.cnt - a.length, w.map some ++ a.map some ++ rest'.drop a.length,
        l.newLen + a.length⟩)) ?_ ?_
  · simp only [moveOld, e1, e2, e3, e4, e5]
    rw [if_pos]
    refine ⟨?_, ?_, by simp, by simp⟩
    · rw [h3, List.length_append]; omega
    · rw [h5]; exact hc
  · refine ⟨rfl, ⟨⟨pre ++ List.replicate a.length none, rest, ?_, ?_⟩, ?_, ?_, ?_, h6⟩,
      ⟨by simp, rfl, rfl⟩, ?_⟩
    · simp
    · simp [h2]
    · simp only [h3, List.length_append]; omega
    · rw [List.map_append]; exact List.prefix_append _ _
    · simp only [h5, List.length_append]
    · simp only [← h4, List.length_append, List.length_drop, List.length_map]; omega

theorem post_dropOld {u : (σ × Own T) × Loc T} {a r w : List T} {n : Nat} {R}
    (h : Copy u (a ++ r) w) (hn : n = a.length) :
    M.Post (dropOld n) u (fun _ u' => u'.1.1 = u.1.1 ∧ Copy u' r w ∧ Eff u.1.2 u'.1.2 a ∧
      u'.2.newCells.length = u.2.newCells.length) R := by
  subst hn
  obtain ⟨⟨s, o⟩, l⟩ := u
  obtain ⟨⟨pre, rest, h1, h2⟩, h3, h4, h5⟩ := h
  simp only at h1 h2 h3 h4 h5
  have e := dropCells_eq (o := o) (pre := pre) (ys := a) (xs := r.map some ++ rest) (n := a.length) s
    (by rw [h1]; simp) rfl
  refine M.post_of_eq (a := ()) (t := ((s, { o with
      cells := pre ++ List.replicate a.length none ++ (r.map some ++ rest)
      log := o.log ++ a }), { l with pos := l.pos + a.length, cnt := l.cnt - a.length })) ?_ ?_
  · unfold dropOld
    rw [if_pos (by rw [h3, List.length_append]; omega)]
    simp only [M.up, ← h2]
    rw [e]
  · refine ⟨rfl, ⟨⟨pre ++ List.replicate a.length none, rest, ?_, ?_⟩, ?_, h4, h5⟩,
      ⟨rfl, rfl, rfl⟩, rfl⟩
    · simp
    · simp [h2]
    · simp only [h3, List.length_append]; omega

theorem post_pushLoop {f : M σ T} (hf : f.Tame) {s : σ} {u : (σ × Own T) × Loc T} {r w : List T}
    (n : Nat) (hs : u.1.1 = s) (h : Copy u r w) (hc : w.length + n ≤ u.2.newCells.length) :
    M.Post (repeatM n (pushNew f)) u
      (fun _ u' => ∃ ys, Ran (fun _ => f) n s ys u'.1.1 ∧ Copy u' r (w ++ ys) ∧ u'.1.2 = u.1.2 ∧
        u'.2.newCells.length = u.2.newCells.length)
      (fun u' => ∃ k ys, Stopped (fun _ => f) n s k ys u'.1.1 ∧ Copy u' r (w ++ ys) ∧
        u'.1.2 = u.1.2) := by
  rw [repeatM_eq]
  have := M.post_foldlM (σ := (σ × Own T) × Loc T) (τ := Unit) (f := fun _ _ => pushNew f)
    (R := fun u' => ∃ k ys, Stopped (fun _ => f) n s k ys u'.1.1 ∧ Copy u' r (w ++ ys) ∧
        u'.1.2 = u.1.2)
    (I := fun m _ u' => ∃ ys, Ran (fun _ => f) m s ys u'.1.1 ∧ Copy u' r (w ++ ys) ∧ u'.1.2 = u.1.2 ∧
        u'.2.newCells.length = u.2.newCells.length)
    (List.range n)
    (by
      rintro m hm - ⟨⟨t, o⟩, l⟩ ⟨ys, a1, a2, a3, a4⟩
      rw [List.length_range] at hm
      have hl := a1.length
      simp only at a1 a3 a4
      refine M.Post.bind (P := fun x v => f t = .ok x v.1.1 ∧ v.1.2 = o ∧ v.2 = l) (M.post_up
        (M.post_up ((hf.post t).mono (fun x t' h => ⟨h, rfl, rfl⟩) ?_))) ?_
      · intro t' ht'
        exact ⟨m, ys, ⟨hm, t, a1, ht'⟩, a2, a3⟩
      · rintro x ⟨⟨t', o'⟩, l'⟩ ⟨hx, rfl, rfl⟩
        obtain ⟨b1, b2, ⟨rest, b3⟩, b4, b5⟩ := a2
        simp only at b1 b2 b3 b4
        replace a4 : l'.newCells.length = u.2.newCells.length := a4
        cases rest with
        | nil =>
          exfalso
          rw [List.append_nil] at b3
          have := congrArg List.length b3
          rw [List.length_map, List.length_append] at this
          omega
        | cons c rest =>
          have hlt : l'.newLen < l'.newCells.length := by
            rw [b4, ← b3]; simp
          refine M.post_of_eq (x := fun s : (σ × Own T) × Loc T => _) (a := ()) (if_pos hlt) ?_
          refine ⟨ys ++ [x], a1.succ hx, ⟨b1, b2, ?_, ?_, b5⟩, a3, ?_⟩
          · refine ⟨rest, ?_⟩
            simp only [← b3, b4]
            rw [show (w ++ ys).length = ((w ++ ys).map some).length by simp]
            simp
          · simp only [b4, List.length_append, List.length_singleton]; omega
          · simp only [List.length_set]; exact a4)
    (acc := ()) (s := u) ⟨[], by rw [hs]; exact ran_zero, by simpa using h, rfl, rfl⟩
  rwa [List.length_range] at this

theorem resizeStep_row {f : M σ T} {od nd : Nat} {ods nds : List Nat} {a : List T} {i n : Nat}
    (hi : i < od) (hn : n < size nds) :
    resizeStep f (od :: ods) (nd :: nds) a (i * size nds + n) =
      resizeStep f ods nds ((a.drop (i * size ods)).take (size ods)) n := by
  have hpos : 0 < size nds := by omega
  unfold resizeStep
  have hu : unrank (nd :: nds) (i * size nds + n) = i :: unrank nds n := by
    rw [unrank, Nat.mul_comm i, Nat.mul_add_div hpos, Nat.div_eq_of_lt hn, Nat.add_zero,
      Nat.mul_add_mod, Nat.mod_eq_of_lt hn]
  rw [hu]
  by_cases hv : Valid ods (unrank nds n)
  · rw [if_pos (valid_cons.2 ⟨hi, hv⟩), if_pos hv, rowMajor,
      List.getElem?_take_of_lt (rowMajor_lt hv), List.getElem?_drop]
  · rw [if_neg (fun h => hv (valid_cons.1 h).2), if_neg hv]

theorem resizeStep_new {f : M σ T} {od nd : Nat} {ods nds : List Nat} {a : List T} {n : Nat}
    (hn : od * size nds ≤ n) (hpos : 0 < size nds) :
    resizeStep f (od :: ods) (nd :: nds) a n = f := by
  unfold resizeStep
  rw [if_neg]
  rw [unrank, valid_cons]
  intro h
  have := (Nat.le_div_iff_mul_le hpos).2 hn
  omega

/-- State after processing a part of the positions. -/
structure Part (f : M σ T) (step : Nat → M σ T) (n : Nat) (u u' : (σ × Own T) × Loc T)
    (done rest w : List T) where
  mk ::
  out : ∃ ys zs dr, Ran step n u.1.1 ys u'.1.1 ∧ Calls f u.1.1 zs u'.1.1 ∧ Copy u' rest (w ++ ys) ∧
    Eff u.1.2 u'.1.2 dr ∧ (dr ++ ys).Perm (done ++ zs) ∧
    u'.2.newCells.length = u.2.newCells.length

/-- State after a panic of the closure. -/
def Broke (f : M σ T) (u u' : (σ × Own T) × Loc T) (all : List T) : Prop :=
  ∃ r w zs dr t, Calls f u.1.1 zs t ∧ f t = .panic u'.1.1 ∧ Copy u' r w ∧ Eff u.1.2 u'.1.2 dr ∧
    (dr ++ w ++ r).Perm (all ++ zs)

theorem prod_eq (l : List Nat) : l.foldl (· * ·) 1 = size l := by
  have := Shape.len_eq ⟨.dynRank, l⟩
  exact this

theorem perm_mid {dr ys dr' ys' a zs a' zs' : List T} (h : (dr ++ ys).Perm (a ++ zs))
    (h' : (dr' ++ ys').Perm (a' ++ zs')) :
    (dr ++ dr' ++ (ys ++ ys')).Perm (a ++ a' ++ (zs ++ zs')) := by
  classical
  rw [List.perm_iff_count] at *
  intro x
  have h1 := h x
  have h2 := h' x
  simp only [List.count_append] at *
  omega

theorem perm_broke {dr ys dr' w' r' a zs a1 a2 zs' w r : List T} (h : (dr ++ ys).Perm (a ++ zs))
    (h' : (dr' ++ w' ++ r').Perm (w ++ ys ++ a1 ++ (a2 ++ r) ++ zs')) :
    (dr ++ dr' ++ w' ++ r').Perm (w ++ (a ++ (a1 ++ a2)) ++ r ++ (zs ++ zs')) := by
  classical
  rw [List.perm_iff_count] at *
  intro x
  have h1 := h x
  have h2 := h' x
  simp only [List.count_append] at *
  omega

theorem perm_push {dr ys a zs w r ys' : List T} (h : (dr ++ ys).Perm (a ++ zs)) :
    (dr ++ (w ++ ys ++ ys') ++ r).Perm (w ++ a ++ r ++ (zs ++ ys')) := by
  classical
  rw [List.perm_iff_count] at *
  intro x
  have h1 := h x
  simp only [List.count_append] at *
  omega

theorem post_copyDim {f : M σ T} (hf : f.Tame) :
    ∀ (ods nds : List Nat) (u : (σ × Own T) × Loc T) (a r w : List T), ods.length = nds.length →
      ods ≠ [] → Copy u (a ++ r) w → a.length = size ods →
      w.length + size nds ≤ u.2.newCells.length →
      M.Post (copyDim f ods nds) u
        (fun _ u' => Part f (resizeStep f ods nds a) (size nds) u u' a r w)
        (fun u' => Broke f u u' (w ++ a ++ r)) := by
  intro ods
  induction ods with
  | nil => intro nds u a r w _ h; exact absurd rfl h
  | cons od ods ih =>
    intro nds u a r w hlen _ hcopy ha hcap
    cases nds with
    | nil => simp at hlen
    | cons nd nds =>
    rw [size_cons] at ha hcap
    simp only [List.length_cons, Nat.add_right_cancel_iff] at hlen
    have hm1 : min od nd ≤ od := Nat.min_le_left _ _
    have hm2 : min od nd ≤ nd := Nat.min_le_right _ _
    rw [copyDim]
    -- the common part
    have first : M.Post (if 0 < ods.length then repeatM (min od nd) (copyDim f ods nds)
          else moveOld (min od nd)) u
        (fun _ u' => Part f (resizeStep f (od :: ods) (nd :: nds) a) (min od nd * size nds) u u'
          (a.take (min od nd * size ods)) (a.drop (min od nd * size ods) ++ r) w)
        (fun u' => Broke f u u' (w ++ a ++ r)) := by
      by_cases ho : 0 < ods.length
      · rw [if_pos ho, repeatM_eq]
        have := M.post_foldlM (σ := (σ × Own T) × Loc T) (τ := Unit)
          (f := fun _ _ => copyDim f ods nds) (R := fun u' => Broke f u u' (w ++ a ++ r))
          (I := fun i _ u' => Part f (resizeStep f (od :: ods) (nd :: nds) a) (i * size nds) u u'
            (a.take (i * size ods)) (a.drop (i * size ods) ++ r) w)
          (List.range (min od nd))
          (by
            rintro i hi - u1 ⟨ys, zs, dr, b1, b2, b3, b4, b5, b6⟩
            rw [List.length_range] at hi
            have hio : (i + 1) * size ods ≤ od * size ods := Nat.mul_le_mul_right _ (by omega)
            have hin : (i + 1) * size nds ≤ nd * size nds := Nat.mul_le_mul_right _ (by omega)
            rw [Nat.add_mul, Nat.one_mul] at hio hin
            have hyl := b1.length
            have hsp : a.drop (i * size ods) = (a.drop (i * size ods)).take (size ods) ++
                a.drop ((i + 1) * size ods) := by
              rw [Nat.add_mul, Nat.one_mul, ← List.drop_drop, List.take_append_drop]
            have htk : a.take ((i + 1) * size ods) = a.take (i * size ods) ++
                (a.drop (i * size ods)).take (size ods) := by
              rw [Nat.add_mul, Nat.one_mul, List.take_add]
            rw [hsp, List.append_assoc] at b3
            refine M.Post.mono (ih nds u1 _ _ _ hlen (by intro h; simp [h] at ho) b3
              (by rw [List.length_take, List.length_drop]; omega)
              (by rw [List.length_append, hyl, b6]; omega)) ?_ ?_
            · rintro - u2 ⟨ys', zs', dr', c1, c2, c3, c4, c5, c6⟩
              refine ⟨ys ++ ys', zs ++ zs', dr ++ dr', ?_, b2.append c2, ?_, b4.trans c4, ?_,
                c6.trans b6⟩
              · rw [Nat.add_mul, Nat.one_mul]
                refine b1.append (c1.congr ?_)
                intro k hk
                rw [resizeStep_row (by omega) hk]
              · rw [← List.append_assoc]; exact c3
              · rw [htk]
                exact perm_mid b5 c5
            · rintro u2 ⟨r', w', zs', dr', t, c1, c2, c3, c4, c5⟩
              refine ⟨r', w', zs ++ zs', dr ++ dr', t, b2.append c1, c2, c3, b4.trans c4, ?_⟩
              have e : a = a.take (i * size ods) ++ ((a.drop (i * size ods)).take (size ods) ++
                a.drop ((i + 1) * size ods)) := by rw [← hsp, List.take_append_drop]
              rw [e]
              exact perm_broke b5 c5)
          (acc := ()) (s := u) ⟨[], [], [], by rw [Nat.zero_mul]; exact ran_zero, calls_nil,
            by simpa using hcopy, Eff.refl _, by simp, rfl⟩
        rwa [List.length_range] at this
      · rw [if_neg ho]
        have h1 : ods = [] := List.eq_nil_of_length_eq_zero (by omega)
        have h2 : nds = [] := List.eq_nil_of_length_eq_zero (by omega)
        subst h1 h2
        rw [size_nil, Nat.mul_one] at ha hcap
        rw [size_nil, Nat.mul_one]
        have hl : (a.take (min od nd)).length = min od nd := by rw [List.length_take]; omega
        refine M.Post.mono (post_moveOld (a := a.take (min od nd)) (r := a.drop (min od nd) ++ r) (w := w)
          (by rw [← List.append_assoc, List.take_append_drop]; exact hcopy) hl.symm (by omega)) ?_
          (fun _ h => h)
        rintro - u1 ⟨c1, c2, c3, c4⟩
        refine ⟨a.take (min od nd), [], [], ?_, by rw [c1]; exact calls_nil, c2, c3, by simp, c4⟩
        rw [c1]
        have : Ran (resizeStep f [od] [nd] a) (a.take (min od nd)).length u.1.1 (a.take (min od nd))
            u.1.1 := by
          refine ran_pure fun n hn => ?_
          rw [hl] at hn
          have h0 := resizeStep_row (f := f) (od := od) (nd := nd) (ods := []) (nds := []) (a := a)
            (i := n) (n := 0) (by omega) (by simp [size_nil])
          rw [size_nil, Nat.mul_one, Nat.add_zero] at h0
          rw [h0]
          have hna : n < a.length := by omega
          have hv : Valid [] (unrank [] 0) := by simp [Valid, unrank]
          unfold resizeStep
          rw [if_pos hv]
          simp [rowMajor, orUb, hna]
        rwa [hl] at this
    refine M.Post.bind first ?_
    rintro - u1 ⟨ys, zs, dr, b1, b2, b3, b4, b5, b6⟩
    -- drop
    have second : M.Post (if min od nd < od then dropOld ((od - min od nd) * ods.foldl (· * ·) 1)
          else M.pure ()) u1
        (fun _ u' => Part f (resizeStep f (od :: ods) (nd :: nds) a) (min od nd * size nds) u u'
          a r w)
        (fun u' => Broke f u u' (w ++ a ++ r)) := by
      have hperm : (dr ++ a.drop (min od nd * size ods) ++ ys).Perm (a ++ zs) := by
        have h1 : (dr ++ a.drop (min od nd * size ods) ++ ys).Perm
            (dr ++ ys ++ a.drop (min od nd * size ods)) := by
          rw [List.append_assoc, List.append_assoc]
          exact List.Perm.append_left _ List.perm_append_comm
        refine h1.trans ((b5.append_right _).trans ?_)
        rw [List.append_assoc]
        refine (List.Perm.append_left _ List.perm_append_comm).trans ?_
        rw [← List.append_assoc, List.take_append_drop]
      by_cases hd : min od nd < od
      · rw [if_pos hd, prod_eq]
        refine M.Post.mono (post_dropOld b3 ?_) ?_ (fun _ h => h)
        · rw [List.length_drop, ha, Nat.sub_mul]
        · rintro - u2 ⟨c1, c2, c3, c4⟩
          exact ⟨ys, zs, dr ++ a.drop (min od nd * size ods), by rw [c1]; exact b1, by rw [c1]; exact b2,
            c2, b4.trans c3, hperm, c4.trans b6⟩
      · rw [if_neg hd]
        have hnil : a.drop (min od nd * size ods) = [] := by
          apply List.drop_of_length_le
          rw [ha, show min od nd = od by omega]
        rw [hnil, List.append_nil] at hperm
        rw [hnil] at b3
        exact ⟨ys, zs, dr, b1, b2, by simpa using b3, b4, hperm, b6⟩
    refine M.Post.bind second ?_
    rintro - u2 ⟨ys, zs, dr, b1, b2, b3, b4, b5, b6⟩
    have hsplit : min od nd * size nds + (nd - min od nd) * size nds = nd * size nds := by
      rw [← Nat.add_mul]; congr 1; omega
    have hyl := b1.length
    rw [prod_eq]
    refine M.Post.mono (post_pushLoop hf ((nd - min od nd) * size nds) rfl b3 (by
      rw [List.length_append, hyl, b6]; omega)) ?_ ?_
    · rintro - u3 ⟨ys', c1, c2, c3, c4⟩
      refine ⟨ys ++ ys', zs ++ ys', dr, ?_, b2.append ⟨_, c1⟩, ?_, ?_, ?_, c4.trans b6⟩
      · rw [size_cons, ← hsplit]
        refine b1.append (c1.congr ?_)
        intro k hk
        have hpos : 0 < size nds := by
          rcases Nat.eq_zero_or_pos (size nds) with h0 | h0
          · rw [h0, Nat.mul_zero] at hk; omega
          · exact h0
        have hnd : od < nd := by
          by_contra hge
          rw [show nd - min od nd = 0 by omega, Nat.zero_mul] at hk
          omega
        rw [resizeStep_new _ hpos]
        rw [Nat.min_eq_left hnd.le]; omega
      · rw [← List.append_assoc]; exact c2
      · rw [c3]; exact b4
      · rw [← List.append_assoc, ← List.append_assoc]
        exact b5.append_right _
    · rintro u3 ⟨k, ys', ⟨hk, t, ht, hp⟩, c2, c3⟩
      refine ⟨r, w ++ ys ++ ys', zs ++ ys', dr, t, b2.append ⟨_, ht⟩, hp, c2, by rw [c3]; exact b4, ?_⟩
      exact perm_push b5

/-- Outcome of resizing the vector. -/
def Resized (f : M σ T) (oldDims newDims : List Nat) (xs : List T) (s : σ) (o : Own T) (t : σ × Own T) :
    Prop :=
  ∃ ys zs dr, Ran (resizeStep f oldDims newDims xs) (size newDims) s ys t.1 ∧ Calls f s zs t.1 ∧
    Vec t.2 ys ∧ Eff o t.2 dr ∧ (dr ++ ys).Perm (xs ++ zs)

/-- Outcome of a panic in the closure. -/
def Halted (f : M σ T) (n : Nat) (xs : List T) (s : σ) (o : Own T) (t : σ × Own T) : Prop :=
  (∃ ys zs dr, CallsEnd f s zs t.1 ∧ Vec t.2 ys ∧ Eff o t.2 dr ∧ (dr ++ ys).Perm (xs ++ zs) ∧
    (ys.length = size o.shape.dims → ys = xs)) ∧ (o.limit < n ∨ ∃ u v, f u = .panic v)

theorem copy_drop {u : (σ × Own T) × Loc T} {r w : List T} {R} (h : Copy u r w) :
    M.Post dropOldGuard u (fun _ u' => u'.1.1 = u.1.1 ∧ u'.2 = u.2 ∧ Eff u.1.2 u'.1.2 r ∧
      u'.1.2.len = u.1.2.len) R := by
  obtain ⟨⟨s, o⟩, l⟩ := u
  obtain ⟨⟨pre, rest, h1, h2⟩, h3, h4, h5⟩ := h
  simp only at h1 h2 h3 h4 h5
  have e := dropCells_eq (o := o) (pre := pre) (ys := r) (xs := rest) (n := l.cnt) s h1 h3
  refine M.post_of_eq (a := ()) (t := ((s, { o with
      cells := pre ++ List.replicate r.length none ++ rest
      log := o.log ++ r }), l)) ?_ ⟨rfl, rfl, ⟨rfl, rfl, rfl⟩, rfl⟩
  unfold dropOldGuard
  simp only [M.up, ← h2]
  rw [e]

theorem post_dropNewVec {u : (σ × Own T) × Loc T} {w : List T} {R} (h : w.map some <+: u.2.newCells)
    (hl : u.2.newLen = w.length) :
    M.Post dropNewVec u (fun _ u' => u'.1.1 = u.1.1 ∧ Eff u.1.2 u'.1.2 w ∧
      u'.1.2.len = u.1.2.len) R := by
  obtain ⟨⟨s, o⟩, l⟩ := u
  simp only at h hl
  have e : l.newCells.take l.newLen = w.map some := by
    obtain ⟨rest, h⟩ := h
    rw [← h, hl, show w.length = (w.map some).length by simp, List.take_left]
  refine M.post_of_eq (a := ()) (t := ((s, { o with log := o.log ++ w }), l)) ?_ ⟨rfl, ⟨rfl, rfl, rfl⟩, rfl⟩
  simp only [dropNewVec, e]
  rw [if_pos]
  · simp
  · simp [hl]

theorem post_resizeCopy {f : M σ T} (hf : f.Tame) {newDims : List Nat} {s : σ} {o : Own T} {xs : List T}
    (h : Vec o xs) (hl : xs.length = size o.shape.dims) (hr : newDims.length = o.shape.dims.length)
    (hne : newDims ≠ []) :
    M.Post (resizeCopy newDims (size newDims) f) (s, o)
      (fun _ t => Resized f o.shape.dims newDims xs s o t) (fun t => Halted f (size newDims) xs s o t) := by
  show M.Post (M.bind (M.lift (check (size newDims ≤ o.limit))) _) (s, o) _ _
  refine M.Post.bind (P := fun _ t => t = (s, o)) (M.post_lift (fun _ _ => rfl) fun hn => ?_) ?_
  · refine ⟨⟨xs, [], [], .inl calls_nil, h, Eff.refl _, by simp, fun _ => rfl⟩, .inl ?_⟩
    by_contra hle
    rw [show check (size newDims ≤ o.limit) = some () from if_pos (by omega)] at hn
    cases hn
  rintro - t rfl
  refine M.Post.bind (P := fun _ t => t = (s, { o with len := 0 })) (M.post_of_eq rfl rfl) ?_
  rintro - t rfl
  refine M.Post.bind (P := fun (a : Unit × Loc T) t => ∃ ys zs dr,
      Ran (resizeStep f o.shape.dims newDims xs) (size newDims) s ys t.1 ∧ Calls f s zs t.1 ∧
      ys.map some <+: a.2.newCells ∧ a.2.newLen = ys.length ∧ Eff o t.2 dr ∧
      (dr ++ ys).Perm (xs ++ zs)) (M.post_scope ?_) ?_
  · have hcopy : Copy ((s, { o with len := 0 }), (⟨0, o.len, List.replicate (size newDims) none, 0⟩ :
        Loc T)) (xs ++ []) [] := by
      obtain ⟨h1, rest, h2⟩ := h
      refine ⟨⟨[], rest, ?_, rfl⟩, ?_, by simp, rfl, rfl⟩
      · simp [h2]
      · simp [h1]
    refine M.Post.bind (P := fun _ u' => Part f (resizeStep f o.shape.dims newDims xs) (size newDims)
      ((s, { o with len := 0 }), (⟨0, o.len, List.replicate (size newDims) none, 0⟩ : Loc T))
      u' xs [] []) (M.post_onPanic (M.Post.mono (post_copyDim hf o.shape.dims newDims _ xs [] [] hr.symm
        (by intro h0; rw [h0] at hr; exact hne (List.eq_nil_of_length_eq_zero hr)) hcopy hl
        (by simp)) (fun _ _ h => h) ?_)) ?_
    · rintro u ⟨r, w, zs, dr, t, c1, c2, c3, c4, c5⟩
      -- closure panic
      have hlen : u.1.2.len = 0 := c3.2.2.2.2
      refine M.Post.bind (copy_drop c3) ?_
      rintro - u2 ⟨d1, d2, d3, d4⟩
      refine M.Post.mono (post_dropNewVec (w := w) (by rw [d2]; exact c3.2.2.1)
        (by rw [d2]; exact c3.2.2.2.1)) ?_ (fun _ h => h)
      rintro - u3 ⟨e1, e2, e3⟩
      refine ⟨⟨[], zs, _, .inr ⟨t, c1, ?_⟩, ⟨?_, by simp⟩,
        ⟨((Eff.trans c4 d3).trans e2).1, ((Eff.trans c4 d3).trans e2).2, ((Eff.trans c4 d3).trans e2).3⟩,
        ?_, ?_⟩, .inr ⟨_, _, c2⟩⟩
      · rw [e1, d1]; exact c2
      · rw [e3, d4, hlen]; rfl
      · simp only [List.nil_append, List.append_nil] at c5 ⊢
        refine List.Perm.trans ?_ c5
        rw [List.append_assoc, List.append_assoc]
        exact List.Perm.append_left _ List.perm_append_comm
      · intro h0
        rw [← hl] at h0
        exact (List.eq_nil_of_length_eq_zero h0.symm).symm
    · rintro - u ⟨ys, zs, dr, c1, c2, c3, c4, c5, c6⟩
      refine M.Post.mono (copy_drop c3) ?_ (fun _ h => h)
      rintro - u2 ⟨d1, d2, d3, d4⟩
      refine ⟨ys, zs, dr, by rw [d1]; exact c1, by rw [d1]; exact c2, ?_, ?_, ?_, c5⟩
      · rw [d2]; exact c3.2.2.1
      · rw [d2]; exact c3.2.2.2.1
      · have := Eff.trans c4 d3
        rw [List.append_nil] at this
        exact ⟨this.1, this.2, this.3⟩
  · rintro a ⟨t, o'⟩ ⟨ys, zs, dr, c1, c2, c3, c4, c5, c6⟩
    refine M.post_of_eq (a := ()) rfl ⟨ys, zs, dr, c1, c2, ⟨c4, c3⟩, ⟨c5.1, c5.2, c5.3⟩, c6⟩

theorem resizeStep_same {f : M σ T} {od nd : Nat} {ds : List Nat} {xs : List T} {n : Nat}
    (hl : xs.length = od * size ds) (hn : n < xs.length) :
    resizeStep f (od :: ds) (nd :: ds) xs n = M.pure xs[n] := by
  have hu : unrank (nd :: ds) n = unrank (od :: ds) n := rfl
  have hn' : n < size (od :: ds) := by rw [size_cons]; omega
  unfold resizeStep
  rw [hu, if_pos (unrank_valid hn'), rowMajor_unrank hn', List.getElem?_eq_getElem hn]
  rfl

theorem post_resizeVec {f : M σ T} (hf : f.Tame) {newDims : List Nat} {s : σ} {o : Own T} {xs : List T}
    (h : Vec o xs) (hl : xs.length = size o.shape.dims) (hr : newDims.length = o.shape.dims.length)
    (hne : newDims ≠ []) :
    M.Post (resizeVec newDims (size newDims) f) (s, o)
      (fun _ t => Resized f o.shape.dims newDims xs s o t) (fun t => Halted f (size newDims) xs s o t) := by
  show M.Post (if size newDims = 0 then vecClear else if newDims.tail = o.shape.dims.tail then
    vecResizeWith (size newDims) f else resizeCopy newDims (size newDims) f : M (σ × Own T) Unit) (s, o) _ _
  by_cases h0 : size newDims = 0
  · rw [if_pos h0]
    refine M.Post.mono (post_vecClear h) ?_ (fun _ h => h)
    rintro - t ⟨h1, h2, h3⟩
    exact ⟨[], [], xs, by rw [h0, h1]; exact ran_zero, by rw [h1]; exact calls_nil, h2, h3, .refl _⟩
  rw [if_neg h0]
  by_cases ht : newDims.tail = o.shape.dims.tail
  · rw [if_pos ht]
    cases hn : newDims with
    | nil => exact absurd hn hne
    | cons nd ds =>
    cases ho : o.shape.dims with
    | nil => rw [hn, ho] at hr; simp at hr
    | cons od ds' =>
    have e : ds' = ds := by rw [hn, ho] at ht; simpa using ht.symm
    subst e
    rw [hn, size_cons] at h0
    have hpos : 0 < size ds' := by
      rcases Nat.eq_zero_or_pos (size ds') with h | h
      · rw [h, Nat.mul_zero] at h0; exact absurd rfl h0
      · exact h
    rw [ho, size_cons] at hl
    rw [size_cons]
    refine M.Post.mono (post_vecResizeWith (nd * size ds') hf h) ?_ ?_
    · rintro - t ⟨ys, h1, h2, h3⟩
      refine ⟨xs.take (nd * size ds') ++ ys, ys, xs.drop (nd * size ds'), ?_, ⟨_, h1⟩, h2, h3, ?_⟩
      · have e : size (nd :: ds') = (xs.take (nd * size ds')).length + (nd * size ds' - xs.length) := by
          rw [List.length_take, size_cons]; omega
        rw [e]
        refine Ran.append (t := s) (ran_pure fun n hn => ?_) (h1.congr fun k hk => ?_)
        · rw [List.getElem_take]
          rw [List.length_take] at hn
          exact resizeStep_same hl (by omega)
        · rw [resizeStep_new _ hpos]
          rw [List.length_take]
          omega
      · refine List.perm_append_comm.trans ?_
        rw [List.append_assoc]
        refine (List.Perm.append_left _ List.perm_append_comm).trans ?_
        rw [← List.append_assoc, List.take_append_drop]
    · rintro t ⟨⟨ys, h1, h2, h3⟩, hc⟩
      refine ⟨⟨xs ++ ys, ys, [], h1, h2, h3, .refl _, ?_⟩, hc⟩
      rw [ho, size_cons, List.length_append]
      intro hy
      have : ys = [] := List.eq_nil_of_length_eq_zero (by omega)
      simp [this]
  · rw [if_neg ht]
    exact post_resizeCopy hf h hl hr hne

theorem post_resizeWith {f : M σ T} (hf : f.Tame) {newDims : List Nat} {s : σ} {o : Own T} {xs : List T}
    (h : Holds o xs) :
    M.PostA (resizeWith newDims f) (s, o)
      (fun _ t => ∃ ys zs dr, o.shape.ty.Conforms newDims ∧ newDims.length = o.shape.dims.length ∧
        Ran (resizeStep f o.shape.dims newDims xs) (size newDims) s ys t.1 ∧ Calls f s zs t.1 ∧
        Holds t.2 ys ∧ t.2.shape = ⟨o.shape.ty, newDims⟩ ∧ t.2.log = o.log ++ dr ∧
        (dr ++ ys).Perm (xs ++ zs) ∧ t.2.limit = o.limit)
      (fun t => ∃ ys zs dr, CallsEnd f s zs t.1 ∧ Holds t.2 ys ∧ t.2.log = o.log ++ dr ∧
        (dr ++ ys).Perm (xs ++ zs) ∧ t.2.limit = o.limit ∧
        (t.2.shape = o.shape ∨ t.2.shape = Shape.default o.shape.ty) ∧ ResizeFails o newDims f)
      (size (Shape.default o.shape.ty).dims ≠ 0 ∧ ResizeFails o newDims f) := by
  show M.PostA (M.bind (M.lift (check (newDims.length = o.shape.rank))) _) (s, o) _ _ _
  refine M.postA_bind (M.post_lift ?_ ?_)
  rotate_left
  · intro hr
    refine ⟨xs, [], [], .inl calls_nil, h, by simp, by simp, rfl, .inl rfl, .inl fun hr' => ?_⟩
    rw [show check (newDims.length = o.shape.rank) = some () from if_pos hr'] at hr
    cases hr
  intro _ hr
  rw [check_eq_some] at hr
  show M.PostA (if newDims ≠ [] then _ else _ : M (σ × Own T) Unit) (s, o) _ _ _
  by_cases hne : newDims ≠ []
  · rw [if_pos hne]
    refine M.postA_bind (M.post_lift ?_ ?_)
    rotate_left
    · intro hn
      refine ⟨xs, [], [], .inl calls_nil, h, by simp, by simp, rfl, .inl rfl, .inr (.inl fun hno => ?_)⟩
      rw [Shape.checkedLen_eq, if_pos hno] at hn
      cases hn
    intro newLen hlen
    rw [Shape.checkedLen_eq] at hlen
    split at hlen
    rotate_left
    · cases hlen
    injection hlen with hlen
    subst hlen
    refine postA_withMutParts (M.Post.bind (M.Post.mono (post_resizeVec hf (o := parts o) (parts_vec h)
      h.2.1 hr hne) (fun _ _ h => h) ?_) ?_)
    · rintro t ⟨⟨ys, zs, dr, a1, a2, a3, a4, a5⟩, hc⟩
      have hsh : t.2.shape = o.shape := a3.shape
      have hfail : ResizeFails o newDims f := hc.elim (fun h => .inr (.inr (.inl h)))
        fun h => .inr (.inr (.inr (.inr h)))
      refine ⟨⟨by rw [hsh], ys, a2, ?_, ?_⟩, hfail⟩
      · intro hy
        have hy' := a5 (by rw [hy, a3.shape])
        subst hy'
        exact ⟨ys, zs, dr, a1, a2.holds (by rw [hsh]; exact h.1) hy, a3.log, a4, a3.limit, .inl hsh, hfail⟩
      · intro _ _ o' b1 b2 b3 b4
        refine ⟨[], zs, dr ++ ys, a1, b1, ?_, by simpa using a4, b4.trans a3.limit, .inr (by rw [b3, hsh]), hfail⟩
        rw [b2, a3.log, List.append_assoc]; rfl
    · rintro - ⟨t, o2⟩ ⟨ys, zs, dr, a1, a2, a3, a4, a5⟩
      have hsh : o2.shape = o.shape := a4.shape
      have hlog : o2.log = o.log ++ dr := a4.log
      have hlim : o2.limit = o.limit := a4.limit
      have hyl : ys.length = size newDims := a1.length
      have hwm : (o2.shape.withMutDims fun dims => Shape.copyFromSlice dims newDims) =
          if o.shape.ty.Conforms newDims then some ⟨o.shape.ty, newDims⟩ else none := by
        rw [hsh, Shape.withMutDims_eq]
        unfold Shape.copyFromSlice
        rw [if_pos (show o.shape.dims.length = newDims.length from hr.symm)]
        rfl
      refine post_setShape ?_ ?_
      · intro s' hs'
        rw [hwm] at hs'
        split at hs'
        · rename_i hc
          injection hs' with hs'
          subst hs'
          exact ⟨ys, zs, dr, hc, hr, a1, a2, ⟨hc, hyl, a3.2⟩, rfl, hlog, a5, hlim⟩
        · cases hs'
      · intro hn
        have hfail : ResizeFails o newDims f := by
          refine .inr (.inr (.inr (.inl fun hc => ?_)))
          rw [hwm, if_pos hc] at hn
          cases hn
        refine ⟨⟨by rw [hsh], ys, a3, ?_, ?_⟩, hfail⟩
        · intro hy
          exact ⟨ys, zs, dr, .inl a2, a3.holds (by rw [hsh]; exact h.1) hy, hlog, a5, hlim, .inl hsh, hfail⟩
        · intro _ _ o' b1 b2 b3 b4
          refine ⟨[], zs, dr ++ ys, .inl a2, b1, ?_, by simpa using a5, b4.trans hlim,
            .inr (b3.trans (by rw [hsh])), hfail⟩
          rw [b2]
          show o2.log ++ ys = _
          rw [hlog, List.append_assoc]
  · rw [if_neg hne]
    have hnil : newDims = [] := by simpa using hne
    subst hnil
    have hd : o.shape.dims = [] := List.eq_nil_of_length_eq_zero hr.symm
    have hx : xs.length = 1 := by rw [h.2.1, hd]; rfl
    refine ⟨xs, [], [], ?_, hr, ?_, calls_nil, h, ?_, by simp, by simp, rfl⟩
    · have := h.1; unfold Shape.WF at this; rwa [hd] at this
    · rw [hd]
      have : Ran (resizeStep f [] [] xs) xs.length s xs s := by
        refine ran_pure fun n hn => ?_
        have hv : Valid [] (unrank [] n) := by simp [Valid, unrank]
        unfold resizeStep
        rw [if_pos hv]
        have h0 : n = 0 := by omega
        subst h0
        simp [rowMajor, orUb, hn]
      rwa [hx] at this
    · show o.shape = _
      rw [← hd]

end Model
