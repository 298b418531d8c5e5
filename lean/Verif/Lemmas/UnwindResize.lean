import Verif.Lemmas.UnwindTracks
import Verif.Lemmas.Resize

/-! Destructors that panic in `resize_with`. -/

namespace Model
open Spec

namespace M
variable {ρ α β : Type}

/-- Partial correctness: nothing is said about undefined behaviour. -/
def Tri (x : M ρ α) (s : ρ) (Q : α → ρ → Prop) (R : ρ → Prop) (A : Prop) : Prop :=
  match x s with
  | .ok a t => Q a t
  | .panic t => R t
  | .ub => True
  | .abort => A

theorem tri_bind {x : M ρ α} {k : α → M ρ β} {s : ρ} {Q : β → ρ → Prop} {R : ρ → Prop} {A : Prop}
    (h : Tri x s (fun a t => Tri (k a) t Q R A) R A) : Tri (M.bind x k) s Q R A := by
  unfold Tri M.bind at *
  cases hx : x s <;> simp only [hx] at h ⊢ <;> exact h

theorem tri_onPanic {x : M ρ α} {g : M ρ Unit} {s : ρ} {Q : α → ρ → Prop} {R : ρ → Prop} {A : Prop}
    (h : Tri x s Q (fun t => Tri g t (fun _ u => R u) (fun _ => A) A) A) : Tri (M.onPanic x g) s Q R A := by
  unfold Tri M.onPanic at *
  cases hx : x s with
  | ok a t => simp only [hx] at h ⊢; exact h
  | ub => trivial
  | abort => simp only [hx] at h ⊢; exact h
  | panic t =>
    simp only [hx] at h ⊢
    cases hg : g t <;> simp only [hg] at h ⊢ <;> exact h

theorem Tri.mono {x : M ρ α} {s : ρ} {Q Q' : α → ρ → Prop} {R R' : ρ → Prop} {A A' : Prop}
    (h : Tri x s Q R A) (hq : ∀ a t, Q a t → Q' a t) (hr : ∀ t, R t → R' t) (ha : A → A') :
    Tri x s Q' R' A' := by
  unfold Tri at *
  cases hx : x s <;> simp only [hx] at h ⊢
  · exact hq _ _ h
  · exact hr _ h
  · exact ha h

theorem tri_repeatM {x : M ρ Unit} {I : ρ → Prop} {R : ρ → Prop} {A : Prop}
    (h : ∀ s, I s → Tri x s (fun _ => I) R A) (n : Nat) {s : ρ} (hs : I s) :
    Tri (repeatM n x) s (fun _ => I) R A := by
  induction n generalizing s with
  | zero => exact hs
  | succ n ih => exact tri_bind ((h s hs).mono (fun _ t ht => ih ht) (fun _ h => h) fun h => h)

theorem Tri.postA {x : M ρ α} {s : ρ} {Q : α → ρ → Prop} {R : ρ → Prop} {A : Prop} (h : Tri x s Q R A)
    (hub : x s ≠ .ub) : PostA x s Q R A := by
  unfold Tri PostA at *
  cases hx : x s <;> simp only [hx] at h ⊢
  · exact h
  · exact h
  · exact hub hx
  · exact h

theorem Post.tri {x : M ρ α} {s : ρ} {Q : α → ρ → Prop} {R : ρ → Prop} {A : Prop} (h : Post x s Q R) :
    Tri x s Q R A := by
  unfold Tri Post at *
  cases hx : x s <;> simp only [hx] at h ⊢ <;> exact h

theorem PostA.mono' {x : M ρ α} {s : ρ} {Q Q' : α → ρ → Prop} {R R' : ρ → Prop} {A A' : Prop}
    (h : PostA x s Q R A) (hq : ∀ a t, Q a t → Q' a t) (hr : ∀ t, R t → R' t) (ha : A → A') :
    PostA x s Q' R' A' := by
  unfold PostA at *
  cases hx : x s <;> simp only [hx] at h ⊢
  · exact hq _ _ h
  · exact hr _ h
  · exact ha h

theorem tri_drops {T : Type} {bad : T → Bool} {x : M ρ α} {s t : ρ} {xs : List T} {a : α}
    {Q : α → ρ → Prop} {R : ρ → Prop} {A : Prop} (hx : x s = afterDrops bad xs a t)
    (h0 : xs.countP bad = 0 → Q a t) (h1 : xs.countP bad = 1 → R t) (h2 : 2 ≤ xs.countP bad → A) :
    Tri x s Q R A := by
  unfold Tri
  rw [hx]
  unfold afterDrops
  by_cases e0 : xs.countP bad = 0
  · rw [if_pos e0]; exact h0 e0
  · rw [if_neg e0]
    by_cases e1 : xs.countP bad = 1
    · rw [if_pos e1]; exact h1 e1
    · rw [if_neg e1]; exact h2 (by omega)

theorem PostA.bind' {x : M ρ α} {k : α → M ρ β} {s : ρ} {Q : β → ρ → Prop} {R : ρ → Prop} {A : Prop}
    (h : PostA x s (fun a t => PostA (k a) t Q R A) R A) : PostA (M.bind x k) s Q R A := by
  unfold PostA M.bind at *
  cases hx : x s <;> simp only [hx] at h ⊢ <;> exact h

theorem PostA.onPanic' {x : M ρ α} {g : M ρ Unit} {s : ρ} {Q : α → ρ → Prop} {R : ρ → Prop} {A : Prop}
    (h : PostA x s Q (fun t => PostA g t (fun _ u => R u) (fun _ => A) A) A) :
    PostA (M.onPanic x g) s Q R A := by
  unfold PostA M.onPanic at *
  cases hx : x s with
  | ok a t => simp only [hx] at h ⊢; exact h
  | ub => simp only [hx] at h
  | abort => simp only [hx] at h ⊢; exact h
  | panic t =>
    simp only [hx] at h ⊢
    cases hg : g t <;> simp only [hg] at h ⊢ <;> exact h

theorem PostA.scope' {κ : Type} {x : M (ρ × κ) α} {init : κ} {s : ρ} {Q : α × κ → ρ → Prop} {R : ρ → Prop}
    {A : Prop} (h : PostA x (s, init) (fun a t => Q (a, t.2) t.1) (fun t => R t.1) A) :
    PostA (M.scope init x) s Q R A := by
  unfold PostA M.scope at *
  cases hx : x (s, init) <;> simp only [hx] at h ⊢ <;> exact h

theorem Post.postA' {x : M ρ α} {s : ρ} {Q : α → ρ → Prop} {R : ρ → Prop} {A : Prop} (h : Post x s Q R) :
    PostA x s Q R A := by
  unfold PostA Post at *
  cases hx : x s <;> simp only [hx] at h ⊢ <;> exact h

theorem postA_drops {T : Type} {bad : T → Bool} {x : M ρ α} {s t : ρ} {xs : List T} {a : α}
    {Q : α → ρ → Prop} {R : ρ → Prop} {A : Prop} (hx : x s = afterDrops bad xs a t)
    (h0 : xs.countP bad = 0 → Q a t) (h1 : xs.countP bad = 1 → R t) (h2 : 2 ≤ xs.countP bad → A) :
    PostA x s Q R A := by
  refine (tri_drops hx h0 h1 h2).postA ?_
  rw [hx]
  unfold afterDrops
  split
  · simp
  · split <;> simp

/-- Add what is known of the successful executions. -/
theorem PostA.and_ok {x : M ρ α} {s : ρ} {Q Q' : α → ρ → Prop} {R : ρ → Prop} {A : Prop}
    (h : PostA x s Q R A) (hq : ∀ a t, x s = .ok a t → Q' a t) : PostA x s Q' R A := by
  unfold PostA at *
  cases hx : x s <;> simp only [hx] at h ⊢
  · exact hq _ _ hx
  · exact h
  · exact h

end M

namespace Unwind
variable {σ T : Type} {bad : T → Bool}

/-- The process is aborted: two destructors panic, or one after a failure. -/
def TwoPanics (bad : T → Bool) (f : M σ T) (F : Prop) (xs : List T) (s : σ) : Prop :=
  ∃ zs t, CallsEnd f s zs t ∧ (2 ≤ (xs ++ zs).countP bad ∨ F ∧ 1 ≤ (xs ++ zs).countP bad)

/-- The copying goes on: no destructor has panicked. -/
def Going (bad : T → Bool) (f : M σ T) (xs : List T) (s : σ) (o : Own T) (u : (σ × Own T) × Loc T) : Prop :=
  ∃ r w zs dr, Calls f s zs u.1.1 ∧ Copy u r w ∧ Eff o u.1.2 dr ∧ (dr ++ w ++ r).Perm (xs ++ zs) ∧
    dr.countP bad = 0

/-- The copying was left by a panic. -/
def Left (bad : T → Bool) (f : M σ T) (F : Prop) (xs : List T) (s : σ) (o : Own T)
    (u : (σ × Own T) × Loc T) : Prop :=
  ∃ r w zs dr, CallsEnd f s zs u.1.1 ∧ Copy u r w ∧ Eff o u.1.2 dr ∧ (dr ++ w ++ r).Perm (xs ++ zs) ∧
    (dr.countP bad = 0 ∧ F ∨ dr.countP bad = 1)

theorem dropOld_drops {u : (σ × Own T) × Loc T} {a r w : List T} {n : Nat} (h : Copy u (a ++ r) w)
    (hn : n = a.length) :
    ∃ u', dropOld bad n u = afterDrops bad a () u' ∧ u'.1.1 = u.1.1 ∧ Copy u' r w ∧ Eff u.1.2 u'.1.2 a := by
  subst hn
  obtain ⟨⟨s, o⟩, l⟩ := u
  obtain ⟨⟨pre, rest, h1, h2⟩, h3, h4, h5⟩ := h
  simp only at h1 h2 h3 h4 h5
  have e := dropCells_eq (o := o) (pre := pre) (ys := a) (xs := r.map some ++ rest) (n := a.length) s
    (by rw [h1]; simp) rfl
  have e' := drops (after_dropCells (bad := bad) pre.length a.length) e rfl
  refine ⟨((s, { o with
      cells := pre ++ List.replicate a.length none ++ (r.map some ++ rest)
      log := o.log ++ a }), { l with pos := l.pos + a.length, cnt := l.cnt - a.length }), ?_, rfl, ?_,
      ⟨rfl, rfl, rfl⟩⟩
  · unfold dropOld
    rw [if_pos (by rw [h3, List.length_append]; omega)]
    simp only [M.up, ← h2]
    rw [e']
    unfold afterDrops
    by_cases e0 : a.countP bad = 0
    · simp only [if_pos e0]
    · by_cases e1 : a.countP bad = 1
      · simp only [if_neg e0, if_pos e1]
      · simp only [if_neg e0, if_neg e1]
  · refine ⟨⟨pre ++ List.replicate a.length none, rest, ?_, ?_⟩, ?_, h4, h5⟩
    · simp
    · simp [h2]
    · simp only [h3, List.length_append]; omega

theorem dropOldGuard_drops {u : (σ × Own T) × Loc T} {r w : List T} (h : Copy u r w) :
    ∃ u', dropOldGuard bad u = afterDrops bad r () u' ∧ u'.1.1 = u.1.1 ∧ u'.2 = u.2 ∧
      Eff u.1.2 u'.1.2 r ∧ u'.1.2.len = 0 := by
  obtain ⟨⟨s, o⟩, l⟩ := u
  obtain ⟨⟨pre, rest, h1, h2⟩, h3, h4, h5, h6⟩ := h
  simp only at h1 h2 h3 h4 h5 h6
  have e := dropCells_eq (o := o) (pre := pre) (ys := r) (xs := rest) (n := l.cnt) s h1 h3
  have e' := drops (after_dropCells (bad := bad) pre.length l.cnt) e rfl
  refine ⟨((s, { o with
      cells := pre ++ List.replicate r.length none ++ rest
      log := o.log ++ r }), l), ?_, rfl, rfl, ⟨rfl, rfl, rfl⟩, h6⟩
  unfold dropOldGuard
  simp only [M.up, ← h2]
  rw [e']
  unfold afterDrops
  by_cases e0 : r.countP bad = 0
  · simp only [if_pos e0]
  · by_cases e1 : r.countP bad = 1
    · simp only [if_neg e0, if_pos e1]
    · simp only [if_neg e0, if_neg e1]

theorem dropNewVec_drops {u : (σ × Own T) × Loc T} {w : List T} (h : w.map some <+: u.2.newCells)
    (hl : u.2.newLen = w.length) :
    ∃ u', dropNewVec bad u = afterDrops bad w () u' ∧ u'.1.1 = u.1.1 ∧ Eff u.1.2 u'.1.2 w ∧
      u'.1.2.len = u.1.2.len := by
  obtain ⟨⟨s, o⟩, l⟩ := u
  simp only at h hl
  have e : l.newCells.take l.newLen = w.map some := by
    obtain ⟨rest, h⟩ := h
    rw [← h, hl, show w.length = (w.map some).length by simp, List.take_left]
  have e1 : Model.dropNewVec ((s, o), l) = .ok () ((s, { o with log := o.log ++ w }), l) := by
    simp only [Model.dropNewVec, e]
    rw [if_pos]
    · simp
    · simp [hl]
  refine ⟨((s, { o with log := o.log ++ w }), l), ?_, rfl, ⟨rfl, rfl, rfl⟩, rfl⟩
  unfold dropNewVec M.bind
  rw [e1]
  simp only [e, finish_eq, afterDrops]
  simp

variable {f : M σ T} {F : Prop} {xs : List T} {s : σ} {o : Own T}

theorem Going.moveOld (n : Nat) {u : (σ × Own T) × Loc T} (h : Going bad f xs s o u) :
    M.Tri (moveOld n) u (fun _ => Going bad f xs s o) (Left bad f F xs s o) (TwoPanics bad f F xs s) := by
  obtain ⟨r, w, zs, dr, h1, h2, h3, h4, h5⟩ := h
  by_cases hc : n ≤ r.length ∧ w.length + n ≤ u.2.newCells.length
  · refine (M.Post.tri (R := fun _ => False) (post_moveOld (a := r.take n) (r := r.drop n) (w := w) (by rwa [List.take_append_drop])
      (by rw [List.length_take]; omega) (by omega))).mono ?_ (fun _ h => h.elim) fun h => h
    rintro - u' ⟨a1, a2, a3, a4⟩
    refine ⟨r.drop n, w ++ r.take n, zs, dr, by rw [a1]; exact h1, a2, by simpa using h3.trans a3, ?_, h5⟩
    rw [List.append_assoc, List.append_assoc, List.take_append_drop, ← List.append_assoc]
    exact h4
  · have : Model.moveOld n u = .ub := by
      unfold Model.moveOld
      simp only
      rw [if_neg]
      rintro ⟨b1, b2, -⟩
      rw [h2.2.1] at b1
      rw [h2.2.2.2.1] at b2
      exact hc ⟨b1, b2⟩
    unfold M.Tri
    rw [this]
    trivial

theorem Going.dropOld (n : Nat) {u : (σ × Own T) × Loc T} (h : Going bad f xs s o u) :
    M.Tri (dropOld bad n) u (fun _ => Going bad f xs s o) (Left bad f F xs s o) (TwoPanics bad f F xs s) := by
  obtain ⟨r, w, zs, dr, h1, h2, h3, h4, h5⟩ := h
  by_cases hc : n ≤ r.length
  · obtain ⟨u', e, a1, a2, a3⟩ := dropOld_drops (bad := bad) (a := r.take n) (r := r.drop n) (w := w) (n := n)
      (by rwa [List.take_append_drop]) (by rw [List.length_take]; omega)
    have hp : (dr ++ r.take n ++ w ++ r.drop n).Perm (xs ++ zs) := by
      refine List.Perm.trans ?_ h4
      classical
      rw [List.perm_iff_count]
      intro x
      have := congrArg (List.count x) (List.take_append_drop n r)
      simp only [List.count_append] at this ⊢
      omega
    refine M.tri_drops e (fun h0 => ?_) (fun hone => ?_) fun htwo => ?_
    · exact ⟨r.drop n, w, zs, dr ++ r.take n, by rw [a1]; exact h1, a2, h3.trans a3, hp,
        by rw [List.countP_append]; omega⟩
    · exact ⟨r.drop n, w, zs, dr ++ r.take n, by rw [a1]; exact .inl h1, a2, h3.trans a3, hp,
        .inr (by rw [List.countP_append]; omega)⟩
    · refine ⟨zs, _, .inl h1, .inl ?_⟩
      rw [← hp.countP_eq]
      simp only [List.countP_append]; omega
  · have : Unwind.dropOld bad n u = .ub := by
      unfold Unwind.dropOld
      rw [if_neg (by rw [h2.2.1]; exact hc)]
    unfold M.Tri
    rw [this]
    trivial

theorem Going.pushNew (hf : f.Tame) (hF : (∃ u v, f u = .panic v) → F) {u : (σ × Own T) × Loc T}
    (h : Going bad f xs s o u) :
    M.Tri (pushNew f) u (fun _ => Going bad f xs s o) (Left bad f F xs s o) (TwoPanics bad f F xs s) := by
  obtain ⟨r, w, zs, dr, h1, h2, h3, h4, h5⟩ := h
  obtain ⟨⟨t, o'⟩, l⟩ := u
  have ht := hf t
  unfold M.Post at ht
  unfold M.Tri Model.pushNew M.bind M.up
  simp only
  cases hx : f t with
  | ub => rw [hx] at ht; exact ht.elim
  | abort => rw [hx] at ht; exact ht.elim
  | panic t' =>
    exact ⟨r, w, zs, dr, .inr ⟨t, h1, hx⟩, h2, h3, h4, .inl ⟨h5, hF ⟨_, _, hx⟩⟩⟩
  | ok x t' =>
    simp only
    by_cases hlt : l.newLen < l.newCells.length
    · rw [if_pos hlt]
      obtain ⟨b1, b2, ⟨rest, b3⟩, b4, b5⟩ := h2
      simp only at b1 b2 b3 b4
      cases rest with
      | nil =>
        exfalso
        rw [List.append_nil] at b3
        rw [← b3, b4] at hlt
        simp at hlt
      | cons c rest =>
        refine ⟨r, w ++ [x], zs ++ [x], dr, h1.append ⟨1, ?_⟩, ⟨b1, b2, ⟨rest, ?_⟩, ?_, b5⟩, h3, ?_, h5⟩
        · exact ran_zero.succ (by exact hx)
        · simp only [← b3, b4]
          rw [show w.length = (w.map some).length by simp]
          simp
        · simp only [b4, List.length_append, List.length_singleton]
        · refine List.Perm.trans ?_ (show ((dr ++ w ++ r) ++ [x]).Perm (xs ++ (zs ++ [x])) by
            rw [← List.append_assoc]; exact h4.append_right _)
          rw [← List.append_assoc, List.append_assoc (dr ++ w), List.append_assoc (dr ++ w)]
          exact List.Perm.append_left _ List.perm_append_comm
    · rw [if_neg hlt]; trivial

theorem Going.copyDim (hf : f.Tame) (hF : (∃ u v, f u = .panic v) → F) (ods nds : List Nat)
    (hl : ods.length = nds.length) (hne : ods ≠ []) {u : (σ × Own T) × Loc T} (h : Going bad f xs s o u) :
    M.Tri (copyDim bad f ods nds) u (fun _ => Going bad f xs s o) (Left bad f F xs s o)
      (TwoPanics bad f F xs s) := by
  induction ods generalizing nds u with
  | nil => exact absurd rfl hne
  | cons od ods ih =>
    cases nds with
    | nil => simp at hl
    | cons nd nds =>
      unfold Unwind.copyDim
      simp only [List.length_cons, Nat.add_right_cancel_iff] at hl
      refine M.tri_bind (M.Tri.mono (Q := fun _ => Going bad f xs s o) (R := Left bad f F xs s o)
        (A := TwoPanics bad f F xs s) ?_ (fun _ u1 h1 => M.tri_bind (M.Tri.mono
          (Q := fun _ => Going bad f xs s o) (R := Left bad f F xs s o) (A := TwoPanics bad f F xs s) ?_
            (fun _ u2 h2 => M.tri_repeatM (fun u hu => hu.pushNew hf hF) _ h2) (fun _ h => h) fun h => h))
              (fun _ h => h) fun h => h)
      · split
        · rename_i h0
          exact M.tri_repeatM (fun u hu => ih nds hl (by intro h; simp [h] at h0) hu) _ h
        · exact h.moveOld _
      · split
        · exact h1.dropOld _
        · exact h1

/-- The old elements that remained are gone, after a panic. -/
def LeftNew (bad : T → Bool) (f : M σ T) (F : Prop) (xs : List T) (s : σ) (o : Own T)
    (u : (σ × Own T) × Loc T) : Prop :=
  ∃ w zs dr, CallsEnd f s zs u.1.1 ∧ (w.map some <+: u.2.newCells ∧ u.2.newLen = w.length) ∧
    Eff o u.1.2 dr ∧ (dr ++ w).Perm (xs ++ zs) ∧ u.1.2.len = 0 ∧ (dr.countP bad = 0 ∧ F ∨ dr.countP bad = 1)

/-- Outcome of a panic while the vector is resized. -/
def Stuck (bad : T → Bool) (f : M σ T) (F N : Prop) (xs : List T) (s : σ) (o : Own T) (t : σ × Own T) : Prop :=
  ∃ ys zs dr, CallsEnd f s zs t.1 ∧ Vec t.2 ys ∧ Eff o t.2 dr ∧ (dr ++ ys).Perm (xs ++ zs) ∧
    (dr.countP bad = 0 ∧ F ∨ dr.countP bad = 1 ∧ N)

theorem swap_perm {dr w r l : List T} (h : (dr ++ w ++ r).Perm l) : (dr ++ r ++ w).Perm l := by
  refine List.Perm.trans ?_ h
  rw [List.append_assoc, List.append_assoc]
  exact List.Perm.append_left _ List.perm_append_comm

theorem Left.guard {u : (σ × Own T) × Loc T} (h : Left bad f F xs s o u) :
    M.PostA (dropOldGuard bad) u (fun _ => LeftNew bad f F xs s o) (fun _ => TwoPanics bad f F xs s)
      (TwoPanics bad f F xs s) := by
  obtain ⟨r, w, zs, dr, h1, h2, h3, h4, h5⟩ := h
  obtain ⟨u', e, a1, a2, a3, a4⟩ := dropOldGuard_drops (bad := bad) h2
  have hp := swap_perm h4
  have hc := hp.countP_eq bad
  rw [List.countP_append, List.countP_append] at hc
  refine M.postA_drops e (fun h0 => ?_) (fun hone => ?_) fun htwo => ?_
  · refine ⟨w, zs, dr ++ r, by rw [a1]; exact h1, by rw [a2]; exact h2.2.2.1 |> fun x => ⟨x, h2.2.2.2.1⟩,
      h3.trans a3, hp, a4, ?_⟩
    rw [List.countP_append, h0, Nat.add_zero]
    exact h5
  · refine ⟨zs, _, h1, ?_⟩
    rw [← hc]
    rcases h5 with ⟨h5, hF⟩ | h5
    · exact .inr ⟨hF, by omega⟩
    · exact .inl (by omega)
  · exact ⟨zs, _, h1, .inl (by rw [← hc]; omega)⟩

theorem Going.guard {u : (σ × Own T) × Loc T} (h : Going bad f xs s o u) :
    M.PostA (dropOldGuard bad) u (fun _ _ => True) (LeftNew bad f F xs s o) (TwoPanics bad f F xs s) := by
  obtain ⟨r, w, zs, dr, h1, h2, h3, h4, h5⟩ := h
  obtain ⟨u', e, a1, a2, a3, a4⟩ := dropOldGuard_drops (bad := bad) h2
  have hp := swap_perm h4
  have hc := hp.countP_eq bad
  rw [List.countP_append, List.countP_append] at hc
  refine M.postA_drops e (fun h0 => trivial) (fun hone => ?_) fun htwo => ?_
  · exact ⟨w, zs, dr ++ r, by rw [a1]; exact .inl h1, by rw [a2]; exact ⟨h2.2.2.1, h2.2.2.2.1⟩,
      h3.trans a3, hp, a4, .inr (by rw [List.countP_append]; omega)⟩
  · exact ⟨zs, _, .inl h1, .inl (by rw [← hc]; omega)⟩

theorem LeftNew.guard {N : Prop} (hN : N) {u : (σ × Own T) × Loc T} (h : LeftNew bad f F xs s o u) :
    M.PostA (dropNewVec bad) u (fun _ u => Stuck bad f F N xs s o u.1) (fun _ => TwoPanics bad f F xs s)
      (TwoPanics bad f F xs s) := by
  obtain ⟨w, zs, dr, h1, ⟨h2, h2'⟩, h3, h4, h5, h6⟩ := h
  obtain ⟨u', e, a1, a2, a3⟩ := dropNewVec_drops (bad := bad) h2 h2'
  have hc := h4.countP_eq bad
  rw [List.countP_append] at hc
  refine M.postA_drops e (fun h0 => ?_) (fun hone => ?_) fun htwo => ?_
  · refine ⟨[], zs, dr ++ w, by rw [a1]; exact h1, ⟨by rw [a3, h5]; rfl, by simp⟩, h3.trans a2, by simpa using h4, ?_⟩
    rw [List.countP_append, h0, Nat.add_zero]
    exact h6.imp id fun h => ⟨h, hN⟩
  · refine ⟨zs, _, h1, ?_⟩
    rw [← hc]
    rcases h6 with ⟨h6, hF⟩ | h6
    · exact .inr ⟨hF, by omega⟩
    · exact .inl (by omega)
  · exact ⟨zs, _, h1, .inl (by rw [← hc]; omega)⟩

theorem postA_resizeCopy (hf : f.Tame) {N : Prop} (hN : N) {newDims : List Nat}
    (hF : (o.limit < size newDims ∨ ∃ u v, f u = .panic v) → F)
    (h : Vec o xs) (hl : xs.length = size o.shape.dims) (hr : newDims.length = o.shape.dims.length)
    (hne : newDims ≠ []) :
    M.PostA (resizeCopy bad newDims (size newDims) f) (s, o) (fun _ _ => True) (Stuck bad f F N xs s o)
      (TwoPanics bad f F xs s) := by
  show M.PostA (M.bind (M.lift (check (size newDims ≤ o.limit))) _) (s, o) _ _ _
  refine M.postA_bind (M.post_lift (fun _ _ => ?_) fun hn => ?_)
  rotate_left
  · refine ⟨xs, [], [], .inl calls_nil, h, Eff.refl _, by simp, .inl ⟨rfl, hF (.inl ?_)⟩⟩
    by_contra hle
    rw [show check (size newDims ≤ o.limit) = some () from if_pos (by omega)] at hn
    cases hn
  show M.PostA (M.bind (M.scope _ _) _) (s, { o with len := 0 }) _ _ _
  refine M.PostA.bind' (M.PostA.mono' (Q := fun _ _ => True) (M.PostA.scope' ?_)
    (fun _ _ _ => M.Post.postA' (M.post_of_eq rfl trivial)) (fun _ h => h) fun h => h)
  have hcopy : Copy ((s, { o with len := 0 }), (⟨0, o.len, List.replicate (size newDims) none, 0⟩ :
      Loc T)) (xs ++ []) [] := by
    obtain ⟨h1, rest, h2⟩ := h
    refine ⟨⟨[], rest, ?_, rfl⟩, ?_, by simp, rfl, rfl⟩
    · simp [h2]
    · simp [h1]
  have hgo : Going bad f xs s o ((s, { o with len := 0 }), (⟨0, o.len, List.replicate (size newDims) none, 0⟩ :
      Loc T)) :=
    ⟨xs, [], [], [], calls_nil, by simpa using hcopy, ⟨by simp, rfl, rfl⟩, by simp, rfl⟩
  have hod : o.shape.dims ≠ [] := by intro h0; rw [h0] at hr; exact hne (List.eq_nil_of_length_eq_zero hr)
  have hub : Unwind.copyDim bad f o.shape.dims newDims ((s, { o with len := 0 }),
      (⟨0, o.len, List.replicate (size newDims) none, 0⟩ : Loc T)) ≠ .ub := by
    intro hu
    have h1 := (tracks_copyDim (bad := bad) (keeps_zero f) o.shape.dims newDims).2.2 _ hu
    have h2 := post_copyDim hf o.shape.dims newDims _ xs [] [] hr.symm hod hcopy hl (by simp)
    unfold M.Post at h2
    rw [h1] at h2
    exact h2
  refine M.PostA.onPanic' (M.PostA.mono' (Q := fun _ _ => True) (R := LeftNew bad f F xs s o)
    (A := TwoPanics bad f F xs s) (M.PostA.bind' (M.PostA.mono' (Q := fun _ => Going bad f xs s o)
      (R := LeftNew bad f F xs s o) (A := TwoPanics bad f F xs s) (M.PostA.onPanic' ?_)
      (fun _ _ h => h.guard) (fun _ h => h) fun h => h)) (fun _ _ _ => trivial) (fun _ h => h.guard hN) fun h => h)
  exact ((hgo.copyDim hf (fun h => hF (.inr h)) _ _ hr.symm hod).postA hub).mono' (fun _ _ h => h)
    (fun _ h => h.guard) fun h => h

theorem after_vecClear : After (cnt bad fun _ => 0) (vecClear bad) (Model.vecClear : M (σ × Own T) Unit) := by
  unfold vecClear Model.vecClear
  simp only [M.bind_eq]
  exact after_bind keeps_own fun _ => after_bind (keeps_upd fun _ => rfl) fun _ => after_dropCells _ _

theorem after_vecTruncate (n : Nat) :
    After (cnt bad fun _ => 0) (vecTruncate bad n) (Model.vecTruncate n : M (σ × Own T) Unit) := by
  unfold vecTruncate Model.vecTruncate
  simp only [M.bind_eq, M.pure_eq]
  refine after_bind keeps_own fun _ => ?_
  split
  · exact after_bind (keeps_upd fun _ => rfl) fun _ => after_dropCells _ _
  · exact (keeps_pure _).after

theorem postA_resizeVec (hf : f.Tame) {newDims : List Nat}
    (hF : (o.limit < size newDims ∨ ∃ u v, f u = .panic v) → F)
    (h : Vec o xs) (hl : xs.length = size o.shape.dims) (hr : newDims.length = o.shape.dims.length)
    (hne : newDims ≠ []) :
    M.PostA (resizeVec bad newDims (size newDims) f) (s, o)
      (fun _ t => ∃ ys zs dr, Calls f s zs t.1 ∧ Vec t.2 ys ∧ Eff o t.2 dr ∧ (dr ++ ys).Perm (xs ++ zs) ∧
        ys.length = size newDims ∧ dr.countP bad = 0)
      (Stuck bad f F (newDims ≠ o.shape.dims) xs s o) (TwoPanics bad f F xs s) := by
  refine M.PostA.and_ok (Q := fun _ _ => True) ?_ fun a t ht => ?_
  rotate_left
  · obtain ⟨h1, h2⟩ := (tracks_resizeVec (bad := bad) newDims (size newDims) (keeps_zero f)).1.ok _ _ _ ht
    have h3 := post_resizeVec (s := s) hf h hl hr hne
    unfold M.Post at h3
    rw [h1] at h3
    obtain ⟨ys, zs, dr, a1, a2, a3, a4, a5⟩ := h3
    refine ⟨ys, zs, dr, a2, a3, a4, a5, a1.length, ?_⟩
    simp only [cnt, a4.log, List.countP_append] at h2
    omega
  show M.PostA (if size newDims = 0 then vecClear bad else if newDims.tail = o.shape.dims.tail then
    vecResizeWith bad (size newDims) f else resizeCopy bad newDims (size newDims) f : M (σ × Own T) Unit)
    (s, o) _ _ _
  by_cases h0 : size newDims = 0
  · rw [if_pos h0]
    have hb := post_vecClear (s := s) (R := fun _ => False) h
    unfold M.Post at hb
    cases hx : (Model.vecClear : M (σ × Own T) Unit) (s, o) with
    | ok a t =>
      rw [hx] at hb
      obtain ⟨a1, a2, a3⟩ := hb
      obtain ⟨t, o'⟩ := t
      simp only at a1 a2 a3
      subst a1
      have e := drops (after_vecClear (bad := bad)) hx a3.log
      refine M.postA_drops e (fun _ => trivial) (fun hone => ?_) fun htwo => ?_
      · refine ⟨[], [], xs, .inl calls_nil, a2, a3, by simp, .inr ⟨hone, fun heq => ?_⟩⟩
        rw [← heq, h0] at hl
        rw [List.eq_nil_of_length_eq_zero hl] at hone
        simp at hone
      · exact ⟨[], _, .inl calls_nil, .inl (by simpa using htwo)⟩
    | _ => rw [hx] at hb; exact hb.elim
  rw [if_neg h0]
  by_cases ht : newDims.tail = o.shape.dims.tail
  · rw [if_pos ht]
    show M.PostA (if o.len < size newDims then _ else _ : M (σ × Own T) Unit) (s, o) _ _ _
    by_cases hlt : o.len < size newDims
    · have hb := post_vecResizeWith (s := s) (size newDims) hf h
      rw [if_pos hlt]
      replace hb : M.Post (if o.len < size newDims then _ else _ : M (σ × Own T) Unit) (s, o) _ _ := hb
      rw [if_pos hlt] at hb
      refine (M.Post.postA' hb).mono' (fun _ _ _ => trivial) ?_ (fun h => h)
      rintro t ⟨⟨ys, h1, h2, h3⟩, hc⟩
      exact ⟨xs ++ ys, ys, [], h1, h2, h3, .refl _, .inl ⟨rfl, hF hc⟩⟩
    · rw [if_neg hlt]
      have hb := post_vecTruncate (s := s) (R := fun _ => False) (size newDims) h
      unfold M.Post at hb
      cases hx : (Model.vecTruncate (size newDims) : M (σ × Own T) Unit) (s, o) with
      | ok a t =>
        rw [hx] at hb
        obtain ⟨a1, a2, a3⟩ := hb
        obtain ⟨t, o'⟩ := t
        simp only at a1 a2 a3
        subst a1
        have e := drops (after_vecTruncate (bad := bad) _) hx a3.log
        have hp : (xs.drop (size newDims) ++ xs.take (size newDims)).Perm (xs ++ []) := by
          rw [List.append_nil]
          refine List.perm_append_comm.trans ?_
          rw [List.take_append_drop]
        refine M.postA_drops e (fun _ => trivial) (fun hone => ?_) fun htwo => ?_
        · refine ⟨_, [], _, .inl calls_nil, a2, a3, hp, .inr ⟨hone, fun heq => ?_⟩⟩
          rw [heq, ← hl, List.drop_length] at hone
          simp at hone
        · refine ⟨[], _, .inl calls_nil, .inl ?_⟩
          rw [← hp.countP_eq bad, List.countP_append]
          omega
      | _ => rw [hx] at hb; exact hb.elim
  · rw [if_neg ht]
    exact postA_resizeCopy hf (fun h => ht (by rw [h])) hF h hl hr hne

/-- The guard of `with_mut_parts` after a panic in which `d` destructors took part. -/
theorem partsGuard_drops {t : σ} {o' : Own T} {ys : List T} (hv : Vec o' ys) {R : σ × Own T → Prop} {A : Prop}
    (h1 : ys.length = size o'.shape.dims → R (t, o'))
    (h2 : ys.length ≠ size o'.shape.dims → size (Shape.default o'.shape.ty).dims = 0 → ys.countP bad = 0 →
      ∀ o2, Holds o2 [] → o2.log = o'.log ++ ys → o2.shape = Shape.default o'.shape.ty → o2.limit = o'.limit →
        R (t, o2))
    (h3 : ys.length ≠ size o'.shape.dims → size (Shape.default o'.shape.ty).dims = 0 → 1 ≤ ys.countP bad → A)
    (h4 : ys.length ≠ size o'.shape.dims → size (Shape.default o'.shape.ty).dims ≠ 0 → A) :
    M.PostA (partsGuard bad) (t, o') (fun _ u => R u) (fun _ => A) A := by
  by_cases hl : ys.length = size o'.shape.dims
  · have e := drops (after_partsGuard (bad := bad)) (partsGuard_same hv hl t) (dr := []) (by simp)
    exact M.postA_drops e (fun _ => h1 hl) (fun h => by simp at h) fun h => by simp at h
  · by_cases hd : size (Shape.default o'.shape.ty).dims = 0
    · obtain ⟨o2, e, a1, a2, a3, a4⟩ := partsGuard_reset hv hl hd t
      have e' := drops (after_partsGuard (bad := bad)) e a2
      exact M.postA_drops e' (fun h0 => h2 hl hd h0 o2 a1 a2 a3 a4) (fun h => h3 hl hd (by omega))
        fun h => h3 hl hd (by omega)
    · have e := partsGuard_abort hv hl hd t
      have e' := same (after_partsGuard (bad := bad)) t o' (by rw [e]; simp)
      unfold M.PostA
      rw [e', e]
      simp only [withDestructors]
      split <;> rename_i hh
      all_goals first
        | exact h4 hl hd
        | (split at hh <;> exact absurd hh (by simp))

theorem postA_resizeWith {newDims : List Nat} (hf : f.Tame) (h : Holds o xs) :
    M.PostA (resizeWith bad newDims f) (s, o) (fun _ _ => True)
      (fun t => ∃ ys zs dr, CallsEnd f s zs t.1 ∧ Holds t.2 ys ∧ t.2.log = o.log ++ dr ∧
        (dr ++ ys).Perm (xs ++ zs) ∧ t.2.limit = o.limit ∧
        (t.2.shape = o.shape ∨ t.2.shape = Shape.default o.shape.ty) ∧
        (ResizeFails o newDims f ∧ dr.countP bad = 0 ∨ dr.countP bad = 1))
      (size (Shape.default o.shape.ty).dims ≠ 0 ∧ ResizeFails o newDims f ∨
        TwoPanics bad f (ResizeFails o newDims f) xs s) := by
  show M.PostA (M.bind (M.lift (check (newDims.length = o.shape.rank))) _) (s, o) _ _ _
  refine M.postA_bind (M.post_lift ?_ ?_)
  rotate_left
  · intro hr
    refine ⟨xs, [], [], .inl calls_nil, h, by simp, by simp, rfl, .inl rfl, .inl ⟨.inl fun hr' => ?_, rfl⟩⟩
    rw [show check (newDims.length = o.shape.rank) = some () from if_pos hr'] at hr
    cases hr
  intro _ hr
  rw [check_eq_some] at hr
  show M.PostA (if newDims ≠ [] then _ else _ : M (σ × Own T) Unit) (s, o) _ _ _
  by_cases hne : newDims ≠ []
  · rw [if_pos hne]
    refine M.postA_bind (M.post_lift ?_ ?_)
    rotate_left
    · intro hn
      refine ⟨xs, [], [], .inl calls_nil, h, by simp, by simp, rfl, .inl rfl, .inl ⟨.inr (.inl fun hno => ?_), rfl⟩⟩
      rw [Shape.checkedLen_eq, if_pos hno] at hn
      cases hn
    intro newLen hlen
    rw [Shape.checkedLen_eq] at hlen
    split at hlen
    rotate_left
    · cases hlen
    injection hlen with hlen
    subst hlen
    show M.PostA (M.onPanic _ (partsGuard bad)) (s, parts o) _ _ _
    refine M.PostA.onPanic' (M.PostA.mono' (Q := fun _ _ => True)
      (R := Stuck bad f (ResizeFails o newDims f) (newDims ≠ o.shape.dims) xs s (parts o))
      (A := TwoPanics bad f (ResizeFails o newDims f) xs s) (M.PostA.bind' (M.PostA.mono'
        (postA_resizeVec (o := parts o) hf ?_ (parts_vec h) h.2.1 hr hne) ?_ (fun _ h => h) fun h => h))
      (fun _ _ h => h) ?_ .inr)
    · exact fun hc => hc.elim (fun h => .inr (.inr (.inl h))) fun h => .inr (.inr (.inr (.inr h)))
    · rintro - ⟨t, o2⟩ ⟨ys, zs, dr, a1, a2, a3, a4, a5, a6⟩
      refine M.Post.postA' (post_setShape (fun _ _ => trivial) fun hn => ?_)
      refine ⟨ys, zs, dr, .inl a1, a2, a3, a4, .inl ⟨a6, .inr (.inr (.inr (.inl fun hc => ?_)))⟩⟩
      have hsh : o2.shape = o.shape := a3.shape
      have hwm : (o2.shape.withMutDims fun dims => Shape.copyFromSlice dims newDims) =
          if o.shape.ty.Conforms newDims then some ⟨o.shape.ty, newDims⟩ else none := by
        rw [hsh, Shape.withMutDims_eq]
        unfold Shape.copyFromSlice
        rw [if_pos (show o.shape.dims.length = newDims.length from hr.symm)]
        rfl
      rw [hwm, if_pos hc] at hn
      cases hn
    · rintro ⟨t, o'⟩ ⟨ys, zs, dr, a1, a2, a3, a4, a5⟩
      have hsh : o'.shape = o.shape := a3.shape
      have hc := a4.countP_eq bad
      rw [List.countP_append] at hc
      refine partsGuard_drops a2 (fun hy => ?_) (fun _ _ hz o2 b1 b2 b3 b4 => ?_) (fun _ _ hz => ?_) fun _ hd => ?_
      · exact ⟨ys, zs, dr, a1, a2.holds (by rw [hsh]; exact h.1) hy, a3.log, a4, a3.limit, .inl hsh,
          a5.imp (fun h => ⟨h.2, h.1⟩) fun h => h.1⟩
      · refine ⟨[], zs, dr ++ ys, a1, b1, ?_, by simpa using a4, b4.trans a3.limit, .inr (by rw [b3, hsh]), ?_⟩
        · rw [b2, a3.log, List.append_assoc]; rfl
        · rw [List.countP_append, hz, Nat.add_zero]
          exact a5.imp (fun h => ⟨h.2, h.1⟩) fun h => h.1
      · refine .inr ⟨zs, _, a1, ?_⟩
        rw [← hc]
        rcases a5 with ⟨a5, hF⟩ | a5
        · exact .inr ⟨hF, by omega⟩
        · exact .inl (by omega)
      · rw [hsh] at hd
        refine .inl ⟨hd, a5.elim (fun h => h.2) fun h' => .inr (.inr (.inr (.inl fun hc => h'.2 ?_)))⟩
        rw [Shape.default_unique hd hc, Shape.default_unique hd h.1]
  · rw [if_neg hne]
    exact M.Post.postA' (M.post_of_eq rfl trivial)

end Unwind
end Model
