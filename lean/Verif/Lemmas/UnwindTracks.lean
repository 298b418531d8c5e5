import Verif.Lemmas.UnwindNone

/-! Destructors that panic in `resize_with` and `clone_from`: the results. -/

namespace Model
open Spec

section
variable {ρ α β σ T : Type} {count : ρ → Nat}

/-- `y` is `x` with destructors that panic: the outcome is the same as long as none does. -/
structure Tracks (count : ρ → Nat) (y x : M ρ α) : Prop where
  ok : ∀ s a t, y s = .ok a t → x s = .ok a t ∧ count t = count s
  same : ∀ s a t, x s = .ok a t → count t = count s → y s = .ok a t
  panic : ∀ s t, x s = .panic t → count t = count s → y s = .panic t

/-- Undefined behaviour of `y` is also one of `x`. -/
def UbOnly (y x : M ρ α) : Prop := ∀ s, y s = .ub → x s = .ub

theorem Keeps.tracks {x : M ρ α} (h : Keeps count x) : Tracks count x x where
  ok s a t hx := ⟨hx, by have := h s; rw [hx] at this; exact this⟩
  same _ _ _ h _ := h
  panic _ _ h _ := h

theorem ubOnly_refl (x : M ρ α) : UbOnly x x := fun _ h => h

theorem After.ubOnly {y x : M ρ α} (h : After count y x) : UbOnly y x := by
  intro s hy
  by_contra hx
  rw [h s hx] at hy
  cases hr : x s with
  | ok a t => rw [hr] at hy; simp only [withDestructors] at hy; split at hy <;> [cases hy; (split at hy <;> cases hy)]
  | panic t => rw [hr] at hy; simp only [withDestructors] at hy; split at hy <;> cases hy
  | ub => exact hx hr
  | abort => rw [hr] at hy; cases hy

theorem After.tracks {y x : M ρ α} (h : After count y x) (hu : ∀ s, x s = .ub → y s = .ub) :
    Tracks count y x where
  ok s a t hy := by
    by_cases hx : x s = .ub
    · rw [hu s hx] at hy; cases hy
    rw [h s hx] at hy
    cases hr : x s with
    | ok b u =>
      rw [hr] at hy
      simp only [withDestructors] at hy
      split at hy
      · rename_i hc
        injection hy with h1 h2
        subst h1 h2
        exact ⟨rfl, hc⟩
      · split at hy <;> cases hy
    | panic t => rw [hr] at hy; simp only [withDestructors] at hy; split at hy <;> cases hy
    | ub => exact absurd hr hx
    | abort => rw [hr] at hy; cases hy
  same s a t hx hc := by
    rw [h s (by rw [hx]; simp), hx]
    simp only [withDestructors, if_pos hc]
  panic s t hx hc := by
    rw [h s (by rw [hx]; simp), hx]
    simp only [withDestructors, if_pos hc]

theorem bind_ok {x : M ρ α} {k : α → M ρ β} {s u : ρ} {b : β} :
    M.bind x k s = .ok b u ↔ ∃ a t, x s = .ok a t ∧ k a t = .ok b u := by
  unfold M.bind
  cases hx : x s with
  | ok a t =>
    constructor
    · intro h; exact ⟨a, t, rfl, h⟩
    · rintro ⟨a', t', h1, h2⟩; injection h1 with e1 e2; subst e1 e2; exact h2
  | _ => simp

theorem bind_panic {x : M ρ α} {k : α → M ρ β} {s u : ρ} :
    M.bind x k s = .panic u ↔ x s = .panic u ∨ ∃ a t, x s = .ok a t ∧ k a t = .panic u := by
  unfold M.bind
  cases hx : x s with
  | ok a t =>
    constructor
    · intro h; exact .inr ⟨a, t, rfl, h⟩
    · rintro (h | ⟨a', t', h1, h2⟩)
      · cases h
      · injection h1 with e1 e2; subst e1 e2; exact h2
  | _ => simp

theorem bind_ub {x : M ρ α} {k : α → M ρ β} {s : ρ} :
    M.bind x k s = .ub ↔ x s = .ub ∨ ∃ a t, x s = .ok a t ∧ k a t = .ub := by
  unfold M.bind
  cases hx : x s with
  | ok a t =>
    constructor
    · intro h; exact .inr ⟨a, t, rfl, h⟩
    · rintro (h | ⟨a', t', h1, h2⟩)
      · cases h
      · injection h1 with e1 e2; subst e1 e2; exact h2
  | _ => simp

theorem onPanic_ok {x : M ρ α} {g : M ρ Unit} {s u : ρ} {a : α} :
    M.onPanic x g s = .ok a u ↔ x s = .ok a u := by
  unfold M.onPanic
  cases hx : x s with
  | panic t => simp only; cases hg : g t <;> simp
  | _ => simp

theorem onPanic_panic {x : M ρ α} {g : M ρ Unit} {s u : ρ} :
    M.onPanic x g s = .panic u ↔ ∃ t, x s = .panic t ∧ g t = .ok () u := by
  unfold M.onPanic
  cases hx : x s with
  | panic t =>
    simp only
    cases hg : g t with
    | ok a v =>
      constructor
      · intro h; injection h with h; subst h; exact ⟨t, rfl, hg⟩
      · rintro ⟨t', h1, h2⟩
        injection h1 with h1; subst h1
        rw [hg] at h2; injection h2 with _ h2; subst h2; rfl
    | _ =>
      constructor
      · intro h; cases h
      · rintro ⟨t', h1, h2⟩
        injection h1 with h1; subst h1
        rw [hg] at h2; cases h2
  | _ => simp

theorem Mono.ok_le {x : M ρ α} (h : Mono count x) {s t : ρ} {a : α} (hx : x s = .ok a t) :
    count s ≤ count t := by
  have := h s; rw [hx] at this; exact this

theorem Mono.panic_le {x : M ρ α} (h : Mono count x) {s t : ρ} (hx : x s = .panic t) :
    count s ≤ count t := by
  have := h s; rw [hx] at this; exact this

theorem Tracks.bind {y x : M ρ α} {k' k : α → M ρ β} (h : Tracks count y x) (hm : Mono count x)
    (hk : ∀ a, Tracks count (k' a) (k a)) (hkm : ∀ a, Mono count (k a)) :
    Tracks count (M.bind y k') (M.bind x k) where
  ok s b u hy := by
    obtain ⟨a, t, h1, h2⟩ := bind_ok.1 hy
    obtain ⟨h3, h4⟩ := h.ok _ _ _ h1
    obtain ⟨h5, h6⟩ := (hk a).ok _ _ _ h2
    exact ⟨bind_ok.2 ⟨a, t, h3, h5⟩, h6.trans h4⟩
  same s b u hx hc := by
    obtain ⟨a, t, h1, h2⟩ := bind_ok.1 hx
    have l1 := hm.ok_le h1
    have l2 := (hkm a).ok_le h2
    exact bind_ok.2 ⟨a, t, h.same _ _ _ h1 (by omega), (hk a).same _ _ _ h2 (by omega)⟩
  panic s u hx hc := by
    rcases bind_panic.1 hx with h1 | ⟨a, t, h1, h2⟩
    · exact bind_panic.2 (.inl (h.panic _ _ h1 hc))
    · have l1 := hm.ok_le h1
      have l2 := (hkm a).panic_le h2
      exact bind_panic.2 (.inr ⟨a, t, h.same _ _ _ h1 (by omega), (hk a).panic _ _ h2 (by omega)⟩)

theorem UbOnly.bind {y x : M ρ α} {k' k : α → M ρ β} (h : UbOnly y x) (ht : Tracks count y x)
    (hk : ∀ a, UbOnly (k' a) (k a)) : UbOnly (M.bind y k') (M.bind x k) := by
  intro s hy
  rcases bind_ub.1 hy with h1 | ⟨a, t, h1, h2⟩
  · exact bind_ub.2 (.inl (h s h1))
  · exact bind_ub.2 (.inr ⟨a, t, (ht.ok _ _ _ h1).1, hk a t h2⟩)

theorem Tracks.onPanic {y x : M ρ α} {g' g : M ρ Unit} (h : Tracks count y x) (hm : Mono count x)
    (hg : Tracks count g' g) (hgm : Mono count g) : Tracks count (M.onPanic y g') (M.onPanic x g) where
  ok s a t hy := by
    rw [onPanic_ok] at hy ⊢
    exact h.ok _ _ _ hy
  same s a t hx hc := by
    rw [onPanic_ok] at hx ⊢
    exact h.same _ _ _ hx hc
  panic s u hx hc := by
    rw [onPanic_panic] at hx ⊢
    obtain ⟨t, h1, h2⟩ := hx
    have l1 := hm.panic_le h1
    have l2 := hgm.ok_le h2
    exact ⟨t, h.panic _ _ h1 (by omega), hg.same _ _ _ h2 (by omega)⟩

theorem Tracks.scope {y x : M (ρ × σ) α} (h : Tracks (fun s => count s.1) y x) (init : σ) :
    Tracks count (M.scope init y) (M.scope init x) where
  ok s a t hy := by
    unfold M.scope at hy ⊢
    cases hr : y (s, init) with
    | ok b u =>
      obtain ⟨h1, h2⟩ := h.ok _ _ _ hr
      rw [hr] at hy
      rw [h1]
      simp only at hy ⊢
      injection hy with e1 e2
      subst e1 e2
      exact ⟨rfl, h2⟩
    | _ => rw [hr] at hy; cases hy
  same s a t hx hc := by
    unfold M.scope at hx ⊢
    cases hr : x (s, init) with
    | ok b u =>
      rw [hr] at hx
      simp only at hx
      injection hx with e1 e2
      subst e1 e2
      rw [h.same _ _ _ hr hc]
    | _ => rw [hr] at hx; cases hx
  panic s t hx hc := by
    unfold M.scope at hx ⊢
    cases hr : x (s, init) with
    | panic u =>
      rw [hr] at hx
      simp only at hx
      injection hx with e2
      subst e2
      rw [h.panic _ _ hr hc]
    | _ => rw [hr] at hx; cases hx

theorem mono_scope {x : M (ρ × σ) α} (h : Mono (fun s => count s.1) x) (init : σ) :
    Mono count (M.scope init x) := by
  intro s
  have := h (s, init)
  unfold M.scope
  cases hx : x (s, init) <;> simp only [hx] at this ⊢
  · exact this
  · exact this

theorem tracks_repeatM {y x : M ρ Unit} (h : Tracks count y x) (hm : Mono count x) (n : Nat) :
    Tracks count (repeatM n y) (repeatM n x) ∧ Mono count (repeatM n x) := by
  induction n with
  | zero => exact ⟨(keeps_pure ()).tracks, (keeps_pure ()).mono⟩
  | succ n ih => exact ⟨h.bind hm (fun _ => ih.1) fun _ => ih.2, hm.bind fun _ => ih.2⟩

theorem ubOnly_repeatM {y x : M ρ Unit} (h : UbOnly y x) (ht : Tracks count y x) (n : Nat) :
    UbOnly (repeatM n y) (repeatM n x) := by
  induction n with
  | zero => exact ubOnly_refl _
  | succ n ih => exact h.bind ht fun _ => ih

end

namespace Unwind
variable {σ T α : Type} {bad : T → Bool} {e : σ → Nat}

theorem tracks_dropCells (pos n : Nat) :
    Tracks (cnt bad e) (dropCells bad pos n) (Model.dropCells pos n : M (σ × Own T) Unit) :=
  (after_dropCells pos n).tracks fun s h => by
    unfold dropCells M.bind
    rw [h]

theorem tracks_vecTruncate (n : Nat) :
    Tracks (cnt bad e) (vecTruncate bad n) (Model.vecTruncate n : M (σ × Own T) Unit) ∧
      Mono (cnt bad e) (Model.vecTruncate n : M (σ × Own T) Unit) := by
  unfold vecTruncate Model.vecTruncate
  have hk : ∀ o : Own T, Tracks (cnt bad e)
      (if n ≤ o.len then M.bind (upd fun o => { o with len := n }) fun _ => dropCells bad n (o.len - n)
        else M.pure () : M (σ × Own T) Unit)
      (if n ≤ o.len then M.bind (upd fun o => { o with len := n }) fun _ => Model.dropCells n (o.len - n)
        else M.pure ()) ∧ Mono (cnt bad e)
      (if n ≤ o.len then M.bind (upd fun o => { o with len := n }) fun _ => Model.dropCells n (o.len - n)
        else M.pure () : M (σ × Own T) Unit) := by
    intro o
    split
    · have hk : Keeps (cnt bad e) (upd fun o => { o with len := n } : M (σ × Own T) Unit) :=
        keeps_upd fun _ => rfl
      exact ⟨hk.tracks.bind hk.mono (fun _ => tracks_dropCells _ _) fun _ => mono_dropCells _ _,
        hk.mono.bind fun _ => mono_dropCells _ _⟩
    · exact ⟨(keeps_pure _).tracks, (keeps_pure _).mono⟩
  exact ⟨keeps_own.tracks.bind keeps_own.mono (fun o => (hk o).1) fun o => (hk o).2,
    keeps_own.mono.bind fun o => (hk o).2⟩

theorem tracks_vecClear :
    Tracks (cnt bad e) (vecClear bad) (Model.vecClear : M (σ × Own T) Unit) ∧
      Mono (cnt bad e) (Model.vecClear : M (σ × Own T) Unit) := by
  unfold vecClear Model.vecClear
  have hk : Keeps (cnt bad e) (upd fun o => { o with len := 0 } : M (σ × Own T) Unit) :=
    keeps_upd fun _ => rfl
  exact ⟨keeps_own.tracks.bind keeps_own.mono (fun o => hk.tracks.bind hk.mono
      (fun _ => tracks_dropCells _ _) fun _ => mono_dropCells _ _) fun o =>
        hk.mono.bind fun _ => mono_dropCells _ _,
    keeps_own.mono.bind fun o => hk.mono.bind fun _ => mono_dropCells _ _⟩

theorem keeps_repeatM {ρ : Type} {count : ρ → Nat} {x : M ρ Unit} (h : Keeps count x) (n : Nat) :
    Keeps count (repeatM n x) := by
  induction n with
  | zero => exact keeps_pure ()
  | succ n ih => exact h.bind fun _ => ih

theorem tracks_vecResizeWith (n : Nat) {f : M σ T} (hf : Keeps e f) :
    Tracks (cnt bad e) (vecResizeWith bad n f) (Model.vecResizeWith n f) ∧
      Mono (cnt bad e) (Model.vecResizeWith n f) := by
  unfold vecResizeWith Model.vecResizeWith
  have hk : ∀ o : Own T, Tracks (cnt bad e)
      (if o.len < n then M.bind (vecReserve (n - o.len)) fun _ =>
          repeatM (n - o.len) (M.bind (M.up f) vecAppend) else vecTruncate bad n : M (σ × Own T) Unit)
      (if o.len < n then M.bind (vecReserve (n - o.len)) fun _ =>
          repeatM (n - o.len) (M.bind (M.up f) vecAppend) else Model.vecTruncate n : M (σ × Own T) Unit) ∧
      Mono (cnt bad e) (if o.len < n then M.bind (vecReserve (n - o.len)) fun _ =>
          repeatM (n - o.len) (M.bind (M.up f) vecAppend) else Model.vecTruncate n : M (σ × Own T) Unit) := by
    intro o
    split
    · have : Keeps (cnt bad e) (M.bind (vecReserve (n - o.len)) fun _ =>
          repeatM (n - o.len) (M.bind (M.up f) vecAppend) : M (σ × Own T) Unit) :=
        (keeps_vecReserve _).bind fun _ => keeps_repeatM ((keeps_upM hf).bind keeps_vecAppend) _
      exact ⟨this.tracks, this.mono⟩
    · exact tracks_vecTruncate n
  exact ⟨keeps_own.tracks.bind keeps_own.mono (fun o => (hk o).1) fun o => (hk o).2,
    keeps_own.mono.bind fun o => (hk o).2⟩

/-! Copying. -/

/-- The number of panics of destructors, with the local variables of `copy_dim`. -/
abbrev cntL (bad : T → Bool) (e : σ → Nat) (s : (σ × Own T) × Loc T) : Nat := cnt bad e s.1

theorem keeps_moveOld (n : Nat) : Keeps (cntL bad e) (moveOld n : M ((σ × Own T) × Loc T) Unit) := by
  intro s
  unfold moveOld
  split
  · rename_i h; dsimp only at h; split at h
    · injection h with _ h; subst h; rfl
    · cases h
  · rename_i h; dsimp only at h; split at h <;> cases h
  · trivial

theorem keeps_pushNew {f : M σ T} (hf : Keeps e f) : Keeps (cntL bad e) (pushNew f) := by
  unfold pushNew
  refine (keeps_up (v := cnt bad e) (keeps_upM hf) fun _ _ _ h => h).bind fun x => ?_
  intro s
  split
  · rename_i h; dsimp only at h; split at h
    · injection h with _ h; subst h; rfl
    · cases h
  · rename_i h; dsimp only at h; split at h <;> cases h
  · trivial

theorem tracks_dropOld (n : Nat) :
    Tracks (cntL bad e) (dropOld bad n) (Model.dropOld n : M ((σ × Own T) × Loc T) Unit) ∧
    Mono (cntL bad e) (Model.dropOld n : M ((σ × Own T) × Loc T) Unit) ∧
    UbOnly (dropOld bad n) (Model.dropOld n : M ((σ × Own T) × Loc T) Unit) := by
  have hA : After (cntL bad e) (dropOld bad n) (Model.dropOld n : M ((σ × Own T) × Loc T) Unit) := by
    intro s hub
    unfold dropOld Model.dropOld at *
    split
    · rename_i h
      rw [if_pos h] at hub
      exact after_up (count := cnt bad e) (w := cntL bad e) (e := fun _ => 0) (after_dropCells s.2.pos n)
        (fun _ => rfl) (s.1, { s.2 with pos := s.2.pos + n, cnt := s.2.cnt - n }) hub
    · rename_i h
      rw [if_neg h] at hub
      exact absurd rfl hub
  refine ⟨hA.tracks ?_, ?_, hA.ubOnly⟩
  · intro s hub
    unfold dropOld Model.dropOld at *
    split
    · rename_i h
      rw [if_pos h] at hub
      unfold M.up at hub ⊢
      simp only at hub ⊢
      cases hr : Model.dropCells s.2.pos n s.1 with
      | ub => unfold dropCells M.bind; rw [hr]
      | _ => rw [hr] at hub; cases hub
    · rfl
  · intro s
    unfold Model.dropOld
    by_cases h : n ≤ s.2.cnt
    · simp only [if_pos h]
      exact mono_up (count := cnt bad e) (w := cntL bad e) (e := fun _ => 0) (mono_dropCells s.2.pos n)
        (fun _ => rfl) (s.1, { s.2 with pos := s.2.pos + n, cnt := s.2.cnt - n })
    · simp only [if_neg h]

theorem tracks_copyDim {f : M σ T} (hf : Keeps e f) (ods nds : List Nat) :
    Tracks (cntL bad e) (copyDim bad f ods nds) (Model.copyDim f ods nds) ∧
    Mono (cntL bad e) (Model.copyDim f ods nds) ∧
    UbOnly (copyDim bad f ods nds) (Model.copyDim f ods nds) := by
  induction ods generalizing nds with
  | nil => exact ⟨keeps_panic.tracks, keeps_panic.mono, ubOnly_refl _⟩
  | cons od ods ih =>
    cases nds with
    | nil => exact ⟨keeps_panic.tracks, keeps_panic.mono, ubOnly_refl _⟩
    | cons nd nds =>
      obtain ⟨i1, i2, i3⟩ := ih nds
      have h1 : Tracks (cntL bad e)
          (if 0 < ods.length then repeatM (min od nd) (copyDim bad f ods nds) else moveOld (min od nd))
          (if 0 < ods.length then repeatM (min od nd) (Model.copyDim f ods nds) else moveOld (min od nd)) ∧
          Mono (cntL bad e) (if 0 < ods.length then repeatM (min od nd) (Model.copyDim f ods nds)
            else moveOld (min od nd)) ∧
          UbOnly (if 0 < ods.length then repeatM (min od nd) (copyDim bad f ods nds) else moveOld (min od nd))
          (if 0 < ods.length then repeatM (min od nd) (Model.copyDim f ods nds) else moveOld (min od nd)) := by
        split
        · exact ⟨(tracks_repeatM i1 i2 _).1, (tracks_repeatM i1 i2 _).2, ubOnly_repeatM i3 i1 _⟩
        · exact ⟨(keeps_moveOld _).tracks, (keeps_moveOld _).mono, ubOnly_refl _⟩
      have h2 : ∀ n, Tracks (cntL bad e)
          (if min od nd < od then dropOld bad n else M.pure () : M ((σ × Own T) × Loc T) Unit)
          (if min od nd < od then Model.dropOld n else M.pure ()) ∧
          Mono (cntL bad e) (if min od nd < od then Model.dropOld n else M.pure () : M ((σ × Own T) × Loc T) Unit) ∧
          UbOnly (if min od nd < od then dropOld bad n else M.pure () : M ((σ × Own T) × Loc T) Unit)
          (if min od nd < od then Model.dropOld n else M.pure ()) := by
        intro n
        split
        · exact tracks_dropOld n
        · exact ⟨(keeps_pure _).tracks, (keeps_pure _).mono, ubOnly_refl _⟩
      have h3 := fun n => keeps_repeatM (keeps_pushNew (bad := bad) hf) n
      unfold copyDim Model.copyDim
      have hm := fun n => (h2 n).2.1.bind fun _ => (h3 ((nd - min od nd) * nds.foldl (· * ·) 1)).mono
      refine ⟨h1.1.bind h1.2.1 (fun _ => (h2 _).1.bind (h2 _).2.1 (fun _ => (h3 _).tracks)
        fun _ => (h3 _).mono) fun _ => hm _, h1.2.1.bind fun _ => hm _,
        h1.2.2.bind h1.1 fun _ => (h2 _).2.2.bind (h2 _).1 fun _ => ubOnly_refl _⟩

theorem tracks_dropOldGuard :
    Tracks (cntL bad e) (dropOldGuard bad) (Model.dropOldGuard : M ((σ × Own T) × Loc T) Unit) ∧
    Mono (cntL bad e) (Model.dropOldGuard : M ((σ × Own T) × Loc T) Unit) := by
  have hA : After (cntL bad e) (dropOldGuard bad) (Model.dropOldGuard : M ((σ × Own T) × Loc T) Unit) :=
    fun s hub => after_up (count := cnt bad e) (w := cntL bad e) (e := fun _ => 0)
      (after_dropCells s.2.pos s.2.cnt) (fun _ => rfl) s hub
  refine ⟨hA.tracks ?_, ?_⟩
  · intro s hub
    unfold Model.dropOldGuard M.up at hub
    unfold dropOldGuard M.up
    cases hr : Model.dropCells s.2.pos s.2.cnt s.1 with
    | ub => unfold dropCells M.bind; rw [hr]
    | _ => rw [hr] at hub; cases hub
  · intro s
    exact mono_up (count := cnt bad e) (w := cntL bad e) (e := fun _ => 0) (mono_dropCells s.2.pos s.2.cnt)
        (fun _ => rfl) s

theorem tracks_dropNewVec :
    Tracks (cntL bad e) (dropNewVec bad) (Model.dropNewVec : M ((σ × Own T) × Loc T) Unit) ∧
    Mono (cntL bad e) (Model.dropNewVec : M ((σ × Own T) × Loc T) Unit) := by
  have hA : After (cntL bad e) (dropNewVec bad) (Model.dropNewVec : M ((σ × Own T) × Loc T) Unit) := by
    intro s hub
    unfold dropNewVec M.bind Model.dropNewVec at *
    simp only at hub ⊢
    split at hub
    · rename_i h
      simp only [if_pos h, withDestructors, finish_eq, cntL, cnt, List.countP_append, cnt_zero, cnt_one]
    · exact absurd rfl hub
  refine ⟨hA.tracks ?_, ?_⟩
  · intro s hub
    unfold dropNewVec M.bind
    rw [hub]
  · intro s
    unfold Model.dropNewVec
    split
    · rename_i h
      dsimp only at h
      split at h
      · injection h with _ h; subst h
        simp only [cntL, cnt, List.countP_append]; omega
      · cases h
    · rename_i h; dsimp only at h; split at h <;> cases h
    · trivial

theorem tracks_resizeCopy (newDims : List Nat) (newLen : Nat) {f : M σ T} (hf : Keeps e f) :
    Tracks (cnt bad e) (resizeCopy bad newDims newLen f) (Model.resizeCopy newDims newLen f) ∧
    Mono (cnt bad e) (Model.resizeCopy newDims newLen f) := by
  rw [resizeCopy_nested]
  unfold resizeCopy
  have hu : Keeps (cnt bad e) (upd fun o => { o with len := 0 } : M (σ × Own T) Unit) :=
    keeps_upd fun _ => rfl
  have hr : ∀ r : Unit × Loc T, Keeps (cnt bad e)
      (upd fun o => { o with cells := r.2.newCells, len := r.2.newLen } : M (σ × Own T) Unit) :=
    fun _ => keeps_upd fun _ => rfl
  have hc := fun ods => tracks_copyDim (bad := bad) hf ods newDims
  obtain ⟨g1, g2⟩ := tracks_dropOldGuard (σ := σ) (bad := bad) (e := e)
  obtain ⟨n1, n2⟩ := tracks_dropNewVec (σ := σ) (bad := bad) (e := e)
  have hin := fun ods => (((hc ods).1.onPanic (hc ods).2.1 g1 g2).bind ((hc ods).2.1.onPanic g2) (fun _ => g1)
    fun _ => g2)
  have hinm := fun ods => ((hc ods).2.1.onPanic g2).bind fun _ => g2
  have hs := fun ods init => ((hin ods).onPanic (hinm ods) n1 n2).scope (count := cnt bad e) init
  have hsm := fun ods init => mono_scope (count := cnt bad e) ((hinm ods).onPanic n2) init
  have hb := fun (o : Own T) => (keeps_lift (v := cnt (σ := σ) bad e) (check (newLen ≤ o.limit)))
  have h1 := fun (o : Own T) init => (hs o.shape.dims init).bind (hsm o.shape.dims init) (fun r => (hr r).tracks)
    fun r => (hr r).mono
  have h1m := fun (o : Own T) init => (hsm o.shape.dims init).bind fun r => (hr r).mono
  exact ⟨keeps_own.tracks.bind keeps_own.mono (fun o => (hb o).tracks.bind (hb o).mono
      (fun _ => hu.tracks.bind hu.mono (fun _ => h1 o _) fun _ => h1m o _) fun _ => hu.mono.bind fun _ => h1m o _)
      fun o => (hb o).mono.bind fun _ => hu.mono.bind fun _ => h1m o _,
    keeps_own.mono.bind fun o => (hb o).mono.bind fun _ => hu.mono.bind fun _ => h1m o _⟩

theorem tracks_resizeVec (newDims : List Nat) (newLen : Nat) {f : M σ T} (hf : Keeps e f) :
    Tracks (cnt bad e) (resizeVec bad newDims newLen f) (Model.resizeVec newDims newLen f) ∧
    Mono (cnt bad e) (Model.resizeVec newDims newLen f) := by
  unfold resizeVec Model.resizeVec
  have hk : ∀ o : Own T, Tracks (cnt bad e)
      (if newLen = 0 then vecClear bad else if newDims.tail = o.shape.dims.tail then vecResizeWith bad newLen f
        else resizeCopy bad newDims newLen f)
      (if newLen = 0 then Model.vecClear else if newDims.tail = o.shape.dims.tail then Model.vecResizeWith newLen f
        else Model.resizeCopy newDims newLen f) ∧ Mono (cnt bad e)
      (if newLen = 0 then Model.vecClear else if newDims.tail = o.shape.dims.tail then Model.vecResizeWith newLen f
        else Model.resizeCopy newDims newLen f) := by
    intro o
    split
    · exact tracks_vecClear
    · split
      · exact tracks_vecResizeWith _ hf
      · exact tracks_resizeCopy _ _ hf
  exact ⟨keeps_own.tracks.bind keeps_own.mono (fun o => (hk o).1) fun o => (hk o).2,
    keeps_own.mono.bind fun o => (hk o).2⟩

theorem tracks_partsGuard :
    Tracks (cnt bad e) (partsGuard bad) (Model.partsGuard : M (σ × Own T) Unit) := by
  unfold partsGuard Model.partsGuard
  simp only [M.bind_eq, M.pure_eq]
  have hu : Keeps (cnt bad e) (upd fun o => { o with shape := Shape.default o.shape.ty } : M (σ × Own T) Unit) :=
    keeps_upd fun _ => rfl
  have hb := fun (o : Own T) => (keeps_lift (v := cnt (σ := σ) bad e) (check ((Shape.default o.shape.ty).len = 0)))
  refine keeps_own.tracks.bind keeps_own.mono (fun o => ?_) fun o => ?_
  · split
    · exact (hb o).tracks.bind (hb o).mono (fun _ => hu.tracks.bind hu.mono (fun _ => tracks_dropCells _ _)
        fun _ => mono_dropCells _ _) fun _ => hu.mono.bind fun _ => mono_dropCells _ _
    · exact (keeps_pure _).tracks
  · split
    · exact (hb o).mono.bind fun _ => hu.mono.bind fun _ => mono_dropCells _ _
    · exact (keeps_pure _).mono

theorem tracks_withMutParts {y x : M (σ × Own T) α} (h : Tracks (cnt bad e) y x) (hm : Mono (cnt bad e) x) :
    Tracks (cnt bad e) (withMutParts bad y) (Model.withMutParts x) ∧
    Mono (cnt bad e) (Model.withMutParts x) := by
  unfold withMutParts Model.withMutParts
  simp only [M.bind_eq]
  have hu : Keeps (cnt bad e) (upd fun o => { o with len := o.shape.len } : M (σ × Own T) Unit) :=
    keeps_upd fun _ => rfl
  exact ⟨hu.tracks.bind hu.mono (fun _ => h.onPanic hm tracks_partsGuard mono_partsGuard)
    fun _ => hm.onPanic mono_partsGuard, hu.mono.bind fun _ => hm.onPanic mono_partsGuard⟩

theorem tracks_resizeWith (newDims : List Nat) {f : M σ T} (hf : Keeps e f) :
    Tracks (cnt bad e) (resizeWith bad newDims f) (Model.resizeWith newDims f) := by
  unfold resizeWith Model.resizeWith
  have hb := fun (o : Own T) => (keeps_lift (v := cnt (σ := σ) bad e) (check (newDims.length = o.shape.rank)))
  have hl := keeps_lift (v := cnt (σ := σ) bad e) (Shape.checkedLen ⟨.dynRank, newDims⟩)
  have hw := fun newLen => tracks_withMutParts
    ((tracks_resizeVec (bad := bad) newDims newLen hf).1.bind (tracks_resizeVec newDims newLen hf).2
      (fun _ => (keeps_setShape fun s => s.withMutDims fun dims => Shape.copyFromSlice dims newDims).tracks)
      fun _ => (keeps_setShape _).mono)
    ((tracks_resizeVec newDims newLen hf).2.bind fun _ => (keeps_setShape _).mono)
  refine keeps_own.tracks.bind keeps_own.mono (fun o => (hb o).tracks.bind (hb o).mono (fun _ => ?_) fun _ => ?_)
    fun o => (hb o).mono.bind fun _ => ?_
  · split
    · exact hl.tracks.bind hl.mono (fun n => (hw n).1) fun n => (hw n).2
    · exact (keeps_pure _).tracks
  · split
    · exact hl.mono.bind fun n => (hw n).2
    · exact (keeps_pure _).mono
  · split
    · exact hl.mono.bind fun n => (hw n).2
    · exact (keeps_pure _).mono

/-! Cloning. -/

theorem tracks_cloneSlice {c : T → M σ T} (hc : ∀ y, Keeps e (c y)) (pos : Nat) (l : List T) :
    Tracks (cnt bad e) (cloneSlice bad c pos l) (Model.cloneSlice c pos l) ∧
    Mono (cnt bad e) (Model.cloneSlice c pos l) := by
  induction l generalizing pos with
  | nil => exact ⟨(keeps_pure ()).tracks, (keeps_pure ()).mono⟩
  | cons y l ih =>
    have hu := keeps_upM (bad := bad) (hc y)
    have hw := fun x => keeps_writeCell (σ := σ) (bad := bad) (e := e) pos x
    have hd : ∀ x, Tracks (cnt bad e) (M.onPanic (dropCells bad pos 1) (writeCell pos x))
        (Model.dropCells pos 1 : M (σ × Own T) Unit) := by
      intro x
      rw [← M.onPanic_never (dropCells_not_panic pos 1) (writeCell pos x)]
      exact (tracks_dropCells pos 1).onPanic (mono_dropCells pos 1) (hw x).tracks (hw x).mono
    have hk := fun x => (hw x).tracks.bind (hw x).mono (fun _ => (ih (pos + 1)).1) fun _ => (ih (pos + 1)).2
    have hkm := fun x => (hw x).mono.bind fun _ => (ih (pos + 1)).2
    unfold cloneSlice Model.cloneSlice
    exact ⟨hu.tracks.bind hu.mono (fun x => (hd x).bind (mono_dropCells _ _) (fun _ => hk x) fun _ => hkm x)
      fun x => (mono_dropCells _ _).bind fun _ => hkm x,
      hu.mono.bind fun x => (mono_dropCells _ _).bind fun _ => hkm x⟩

theorem keeps_foldlM {ρ β : Type} {count : ρ → Nat} {f : β → M ρ Unit} (h : ∀ y, Keeps count (f y)) (l : List β) :
    Keeps count (l.foldlM (fun _ y => f y) ()) := by
  induction l with
  | nil => exact keeps_pure ()
  | cons y l ih => exact (h y).bind fun _ => ih

theorem tracks_vecCloneFrom (src : List T) {c : T → M σ T} (hc : ∀ y, Keeps e (c y)) :
    Tracks (cnt bad e) (vecCloneFrom bad src c) (Model.vecCloneFrom src c) ∧
    Mono (cnt bad e) (Model.vecCloneFrom src c) := by
  obtain ⟨t1, t2⟩ := tracks_vecTruncate (σ := σ) (bad := bad) (e := e) src.length
  have h1 := fun n => tracks_cloneSlice (bad := bad) hc 0 (src.take n)
  have h2 : ∀ n, Keeps (cnt bad e) (M.bind (vecReserve (src.length - n)) fun _ =>
        (src.drop n).foldlM (fun _ y => M.bind (M.up (c y)) vecAppend) () : M (σ × Own T) Unit) :=
    fun n => (keeps_vecReserve _).bind fun _ => keeps_foldlM (fun y => (keeps_upM (hc y)).bind keeps_vecAppend) _
  unfold vecCloneFrom Model.vecCloneFrom
  simp only [M.bind_eq]
  have hk := fun n => (h1 n).1.bind (h1 n).2 (fun _ => (h2 n).tracks) fun _ => (h2 n).mono
  have hkm := fun n => (h1 n).2.bind fun _ => (h2 n).mono
  exact ⟨t1.bind t2 (fun _ => keeps_own.tracks.bind keeps_own.mono (fun o => hk o.len) fun o => hkm o.len)
    fun _ => keeps_own.mono.bind fun o => hkm o.len, t2.bind fun _ => keeps_own.mono.bind fun o => hkm o.len⟩

theorem tracks_cloneFrom (src : List T) (sh : Shape) {c : T → M σ T} (hc : ∀ y, Keeps e (c y)) :
    Tracks (cnt bad e) (cloneFrom bad src sh c) (Model.cloneFrom src sh c) := by
  have hu : Keeps (cnt bad e) (upd fun o => { o with shape := sh } : M (σ × Own T) Unit) :=
    keeps_upd fun _ => rfl
  obtain ⟨h1, h2⟩ := tracks_vecCloneFrom (bad := bad) src hc
  unfold cloneFrom Model.cloneFrom
  simp only [M.bind_eq]
  exact (tracks_withMutParts (h1.bind h2 (fun _ => hu.tracks) fun _ => hu.mono) (h2.bind fun _ => hu.mono)).1

end Unwind
end Model
