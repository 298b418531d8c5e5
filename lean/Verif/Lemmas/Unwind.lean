import Verif.Model.Unwind
import Verif.Spec.Unwind
import Verif.Lemmas.Keeps
import Verif.Lemmas.Drain

/-! Lemmas on destructors that panic: operations with the same final state. -/

namespace Model
open Spec

section
variable {ρ α β σ T : Type} {count : ρ → Nat}

/-- `y` is `x` with destructors that panic. -/
def After (count : ρ → Nat) (y x : M ρ α) : Prop :=
  ∀ s, x s ≠ .ub → y s = withDestructors count (count s) (x s)

/-- A result means that no destructor panicked. -/
def QuietOk (count : ρ → Nat) (x : M ρ α) : Prop := ∀ s a t, x s = .ok a t → count t = count s

/-- The number of panics does not decrease. -/
def Mono (count : ρ → Nat) (x : M ρ α) : Prop :=
  ∀ s, match x s with
    | .ok _ t => count s ≤ count t
    | .panic t => count s ≤ count t
    | _ => True

/-- Not a result. -/
def Fails (r : Res ρ α) : Prop := r = .abort ∨ ∃ t, r = .panic t

/-- `y` is `x` with destructors that panic, and is used when unwinding. -/
def AfterH (count : ρ → Nat) (y x : M ρ α) : Prop :=
  ∀ s, match x s with
    | .ok a t => (count t = count s → y s = .ok a t) ∧ (count t ≠ count s → Fails (y s))
    | .ub => True
    | _ => Fails (y s)

theorem Keeps.quietOk {x : M ρ α} (h : Keeps count x) : QuietOk count x := by
  intro s a t hx
  have := h s
  rw [hx] at this
  exact this

theorem Keeps.mono {x : M ρ α} (h : Keeps count x) : Mono count x := by
  intro s
  have := h s
  cases hx : x s <;> simp only [hx] at this ⊢
  · exact this.ge
  · exact this.ge

theorem Keeps.after {x : M ρ α} (h : Keeps count x) : After count x x := by
  intro s hub
  have := h s
  cases hx : x s with
  | ok a t =>
    rw [hx] at this
    simp only [withDestructors, if_pos (show count t = count s from this)]
  | panic t =>
    rw [hx] at this
    simp only [withDestructors, if_pos (show count t = count s from this)]
  | ub => rfl
  | abort => rfl

theorem QuietOk.bind {x : M ρ α} {f : α → M ρ β} (h : QuietOk count x) (hf : ∀ a, QuietOk count (f a)) :
    QuietOk count (M.bind x f) := by
  intro s b t hb
  unfold M.bind at hb
  cases hx : x s with
  | ok a u => rw [hx] at hb; exact (hf a u b t hb).trans (h s a u hx)
  | panic u => rw [hx] at hb; cases hb
  | ub => rw [hx] at hb; cases hb
  | abort => rw [hx] at hb; cases hb

theorem QuietOk.onPanic {x : M ρ α} {g : M ρ Unit} (h : QuietOk count x) :
    QuietOk count (M.onPanic x g) := by
  intro s b t hb
  unfold M.onPanic at hb
  cases hx : x s with
  | ok a u => rw [hx] at hb; simp only at hb; rw [← hx] at hb; exact h s b t hb
  | panic u => rw [hx] at hb; simp only at hb; cases hg : g u <;> rw [hg] at hb <;> cases hb
  | ub => rw [hx] at hb; cases hb
  | abort => rw [hx] at hb; cases hb

theorem Mono.bind {x : M ρ α} {f : α → M ρ β} (h : Mono count x) (hf : ∀ a, Mono count (f a)) :
    Mono count (M.bind x f) := by
  intro s
  have h1 := h s
  unfold M.bind
  cases hx : x s with
  | ok a t =>
    rw [hx] at h1
    have h2 := hf a t
    simp only at h1 ⊢
    cases hy : f a t <;> simp only [hy] at h2 ⊢
    · exact h1.trans h2
    · exact h1.trans h2
  | panic t => rw [hx] at h1; exact h1
  | ub => trivial
  | abort => trivial

theorem After.afterH {y x : M ρ α} (h : After count y x) (hm : Mono count x) : AfterH count y x := by
  intro s
  have h1 := h s
  have h2 := hm s
  cases hx : x s with
  | ok a t =>
    rw [hx] at h1 h2
    rw [h1 (by simp)]
    simp only [withDestructors] at h2 ⊢
    refine ⟨fun e => if_pos e, fun e => ?_⟩
    rw [if_neg e]
    split
    · exact .inr ⟨_, rfl⟩
    · exact .inl rfl
  | panic t =>
    rw [hx] at h1
    simp only
    rw [h1 (by simp)]
    simp only [withDestructors]
    split
    · exact .inr ⟨_, rfl⟩
    · exact .inl rfl
  | ub => trivial
  | abort =>
    rw [hx] at h1
    simp only
    rw [h1 (by simp)]
    exact .inl rfl

theorem fails_bind {y : M ρ α} {k : α → M ρ β} {s : ρ} (h : Fails (y s)) : Fails (M.bind y k s) := by
  rcases h with h | ⟨t, h⟩
  · exact .inl (by unfold M.bind; rw [h])
  · exact .inr ⟨t, by unfold M.bind; rw [h]⟩

theorem AfterH.bind {y x : M ρ α} {k' k : α → M ρ β} (h : AfterH count y x) (hm : Mono count x)
    (hk : ∀ a, AfterH count (k' a) (k a)) (hkm : ∀ a, Mono count (k a)) :
    AfterH count (M.bind y k') (M.bind x k) := by
  intro s
  have h1 := h s
  have h2 := hm s
  have e : M.bind x k s = match x s with
    | .ok a t => k a t
    | .panic t => .panic t
    | .ub => .ub
    | .abort => .abort := by unfold M.bind; cases x s <;> rfl
  rw [e]
  cases hx : x s with
  | ok a t =>
    rw [hx] at h1 h2
    simp only at h1 h2 ⊢
    have h3 := hk a t
    have h4 := hkm a t
    by_cases hc : count t = count s
    · have e2 : M.bind y k' s = k' a t := by unfold M.bind; rw [h1.1 hc]
      rw [e2]
      cases hy : k a t with
      | ok b u =>
        rw [hy] at h3
        simp only at h3 ⊢
        rw [← hc]; exact h3
      | panic u => rw [hy] at h3; exact h3
      | ub => trivial
      | abort => rw [hy] at h3; exact h3
    · have hf := fails_bind (k := k') (h1.2 hc)
      cases hy : k a t with
      | ok b u =>
        rw [hy] at h4
        simp only at h4 ⊢
        exact ⟨fun e => by omega, fun _ => hf⟩
      | panic u => exact hf
      | ub => trivial
      | abort => exact hf
  | panic t => rw [hx] at h1; exact fails_bind h1
  | ub => trivial
  | abort => rw [hx] at h1; exact fails_bind h1

theorem After.bind {y x : M ρ α} {k' k : α → M ρ β} (h : After count y x) (hq : QuietOk count x)
    (hk : ∀ a, After count (k' a) (k a)) : After count (M.bind y k') (M.bind x k) := by
  intro s hub
  have h1 := h s
  have e : ∀ {γ : Type} (z : M ρ α) (k : α → M ρ γ), M.bind z k s = match z s with
    | .ok a t => k a t
    | .panic t => .panic t
    | .ub => .ub
    | .abort => .abort := by intro γ z k; unfold M.bind; cases z s <;> rfl
  rw [e] at hub
  rw [e, e]
  cases hx : x s with
  | ok a t =>
    rw [hx] at h1 hub
    have hc := hq s a t hx
    rw [h1 (by simp)]
    simp only [withDestructors, if_pos hc]
    simp only at hub
    rw [hk a t hub, hc]
    rfl
  | panic t =>
    rw [hx] at h1
    rw [h1 (by simp)]
    simp only [withDestructors]
    by_cases hc : count t = count s
    · simp only [if_pos hc]
    · simp only [if_neg hc]
  | ub => rw [hx] at hub; exact absurd rfl hub
  | abort =>
    rw [hx] at h1
    rw [h1 (by simp)]
    rfl

/-- Only the last part drops elements. -/
theorem After.map {y x : M ρ α} (h : After count y x) (f : α → β) :
    After count (M.bind y fun a => M.pure (f a)) (M.bind x fun a => M.pure (f a)) := by
  intro s hub
  have h1 := h s
  unfold M.bind at hub ⊢
  cases hx : x s with
  | ok a t =>
    rw [hx] at h1
    rw [h1 (by simp)]
    simp only [withDestructors, M.pure]
    by_cases hc : count t = count s
    · simp only [if_pos hc]
    · by_cases hc' : count t = count s + 1
      · simp only [if_neg hc, if_pos hc']
      · simp only [if_neg hc, if_neg hc']
  | panic t =>
    rw [hx] at h1
    rw [h1 (by simp)]
    simp only [withDestructors]
    by_cases hc : count t = count s
    · simp only [if_pos hc]
    · simp only [if_neg hc]
  | ub => rw [hx] at hub; exact absurd rfl hub
  | abort => rw [hx] at h1; rw [h1 (by simp)]; rfl

theorem After.onPanic {y x : M ρ α} {g' g : M ρ Unit} (h : After count y x) (hq : QuietOk count x)
    (hm : Mono count x) (hg : AfterH count g' g) (hgm : Mono count g) :
    After count (M.onPanic y g') (M.onPanic x g) := by
  intro s hub
  have h1 := h s
  have h2 := hm s
  unfold M.onPanic at hub ⊢
  cases hx : x s with
  | ok a t =>
    rw [hx] at h1
    have hc := hq s a t hx
    rw [h1 (by simp)]
    simp only [withDestructors, if_pos hc]
  | panic t =>
    rw [hx] at h1 h2 hub
    simp only at hub h2
    rw [h1 (by simp)]
    have h3 := hg t
    have h4 := hgm t
    simp only [withDestructors]
    by_cases hc : count t = count s
    · rw [if_pos hc]
      simp only
      cases hgt : g t with
      | ok a u =>
        rw [hgt] at h3 h4
        simp only at h3 h4 ⊢
        by_cases hcu : count u = count t
        · rw [h3.1 hcu, if_pos (by omega)]
        · rw [if_neg (by omega)]
          rcases h3.2 hcu with e | ⟨w, e⟩ <;> rw [e]
      | panic u =>
        rw [hgt] at h3
        rcases h3 with e | ⟨w, e⟩ <;> rw [e]
      | ub => rw [hgt] at hub; exact absurd rfl hub
      | abort =>
        rw [hgt] at h3
        rcases h3 with e | ⟨w, e⟩ <;> rw [e]
    · rw [if_neg hc]
      simp only
      cases hgt : g t with
      | ok a u =>
        rw [hgt] at h4
        simp only at h4 ⊢
        rw [if_neg (by omega)]
      | panic u => rfl
      | ub => rw [hgt] at hub; exact absurd rfl hub
      | abort => rfl
  | ub => rw [hx] at hub; exact absurd rfl hub
  | abort => rw [hx] at h1; rw [h1 (by simp)]; rfl

/-- A part `g` that runs after `x`, even if a destructor panics in `x`. -/
theorem After.finally {y x : M ρ Unit} {g : M ρ Unit} {a : α} (h : After count y x)
    (hnp : ∀ s t, x s ≠ .panic t) (hm : Mono count x) (hg : Keeps count g) :
    After count (M.bind (M.onPanic y g) fun _ => M.bind g fun _ => M.pure a)
      (M.bind x fun _ => M.bind g fun _ => M.pure a) := by
  intro s hub
  have h1 := h s
  have h2 := hm s
  unfold M.bind M.onPanic at *
  cases hx : x s with
  | ok u t =>
    rw [hx] at h1 h2 hub
    rw [h1 (by simp)]
    simp only at h2 hub
    have h3 := hg t
    simp only [withDestructors]
    by_cases hc : count t = count s
    · simp only [if_pos hc]
      cases hgt : g t with
      | ok b u =>
        rw [hgt] at h3
        simp only [M.pure] at h3 ⊢
        rw [if_pos (by omega)]
      | panic u =>
        rw [hgt] at h3
        simp only at h3 ⊢
        rw [if_pos (by omega)]
      | ub => exact absurd (by rw [hgt]) hub
      | abort => rfl
    · by_cases hc' : count t = count s + 1
      · simp only [if_neg hc, if_pos hc']
        cases hgt : g t with
        | ok b u =>
          rw [hgt] at h3
          simp only [M.pure] at h3 ⊢
          rw [if_neg (by omega), if_pos (by omega)]
        | panic u =>
          rw [hgt] at h3
          simp only at h3 ⊢
          rw [if_neg (by omega)]
        | ub => exact absurd (by rw [hgt]) hub
        | abort => rfl
      · simp only [if_neg hc, if_neg hc']
        cases hgt : g t with
        | ok b u =>
          rw [hgt] at h3
          simp only [M.pure] at h3 ⊢
          rw [if_neg (by omega), if_neg (by omega)]
        | panic u =>
          rw [hgt] at h3
          simp only at h3 ⊢
          rw [if_neg (by omega)]
        | ub => rw [hgt] at hub; exact absurd rfl hub
        | abort => rfl
  | panic t => exact absurd hx (hnp s t)
  | ub => rw [hx] at hub; exact absurd rfl hub
  | abort => rw [hx] at h1; rw [h1 (by simp)]; rfl

theorem after_up {y x : M ρ α} (h : After count y x) {w : ρ × σ → Nat} {e : σ → Nat}
    (hw : ∀ s, w s = count s.1 + e s.2) : After w (M.up y) (M.up x) := by
  rintro ⟨s, c⟩ hub
  have h1 := h s
  unfold M.up at hub ⊢
  cases hx : x s with
  | ok a t =>
    rw [hx] at h1
    simp only
    rw [h1 (by simp)]
    simp only [withDestructors, hw]
    by_cases hc : count t = count s
    · rw [if_pos hc, if_pos (by omega)]
    · by_cases hc' : count t = count s + 1
      · rw [if_neg hc, if_pos hc', if_neg (by omega), if_pos (by omega)]
      · rw [if_neg hc, if_neg hc', if_neg (by omega), if_neg (by omega)]
  | panic t =>
    rw [hx] at h1
    simp only
    rw [h1 (by simp)]
    simp only [withDestructors, hw]
    by_cases hc : count t = count s
    · rw [if_pos hc, if_pos (by omega)]
    · rw [if_neg hc, if_neg (by omega)]
  | ub => simp only [hx] at hub; exact absurd rfl hub
  | abort => rw [hx] at h1; simp only; rw [h1 (by simp)]; rfl

theorem mono_up {x : M ρ α} (h : Mono count x) {w : ρ × σ → Nat} {e : σ → Nat}
    (hw : ∀ s, w s = count s.1 + e s.2) : Mono w (M.up x) := by
  rintro ⟨s, c⟩
  have h1 := h s
  unfold M.up
  cases hx : x s <;> simp only [hx] at h1 ⊢
  · simp only [hw]; omega
  · simp only [hw]; omega

theorem quietOk_up {x : M ρ α} (h : QuietOk count x) {w : ρ × σ → Nat} {e : σ → Nat}
    (hw : ∀ s, w s = count s.1 + e s.2) : QuietOk w (M.up x) := by
  rintro ⟨s, c⟩ a t ht
  unfold M.up at ht
  cases hx : x s with
  | ok b u =>
    simp only [hx] at ht
    injection ht with e1 e2
    subst e1 e2
    simp only [hw]
    rw [h s _ _ hx]
  | _ => simp only [hx] at ht; cases ht

theorem after_scope {y x : M (ρ × σ) α} {w : ρ × σ → Nat} (hw : ∀ s, w s = count s.1) (h : After w y x)
    (init : σ) : After count (M.scope init y) (M.scope init x) := by
  intro s hub
  have h1 := h (s, init)
  unfold M.scope at hub ⊢
  cases hx : x (s, init) with
  | ok a t =>
    rw [hx] at h1
    rw [h1 (by simp)]
    simp only [withDestructors, hw]
    by_cases hc : count t.1 = count s
    · simp only [if_pos hc]
    · by_cases hc' : count t.1 = count s + 1
      · simp only [if_neg hc, if_pos hc']
      · simp only [if_neg hc, if_neg hc']
  | panic t =>
    rw [hx] at h1
    rw [h1 (by simp)]
    simp only [withDestructors, hw]
    by_cases hc : count t.1 = count s
    · simp only [if_pos hc]
    · simp only [if_neg hc]
  | ub => rw [hx] at hub; exact absurd rfl hub
  | abort => rw [hx] at h1; rw [h1 (by simp)]; rfl

theorem quietOk_scope {x : M (ρ × σ) α} {w : ρ × σ → Nat} (hw : ∀ s, w s = count s.1)
    (h : QuietOk w x) (init : σ) : QuietOk count (M.scope init x) := by
  intro s a t ht
  unfold M.scope at ht
  cases hx : x (s, init) with
  | ok b u =>
    rw [hx] at ht
    injection ht with _ e2
    subst e2
    have := h _ _ _ hx
    rwa [hw, hw] at this
  | _ => rw [hx] at ht; cases ht

end

/-! Dropping elements. -/

section
variable {σ T α β : Type} {bad : T → Bool} {e : σ → Nat}

/-- The number of panics of destructors, where `e` is the number in the rest of the world. -/
def cnt (bad : T → Bool) (e : σ → Nat) (s : σ × Own T) : Nat := e s.1 + s.2.log.countP bad

theorem cnt_zero (a b c : Nat) : (a + (b + c) = a + b) ↔ c = 0 := by omega
theorem cnt_one (a b c : Nat) : (a + (b + c) = a + b + 1) ↔ c = 1 := by omega

namespace Unwind

theorem dropList_true (xs : List T) :
    dropList bad xs true = if xs.countP bad = 0 then some true else none := by
  induction xs with
  | nil => rfl
  | cons x xs ih =>
    unfold dropList
    rw [List.countP_cons]
    by_cases hx : bad x = true
    · simp [hx]
    · simp [hx, ih]

theorem dropList_false (xs : List T) :
    dropList bad xs false = match xs.countP bad with
      | 0 => some false
      | 1 => some true
      | _ => none := by
  induction xs with
  | nil => rfl
  | cons x xs ih =>
    unfold dropList
    rw [List.countP_cons]
    by_cases hx : bad x = true
    · rw [if_pos hx, if_neg (by simp), dropList_true]
      simp only [hx, if_true]
      cases xs.countP bad <;> rfl
    · rw [if_neg hx, ih]
      simp [hx]

theorem finish_eq (xs : List T) (s : σ) :
    finish (dropList bad xs false) s =
      if xs.countP bad = 0 then .ok () s else if xs.countP bad = 1 then .panic s else .abort := by
  rw [dropList_false]
  split <;> simp_all [finish, M.pure, M.panic]

theorem after_dropCells (pos n : Nat) :
    After (cnt bad e) (dropCells bad pos n) (Model.dropCells pos n : M (σ × Own T) Unit) := by
  intro s hub
  unfold Unwind.dropCells M.bind
  simp only [Model.dropCells] at hub ⊢
  split at hub
  · rename_i hc
    simp only [if_pos hc, finish_eq, withDestructors, cnt, List.countP_append]
    simp only [cnt_zero, cnt_one]
  · exact absurd rfl hub

end Unwind

theorem mono_dropCells (pos n : Nat) :
    Mono (cnt bad e) (dropCells pos n : M (σ × Own T) Unit) := by
  intro s
  simp only [dropCells]
  split
  · rename_i h
    split at h
    · injection h with _ h
      subst h
      simp only [cnt, List.countP_append]; omega
    · cases h
  · rename_i h; split at h <;> cases h
  · trivial

theorem dropCells_not_panic (pos n : Nat) (s t : σ × Own T) : dropCells pos n s ≠ .panic t := by
  unfold dropCells
  simp only
  split <;> simp

theorem keeps_dropCells_zero (pos : Nat) : Keeps (cnt bad e) (dropCells pos 0 : M (σ × Own T) Unit) := by
  intro s
  simp only [dropCells]
  split
  · rename_i h
    split at h
    · injection h with _ h
      subst h
      simp [cnt]
    · cases h
  · rename_i h; split at h <;> cases h
  · trivial

variable {γ : Type}

theorem keeps_own : Keeps (cnt bad e) (own : M (σ × Own T) (Own T)) := fun _ => rfl

theorem keeps_upd {f : Own T → Own T} (h : ∀ o, (f o).log = o.log) :
    Keeps (cnt bad e) (upd f : M (σ × Own T) Unit) := by
  intro s
  show cnt bad e (s.1, f s.2) = _
  simp only [cnt, h]

/-- Show `Keeps`. -/
macro "keeps_tac" : tactic => `(tactic| repeat' first
  | exact keeps_own
  | exact keeps_lift _
  | exact keeps_pure _
  | exact keeps_panic
  | exact keeps_ub
  | exact keeps_upd fun _ => rfl
  | refine Keeps.bind ?_ fun _ => ?_
  | split)

theorem keeps_writeCell (pos : Nat) (x : T) : Keeps (cnt bad e) (writeCell pos x : M (σ × Own T) Unit) := by
  intro s
  unfold writeCell
  split
  · rename_i h; split at h
    · injection h with _ h; subst h; rfl
    · cases h
  · rename_i h; split at h <;> cases h
  · trivial

theorem keeps_takeCell (pos : Nat) : Keeps (cnt bad e) (takeCell pos : M (σ × Own T) T) := by
  intro s
  unfold takeCell
  split
  · rename_i h; split at h
    · injection h with _ h; subst h; rfl
    · cases h
  · rename_i h; split at h <;> cases h
  · trivial

theorem keeps_upM {x : M σ α} (h : Keeps e x) : Keeps (cnt bad e) (M.up x : M (σ × Own T) α) :=
  keeps_up h fun a b c hab => by simp only [cnt, hab]

theorem keeps_vecAppend (x : T) : Keeps (cnt bad e) (vecAppend x : M (σ × Own T) Unit) := by
  unfold vecAppend
  simp only [M.bind_eq]
  refine keeps_own.bind fun o => (keeps_writeCell o.len x).bind fun _ => ?_
  keeps_tac

theorem keeps_vecReserve (n : Nat) : Keeps (cnt bad e) (vecReserve n : M (σ × Own T) Unit) := by
  unfold vecReserve
  simp only [M.bind_eq, M.pure_eq]
  keeps_tac

theorem keeps_setShape (f : Shape → Option Shape) :
    Keeps (cnt bad e) (setShape f : M (σ × Own T) Unit) := by
  unfold setShape
  simp only [M.bind_eq]
  keeps_tac

theorem keeps_checkHead : Keeps (cnt bad e) (checkHead : M (σ × Own T) Unit) := by
  unfold checkHead
  simp only [M.bind_eq]
  keeps_tac

theorem keeps_cloneIntoVec {x : Expr σ α} (hx : x.Keep e) {c : α → M σ T} (hc : ∀ y, Keeps e (c y)) :
    Keeps (cnt bad e) (cloneIntoVec x c) := by
  unfold cloneIntoVec
  simp only [M.bind_eq]
  refine keeps_own.bind fun _ => (keeps_lift _).bind fun _ => ?_
  exact Expr.keep_forEach (Expr.keep_up hx fun a b c hab => by simp only [cnt, hab]) fun y =>
      (keeps_upM (hc y)).bind keeps_vecAppend

theorem keeps_takeItems (pos idx n : Nat) :
    Keeps (cnt bad e) (takeItems pos idx n : M (σ × Own T) (List T)) := by
  induction n generalizing idx with
  | zero => exact keeps_pure _
  | succ n ih => exact (keeps_takeCell _).bind fun _ => (ih _).bind fun _ => keeps_pure _

theorem keeps_drainNew (a b : Bnd) : Keeps (cnt bad e) (drainNew a b : M (σ × Own T) DrainSt) := by
  unfold drainNew
  simp only [M.bind_eq, M.pure_eq]
  refine keeps_checkHead.bind fun _ => keeps_own.bind fun _ => (keeps_lift _).bind fun _ =>
    (keeps_lift _).bind fun _ => (keeps_lift _).bind fun _ => (keeps_setShape _).bind fun _ => ?_
  keeps_tac

theorem keeps_drainDrop (d : DrainSt) : Keeps (cnt bad e) (drainDrop d : M (σ × Own T) Unit) := by
  unfold drainDrop
  simp only [M.bind_eq]
  keeps_tac

theorem mono_partsGuard : Mono (cnt bad e) (partsGuard : M (σ × Own T) Unit) := by
  unfold partsGuard
  simp only [M.bind_eq, M.pure_eq]
  refine keeps_own.mono.bind fun o => ?_
  split
  · refine (keeps_lift _).mono.bind fun _ => Mono.bind (Keeps.mono ?_) fun _ => mono_dropCells _ _
    keeps_tac
  · exact (keeps_pure _).mono

namespace Unwind

/-- The same first part, which does not drop anything. -/
theorem after_bind {ρ : Type} {count : ρ → Nat} {x : M ρ α} {k' k : α → M ρ β} (h : Keeps count x)
    (hk : ∀ a, After count (k' a) (k a)) : After count (M.bind x k') (M.bind x k) :=
  h.after.bind h.quietOk hk

theorem after_partsGuard :
    After (cnt bad e) (partsGuard bad) (Model.partsGuard : M (σ × Own T) Unit) := by
  unfold Unwind.partsGuard Model.partsGuard
  simp only [M.bind_eq, M.pure_eq]
  refine after_bind keeps_own fun o => ?_
  split
  · refine after_bind (keeps_lift _) fun _ => after_bind ?_ fun _ => after_dropCells _ _
    keeps_tac
  · exact (keeps_pure _).after

theorem after_withMutParts {y x : M (σ × Own T) α} (h : After (cnt bad e) y x)
    (hq : QuietOk (cnt bad e) x) (hm : Mono (cnt bad e) x) :
    After (cnt bad e) (withMutParts bad y) (Model.withMutParts x) := by
  unfold Unwind.withMutParts Model.withMutParts
  simp only [M.bind_eq]
  refine after_bind ?_ fun _ => h.onPanic hq hm (after_partsGuard.afterH mono_partsGuard) mono_partsGuard
  keeps_tac

theorem after_withMutParts_keeps {x : M (σ × Own T) α} (h : Keeps (cnt bad e) x) :
    After (cnt bad e) (withMutParts bad x) (Model.withMutParts x) :=
  after_withMutParts h.after h.quietOk h.mono

theorem after_tensorReserve (n : Nat) :
    After (cnt bad e) (tensorReserve bad n) (Model.tensorReserve n : M (σ × Own T) Unit) :=
  after_withMutParts_keeps (keeps_vecReserve n)

theorem after_expand {x : Expr σ α} (hx : x.Keep e) {c : α → M σ T} (hc : ∀ y, Keeps e (c y)) :
    After (cnt bad e) (expand bad x c) (Model.expand x c) := by
  unfold Unwind.expand Model.expand
  simp only [M.bind_eq, M.pure_eq]
  refine after_bind keeps_checkHead fun _ => ?_
  split
  · exact after_withMutParts_keeps ((keeps_vecReserve _).bind fun _ =>
      (keeps_setShape _).bind fun _ => keeps_cloneIntoVec hx hc)
  · exact (keeps_pure _).after

/-- The vector is dropped when unwinding. -/
theorem after_vecGuard {x : M (σ × Own T) α} (h : Keeps (cnt bad e) x) :
    After (cnt bad e) (M.onPanic x (M.bind own fun o => dropCells bad 0 o.len))
      (M.onPanic x (M.bind own fun o => Model.dropCells 0 o.len)) := by
  have hm : Mono (cnt bad e) (M.bind own fun o => Model.dropCells 0 o.len : M (σ × Own T) Unit) :=
    keeps_own.mono.bind fun _ => mono_dropCells _ _
  exact h.after.onPanic h.quietOk h.mono ((keeps_own.after.bind keeps_own.quietOk fun _ =>
    after_dropCells _ _).afterH hm) hm

theorem after_tensorInto (f : Shape → Option Shape) :
    After (cnt bad e) (tensorInto bad f) (Model.tensorInto f : M (σ × Own T) Unit) := by
  unfold Unwind.tensorInto Model.tensorInto
  simp only [M.bind_eq]
  refine after_bind ?_ fun _ => after_vecGuard (keeps_setShape f)
  keeps_tac

theorem after_tensorFromExpr {x : Expr σ T} (hx : x.Keep e) :
    After (cnt bad e) (tensorFromExpr bad x) (Model.tensorFromExpr x) := by
  unfold Unwind.tensorFromExpr Model.tensorFromExpr
  simp only [M.bind_eq]
  refine after_bind ?_ fun _ => after_bind keeps_own fun _ => after_bind (keeps_lift _) fun _ =>
    after_bind ?_ fun _ => after_vecGuard (keeps_cloneIntoVec hx fun _ => keeps_pure _)
  all_goals keeps_tac

theorem after_arrayFromExpr (ty : ShapeTy) {x : Expr σ T} (hx : x.Keep e) :
    After (cnt bad e) (arrayFromExpr bad ty x) (Model.arrayFromExpr ty x) := by
  have hk : Keeps (cnt bad e) ((x.up : Expr (σ × Own T) T).forEach vecAppend) :=
    Expr.keep_forEach (Expr.keep_up hx fun a b c hab => by simp only [cnt, hab]) keeps_vecAppend
  unfold Unwind.arrayFromExpr Model.arrayFromExpr
  simp only [M.bind_eq, M.pure_eq]
  refine after_bind (keeps_lift _) fun s => after_bind ?_ fun _ =>
      (after_vecGuard hk).bind hk.quietOk.onPanic fun _ => Keeps.after (keeps_own.bind fun o => ?_)
  all_goals keeps_tac

theorem after_foldlM {y x : Nat → M (σ × Own T) Unit} {count : σ × Own T → Nat} (h : ∀ k, After count (y k) (x k))
    (hq : ∀ k, QuietOk count (x k)) (l : List Nat) :
    After count (l.foldlM (fun _ k => y k) ()) (l.foldlM (fun _ k => x k) ()) := by
  induction l with
  | nil => exact Keeps.after (keeps_pure ())
  | cons k l ih =>
    rw [List.foldlM_cons, List.foldlM_cons]
    exact (h k).bind (hq k) fun _ => ih

theorem quietOk_foldlM {x : Nat → M (σ × Own T) Unit} {count : σ × Own T → Nat}
    (hq : ∀ k, QuietOk count (x k)) (l : List Nat) : QuietOk count (l.foldlM (fun _ k => x k) ()) := by
  induction l with
  | nil => exact Keeps.quietOk (keeps_pure ())
  | cons k l ih =>
    rw [List.foldlM_cons]
    exact (hq k).bind fun _ => ih

theorem mono_foldlM {x : Nat → M (σ × Own T) Unit} {count : σ × Own T → Nat}
    (hq : ∀ k, Mono count (x k)) (l : List Nat) : Mono count (l.foldlM (fun _ k => x k) ()) := by
  induction l with
  | nil => exact Keeps.mono (keeps_pure ())
  | cons k l ih =>
    rw [List.foldlM_cons]
    exact (hq k).bind fun _ => ih

theorem _root_.Model.Mono.onPanic {ρ : Type} {count : ρ → Nat} {x : M ρ α} {g : M ρ Unit} (h : Mono count x)
    (hg : Mono count g) : Mono count (M.onPanic x g) := by
  intro s
  have h1 := h s
  unfold M.onPanic
  cases hx : x s with
  | ok a t => rw [hx] at h1; exact h1
  | panic t =>
    rw [hx] at h1
    have h2 := hg t
    simp only at h1 ⊢
    cases hgt : g t with
    | ok a u => rw [hgt] at h2; simp only at h2 ⊢; exact h1.trans h2
    | _ => trivial
  | _ => trivial

/-- The item in hand is dropped. -/
theorem after_dropItem (x : T) :
    After (cnt bad e) (M.bind (upd fun o => { o with log := o.log ++ [x] }) fun _ =>
      finish (dropList bad [x] false)) (upd fun o => { o with log := o.log ++ [x] } : M (σ × Own T) Unit) := by
  intro s _
  show finish (dropList bad [x] false) (s.1, { s.2 with log := s.2.log ++ [x] }) = _
  rw [finish_eq]
  simp only [upd, withDestructors, cnt, List.countP_append]
  simp only [cnt_zero, cnt_one]

theorem mono_dropItem (x : T) :
    Mono (cnt bad e) (upd fun o => { o with log := o.log ++ [x] } : M (σ × Own T) Unit) := by
  intro s
  show cnt bad e s ≤ cnt bad e (s.1, { s.2 with log := s.2.log ++ [x] })
  simp only [cnt, List.countP_append]; omega

theorem after_tensorExtend (n : Nat) {step : Nat → M σ T} (h : ∀ k, Keeps e (step k)) :
    After (cnt bad e) (tensorExtend bad n step) (Model.tensorExtend n step) := by
  have hr := keeps_vecReserve (σ := σ) (T := T) (bad := bad) (e := e) 1
  have hq : QuietOk (cnt bad e) (Model.vecExtend n step) :=
    quietOk_foldlM (fun k => (keeps_upM (h k)).quietOk.bind fun x =>
      hr.quietOk.onPanic.bind fun _ => (keeps_vecAppend x).quietOk) _
  have hm : Mono (cnt bad e) (Model.vecExtend n step) :=
    mono_foldlM (fun k => (keeps_upM (h k)).mono.bind fun x =>
      (hr.mono.onPanic (mono_dropItem x)).bind fun _ => (keeps_vecAppend x).mono) _
  have ha : After (cnt bad e) (vecExtend bad n step) (Model.vecExtend n step) :=
    after_foldlM (fun k => (keeps_upM (h k)).after.bind (keeps_upM (h k)).quietOk fun x =>
      (hr.after.onPanic hr.quietOk hr.mono ((after_dropItem x).afterH (mono_dropItem x))
        (mono_dropItem x)).bind hr.quietOk.onPanic fun _ => (keeps_vecAppend x).after)
      (fun k => (keeps_upM (h k)).quietOk.bind fun x =>
        hr.quietOk.onPanic.bind fun _ => (keeps_vecAppend x).quietOk) _
  have hu : Keeps (cnt bad e) (upd fun o => { o with shape := ⟨.static [.dyn], [o.len]⟩ } :
      M (σ × Own T) Unit) := by keeps_tac
  exact after_withMutParts (ha.bind hq fun _ => hu.after) (hq.bind fun _ => hu.quietOk)
    (hm.bind fun _ => hu.mono)

theorem after_intoItems (k : Nat) :
    After (cnt bad e) (intoItems bad k) (Model.intoItems k : M (σ × Own T) (List T)) :=
  after_bind keeps_own fun _ => after_bind (keeps_takeItems _ _ _) fun _ =>
      (after_dropCells _ _).map _

theorem after_drainRun (a b : Bnd) (k : Nat) (leak : Bool) :
    After (cnt bad e) (drainRun bad a b k leak) (Model.drainRun a b k leak : M (σ × Own T) (List T)) := by
  refine (keeps_drainNew _ _).after.bind (keeps_drainNew _ _).quietOk fun d =>
    (keeps_takeItems _ _ _).after.bind (keeps_takeItems _ _ _).quietOk fun xs => ?_
  cases leak
  · exact (after_dropCells _ _).finally (dropCells_not_panic _ _) (mono_dropCells _ _) (keeps_drainDrop d)
  · exact (keeps_pure _).after

/-! Operations that drop elements in the middle. -/

theorem partsGuard_id {s : σ} {o : Own T} (h : o.len = o.shape.len) :
    partsGuard bad (s, o) = .ok () (s, o) := by
  show (if o.len ≠ o.shape.len then _ else _ : M (σ × Own T) Unit) (s, o) = _
  rw [if_neg (by simpa using h)]
  rfl

theorem partsGuard_empty {s : σ} {o : Own T} (h : o.len = 0) (hs : o.shape.len ≠ 0)
    (hd : (Shape.default o.shape.ty).len = 0) :
    partsGuard bad (s, o) = .ok () (s, { o with shape := Shape.default o.shape.ty }) := by
  show (if o.len ≠ o.shape.len then _ else _ : M (σ × Own T) Unit) (s, o) = _
  rw [if_pos (by rw [h]; exact fun h => hs h.symm)]
  show M.bind (M.lift (check ((Shape.default o.shape.ty).len = 0))) _ (s, o) = _
  rw [show check ((Shape.default o.shape.ty).len = 0) = some () from if_pos hd]
  show dropCells bad 0 o.len (s, { o with shape := Shape.default o.shape.ty }) = _
  rw [h]
  simp [dropCells, M.bind, Model.dropCells, finish, dropList, M.pure]

/-- What dropping elements does. -/
theorem dropCells_cases (pos n : Nat) (s : σ) (o : Own T) :
    Model.dropCells pos n (s, o) = .ub ∨ ∃ c l, Model.dropCells pos n (s, o) =
        .ok () (s, { o with cells := c, log := l }) ∧ o.log.countP bad ≤ l.countP bad ∧
      (n = 0 → l = o.log) ∧
      dropCells bad pos n (s, o) =
        if l.countP bad = o.log.countP bad then .ok () (s, { o with cells := c, log := l })
        else if l.countP bad = o.log.countP bad + 1 then .panic (s, { o with cells := c, log := l })
        else .abort := by
  by_cases hub : Model.dropCells pos n (s, o) = .ub
  · exact .inl hub
  have ha := after_dropCells (bad := bad) (e := fun _ : σ => 0) pos n (s, o) hub
  rw [ha]
  simp only [Model.dropCells] at hub ⊢
  split at hub
  · rename_i hc
    right
    simp only [if_pos hc]
    refine ⟨_, _, rfl, by rw [List.countP_append]; omega, ?_, ?_⟩
    · intro h0; subst h0; simp
    · simp only [withDestructors, cnt, Nat.zero_add]
  · exact absurd rfl hub

theorem after_tensorClear :
    After (cnt bad e) (tensorClear bad) (Model.tensorClear : M (σ × Own T) Unit) := by
  rintro ⟨s, o⟩ hub
  have e1 : ∀ (x : M (σ × Own T) Unit), M.bind (M.lift (check ((Shape.default o.shape.ty).len = 0)))
      (fun _ => x) (s, o) = if (Shape.default o.shape.ty).len = 0 then x (s, o) else .panic (s, o) := by
    intro x
    unfold check
    split <;> rfl
  have e2 : Model.tensorClear (s, o) = M.bind (M.lift (check ((Shape.default o.shape.ty).len = 0)))
    (fun _ => Model.withMutParts (M.bind Model.vecClear fun _ =>
      upd fun o => { o with shape := Shape.default o.shape.ty })) (s, o) := rfl
  have e3 : tensorClear bad (s, o) = M.bind (M.lift (check ((Shape.default o.shape.ty).len = 0)))
    (fun _ => withMutParts bad (M.bind (vecClear bad) fun _ =>
      upd fun o => { o with shape := Shape.default o.shape.ty })) (s, o) := rfl
  rw [e2, e1] at hub
  rw [e2, e3, e1, e1]
  split
  · rename_i hd
    rw [if_pos hd] at hub
    have e4 : Model.withMutParts (M.bind Model.vecClear fun _ =>
        upd fun o => { o with shape := Shape.default o.shape.ty }) (s, o) =
        M.onPanic (M.bind (Model.dropCells 0 o.shape.len) fun _ =>
          upd fun o => { o with shape := Shape.default o.shape.ty }) Model.partsGuard
          (s, { o with len := 0 }) := rfl
    have e5 : withMutParts bad (M.bind (vecClear bad) fun _ =>
        upd fun o => { o with shape := Shape.default o.shape.ty }) (s, o) =
        M.onPanic (M.bind (dropCells bad 0 o.shape.len) fun _ =>
          upd fun o => { o with shape := Shape.default o.shape.ty }) (partsGuard bad)
          (s, { o with len := 0 }) := rfl
    rw [e4] at hub
    rw [e4, e5]
    rcases dropCells_cases (bad := bad) 0 o.shape.len s { o with len := 0 } with h | ⟨c, l, h1, h2, h3, h4⟩
    · unfold M.onPanic M.bind at hub
      rw [h] at hub
      exact absurd rfl hub
    · simp only at h2 h3 h4
      unfold M.onPanic M.bind
      rw [h1, h4]
      simp only [upd, withDestructors, cnt, Nat.add_assoc, Nat.add_left_cancel_iff]
      by_cases c0 : l.countP bad = o.log.countP bad
      · simp only [c0, if_true]
      · by_cases c1 : l.countP bad = o.log.countP bad + 1
        · simp only [if_neg c0, if_pos c1]
          rw [partsGuard_empty (o := { o with cells := c, len := 0, log := l }) rfl (fun h0 => c0 (by rw [h3 h0])) hd]
        · simp only [if_neg c0, if_neg c1]
  · simp [withDestructors]

theorem after_tensorTruncate (n : Nat) :
    After (cnt bad e) (tensorTruncate bad n) (Model.tensorTruncate n : M (σ × Own T) Unit) := by
  unfold Unwind.tensorTruncate Model.tensorTruncate
  simp only [M.bind_eq, M.pure_eq]
  refine after_bind keeps_checkHead fun _ => after_bind keeps_own fun o0 => ?_
  split
  · rintro ⟨s, o⟩ hub
    generalize hf : (fun s : Shape => s.withMutDims fun dims => some (dims.set 0 n)) = f at hub ⊢
    have e4 : Model.withMutParts (M.bind (setShape f) fun _ => M.bind own fun o =>
        Model.vecTruncate o.shape.len) (s, o) = match f o.shape with
          | some s' => M.onPanic (Model.vecTruncate s'.len) Model.partsGuard
              (s, { o with len := o.shape.len, shape := s' })
          | none => M.onPanic M.panic Model.partsGuard (s, { o with len := o.shape.len }) := by
      show M.onPanic (M.bind (M.bind (M.lift (f o.shape)) fun s => upd fun o => { o with shape := s }) fun _ =>
        M.bind own fun o => Model.vecTruncate o.shape.len) Model.partsGuard (s, { o with len := o.shape.len }) = _
      unfold M.onPanic
      cases f o.shape <;> rfl
    have e5 : withMutParts bad (M.bind (setShape f) fun _ => M.bind own fun o =>
        vecTruncate bad o.shape.len) (s, o) = match f o.shape with
          | some s' => M.onPanic (vecTruncate bad s'.len) (partsGuard bad)
              (s, { o with len := o.shape.len, shape := s' })
          | none => M.onPanic M.panic (partsGuard bad) (s, { o with len := o.shape.len }) := by
      show M.onPanic (M.bind (M.bind (M.lift (f o.shape)) fun s => upd fun o => { o with shape := s }) fun _ =>
        M.bind own fun o => vecTruncate bad o.shape.len) (partsGuard bad) (s, { o with len := o.shape.len }) = _
      unfold M.onPanic
      cases f o.shape <;> rfl
    rw [e4] at hub
    rw [e4, e5]
    cases hfs : f o.shape with
    | none =>
      rw [hfs] at hub
      exact (keeps_panic.after.onPanic keeps_panic.quietOk keeps_panic.mono
        (after_partsGuard.afterH mono_partsGuard) mono_partsGuard) _ hub
    | some s' =>
      rw [hfs] at hub
      simp only at hub ⊢
      have e6 : Model.vecTruncate s'.len (s, { o with len := o.shape.len, shape := s' }) =
          if s'.len ≤ o.shape.len then Model.dropCells s'.len (o.shape.len - s'.len)
            (s, { o with len := s'.len, shape := s' })
          else .ok () (s, { o with len := o.shape.len, shape := s' }) := by
        show (if s'.len ≤ o.shape.len then _ else _ : M (σ × Own T) Unit) _ = _
        split <;> rfl
      have e7 : vecTruncate bad s'.len (s, { o with len := o.shape.len, shape := s' }) =
          if s'.len ≤ o.shape.len then dropCells bad s'.len (o.shape.len - s'.len)
            (s, { o with len := s'.len, shape := s' })
          else .ok () (s, { o with len := o.shape.len, shape := s' }) := by
        show (if s'.len ≤ o.shape.len then _ else _ : M (σ × Own T) Unit) _ = _
        split <;> rfl
      unfold M.onPanic at hub ⊢
      rw [e6] at hub
      rw [e6, e7]
      by_cases hle : s'.len ≤ o.shape.len
      · rw [if_pos hle] at hub ⊢
        rw [if_pos hle]
        rcases dropCells_cases (bad := bad) s'.len (o.shape.len - s'.len) s
          { o with len := s'.len, shape := s' } with h | ⟨c, l, h1, h2, h3, h4⟩
        · rw [h] at hub
          exact absurd rfl hub
        · simp only at h2 h3 h4
          rw [h1, h4]
          simp only [withDestructors, cnt, Nat.add_assoc, Nat.add_left_cancel_iff]
          by_cases c0 : l.countP bad = o.log.countP bad
          · simp only [c0, if_true]
          · by_cases c1 : l.countP bad = o.log.countP bad + 1
            · simp only [if_neg c0, if_pos c1]
              rw [partsGuard_id rfl]
            · simp only [if_neg c0, if_neg c1]
      · rw [if_neg hle, if_neg hle]
        simp [withDestructors, cnt]
  · exact (keeps_pure _).after

theorem keeps_zipStep (f : T → β → M σ T) (hf : ∀ x y, Keeps e (f x y)) (py : Int × β) :
    Keeps (fun s : (σ × Own T) × Nat => cnt bad e s.1) (zipStep f py) := by
  have up : ∀ {γ : Type} {x : M (σ × Own T) γ}, Keeps (cnt bad e) x →
      Keeps (fun s : (σ × Own T) × Nat => cnt bad e s.1) (M.up x) := fun h => keeps_up h fun _ _ _ h => h
  unfold zipStep
  refine Keeps.bind (fun _ => rfl) fun _ => (up (keeps_takeCell _)).bind fun x =>
    (up (keeps_upM (hf x py.2))).bind fun x' => up (keeps_writeCell _ _)

theorem after_zipWith {x : Expr σ β} (hx : x.Keep e) {f : T → β → M σ T} (hf : ∀ x y, Keeps e (f x y)) :
    After (cnt bad e) (zipWith bad x f) (Model.zipWith x f) := by
  unfold Unwind.zipWith Model.zipWith
  refine after_bind keeps_own fun o => After.map (after_scope (w := fun s : (σ × Own T) × Nat =>
    cnt bad e s.1) (fun _ => rfl) ?_ 0) _
  have hk : Keeps (fun s : (σ × Own T) × Nat => cnt bad e s.1)
      (M.bind (M.lift (Expr.zipNew (Expr.view false ⟨0, .dense o.shape⟩) x.up.up)) fun z =>
        z.forEach (zipStep f)) := by
    refine KeepsQ.bindK (P := fun z => z.Keep fun s : (σ × Own T) × Nat => cnt bad e s.1)
      (keepsQ_lift ?_) fun z hz => Expr.keep_forEach hz (keeps_zipStep f hf)
    intro z hz
    simp only [Expr.zipNew, Option.map_eq_some_iff] at hz
    obtain ⟨s, -, rfl⟩ := hz
    exact ⟨trivial, Expr.keep_up (Expr.keep_up hx (w := cnt bad e) fun a b c hab => by simp only [cnt, hab])
      fun a b c hab => hab⟩
  have hw : ∀ s : (σ × Own T) × Nat, cnt bad e s.1 = cnt bad e s.1 + (fun _ => 0) s.2 := fun _ => rfl
  have md : ∀ p n, Mono (fun s : (σ × Own T) × Nat => cnt bad e s.1) (M.up (Model.dropCells p n)) :=
    fun p n => mono_up (count := cnt bad e) (e := fun _ => 0) (mono_dropCells p n) hw
  have hm : Mono (fun s : (σ × Own T) × Nat => cnt bad e s.1) (Model.zipGuard o.shape.len) := by
    unfold Model.zipGuard
    refine Mono.bind (Keeps.mono fun _ => rfl) fun s => Mono.bind ?_ fun _ => md _ _
    split
    · exact md _ _
    · exact (keeps_pure _).mono
  refine hk.after.onPanic hk.quietOk hk.mono ?_ hm
  have g0 : Keeps (fun s : (σ × Own T) × Nat => cnt bad e s.1) M.get := fun _ => rfl
  unfold Unwind.zipGuard Model.zipGuard
  have d : ∀ p n, AfterH (fun s : (σ × Own T) × Nat => cnt bad e s.1) (M.up (dropCells bad p n))
      (M.up (Model.dropCells p n)) := fun p n =>
    (after_up (count := cnt bad e) (e := fun _ => 0) (after_dropCells p n) hw).afterH (md _ _)
  refine AfterH.bind (g0.after.afterH g0.mono) g0.mono (fun s => AfterH.bind ?_ ?_ (fun _ => d _ _)
    fun _ => md _ _) fun s => Mono.bind ?_ fun _ => md _ _
  all_goals split
  · exact d _ _
  · exact (keeps_pure _).after.afterH (keeps_pure _).mono
  · exact md _ _
  · exact (keeps_pure _).mono
  · exact md _ _
  · exact (keeps_pure _).mono

theorem _root_.Model.AfterH.up {ρ : Type} {count : ρ → Nat} {y x : M ρ α} (h : AfterH count y x)
    {w : ρ × β → Nat} {e : β → Nat} (hw : ∀ s, w s = count s.1 + e s.2) : AfterH w (M.up y) (M.up x) := by
  rintro ⟨s, c⟩
  have h1 := h s
  have hf : Fails (y s) → Fails (M.up y (s, c)) := by
    rintro (h | ⟨t, h⟩)
    · exact .inl (by unfold M.up; rw [h])
    · exact .inr ⟨(t, c), by unfold M.up; rw [h]⟩
  have e1 : M.up x (s, c) = match x s with
    | .ok a t => .ok a (t, c)
    | .panic t => .panic (t, c)
    | .ub => .ub
    | .abort => .abort := by unfold M.up; cases x s <;> rfl
  rw [e1]
  cases hx : x s with
  | ok a t =>
    rw [hx] at h1
    simp only [hw] at h1 ⊢
    refine ⟨fun hc => ?_, fun hc => hf (h1.2 (by omega))⟩
    unfold M.up
    rw [h1.1 (by omega)]
  | panic t => rw [hx] at h1; exact hf h1
  | ub => trivial
  | abort => rw [hx] at h1; exact hf h1

theorem after_tensorAppend :
    After (cnt bad (cnt bad e)) (tensorAppend bad)
      (Model.tensorAppend : M ((σ × Own T) × Own T) Unit) := by
  have hw : ∀ s : (σ × Own T) × Own T, cnt bad (cnt bad e) s = cnt bad e s.1 + s.2.log.countP bad :=
    fun _ => rfl
  unfold Unwind.tensorAppend Model.tensorAppend
  refine after_bind (keeps_upM (keeps_drainNew _ _)) fun d => after_bind (fun _ => rfl) fun t => ?_
  simp only
  generalize hx : (Expr.intoExpr d.shape (((t.1.2.cells.drop d.pos).take d.shape.len).filterMap id) 0 :
    Expr (σ × Own T) T) = x
  have hxk : x.Keep (cnt bad e) := by rw [← hx]; trivial
  have hin : Keeps (cnt bad (cnt bad e)) (do
      vecReserve x.shape.len
      setShape fun s => expandShape s x.dims
      cloneIntoVec x M.pure : M ((σ × Own T) × Own T) Unit) :=
    (keeps_vecReserve _).bind fun _ => (keeps_setShape _).bind fun _ =>
      keeps_cloneIntoVec hxk fun _ => keeps_pure _
  have hu : Keeps (cnt bad (cnt bad e)) (upd fun o => { o with len := o.shape.len } :
    M ((σ × Own T) × Own T) Unit) := keeps_upd fun _ => rfl
  have hq : QuietOk (cnt bad (cnt bad e)) (Model.expand x M.pure) := by
    unfold Model.expand
    refine QuietOk.bind keeps_checkHead.quietOk fun _ => ?_
    split
    · exact QuietOk.bind hu.quietOk fun _ => hin.quietOk.onPanic
    · exact (keeps_pure _).quietOk
  have hm : Mono (cnt bad (cnt bad e)) (Model.expand x M.pure) := by
    unfold Model.expand
    refine Mono.bind keeps_checkHead.mono fun _ => ?_
    split
    · exact Mono.bind hu.mono fun _ => hin.mono.onPanic mono_partsGuard
    · exact (keeps_pure _).mono
  have hgm : Mono (cnt bad e) (M.bind (Model.dropItems d.pos d.shape.len 0) fun _ => drainDrop d) :=
    Mono.bind (mono_dropCells _ _) fun _ => (keeps_drainDrop d).mono
  refine After.bind ((after_expand hxk fun _ => keeps_pure _).onPanic hq hm
    (AfterH.up (count := cnt bad e) (e := fun o : Own T => o.log.countP bad) ?_ hw)
    (mono_up (e := fun o : Own T => o.log.countP bad) hgm hw)) hq.onPanic fun _ => after_bind (keeps_upM (keeps_takeItems _ _ _)) fun _ =>
      after_up (count := cnt bad e) (e := fun o : Own T => o.log.countP bad) ?_ hw
  · exact AfterH.bind ((after_dropCells _ _).afterH (mono_dropCells _ _)) (mono_dropCells _ _)
      (fun _ => (keeps_drainDrop d).after.afterH (keeps_drainDrop d).mono) fun _ => (keeps_drainDrop d).mono
  · have := (after_dropCells (bad := bad) (e := e) (d.pos + d.shape.len) (d.shape.len - d.shape.len)).finally
      (a := ()) (dropCells_not_panic _ _) (mono_dropCells _ _) (keeps_drainDrop d)
    have hp : (M.bind (drainDrop d) fun _ => M.pure () : M (σ × Own T) Unit) = drainDrop d :=
      M.bind_pure _
    rw [hp] at this
    exact this

end Unwind
end
end Model
