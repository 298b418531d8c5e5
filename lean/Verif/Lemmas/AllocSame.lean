import Verif.Lemmas.AllocOps

/-! Operations that keep the allocator value. -/

namespace Model
namespace Alloc
open Spec M

variable {σ ρ α β : Type} {env : Env σ}

/-- However the code ends, `g` has the value of before. -/
def Same {γ : Type} (g : ρ → γ) (x : M ρ α) : Prop := ∀ s c, g s = c →
  match x s with
  | .ok _ t | .panic t => g t = c
  | .ub | .abort => True

section
variable {γ : Type} {g : ρ → γ}

theorem same_pure {x : α} : Same g (M.pure x) := fun _ _ h => h
theorem same_panic : Same g (M.panic : M ρ α) := fun _ _ h => h
theorem same_abort : Same g (abort : M ρ α) := fun _ _ _ => trivial
theorem same_lift {o : Option α} : Same g (M.lift o : M ρ α) := by
  cases o; exacts [same_panic, same_pure]

theorem Same.bind {x : M ρ α} {k : α → M ρ β} (hx : Same g x) (hk : ∀ a, Same g (k a)) : Same g (M.bind x k) := by
  intro s c hs
  have := hx s c hs
  unfold M.bind
  cases h : x s with
  | ok a t => rw [h] at this; exact hk a t c this
  | panic t => rw [h] at this; exact this
  | ub => trivial
  | abort => trivial

theorem same_repeat {x : M ρ Unit} (hx : Same g x) : ∀ n, Same g (repeatM n x)
  | 0 => same_pure
  | n + 1 => hx.bind fun _ => same_repeat hx n

theorem Same.onPanic {x : M ρ α} {y : M ρ Unit} (hx : Same g x) (hy : Same g y) : Same g (M.onPanic x y) := by
  intro s c hs
  have := hx s c hs
  unfold M.onPanic
  cases h : x s with
  | ok a t => rw [h] at this; exact this
  | panic t =>
    rw [h] at this
    have := hy t c this
    cases h' : y t <;> simp only [h'] at this ⊢
    exact this
  | ub => trivial
  | abort => trivial

end

theorem same_up {κ γ : Type} {g : κ → γ} {x : M ρ α} : Same (fun s : ρ × κ => g s.2) (M.up x) := by
  intro s c hs
  unfold M.up
  cases x s.1 <;> first | exact hs | trivial

/-- The allocator value of the vector. -/
abbrev vh (s : (σ × Heap) × VecA) : Nat := s.2.alloc

theorem same_vec : Same (vh (σ := σ)) vec := fun _ _ h => h
theorem same_upd {f : VecA → VecA} (hf : ∀ v, (f v).alloc = v.alloc) : Same (vh (σ := σ)) (updVec f) :=
  fun s _ h => (hf s.2).trans h
theorem same_world {x : M (σ × Heap) α} : Same vh (M.up x : M ((σ × Heap) × VecA) α) := same_up (g := VecA.alloc)
theorem same_user {x : M σ α} : Same (vh (σ := σ)) (user x) := same_world

theorem same_room {add : Nat} {full : M ((σ × Heap) × VecA) Bool} (hf : Same vh full) : Same vh (vecRoom env add full) := by
  refine same_vec.bind fun v => ?_
  split
  · exact same_pure
  · split
    · exact hf
    · dsimp only
      split
      · refine same_world.bind fun p => ?_
        cases p
        · exact same_pure
        · exact Same.bind (same_upd fun _ => by rfl) fun _ => same_pure
      · exact hf

theorem same_reserve {add : Nat} : Same vh (vecReserveA env add) :=
  (same_room same_panic).bind fun b => by cases b; exacts [same_abort, same_pure]

theorem same_shrink {n : Nat} : Same vh (vecShrink env n) := by
  refine same_vec.bind fun v => ?_
  split
  · refine same_world.bind fun p => ?_
    cases p
    · exact same_abort
    · exact same_upd fun _ => rfl
  · exact same_pure

theorem same_cut {n : Nat} : Same vh (vecCut env n) := by
  refine same_vec.bind fun v => ?_
  split
  · exact Same.bind (same_upd fun _ => by rfl) fun _ => same_user
  · exact same_pure

theorem same_write {f : M σ Unit} : Same vh (vecWrite f) := same_user.bind fun _ => same_upd fun _ => rfl

theorem same_resize {n : Nat} {f : M σ Unit} : Same vh (vecResize env n f) := by
  refine same_vec.bind fun v => ?_
  split
  · exact same_reserve.bind fun _ => same_repeat same_write _
  · exact same_cut

theorem same_extend {n : Nat} {f : M σ Unit} : Same vh (vecExtendA env n f) :=
  same_repeat (same_user.bind fun _ => same_reserve.bind fun _ => same_upd fun _ => by rfl) n

theorem same_cloneFrom {n : Nat} {c : M σ Unit} : Same vh (vecCloneFromA env n c) :=
  same_cut.bind fun _ => same_vec.bind fun _ => (same_repeat same_user _).bind fun _ => same_reserve.bind fun _ =>
    same_repeat same_write _

theorem same_cloneInto {len items : Nat} {f : M σ Unit} : Same vh (cloneInto env len items f) :=
  same_vec.bind fun _ => same_lift.bind fun _ => same_repeat same_write _

/-- The allocator value of the vector in a closure of `with_mut_parts`. -/
abbrev ph (s : (σ × Heap) × RawT × VecA) : Nat := s.2.2.alloc

theorem same_onVec {x : M ((σ × Heap) × VecA) α} (hx : Same vh x) : Same ph (onVec x) := by
  intro s c hs
  have := hx (s.1, s.2.2) c hs
  unfold onVec
  cases h : x (s.1, s.2.2) <;> simp only [h] at this ⊢ <;> exact this

theorem same_parts : Same (ph (σ := σ)) parts := fun _ _ h => h

theorem same_setMap {n : Option Nat} : Same (ph (σ := σ)) (setMap n) := same_lift.bind fun _ _ _ h => h

theorem same_writeBack : Same ph (writeBack env) := fun _ _ h => h

theorem same_guardDrop {d : Nat} : Same ph (guardDrop env d) := by
  refine same_writeBack.bind fun _ => same_parts.bind fun p => ?_
  split
  · exact same_setMap.bind fun _ => same_onVec same_user
  · exact same_pure

theorem agree_guardDrop {d : Nat} {s : (σ × Heap) × RawT × VecA} :
    match guardDrop env d s with
    | .ok _ t | .panic t => t.2.1.alloc = t.2.2.alloc
    | .ub | .abort => True := by
  obtain ⟨w, t, v⟩ := s
  show match (if v.len ≠ t.len then M.bind (setMap (some d)) fun _ => onVec (user env.dropT) else M.pure ())
    (w, (⟨v.ptr, t.len, v.capacity env, v.alloc⟩ : RawT), v) with
    | .ok _ t | .panic t => t.2.1.alloc = t.2.2.alloc
    | .ub | .abort => True
  split_ifs
  · show match onVec (user env.dropT) (w, (⟨v.ptr, d, v.capacity env, v.alloc⟩ : RawT), v) with
      | .ok _ t | .panic t => t.2.1.alloc = t.2.2.alloc
      | .ub | .abort => True
    obtain ⟨s, H⟩ := w
    simp only [onVec, user, M.up]
    cases env.dropT s <;> simp
  · rfl

/-- The allocator value of the tensor. -/
abbrev rh (s : (σ × Heap) × RawT) : Nat := s.2.alloc

theorem same_withMutParts {d : Nat} {f : Parts σ α} (hf : Same ph f) : Same rh (withMutPartsA env d f) := by
  rintro ⟨w, t⟩ c rfl
  have h1 : Same ph (M.bind f fun r =>
        M.bind parts fun p =>
          M.bind (M.lift (check (env.debug = true → p.2.len = p.1.len))) fun _ => M.pure r) :=
    hf.bind fun r => same_parts.bind fun p => same_lift.bind fun _ => same_pure
  have h2 := h1 (w, t, rawVec env t) t.alloc rfl
  unfold withMutPartsA withBits M.onPanic
  revert h2
  generalize (M.bind f fun r => M.bind parts fun p =>
    M.bind (M.lift (check (env.debug = true → p.2.len = p.1.len))) fun _ => M.pure r) = y
  intro h2
  cases h : y (w, t, rawVec env t) with
  | ok a u =>
    rw [h] at h2
    simp only [M.bind, h, writeBack, M.pure]
    exact h2
  | panic u =>
    rw [h] at h2
    have h3 := same_guardDrop (env := env) (d := d) u _ h2
    have h4 := agree_guardDrop (env := env) (d := d) (s := u)
    simp only [M.bind, h]
    cases h5 : guardDrop env d u <;> simp only [h5] at h3 h4 ⊢
    exact h4.trans h3
  | ub => simp only [M.bind, h]
  | abort => simp only [M.bind, h]

/-- All operations but those that make a new vector (`resize_with`) keep the allocator value. -/
theorem same_mut {m : Mut σ} (hm : ∀ d r k sm l f c re map, m = .resize d r k sm l f c re map → sm = true) :
    Same rh (m.run env) := by
  cases m with
  | clear d => exact same_lift.bind fun _ => same_withMutParts ((same_onVec same_cut).bind fun _ => same_setMap)
  | expand d ok len items map f =>
    refine same_lift.bind fun _ => ?_
    split
    · exact same_withMutParts ((same_onVec same_reserve).bind fun _ => same_setMap.bind fun _ => same_onVec same_cloneInto)
    · exact same_pure
  | truncate d ok n =>
    refine same_lift.bind fun _ => ?_
    cases n with
    | none => exact same_pure
    | some n => exact same_withMutParts (same_setMap.bind fun _ => same_onVec same_cut)
  | extend d n f =>
    exact same_withMutParts ((same_onVec same_extend).bind fun _ => same_parts.bind fun _ => same_setMap)
  | reserve d n => exact same_withMutParts (same_onVec same_reserve)
  | tryReserve d n => exact Same.bind (same_withMutParts (same_onVec (same_room same_pure))) fun _ => same_pure
  | shrink d n => exact same_withMutParts (same_onVec same_shrink)
  | resize d rank skip same len f copy rest map =>
    have := hm _ _ _ _ _ _ _ _ _ rfl
    refine same_lift.bind fun _ => ?_
    split
    · exact same_pure
    · refine same_lift.bind fun n => same_withMutParts (Same.bind (same_onVec ?_) fun _ => same_setMap)
      split
      · exact same_cut
      · exact same_resize
  | cloneFrom d n c => exact same_withMutParts ((same_onVec same_cloneFrom).bind fun _ => same_setMap)
  | drain n x => exact same_lift.bind fun n => Same.bind (fun s c h => h) fun _ => same_up (g := RawT.alloc)

/-- Conversions keep the allocator value. -/
theorem same_conv {c : Conv σ} {t u : RawT} {w w' : σ × Heap} (h : c.run env t w = .ok u w') : u.alloc = t.alloc := by
  have key : ∀ {v : VecA} {n : Nat} {w : σ × Heap}, fromParts env v n w = .ok u w' → u.alloc = v.alloc := by
    intro v n w h
    unfold fromParts M.bind at h
    split at h
    · cases h; rfl
    all_goals cases h
  cases c with
  | mapping len =>
    unfold Conv.run intoMapping M.bind at h
    dsimp only at h
    generalize M.onPanic (M.lift len) (dropVec env (intoParts env t).1) w = r at h
    cases r with
    | ok n x => exact key (v := rawVec env t) h
    | _ => cases h
  | flat => exact key (v := rawVec env t) h
  | zipWith loop rest =>
    unfold Conv.run zipWithA M.bind at h
    dsimp only at h
    generalize M.onPanic (M.up loop) (zipGuard env rest t) w = r at h
    cases r with
    | ok n x => cases h; rfl
    | _ => cases h
  | expr => exact key (v := vecFromRaw env _ _ _ _) h
  | rawParts => exact key (v := vecFromRaw env _ _ _ _) h

end Alloc
end Model
