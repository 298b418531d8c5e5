import Verif.Spec.Alloc
import Verif.Lemmas.UnwindResize

/-! Lemmas about memory blocks and allocators. -/

namespace Model
namespace Alloc
open Spec M

variable {σ ρ α β : Type} {env : Env σ} {s : σ} {H : Heap} {hs : List (Nat × Nat)} {bs : List (Nat × Nat × Nat)}
  {a h : Nat}

/-- Outcomes without undefined behaviour; the process may abort. -/
abbrev Out (x : M ρ α) (s : ρ) (Q : α → ρ → Prop) (R : ρ → Prop) : Prop := PostA x s Q R True

theorem out_pure {x : α} {s : ρ} {Q : α → ρ → Prop} {R} (hq : Q x s) : Out (M.pure x) s Q R := hq

theorem out_panic {s : ρ} {Q : α → ρ → Prop} {R : ρ → Prop} (hr : R s) : Out (M.panic : M ρ α) s Q R := hr

theorem out_abort {s : ρ} {Q : α → ρ → Prop} {R : ρ → Prop} : Out (abort : M ρ α) s Q R := trivial

theorem Out.bind {x : M ρ α} {k : α → M ρ β} {s : ρ} {P : α → ρ → Prop} {Q : β → ρ → Prop} {R : ρ → Prop}
    (hx : Out x s P R) (hk : ∀ a t, P a t → Out (k a) t Q R) : Out (M.bind x k) s Q R :=
  PostA.bind' (PostA.mono' hx hk (fun _ h => h) id)

theorem Out.onPanic {x : M ρ α} {g : M ρ Unit} {s : ρ} {Q : α → ρ → Prop} {P R : ρ → Prop}
    (hx : Out x s Q P) (hg : ∀ t, P t → Out g t (fun _ u => R u) (fun _ => True)) : Out (M.onPanic x g) s Q R :=
  PostA.onPanic' (PostA.mono' hx (fun _ _ h => h) hg id)

theorem Out.mono {x : M ρ α} {s : ρ} {Q Q' : α → ρ → Prop} {R R' : ρ → Prop} (hx : Out x s Q R)
    (hq : ∀ a t, Q a t → Q' a t) (hr : ∀ t, R t → R' t) : Out x s Q' R' := PostA.mono' hx hq hr id

theorem out_lift {o : Option α} {s : ρ} {Q : α → ρ → Prop} {R : ρ → Prop} (hq : ∀ x, o = some x → Q x s) (hr : R s) :
    Out (M.lift o) s Q R := by
  cases o with
  | none => exact hr
  | some x => exact hq x rfl

theorem out_up {κ : Type} {x : M ρ α} {s : ρ} {r : κ} {Q : α → ρ × κ → Prop} {R : ρ × κ → Prop}
    (hx : Out x s (fun a t => Q a (t, r)) fun t => R (t, r)) : Out (M.up x) (s, r) Q R := by
  unfold Out PostA M.up at *
  cases h : x s <;> simp only [h] at hx ⊢ <;> exact hx

theorem _root_.Spec.Fair.out {x : M ρ α} (hx : Fair x) {s : ρ} : Out x s (fun _ _ => True) fun _ => True := by
  unfold Out PostA
  cases h : x s <;> simp only [] 
  exact hx s h

theorem out_user {κ : Type} {x : M ρ α} (hx : Fair x) {s : ρ} {r : κ} {Q : α → ρ × κ → Prop} {R : ρ × κ → Prop}
    (hq : ∀ a t, Q a (t, r)) (hr : ∀ t, R (t, r)) : Out (M.up x) (s, r) Q R :=
  out_up (hx.out.mono (fun a t _ => hq a t) fun t _ => hr t)

/-! Handles and blocks. -/

theorem lookup_of_mem {l : List (Nat × Nat)} (hn : (l.map Prod.fst).Nodup) (hm : (h, a) ∈ l) :
    l.lookup h = some a := by
  induction l with
  | nil => exact absurd hm List.not_mem_nil
  | cons x l ih =>
    obtain ⟨k, b⟩ := x
    rw [List.map_cons, List.nodup_cons] at hn
    rw [List.lookup_cons]
    rcases List.mem_cons.1 hm with he | hm
    · cases he; simp
    · have : h ≠ k := fun he => hn.1 (List.mem_map.2 ⟨_, hm, he⟩)
      rw [beq_false_of_ne this]
      exact ih hn.2 hm

theorem out_live {Q : Nat → σ × Heap → Prop} {R} (ht : Tally H hs bs) (hm : (h, a) ∈ hs) (hq : Q a (s, H)) :
    Out (live h) (s, H) Q R := by
  unfold Out PostA live
  rw [lookup_of_mem ht.numbered.handles (ht.handles.mem_iff.2 hm)]
  exact hq

theorem _root_.Spec.Tally.perm {hs' : List (Nat × Nat)} {bs' : List (Nat × Nat × Nat)} (ht : Tally H hs bs) (h1 : hs.Perm hs')
    (h2 : bs.Perm bs') : Tally H hs' bs' := ⟨ht.numbered, ht.handles.trans h1, ht.blocks.trans h2⟩

theorem _root_.Spec.Tally.newHandle (ht : Tally H hs bs) :
    Tally { H with handles := (H.next, a) :: H.handles, next := H.next + 1 } ((H.next, a) :: hs) bs := by
  obtain ⟨⟨n1, n2, n3, n4⟩, p1, p2⟩ := ht
  refine ⟨⟨?_, n2, ?_, fun x hx => Nat.lt_succ_of_lt (n4 x hx)⟩, p1.cons _, p2⟩
  · rw [List.map_cons, List.nodup_cons]
    refine ⟨fun hm => ?_, n1⟩
    obtain ⟨x, hx, he⟩ := List.mem_map.1 hm
    exact absurd (n3 x hx) (by rw [he]; exact Nat.lt_irrefl _)
  · intro x hx
    rcases List.mem_cons.1 hx with rfl | hx
    · exact Nat.lt_succ_self _
    · exact Nat.lt_succ_of_lt (n3 x hx)

theorem _root_.Spec.Tally.newBlock {n : Nat} (ht : Tally H hs bs) :
    Tally { H with blocks := (H.next, a, n) :: H.blocks, next := H.next + 1 } hs ((H.next, a, n) :: bs) := by
  obtain ⟨⟨n1, n2, n3, n4⟩, p1, p2⟩ := ht
  refine ⟨⟨n1, ?_, fun x hx => Nat.lt_succ_of_lt (n3 x hx), ?_⟩, p1, p2.cons _⟩
  · rw [List.map_cons, List.nodup_cons]
    refine ⟨fun hm => ?_, n2⟩
    obtain ⟨x, hx, he⟩ := List.mem_map.1 hm
    exact absurd (n4 x hx) (by rw [he]; exact Nat.lt_irrefl _)
  · intro x hx
    rcases List.mem_cons.1 hx with rfl | hx
    · exact Nat.lt_succ_self _
    · exact Nat.lt_succ_of_lt (n4 x hx)

theorem _root_.Spec.Tally.dropHandle (ht : Tally H ((h, a) :: hs) bs) :
    Tally { H with handles := H.handles.erase (h, a) } hs bs := by
  obtain ⟨⟨n1, n2, n3, n4⟩, p1, p2⟩ := ht
  refine ⟨⟨n1.sublist (List.erase_sublist.map _), n2, fun x hx => n3 x (List.mem_of_mem_erase hx), n4⟩, ?_, p2⟩
  have := p1.erase (h, a)
  rwa [List.erase_cons_head] at this

theorem _root_.Spec.Tally.dropBlock {b n : Nat} (ht : Tally H hs ((b, a, n) :: bs)) :
    Tally { H with blocks := H.blocks.erase (b, a, n) } hs bs := by
  obtain ⟨⟨n1, n2, n3, n4⟩, p1, p2⟩ := ht
  refine ⟨⟨n1, n2.sublist (List.erase_sublist.map _), n3, fun x hx => n4 x (List.mem_of_mem_erase hx)⟩, p1, ?_⟩
  have := p2.erase (b, a, n)
  rwa [List.erase_cons_head] at this

/-- The block of a pointer and a capacity. -/
def blk (zst : Bool) (p : Option Nat) (n a : Nat) : List (Nat × Nat × Nat) :=
  if zst = true ∨ n = 0 then [] else p.toList.map fun b => (b, a, n)

/-- There is a block if there is a capacity. -/
def Full (zst : Bool) (p : Option Nat) (n : Nat) : Prop := zst = true ∨ n = 0 ∨ p ≠ none

theorem out_change {f : Heap → Heap} {k : Unit → M (σ × Heap) β} {Q : β → σ × Heap → Prop} {R : σ × Heap → Prop}
    (hk : Out (k ()) (s, f H) Q R) : Out (M.bind (change f) k) (s, H) Q R := hk

theorem out_cloneHandle (he : FairEnv env) (ht : Tally H hs bs) (hm : (h, a) ∈ hs) :
    Out (cloneHandle env h) (s, H) (fun k t => Tally t.2 ((k, a) :: hs) bs) fun t => Tally t.2 hs bs :=
  PostA.bind' <| out_live ht hm <| PostA.bind' <| out_user (he.cloneA a) (fun _ _ => ht.newHandle) fun _ => ht

theorem out_dropHandle (he : FairEnv env) (ht : Tally H ((h, a) :: hs) bs) :
    Out (dropHandle env h) (s, H) (fun _ t => Tally t.2 hs bs) fun t => Tally t.2 hs bs :=
  PostA.bind' <| out_live ht List.mem_cons_self <| out_change <|
    out_user (he.dropA a) (fun _ _ => ht.dropHandle) fun _ => ht.dropHandle

theorem out_allocate {n : Nat} (he : FairEnv env) (ht : Tally H hs bs) (hm : (h, a) ∈ hs) :
    Out (allocate env h n) (s, H)
      (fun p t => match p with
        | none => Tally t.2 hs bs
        | some p => Full env.zst p n ∧ Tally t.2 hs (blk env.zst p n a ++ bs)) fun t => Tally t.2 hs bs := by
  unfold allocate
  by_cases hz : env.zst = true ∨ n = 0
  · rw [if_pos hz]
    refine out_pure ⟨hz.imp id .inl, ?_⟩
    rw [blk, if_pos hz]
    exact ht
  · rw [if_neg hz]
    refine PostA.bind' <| out_live ht hm <| PostA.bind' <| out_user (he.give a n) (fun got t => ?_) fun _ => ht
    cases got
    · exact ht
    · refine ⟨.inr (.inr nofun), ?_⟩
      rw [blk, if_neg hz]
      exact ht.newBlock

theorem out_release {p : Option Nat} {n : Nat} (hf : Full env.zst p n) (ht : Tally H hs (blk env.zst p n a ++ bs))
    (hm : (h, a) ∈ hs) {R} : Out (release env h p n) (s, H) (fun _ t => Tally t.2 hs bs) R := by
  unfold release
  unfold blk at ht
  by_cases hz : env.zst = true ∨ n = 0
  · rw [if_pos hz]
    rw [if_pos hz] at ht
    exact ht
  · rw [if_neg hz]
    rw [if_neg hz] at ht
    match p with
    | none => exact absurd rfl (hf.elim (fun h => absurd (.inl h) hz) fun h => h.elim (fun h => absurd (.inr h) hz) id)
    | some b =>
      refine PostA.bind' <| out_live ht hm ?_
      have hb : (b, a, n) ∈ H.blocks := ht.blocks.mem_iff.2 List.mem_cons_self
      show Out (if (b, a, n) ∈ H.blocks then _ else _) (s, H) _ _
      rw [if_pos hb]
      exact ht.dropBlock

theorem out_regrow {p : Option Nat} {old new : Nat} (he : FairEnv env) (hf : Full env.zst p old)
    (ht : Tally H hs (blk env.zst p old a ++ bs)) (hm : (h, a) ∈ hs) :
    Out (regrow env h p old new) (s, H)
      (fun q t => match q with
        | none => Tally t.2 hs (blk env.zst p old a ++ bs)
        | some q => Full env.zst q new ∧ Tally t.2 hs (blk env.zst q new a ++ bs))
      fun t => Tally t.2 hs (blk env.zst p old a ++ bs) := by
  refine (out_allocate he ht hm).bind fun q t hq => ?_
  match q with
  | none => exact hq
  | some q =>
    refine PostA.bind' ((out_release hf (bs := blk env.zst q new a ++ bs) (hq.2.perm (.refl _) ?_) hm).mono
      (fun _ u hu => ⟨hq.1, hu⟩) fun _ h => h)
    rw [← List.append_assoc, ← List.append_assoc]
    exact List.perm_append_comm.append_right _

/-! Vectors. -/

/-- As `Spec.Owns`, for vectors. -/
def OwnsV (zst : Bool) (H : Heap) (v : VecA) (a : Nat) (hs : List (Nat × Nat)) (bs : List (Nat × Nat × Nat)) : Prop :=
  Full zst v.ptr v.cap ∧ Tally H ((v.alloc, a) :: hs) (blk zst v.ptr v.cap a ++ bs)

variable {v : VecA}

theorem OwnsV.len {n : Nat} (h : OwnsV env.zst H v a hs bs) : OwnsV env.zst H { v with len := n } a hs bs := h

theorem out_freeVec (he : FairEnv env) (ho : OwnsV env.zst H v a hs bs) :
    Out (freeVec env v) (s, H) (fun _ t => Tally t.2 hs bs) fun t => Tally t.2 hs bs :=
  (out_release ho.1 ho.2 List.mem_cons_self).bind fun _ _ ht => out_dropHandle he ht

/-- Some user code and then `freeVec`, which runs in any case. -/
theorem out_thenFree {x : M σ Unit} (hx : Fair x) (he : FairEnv env) (ho : OwnsV env.zst H v a hs bs) :
    Out (M.bind (M.onPanic (M.up x) (freeVec env v)) fun _ => freeVec env v) (s, H) (fun _ t => Tally t.2 hs bs)
      fun t => Tally t.2 hs bs :=
  ((out_user hx (fun _ _ => ho) fun _ => ho : Out (M.up x) (s, H)
    (fun _ t => OwnsV env.zst t.2 v a hs bs) fun t => OwnsV env.zst t.2 v a hs bs).onPanic
      fun _ ht => (out_freeVec he ht).mono (fun _ _ h => h) fun _ _ => trivial).bind fun _ _ ht => out_freeVec he ht

theorem out_dropVec (he : FairEnv env) (ho : OwnsV env.zst H v a hs bs) :
    Out (dropVec env v) (s, H) (fun _ t => Tally t.2 hs bs) fun t => Tally t.2 hs bs :=
  out_thenFree he.dropT he ho

theorem out_vecWithCapacity {n : Nat} (he : FairEnv env) (ht : Tally H ((h, a) :: hs) bs) :
    Out (vecWithCapacity env n h) (s, H) (fun v t => OwnsV env.zst t.2 v a hs bs) fun t => Tally t.2 hs bs := by
  refine Out.bind (Out.onPanic (P := fun t => Tally t.2 ((h, a) :: hs) bs)
    (Out.bind (P := fun _ t => Tally t.2 ((h, a) :: hs) bs) (out_lift (fun _ _ => ht) ht)
      fun _ t ht => out_allocate he ht List.mem_cons_self)
    fun t ht => (out_dropHandle he ht).mono (fun _ _ h => h) fun _ _ => trivial) fun p t hp => ?_
  match p with
  | none => exact out_abort
  | some p =>
    refine out_pure ⟨?_, ?_⟩
    · by_cases hz : env.zst = true
      · exact .inl hz
      · simpa only [if_neg hz] using hp.1
    · by_cases hz : env.zst = true
      · have := hp.2
        simp only [blk, hz, true_or, if_true] at this ⊢
        exact this
      · simpa only [if_neg hz] using hp.2

/-- Code that keeps an invariant, also when it panics. -/
def Steady (I : ρ → Prop) (x : M ρ α) : Prop := ∀ s, I s → Out x s (fun _ t => I t) I

theorem steady_pure {I : ρ → Prop} {x : α} : Steady I (M.pure x) := fun _ h => h
theorem steady_panic {I : ρ → Prop} : Steady I (M.panic : M ρ α) := fun _ h => h
theorem steady_abort {I : ρ → Prop} : Steady I (abort : M ρ α) := fun _ _ => trivial
theorem steady_lift {I : ρ → Prop} {o : Option α} : Steady I (M.lift o : M ρ α) := fun _ h => out_lift (fun _ _ => h) h

theorem Steady.bind {I : ρ → Prop} {x : M ρ α} {k : α → M ρ β} (hx : Steady I x) (hk : ∀ a, Steady I (k a)) :
    Steady I (M.bind x k) := fun s hs => (hx s hs).bind fun a t ht => hk a t ht

theorem steady_repeat {I : ρ → Prop} {x : M ρ Unit} (hx : Steady I x) : ∀ n, Steady I (repeatM n x)
  | 0 => steady_pure
  | n + 1 => hx.bind fun _ => steady_repeat hx n

/-- The vector of the state, with its handle and its block. -/
abbrev VI (zst : Bool) (a : Nat) (hs : List (Nat × Nat)) (bs : List (Nat × Nat × Nat)) (t : (σ × Heap) × VecA) : Prop :=
  OwnsV zst t.1.2 t.2 a hs bs

theorem steady_vec : Steady (VI env.zst a hs bs : (σ × Heap) × VecA → Prop) vec := fun _ h => h

theorem steady_len {f : VecA → Nat} :
    Steady (VI env.zst a hs bs : (σ × Heap) × VecA → Prop) (updVec fun v => { v with len := f v }) := fun _ h => h

theorem steady_user {x : M σ α} (hx : Fair x) : Steady (VI env.zst a hs bs) (user x) :=
  fun _ h => out_up (out_up (hx.out.mono (fun _ _ _ => h) fun _ _ => h))

theorem out_vec {k : VecA → M ((σ × Heap) × VecA) β} {w : σ × Heap} {Q : β → (σ × Heap) × VecA → Prop}
    {R : (σ × Heap) × VecA → Prop} (hk : Out (k v) (w, v) Q R) : Out (M.bind vec k) (w, v) Q R := hk

theorem steady_room {add : Nat} {full : M ((σ × Heap) × VecA) Bool} (he : FairEnv env)
    (hfull : Steady (VI env.zst a hs bs) full) : Steady (VI env.zst a hs bs) (vecRoom env add full) := by
  rintro ⟨⟨s, H⟩, v⟩ ho
  refine out_vec ?_
  split
  · exact ho
  · split
    · exact hfull _ ho
    · dsimp only
      split
      · refine Out.bind (out_up ((out_regrow (s := s) he ho.1 ho.2 List.mem_cons_self).mono
          (Q' := fun q t => match q with
            | none => OwnsV env.zst t.2 v a hs bs
            | some q => OwnsV env.zst t.2 { v with ptr := q, cap := max (v.len + add) (env.grow v.cap (v.len + add)) } a hs bs)
          ?_ fun t ht => (⟨ho.1, ht⟩ : OwnsV env.zst t.2 v a hs bs)) :
          Out _ ((s, H), v) (fun q t => match q with
            | none => OwnsV env.zst t.1.2 t.2 a hs bs
            | some q => OwnsV env.zst t.1.2 { t.2 with ptr := q, cap := max (v.len + add) (env.grow v.cap (v.len + add)) } a hs bs) _) ?_
        · intro q t hq
          cases q with
          | none => exact ⟨ho.1, hq⟩
          | some q => exact hq
        · intro q t hq
          cases q with
          | none => exact hq
          | some q => exact hq
      · exact hfull _ ho

theorem steady_reserve {add : Nat} (he : FairEnv env) : Steady (VI env.zst a hs bs) (vecReserveA env add) :=
  (steady_room he steady_panic).bind fun b => by cases b; exacts [steady_abort, steady_pure]

theorem steady_tryReserve {add : Nat} (he : FairEnv env) : Steady (VI env.zst a hs bs) (vecTryReserve env add) :=
  steady_room he steady_pure

theorem steady_shrink {n : Nat} (he : FairEnv env) : Steady (VI env.zst a hs bs) (vecShrink env n) := by
  rintro ⟨⟨s, H⟩, v⟩ ho
  refine out_vec ?_
  split
  · refine Out.bind (out_up ((out_regrow (s := s) he ho.1 ho.2 List.mem_cons_self).mono
      (Q' := fun q t => match q with
        | none => True
        | some q => OwnsV env.zst t.2 { v with ptr := q, cap := max v.len n } a hs bs)
      ?_ fun t ht => (⟨ho.1, ht⟩ : OwnsV env.zst t.2 v a hs bs)) :
      Out _ ((s, H), v) (fun q t => match q with
        | none => True
        | some q => OwnsV env.zst t.1.2 { t.2 with ptr := q, cap := max v.len n } a hs bs) _) ?_
    · intro q t hq
      cases q with
      | none => trivial
      | some q => exact hq
    · intro q t hq
      cases q with
      | none => exact out_abort
      | some q => exact hq
  · exact ho

theorem steady_cut {n : Nat} (he : FairEnv env) : Steady (VI env.zst a hs bs) (vecCut env n) :=
  steady_vec.bind fun v => by
    split
    · exact steady_len.bind fun _ => steady_user he.dropT
    · exact steady_pure

theorem steady_write {f : M σ Unit} (hf : Fair f) : Steady (VI env.zst a hs bs) (vecWrite f) :=
  (steady_user hf).bind fun _ => steady_len

theorem steady_resize {n : Nat} {f : M σ Unit} (he : FairEnv env) (hf : Fair f) :
    Steady (VI env.zst a hs bs) (vecResize env n f) :=
  steady_vec.bind fun v => by
    split
    · exact (steady_reserve he).bind fun _ => steady_repeat (steady_write hf) _
    · exact steady_cut he

theorem steady_extend {n : Nat} {f : M σ Unit} (he : FairEnv env) (hf : Fair f) :
    Steady (VI env.zst a hs bs) (vecExtendA env n f) :=
  steady_repeat ((steady_user hf).bind fun _ => (steady_reserve he).bind fun _ => steady_len) n

theorem steady_cloneFrom {n : Nat} {c : M σ Unit} (he : FairEnv env) (hc : Fair c) :
    Steady (VI env.zst a hs bs) (vecCloneFromA env n c) :=
  (steady_cut he).bind fun _ => steady_vec.bind fun _ => (steady_repeat (steady_user hc) _).bind fun _ =>
    (steady_reserve he).bind fun _ => steady_repeat (steady_write hc) _

theorem steady_cloneInto {len items : Nat} {f : M σ Unit} (hf : Fair f) :
    Steady (VI env.zst a hs bs) (cloneInto env len items f) :=
  steady_vec.bind fun _ => steady_lift.bind fun _ => steady_repeat (steady_write hf) _

theorem out_withVec {x : M ((σ × Heap) × VecA) α} (he : FairEnv env) (ho : OwnsV env.zst H v a hs bs)
    (hx : Steady (VI env.zst a hs bs) x) :
    Out (withVec env v x) (s, H) (fun r t => OwnsV env.zst t.2 r.2 a hs bs) fun t => Tally t.2 hs bs := by
  refine PostA.scope' (Out.onPanic (hx ((s, H), v) ho) ?_)
  rintro ⟨⟨s', H'⟩, w⟩ hw
  refine out_vec ?_
  exact out_up ((out_dropVec he hw).mono (fun _ _ h => h) fun _ _ => trivial)

theorem out_vecClone {c : M σ Unit} (he : FairEnv env) (hc : Fair c) (ho : OwnsV env.zst H v a hs bs) :
    Out (vecCloneA env v c) (s, H)
      (fun w t => OwnsV env.zst t.2 w a ((v.alloc, a) :: hs) (blk env.zst v.ptr v.cap a ++ bs))
      fun t => OwnsV env.zst t.2 v a hs bs := by
  refine ((out_cloneHandle he ho.2 List.mem_cons_self).mono (fun _ _ h => h) fun _ h => ⟨ho.1, h⟩).bind fun k t ht => ?_
  refine ((out_vecWithCapacity he ht).mono (fun _ _ h => h) fun _ h => ⟨ho.1, h⟩).bind fun w u hw => ?_
  exact ((out_withVec he hw (steady_repeat (steady_write hc) _)).mono (fun _ _ h => h) fun _ h => ⟨ho.1, h⟩).bind
    fun r x hr => hr

end Alloc
end Model
