import Verif.Lemmas.Alloc

/-! Lemmas about the operations of tensors with allocators. -/

namespace Model
namespace Alloc
open Spec M

variable {σ ρ α β : Type} {env : Env σ} {s : σ} {H : Heap} {hs : List (Nat × Nat)} {bs : List (Nat × Nat × Nat)}
  {a h : Nat} {v : VecA} {t : RawT}

theorem owns_rawVec : OwnsV env.zst H (rawVec env t) a hs bs ↔ Owns env.zst H t a hs bs := by
  by_cases hz : env.zst = true <;>
    simp [OwnsV, Owns, rawVec, vecFromRaw, Full, HasBlock, blk, blockOf, hz]

theorem OwnsV.raw {n : Nat} (ho : OwnsV env.zst H v a hs bs) :
    Owns env.zst H ⟨v.ptr, n, v.capacity env, v.alloc⟩ a hs bs := by
  by_cases hz : env.zst = true
  · simp only [OwnsV, Owns, VecA.capacity, Full, HasBlock, blk, blockOf, hz, true_or, if_true] at ho ⊢
    exact ho
  · simp only [OwnsV, Owns, VecA.capacity, Full, HasBlock, blk, blockOf, hz] at ho ⊢
    exact ho

/-- A check, with something to do if it fails. -/
theorem out_checkElse {o : Option α} {g : M ρ Unit} {s : ρ} {R R' : ρ → Prop} (hg : Out g s (fun _ u => R u) R') :
    Out (M.onPanic (M.lift o) g) s (fun _ t => t = s) R := by
  refine Out.onPanic (P := fun t => t = s) (out_lift (fun _ _ => rfl) rfl) ?_
  rintro t rfl
  exact hg.mono (fun _ _ h => h) fun _ _ => trivial

theorem out_fromParts {n : Nat} (he : FairEnv env) (ho : OwnsV env.zst H v a hs bs) :
    Out (fromParts env v n) (s, H) (fun u t => Owns env.zst t.2 u a hs bs) fun t => Tally t.2 hs bs :=
  (out_checkElse (out_dropVec he ho)).bind fun _ _ ht => by
    subst ht
    exact out_pure ho.raw

theorem out_dropRaw (he : FairEnv env) (ho : Owns env.zst H t a hs bs) :
    Out (dropRaw env t) (s, H) (fun _ t => Tally t.2 hs bs) fun t => Tally t.2 hs bs :=
  out_dropVec he (owns_rawVec.2 ho)

theorem out_clone {c : M σ Unit} (he : FairEnv env) (hc : Fair c) (ho : Owns env.zst H t a hs bs) :
    Out (cloneRaw env t c) (s, H)
      (fun u x => Owns env.zst x.2 u a ((t.alloc, a) :: hs) (blockOf env.zst t a ++ bs))
      fun x => Owns env.zst x.2 t a hs bs := by
  have hb : blk env.zst (rawVec env t).ptr (rawVec env t).cap a = blockOf env.zst t a := by
    by_cases hz : env.zst = true <;> simp [rawVec, vecFromRaw, blk, blockOf, hz]
  refine ((out_vecClone (c := c) he hc (owns_rawVec.2 ho)).mono (fun _ _ h => h) fun _ h => owns_rawVec.1 h).bind
    fun w x hw => ?_
  rw [hb] at hw
  exact (out_fromParts he hw).mono (fun _ _ h => h) fun _ h => ⟨ho.1, h⟩

/-! `with_mut_parts`. -/

/-- The vector in a closure of `with_mut_parts`, with its handle and its block; what the tensor says is not used. -/
abbrev PI (zst : Bool) (a : Nat) (hs : List (Nat × Nat)) (bs : List (Nat × Nat × Nat))
    (t : (σ × Heap) × RawT × VecA) : Prop := OwnsV zst t.1.2 t.2.2 a hs bs

theorem steady_onVec {x : M ((σ × Heap) × VecA) α} (hx : Steady (VI env.zst a hs bs) x) :
    Steady (PI env.zst a hs bs) (onVec x) := by
  rintro ⟨w, t, v⟩ ho
  have := hx (w, v) ho
  unfold Out PostA onVec at *
  simp only
  cases h : x (w, v) <;> simp only [h] at this ⊢ <;> exact this

theorem steady_parts : Steady (PI env.zst a hs bs : (σ × Heap) × RawT × VecA → Prop) parts := fun _ h => h

theorem steady_setMap {n : Option Nat} : Steady (PI env.zst a hs bs : (σ × Heap) × RawT × VecA → Prop) (setMap n) :=
  steady_lift.bind fun _ _ h => h

/-- The invariant of tensors that are borrowed mutably. -/
abbrev RI (zst : Bool) (a : Nat) (hs : List (Nat × Nat)) (bs : List (Nat × Nat × Nat)) (t : (σ × Heap) × RawT) : Prop :=
  Owns zst t.1.2 t.2 a hs bs

theorem out_guardDrop {d : Nat} {w : σ × Heap} (he : FairEnv env) (ho : OwnsV env.zst w.2 v a hs bs) :
    Out (guardDrop env d) (w, t, v) (fun _ x => Owns env.zst x.1.2 x.2.1 a hs bs) fun _ => True := by
  refine PostA.bind' (PostA.bind' (show Out _ (w, (⟨v.ptr, t.len, v.capacity env, v.alloc⟩ : RawT), v) _ _ from ?_))
  show Out (if v.len ≠ t.len then _ else _) _ _ _
  split
  · refine PostA.bind' (show Out (onVec (user env.dropT)) (w, (⟨v.ptr, d, v.capacity env, v.alloc⟩ : RawT), v) _ _ from ?_)
    have := steady_user (env := env) (a := a) (hs := hs) (bs := bs) he.dropT (w, v) ho
    unfold Out PostA onVec user at *
    obtain ⟨s, H⟩ := w
    simp only [M.up] at *
    cases h : env.dropT s <;> simp only [h] at this ⊢
    exact OwnsV.raw ho
  · exact OwnsV.raw ho

theorem steady_withMutParts {d : Nat} {f : Parts σ α} (he : FairEnv env) (hf : Steady (PI env.zst a hs bs) f) :
    Steady (RI env.zst a hs bs) (withMutPartsA env d f) := by
  rintro ⟨w, t⟩ ho
  have key : Out (M.bind (M.onPanic
      (M.bind f fun r =>
        M.bind parts fun p =>
          M.bind (M.lift (check (env.debug = true → p.2.len = p.1.len))) fun _ => M.pure r)
      (guardDrop env d)) fun r => M.bind (writeBack env) fun _ => M.pure r) (w, t, rawVec env t)
      (fun _ x => Owns env.zst x.1.2 x.2.1 a hs bs) (fun x => Owns env.zst x.1.2 x.2.1 a hs bs) := by
    refine Out.bind (Out.onPanic ((hf.bind fun r => steady_parts.bind fun p => steady_lift.bind fun _ => steady_pure) _
      (owns_rawVec.2 ho)) ?_) ?_
    · rintro ⟨w', t', v'⟩ ho'
      exact out_guardDrop he ho'
    · rintro r ⟨w', t', v'⟩ ho'
      exact OwnsV.raw (n := t'.len) ho'
  show Out (withBits _ _) _ _ _
  unfold Out PostA withBits at *
  simp only
  split at key
  · rename_i h; rw [h]; exact key
  · rename_i h; rw [h]; exact key
  · exact key.elim
  · rename_i h; rw [h]; trivial

theorem steady_assignVec {w : VecA} (he : FairEnv env) {H : Heap} {v : VecA}
    (hv : OwnsV env.zst H v a ((w.alloc, a) :: hs) (blk env.zst w.ptr w.cap a ++ bs)) (hw : Full env.zst w.ptr w.cap) :
    Out (assignVec env w) ((s, H), v) (fun _ t => VI env.zst a hs bs t) (VI env.zst a hs bs) := by
  refine out_vec (Out.bind (Out.onPanic (P := fun t => Tally t.1.2 ((w.alloc, a) :: hs) (blk env.zst w.ptr w.cap a ++ bs))
    (Q := fun _ t => Tally t.1.2 ((w.alloc, a) :: hs) (blk env.zst w.ptr w.cap a ++ bs)) (out_up (out_dropVec he hv)) ?_) ?_)
  · exact fun t ht => ⟨hw, ht⟩
  · exact fun _ t ht => ⟨hw, ht⟩

theorem steady_resizeNew {n : Nat} {copy rest : M σ Unit} (he : FairEnv env) (hc : Fair copy) (hr : Fair rest) :
    Steady (VI env.zst a hs bs) (resizeNew env n copy rest) := by
  rintro ⟨⟨s, H⟩, v⟩ ho
  refine out_vec (Out.bind (P := fun k t => t.2 = v ∧ Tally t.1.2 ((k, a) :: (v.alloc, a) :: hs) (blk env.zst v.ptr v.cap a ++ bs))
    (out_up ((out_cloneHandle he ho.2 List.mem_cons_self).mono (fun _ _ h => ⟨rfl, h⟩) fun _ h => ⟨ho.1, h⟩)) ?_)
  rintro k ⟨⟨s1, H1⟩, v1⟩ ⟨rfl, h1⟩
  refine Out.bind (P := fun w t => t.2 = v1 ∧ OwnsV env.zst t.1.2 w a ((v1.alloc, a) :: hs) (blk env.zst v1.ptr v1.cap a ++ bs))
    (out_up ((out_vecWithCapacity he h1).mono (fun _ _ h => ⟨rfl, h⟩) fun _ h => ⟨ho.1, h⟩)) ?_
  rintro w ⟨⟨s2, H2⟩, v2⟩ ⟨rfl, h2⟩
  refine PostA.bind' (show Out _ ((s2, H2), { v2 with len := 0 }) _ _ from ?_)
  refine Out.bind (P := fun _ t => t.2 = { v2 with len := 0 } ∧
      OwnsV env.zst t.1.2 w a ((v2.alloc, a) :: hs) (blk env.zst v2.ptr v2.cap a ++ bs))
    (Out.onPanic (P := fun t => t.2 = { v2 with len := 0 } ∧
      OwnsV env.zst t.1.2 w a ((v2.alloc, a) :: hs) (blk env.zst v2.ptr v2.cap a ++ bs)) ?_ ?_) ?_
  · have hu : ∀ {x : M σ Unit}, Fair x → Steady (fun t : (σ × Heap) × VecA => t.2 = { v2 with len := 0 } ∧
        OwnsV env.zst t.1.2 w a ((v2.alloc, a) :: hs) (blk env.zst v2.ptr v2.cap a ++ bs)) (user x) :=
      fun hx t ht => out_up (out_up (hx.out.mono (fun _ _ _ => ht) fun _ _ => ht))
    exact Out.bind (Out.onPanic (hu hc _ ⟨rfl, h2⟩) fun t ht => (hu hr t ht).mono (fun _ _ h => h) fun _ _ => trivial)
      fun _ t ht => hu hr t ht
  · rintro ⟨⟨s3, H3⟩, v3⟩ ⟨rfl, h3⟩
    exact out_up ((out_dropVec he h3).mono (fun _ _ h => ⟨ho.1, h⟩) fun _ _ => trivial)
  · rintro _ ⟨⟨s3, H3⟩, v3⟩ ⟨rfl, h3⟩
    refine steady_assignVec (w := { w with len := n }) he ⟨ho.1, ?_⟩ h3.1
    refine h3.2.perm (.swap _ _ _) ?_
    rw [← List.append_assoc, ← List.append_assoc]
    exact List.perm_append_comm.append_right _

/-! Operations. -/

theorem steady_mut {m : Mut σ} (he : FairEnv env) (hm : ∀ x ∈ mutCode m, Fair x) :
    Steady (RI env.zst a hs bs) (m.run env) := by
  cases m with
  | clear d =>
    exact steady_lift.bind fun _ => steady_withMutParts he
      ((steady_onVec (steady_cut he)).bind fun _ => steady_setMap)
  | expand d ok len items map f =>
    refine steady_lift.bind fun _ => ?_
    split
    · exact steady_withMutParts he ((steady_onVec (steady_reserve he)).bind fun _ => steady_setMap.bind fun _ =>
        steady_onVec (steady_cloneInto (hm f List.mem_cons_self)))
    · exact steady_pure
  | truncate d ok n =>
    refine steady_lift.bind fun _ => ?_
    cases n with
    | none => exact steady_pure
    | some n => exact steady_withMutParts he (steady_setMap.bind fun _ => steady_onVec (steady_cut he))
  | extend d n f =>
    exact steady_withMutParts he ((steady_onVec (steady_extend he (hm f List.mem_cons_self))).bind fun _ =>
      steady_parts.bind fun _ => steady_setMap)
  | reserve d n => exact steady_withMutParts he (steady_onVec (steady_reserve he))
  | tryReserve d n =>
    exact Steady.bind (steady_withMutParts he (steady_onVec (steady_tryReserve he))) fun _ => steady_pure
  | shrink d n => exact steady_withMutParts he (steady_onVec (steady_shrink he))
  | resize d rank skip same len f copy rest map =>
    refine steady_lift.bind fun _ => ?_
    split
    · exact steady_pure
    · refine steady_lift.bind fun n => steady_withMutParts he (Steady.bind (steady_onVec ?_) fun _ => steady_setMap)
      split
      · exact steady_cut he
      · split
        · exact steady_resize he (hm f (by simp [mutCode]))
        · exact steady_resizeNew he (hm copy (by simp [mutCode])) (hm rest (by simp [mutCode]))
  | cloneFrom d n c =>
    exact steady_withMutParts he ((steady_onVec (steady_cloneFrom he (hm c List.mem_cons_self))).bind fun _ =>
      steady_setMap)
  | drain n x =>
    refine steady_lift.bind fun n => ?_
    rintro ⟨⟨s, H⟩, t⟩ ho
    refine PostA.bind' (show Out (M.up (M.up x)) ((s, H), { t with len := n }) _ _ from ?_)
    exact out_up (out_up ((hm x List.mem_cons_self).out.mono (fun _ _ _ => ho) fun _ _ => ho))

/-- A check while a handle is at hand, which is dropped if it fails. -/
theorem out_checkHandle {o : Option α} (he : FairEnv env) (ht : Tally H ((h, a) :: hs) bs) :
    Out (M.onPanic (M.lift o) (dropHandle env h)) (s, H) (fun _ t => Tally t.2 ((h, a) :: hs) bs)
      fun t => Tally t.2 hs bs :=
  Out.onPanic (P := fun t => Tally t.2 ((h, a) :: hs) bs) (out_lift (fun _ _ => ht) ht)
    fun _ ht => (out_dropHandle he ht).mono (fun _ _ h => h) fun _ _ => trivial

theorem out_make {m : Make σ} (he : FairEnv env) (hm : ∀ x ∈ makeCode m, Fair x) (ht : Tally H ((h, a) :: hs) bs) :
    Out (m.run env h) (s, H) (fun u t => Owns env.zst t.2 u a hs bs) fun t => Tally t.2 hs bs := by
  cases m with
  | new d =>
    refine (out_checkHandle he ht).bind fun _ t ht => out_fromParts he ⟨.inr (.inl rfl), ?_⟩
    rw [blk, if_pos (.inr rfl)]
    exact ht
  | withCapacity d n =>
    exact (out_checkHandle he ht).bind fun _ t ht => (out_vecWithCapacity he ht).bind fun v u hv => out_fromParts he hv
  | fromExpr len items f =>
    exact (out_checkHandle he ht).bind fun _ t ht => (out_vecWithCapacity he ht).bind fun v u hv =>
      (out_withVec he hv (steady_cloneInto (hm f List.mem_cons_self))).bind fun r x hr => out_fromParts he hr

theorem rawParts_eq : vecFromRaw env (rawVec env t).ptr t.len ((rawVec env t).capacity env) (rawVec env t).alloc =
    rawVec env t := by
  by_cases hz : env.zst = true <;> simp [rawVec, vecFromRaw, VecA.capacity, hz]

theorem out_rawParts (he : FairEnv env) (ho : Owns env.zst H t a hs bs) :
    Out (intoExprA env t) (s, H) (fun u x => Owns env.zst x.2 u a hs bs) fun x => Tally x.2 hs bs := by
  show Out (fromParts env (vecFromRaw env (rawVec env t).ptr t.len ((rawVec env t).capacity env) (rawVec env t).alloc)
    t.len) (s, H) _ _
  rw [rawParts_eq]
  exact out_fromParts he (owns_rawVec.2 ho)

theorem out_conv {c : Conv σ} (he : FairEnv env) (hc : ∀ x ∈ convCode c, Fair x) (ho : Owns env.zst H t a hs bs) :
    Out (c.run env t) (s, H) (fun u x => Owns env.zst x.2 u a hs bs) fun x => Tally x.2 hs bs := by
  cases c with
  | mapping len =>
    refine (out_checkElse (out_dropVec he (owns_rawVec.2 ho))).bind fun n x hx => ?_
    subst hx
    exact out_fromParts he (owns_rawVec.2 ho)
  | flat => exact out_fromParts he (owns_rawVec.2 ho)
  | zipWith loop rest =>
    refine Out.bind (P := fun _ x => Owns env.zst x.2 t a hs bs) (Out.onPanic (P := fun x => Owns env.zst x.2 t a hs bs)
      (out_user (hc loop List.mem_cons_self) (fun _ _ => ho) fun _ => ho) fun x hx => ?_) fun _ x hx => out_pure hx
    exact (out_thenFree (hc rest (by simp [convCode])) he (owns_rawVec.2 hx)).mono (fun _ _ h => h) fun _ _ => trivial
  | expr => exact out_rawParts he ho
  | rawParts => exact out_rawParts he ho

theorem out_use {u : Use σ} (he : FairEnv env) (hu : ∀ x ∈ useCode u, Fair x) (ho : Owns env.zst H t a hs bs) :
    Out (u.run env t) (s, H) (fun _ x => Tally x.2 hs bs) fun x => Tally x.2 hs bs := by
  cases u with
  | drop => exact out_dropRaw he ho
  | vec => exact out_dropVec he (owns_rawVec.2 ho)
  | scalar ok =>
    refine (out_checkElse (out_dropRaw he ho)).bind fun _ x hx => ?_
    subst hx
    exact out_freeVec he (owns_rawVec.2 ho)
  | expr rest => exact out_thenFree (hu rest List.mem_cons_self) he (owns_rawVec.2 ho)

end Alloc
end Model
