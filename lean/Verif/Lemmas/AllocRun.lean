import Verif.Lemmas.AllocOps
import Mathlib.Data.List.InsertIdx

/-! Lemmas about programs that use tensors with allocators. -/

namespace Model
namespace Alloc
open Spec M

variable {σ ρ α β : Type} {env : Env σ} {s : σ} {H : Heap} {hs : List (Nat × Nat)} {bs : List (Nat × Nat × Nat)}
  {a h : Nat} {t : RawT} {ps qs : List (RawT × Nat)}

/-- The handles of tensors. -/
abbrev hsOf (ps : List (RawT × Nat)) : List (Nat × Nat) := ps.map fun x => (x.1.alloc, x.2)

/-- The blocks of tensors. -/
abbrev bsOf (zst : Bool) (ps : List (RawT × Nat)) : List (Nat × Nat × Nat) := ps.flatMap fun x => blockOf zst x.1 x.2

theorem ownsAll_cons {zst : Bool} : OwnsAll zst H ((t, a) :: ps) hs bs ↔
    (∀ x ∈ ps, HasBlock zst x.1) ∧ Owns zst H t a (hsOf ps ++ hs) (bsOf zst ps ++ bs) := by
  simp only [OwnsAll, Owns, List.forall_mem_cons, List.map_cons, List.flatMap_cons, List.cons_append, List.append_assoc]
  exact ⟨fun h => ⟨h.1.2, h.1.1, h.2⟩, fun h => ⟨⟨h.2.1, h.1⟩, h.2.2⟩⟩

theorem ownsAll_perm {zst : Bool} (hp : ps.Perm qs) (ho : OwnsAll zst H ps hs bs) : OwnsAll zst H qs hs bs :=
  ⟨fun x hx => ho.1 x (hp.mem_iff.2 hx), ho.2.perm ((hp.map _).append_right _) ((hp.flatMap_right _).append_right _)⟩

/-- The tensors of a program own their handles and blocks. -/
def AI (zst : Bool) (hs : List (Nat × Nat)) (bs : List (Nat × Nat × Nat)) (x : (σ × Heap) × List RawT) : Prop :=
  ∃ ps : List (RawT × Nat), ps.map Prod.fst = x.2 ∧ OwnsAll zst x.1.2 ps hs bs

theorem at_index {ts : List RawT} {i : Nat} (hp : ps.map Prod.fst = ts) (ht : ts[i]? = some t) :
    ∃ a, i < ps.length ∧ ps.Perm ((t, a) :: ps.eraseIdx i) := by
  subst hp
  rw [List.getElem?_map] at ht
  obtain ⟨⟨t', a⟩, hx, rfl⟩ := Option.map_eq_some_iff.1 ht
  obtain ⟨hi, hx⟩ := List.getElem?_eq_some_iff.1 hx
  refine ⟨a, hi, ?_⟩
  have := (List.getElem_cons_eraseIdx_perm hi).symm
  rwa [hx] at this

theorem out_tensors {k : List RawT → M ((σ × Heap) × List RawT) β} {w : σ × Heap} {ts : List RawT}
    {Q : β → (σ × Heap) × List RawT → Prop} {R : (σ × Heap) × List RawT → Prop} (hk : Out (k ts) (w, ts) Q R) :
    Out (M.bind tensors k) (w, ts) Q R := hk

theorem steady_step {x : Step σ} (he : FairEnv env) (hx : ∀ c ∈ stepCode x, Fair c) :
    Steady (AI env.zst hs bs) (x.run env) := by
  rintro ⟨⟨s, H⟩, ts⟩ ⟨ps, hp, ho⟩
  cases x with
  | make a m =>
    refine Out.bind (P := fun t x => x.2 = ts ∧ Owns env.zst x.1.2 t a (hsOf ps ++ hs) (bsOf env.zst ps ++ bs))
      (out_up (M.PostA.bind' ((out_make he hx (Tally.newHandle ho.2)).mono (fun _ _ h => ⟨rfl, h⟩)
        fun _ h => ⟨ps, hp, ho.1, h⟩))) ?_
    rintro t ⟨w, ts'⟩ ⟨rfl, hu⟩
    exact ⟨(t, a) :: ps, by rw [List.map_cons, hp], ownsAll_cons.2 ⟨ho.1, hu⟩⟩
  | clone i c =>
    unfold Step.run
    refine out_tensors ?_
    match hi : ts[i]? with
    | none => exact ⟨ps, hp, ho⟩
    | some t =>
      obtain ⟨a, hl, hq⟩ := at_index hp hi
      obtain ⟨hb, hw⟩ := ownsAll_cons.1 (ownsAll_perm hq ho)
      refine Out.bind (P := fun u x => x.2 = ts ∧ Owns env.zst x.1.2 u a ((t.alloc, a) :: (hsOf (ps.eraseIdx i) ++ hs))
        (blockOf env.zst t a ++ (bsOf env.zst (ps.eraseIdx i) ++ bs)))
        (out_up ((out_clone he (hx c List.mem_cons_self) hw).mono (fun _ _ h => ⟨rfl, h⟩) fun _ h =>
          ⟨ps, hp, ownsAll_perm hq.symm (ownsAll_cons.2 ⟨hb, h⟩)⟩)) ?_
      rintro u ⟨w, ts'⟩ ⟨rfl, hu⟩
      refine ⟨(u, a) :: ps, by rw [List.map_cons, hp], ownsAll_perm (hq.symm.cons _) (ownsAll_cons.2 ⟨?_, ?_⟩)⟩
      · exact List.forall_mem_cons.2 ⟨hw.1, hb⟩
      · simpa only [List.map_cons, List.flatMap_cons, List.cons_append, List.append_assoc] using hu
  | mutate i m =>
    unfold Step.run
    refine out_tensors ?_
    match hi : ts[i]? with
    | none => exact ⟨ps, hp, ho⟩
    | some t =>
      obtain ⟨a, hl, hq⟩ := at_index hp hi
      obtain ⟨hb, hw⟩ := ownsAll_cons.1 (ownsAll_perm hq ho)
      have key := steady_mut he hx ((s, H), t) hw
      have fin : ∀ (w : σ × Heap) (u : RawT), Owns env.zst w.2 u a (hsOf (ps.eraseIdx i) ++ hs)
          (bsOf env.zst (ps.eraseIdx i) ++ bs) → AI env.zst hs bs (w, ts.set i u) := fun w u hu =>
        ⟨ps.set i (u, a), by rw [List.map_set, hp],
          ownsAll_perm (List.set_perm_cons_eraseIdx hl _).symm (ownsAll_cons.2 ⟨hb, hu⟩)⟩
      show Out (atTensor i t (m.run env)) _ _ _
      unfold Out PostA atTensor at *
      simp only
      split at key
      · rename_i h; rw [h]; exact fin _ _ key
      · rename_i h; rw [h]; exact fin _ _ key
      · exact key.elim
      · rename_i h; rw [h]; trivial
  | convert i c =>
    unfold Step.run
    refine out_tensors ?_
    match hi : ts[i]? with
    | none => exact ⟨ps, hp, ho⟩
    | some t =>
      obtain ⟨a, hl, hq⟩ := at_index hp hi
      obtain ⟨hb, hw⟩ := ownsAll_cons.1 (ownsAll_perm hq ho)
      have he' : (ps.eraseIdx i).map Prod.fst = ts.eraseIdx i := by
        rw [← show ps.map Prod.fst = ts from hp, List.eraseIdx_map]
      refine PostA.bind' (show Out _ ((s, H), ts.eraseIdx i) _ _ from ?_)
      refine Out.bind (P := fun u x => x.2 = ts.eraseIdx i ∧ Owns env.zst x.1.2 u a (hsOf (ps.eraseIdx i) ++ hs)
        (bsOf env.zst (ps.eraseIdx i) ++ bs))
        (out_up ((out_conv he hx hw).mono (fun _ _ h => ⟨rfl, h⟩) fun _ h => ⟨ps.eraseIdx i, he', hb, h⟩)) ?_
      rintro u ⟨w, ts'⟩ ⟨rfl, hu⟩
      exact ⟨(u, a) :: ps.eraseIdx i, by rw [List.map_cons, he'], ownsAll_cons.2 ⟨hb, hu⟩⟩
  | use i u =>
    unfold Step.run
    refine out_tensors ?_
    match hi : ts[i]? with
    | none => exact ⟨ps, hp, ho⟩
    | some t =>
      obtain ⟨a, hl, hq⟩ := at_index hp hi
      obtain ⟨hb, hw⟩ := ownsAll_cons.1 (ownsAll_perm hq ho)
      have he' : (ps.eraseIdx i).map Prod.fst = ts.eraseIdx i := by
        rw [← show ps.map Prod.fst = ts from hp, List.eraseIdx_map]
      refine PostA.bind' (show Out _ ((s, H), ts.eraseIdx i) _ _ from ?_)
      exact out_up ((out_use he hx hw).mono (fun _ _ h => ⟨ps.eraseIdx i, he', hb, h⟩)
        fun _ h => ⟨ps.eraseIdx i, he', hb, h⟩)

theorem steady_caught {I : ρ → Prop} {x : M ρ Unit} (hx : Steady I x) (s : ρ) (hs : I s) :
    Out (caught x) s (fun _ t => I t) fun _ => False := by
  have := hx s hs
  unfold Out PostA caught at *
  cases h : x s <;> simp only [h] at this ⊢ <;> exact this

theorem out_runSteps (he : FairEnv env) : ∀ (xs : List (Step σ)) (_ : ∀ x ∈ xs, ∀ c ∈ stepCode x, Fair c)
    (w : (σ × Heap) × List RawT) (_ : AI env.zst hs bs w),
    Out (runSteps env xs) w (fun _ t => AI env.zst hs bs t) fun _ => False
  | [], _, _, hw => hw
  | x :: xs, hx, w, hw => (steady_caught (steady_step he (hx x List.mem_cons_self)) w hw).bind fun _ t ht =>
      out_runSteps he xs (fun y hy => hx y (List.mem_cons_of_mem _ hy)) t ht

end Alloc
end Model
