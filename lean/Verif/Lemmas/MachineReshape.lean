import Verif.Lemmas.MachineArith

/-! Reshaping with machine integers. -/

namespace Model
open Spec
namespace Machine
open Mapping (ReshapeState)

theorem fits_scale {os x : Int} {n L : Nat} (h : FitsI os) (e : x * (L : Int) = os * (n : Int)) (hL : 0 < L)
    (hn : n ≤ L) : FitsI x := by
  obtain ⟨h1, h2⟩ := h
  have hL' : (0 : Int) < L := by exact_mod_cast hL
  have hn' : (n : Int) ≤ L := by exact_mod_cast hn
  have hn0 : (0 : Int) ≤ n := by positivity
  constructor
  · by_contra hc
    have : x + 1 ≤ -9223372036854775808 := by omega
    nlinarith
  · by_contra hc
    have : 9223372036854775808 ≤ x := by omega
    nlinarith

/-- Facts about the lengths that hold before and after each part of the loop. -/
structure Lens (S oldLen newLen : Nat) (rem : List Nat) : Prop where
  pos : 0 < newLen
  le : newLen ≤ oldLen
  eq : newLen * size rem = S

theorem Lens.dim {S oldLen newLen d : Nat} {rem : List Nat} (h : Lens S oldLen newLen (d :: rem)) (hS : 0 < S) :
    0 < d ∧ 0 < size rem ∧ newLen * d ≤ S ∧ d ≤ S ∧ newLen * d * size rem = S := by
  have e := h.eq
  rw [size_cons, ← mul_assoc] at e
  have h1 : 0 < newLen * d * size rem := by omega
  have hr := Nat.pos_of_mul_pos_left h1
  have hd := Nat.pos_of_mul_pos_left (Nat.pos_of_mul_pos_right h1)
  have h2 : newLen * d ≤ S := by rw [← e]; exact Nat.le_mul_of_pos_right _ hr
  exact ⟨hd, hr, h2, (Nat.le_mul_of_pos_left _ h.pos).trans h2, e⟩

theorem addRegion_eq (checks : Bool) {S oldLen : Nat} (hS : 0 < S) (hS' : S < 9223372036854775808)
    (os : Int) (hos : FitsI os) (rem : List Nat) :
    ∀ (nl : Nat) (ns : Int) (acc : List Int), Lens S oldLen nl rem →
      ns * (oldLen : Int) = os * (nl : Int) →
      addRegion checks oldLen rem nl ns acc = some (Mapping.addRegion oldLen rem nl ns acc) := by
  induction rem with
  | nil => intro nl ns acc _ _; rfl
  | cons d rem ih =>
    intro nl ns acc hl e
    obtain ⟨hd, hr, h1, h2, h3⟩ := hl.dim hS
    unfold addRegion Mapping.addRegion
    have e1 : retU checks (nl * d) = some (nl * d) := retU_fit (usizeMax_lt (by omega))
    simp only [e1, Option.bind_eq_bind, Option.bind_some]
    by_cases hc : nl * d > oldLen
    · rw [if_pos hc, if_pos hc]
    · rw [if_neg hc, if_neg hc]
      have e2 : ns * (d : Int) * (oldLen : Int) = os * ((nl * d : Nat) : Int) := by
        push_cast
        have : ns * (d : Int) * (oldLen : Int) = ns * (oldLen : Int) * d := by ring
        rw [this, e]; ring
      have hf : FitsI (ns * (d : Int)) :=
        fits_scale hos e2 (lt_of_lt_of_le hl.pos hl.le) (by omega)
      rw [castI_ok (by omega), retI_fit hf]
      simp only [Option.bind_some]
      exact ih _ _ _ ⟨Nat.mul_pos hl.pos hd, by omega, h3⟩ e2

theorem addRegion_lens {S oldLen : Nat} (hS : 0 < S) (os : Int) (rem : List Nat) :
    ∀ (nl : Nat) (ns : Int) (acc : List Int), Lens S oldLen nl rem →
      ns * (oldLen : Int) = os * (nl : Int) →
      Lens S oldLen (Mapping.addRegion oldLen rem nl ns acc).2.1 (Mapping.addRegion oldLen rem nl ns acc).1 ∧
      (Mapping.addRegion oldLen rem nl ns acc).2.2.1 * (oldLen : Int) =
        os * ((Mapping.addRegion oldLen rem nl ns acc).2.1 : Int) := by
  induction rem with
  | nil => intro nl ns acc hl e; exact ⟨hl, e⟩
  | cons d rem ih =>
    intro nl ns acc hl e
    obtain ⟨hd, hr, h1, h2, h3⟩ := hl.dim hS
    unfold Mapping.addRegion
    split
    · exact ⟨hl, e⟩
    · rename_i hc
      apply ih
      · exact ⟨Nat.mul_pos hl.pos hd, by omega, h3⟩
      · push_cast
        have : ns * (d : Int) * (oldLen : Int) = ns * (oldLen : Int) * d := by ring
        rw [this, e]; ring

/-- The lengths do not depend on the strides. -/
theorem addRegion_any (checks : Bool) {S oldLen : Nat} (hS : 0 < S) (hS' : S < 9223372036854775808)
    (rem : List Nat) : ∀ (nl : Nat) (ns ns' : Int) (acc acc' : List Int), Lens S oldLen nl rem →
      ∀ r, addRegion checks oldLen rem nl ns acc = some r →
        r.1 = (Mapping.addRegion oldLen rem nl ns' acc').1 ∧
        r.2.1 = (Mapping.addRegion oldLen rem nl ns' acc').2.1 := by
  induction rem with
  | nil => intro nl ns ns' acc acc' _ r hr; simp [addRegion] at hr; subst hr; simp [Mapping.addRegion]
  | cons d rem ih =>
    intro nl ns ns' acc acc' hl r hr
    obtain ⟨hd, hr', h1, h2, h3⟩ := hl.dim hS
    unfold addRegion at hr
    unfold Mapping.addRegion
    have e1 : retU checks (nl * d) = some (nl * d) := retU_fit (usizeMax_lt (by omega))
    simp only [e1, Option.bind_eq_bind, Option.bind_some] at hr
    by_cases hc : nl * d > oldLen
    · rw [if_pos hc] at hr
      rw [if_pos hc]
      simp at hr; subst hr; simp
    · rw [if_neg hc] at hr
      rw [if_neg hc]
      cases hq : retI checks (ns * castI d) with
      | none => rw [hq] at hr; simp at hr
      | some q =>
        rw [hq] at hr
        exact ih _ _ _ _ _ ⟨Nat.mul_pos hl.pos hd, by omega, h3⟩ r hr

/-- Relation between the machine loop and the exact loop; `P` is the product of the old dimensions that are
not processed yet. -/
structure Rel (S P : Nat) (t : Option ReshapeState) (e : ReshapeState) : Prop where
  lens : Lens S e.oldLen e.newLen e.rem
  old : e.oldLen * P = S
  inv : e.newStride * (e.oldLen : Int) = e.oldStride * (e.newLen : Int)
  ok : e.valid = true → FitsI e.oldStride ∧ t = some e
  bad : e.valid = false → ∀ u, t = some u →
    u.oldLen = e.oldLen ∧ u.newLen = e.newLen ∧ u.rem = e.rem ∧ u.valid = false

theorem reshapeStep_eq' (st : ReshapeState) (d : Nat) (s : Int) :
    Mapping.reshapeStep st d s =
      let r := regionStart st s
      let a := Mapping.addRegion (st.oldLen * d) st.rem st.newLen r.2.1 st.acc
      { oldLen := st.oldLen * d, newLen := a.2.1, oldStride := r.1 * (d : Int), newStride := a.2.2.1,
        valid := r.2.2, rem := a.1, acc := a.2.2.2 } := by
  rfl

theorem rel_step {checks : Bool} {S P d : Nat} (hS : 0 < S) (hS' : S < 9223372036854775808) {s : Int}
    (hs : FitsI (s * (d : Int))) {t e} (h : Rel S (P * d) t e) :
    Rel S P (t.bind fun st => reshapeStep checks st d s) (Mapping.reshapeStep e d s) := by
  have hold : e.oldLen * d * P = S := by rw [← h.old]; ring
  have hpos : 0 < e.oldLen * d * P := by omega
  have hod : 0 < e.oldLen * d := Nat.pos_of_mul_pos_right hpos
  have hd : 0 < d := Nat.pos_of_mul_pos_left hod
  have hle : e.oldLen * d ≤ S := by
    rw [← hold]; exact Nat.le_mul_of_pos_right _ (Nat.pos_of_mul_pos_left hpos)
  have ho : 0 < e.oldLen := Nat.pos_of_mul_pos_right hod
  have hdS : d ≤ S := (Nat.le_mul_of_pos_left _ ho).trans hle
  have hlens : Lens S (e.oldLen * d) e.newLen e.rem :=
    ⟨h.lens.pos, h.lens.le.trans (Nat.le_mul_of_pos_right _ hd), h.lens.eq⟩
  -- the invariant after the start of the iteration
  have hinv : (regionStart e s).2.1 * ((e.oldLen * d : Nat) : Int)
      = (regionStart e s).1 * (d : Int) * (e.newLen : Int) := by
    unfold regionStart
    split
    · rename_i he; dsimp only; rw [he]; push_cast; ring
    · dsimp only
      have := h.inv
      push_cast
      calc e.newStride * ((e.oldLen : Int) * d) = e.newStride * (e.oldLen : Int) * d := by ring
        _ = _ := by rw [this]; ring
  obtain ⟨a1, a2⟩ := addRegion_lens hS ((regionStart e s).1 * (d : Int)) e.rem e.newLen (regionStart e s).2.1
    e.acc hlens hinv
  rw [reshapeStep_eq']
  have eo : retU checks (e.oldLen * d) = some (e.oldLen * d) := retU_fit (usizeMax_lt (by omega))
  have ed : castI d = d := castI_ok (by omega)
  refine ⟨a1, hold, a2, fun hv => ?_, fun hv u hu => ?_⟩
  · dsimp only at hv ⊢
    have hev : e.valid = true := by
      unfold regionStart at hv
      split at hv
      · exact hv
      · simp at hv; exact hv.1
    obtain ⟨hf, ht⟩ := h.ok hev
    have hr1 : (regionStart e s).1 = s := by
      unfold regionStart at hv ⊢
      split
      · rfl
      · rename_i hne
        rw [if_neg hne] at hv
        simp at hv; exact hv.2
    rw [hr1]
    refine ⟨hs, ?_⟩
    rw [ht, Option.bind_some]
    unfold reshapeStep
    simp only [hr1, ed, eo, retI_fit hs, Option.bind_eq_bind, Option.bind_some]
    rw [addRegion_eq checks hS hS' _ hs e.rem _ _ _ hlens (by rw [hr1] at hinv; exact hinv)]
    simp
  · dsimp only at hv ⊢
    cases ht : t with
    | none => rw [ht] at hu; simp at hu
    | some w =>
      rw [ht, Option.bind_some] at hu
      -- the machine state agrees in its lengths
      have hw : w.oldLen = e.oldLen ∧ w.newLen = e.newLen ∧ w.rem = e.rem ∧
          (regionStart w s).2.2 = false := by
        cases hev : e.valid with
        | true =>
          have := (h.ok hev).2
          rw [ht] at this; simp at this; subst this
          exact ⟨rfl, rfl, rfl, hv⟩
        | false =>
          obtain ⟨b1, b2, b3, b4⟩ := h.bad hev w ht
          refine ⟨b1, b2, b3, ?_⟩
          unfold regionStart; split <;> simp [b4]
      obtain ⟨w1, w2, w3, w4⟩ := hw
      unfold reshapeStep at hu
      simp only [w1, w2, w3, eo, Option.bind_eq_bind, Option.bind_some] at hu
      cases hq : retI checks ((regionStart w s).1 * castI d) with
      | none => rw [hq] at hu; simp at hu
      | some q =>
        rw [hq, Option.bind_some] at hu
        cases hr : addRegion checks (e.oldLen * d) e.rem e.newLen (regionStart w s).2.1 w.acc with
        | none => rw [hr] at hu; simp at hu
        | some r =>
          rw [hr] at hu
          have := addRegion_any checks hS hS' e.rem _ _ (regionStart e s).2.1 _ e.acc hlens r hr
          simp at hu
          subst hu
          exact ⟨rfl, this.2, this.1, w4⟩

theorem rel_loop (checks : Bool) {S : Nat} (hS : 0 < S) (hS' : S < 9223372036854775808) (newDims : List Nat)
    (hn : size newDims = S) (l : List (Nat × Int)) (hl : ∀ x ∈ l, FitsI (x.2 * (x.1 : Int))) (P : Nat)
    (hP : P * size (l.map (·.1)) = S) :
    Rel S P (l.foldr (fun x st => st.bind fun st => reshapeStep checks st x.1 x.2)
        (some (Mapping.reshapeInit newDims)))
      (l.foldr (fun x st => Mapping.reshapeStep st x.1 x.2) (Mapping.reshapeInit newDims)) := by
  induction l generalizing P with
  | nil =>
    have hrev : size newDims.reverse = S := by rw [size_perm (List.reverse_perm _)]; exact hn
    have hz : FitsI 1 := ⟨by omega, by omega⟩
    refine ⟨⟨by simp [Mapping.reshapeInit], by simp [Mapping.reshapeInit], ?_⟩, ?_, ?_, ?_, ?_⟩
    · simp [Mapping.reshapeInit, hrev]
    · simp at hP; simp [Mapping.reshapeInit, hP]
    · simp [Mapping.reshapeInit]
    · intro _; exact ⟨hz, rfl⟩
    · intro h; simp [Mapping.reshapeInit] at h
  | cons x l ih =>
    obtain ⟨d, s⟩ := x
    rw [List.foldr_cons, List.foldr_cons]
    apply rel_step hS hS' (hl (d, s) (by simp))
    apply ih (fun x hx => hl x (by simp [hx]))
    rw [← hP]; simp [mul_assoc]

theorem addRemaining_eq (checks : Bool) {S oldLen : Nat} (hS : 0 < S) (hS' : S < 9223372036854775808)
    (ho : oldLen = S) (os : Int) (hos : FitsI os) (rem : List Nat) :
    ∀ (nl : Nat) (ns : Int) (acc : List Int), Lens S oldLen nl rem →
      ns * (oldLen : Int) = os * (nl : Int) →
      addRemaining checks rem nl ns acc = some (Mapping.addRemaining rem nl ns acc) := by
  induction rem with
  | nil => intro nl ns acc _ _; rfl
  | cons d rem ih =>
    intro nl ns acc hl e
    obtain ⟨hd, hr, h1, h2, h3⟩ := hl.dim hS
    unfold addRemaining Mapping.addRemaining
    have e1 : retU checks (nl * d) = some (nl * d) := retU_fit (usizeMax_lt (by omega))
    have e2 : ns * (d : Int) * (oldLen : Int) = os * ((nl * d : Nat) : Int) := by
      push_cast
      have : ns * (d : Int) * (oldLen : Int) = ns * (oldLen : Int) * d := by ring
      rw [this, e]; ring
    have hf : FitsI (ns * (d : Int)) :=
      fits_scale hos e2 (lt_of_lt_of_le hl.pos hl.le) (by omega)
    simp only [e1, Option.bind_eq_bind, Option.bind_some]
    rw [castI_ok (by omega), retI_fit hf]
    simp only [Option.bind_some]
    exact ih _ _ _ ⟨Nat.mul_pos hl.pos hd, by omega, h3⟩ e2

theorem addRemaining_any (checks : Bool) {S oldLen : Nat} (hS : 0 < S) (hS' : S < 9223372036854775808)
    (ho : oldLen = S) (rem : List Nat) : ∀ (nl : Nat) (ns : Int) (acc : List Int), Lens S oldLen nl rem → ∀ r,
      addRemaining checks rem nl ns acc = some r → r.1 = S := by
  induction rem with
  | nil =>
    intro nl ns acc hl r hr
    simp [addRemaining] at hr; subst hr
    have := hl.eq; simpa using this
  | cons d rem ih =>
    intro nl ns acc hl r hr
    obtain ⟨hd, hr', h1, h2, h3⟩ := hl.dim hS
    unfold addRemaining at hr
    have e1 : retU checks (nl * d) = some (nl * d) := retU_fit (usizeMax_lt (by omega))
    simp only [e1, Option.bind_eq_bind, Option.bind_some] at hr
    cases hq : retI checks (ns * castI d) with
    | none => rw [hq] at hr; simp at hr
    | some q =>
      rw [hq, Option.bind_some] at hr
      exact ih _ _ _ ⟨Nat.mul_pos hl.pos hd, by omega, h3⟩ r hr

theorem addRemaining_len {S : Nat} (rem : List Nat) : ∀ (nl : Nat) (ns : Int) (acc : List Int),
    nl * size rem = S → (Mapping.addRemaining rem nl ns acc).1 = S := by
  induction rem with
  | nil => intro nl ns acc h; simpa [Mapping.addRemaining] using h
  | cons d rem ih =>
    intro nl ns acc h
    unfold Mapping.addRemaining
    apply ih
    rw [← h, size_cons, mul_assoc]

/-- Reshaping a non-empty array gives the same strides, or panics in both. -/
theorem reshapeStrides_eq (checks : Bool) {ds : List Nat} {st : List Int} {nd : List Nat}
    (hl : st.length = ds.length) (hp : 0 < size ds) (hS : size ds < 9223372036854775808)
    (hn : size nd = size ds) (hs : ∀ x ∈ ds.zip st, FitsI (x.2 * (x.1 : Int))) :
    reshapeStrides checks ds st nd = Mapping.reshapeStrides ds st nd := by
  have hrel := rel_loop checks hp hS nd hn (ds.zip st) hs 1 (by
    rw [List.map_fst_zip (by omega), one_mul])
  unfold reshapeStrides Mapping.reshapeStrides
  change Rel _ _ (reshapeLoop checks ds st nd) (Mapping.reshapeLoop ds st nd) at hrel
  generalize reshapeLoop checks ds st nd = t at hrel
  generalize Mapping.reshapeLoop ds st nd = e at hrel
  have hold : e.oldLen = size ds := by have := hrel.old; simpa using this
  have hlen := addRemaining_len e.rem e.newLen e.newStride e.acc hrel.lens.eq
  cases hv : e.valid with
  | true =>
    obtain ⟨hf, ht⟩ := hrel.ok hv
    rw [ht]
    simp only [Option.bind_eq_bind, Option.bind_some]
    rw [addRemaining_eq checks hp hS hold _ hf _ _ _ _ hrel.lens hrel.inv]
    simp [hv]
  | false =>
    have e1 : (check ((Mapping.addRemaining e.rem e.newLen e.newStride e.acc).1 = 0 ∨ false = true)) = none :=
      if_neg (by rw [hlen]; simp; omega)
    simp only [hv, e1, Option.bind_eq_bind, Option.bind_none]
    cases ht : t with
    | none => rfl
    | some u =>
      obtain ⟨b1, b2, b3, b4⟩ := hrel.bad hv u ht
      rw [Option.bind_some, b2, b3]
      cases hr : addRemaining checks e.rem e.newLen u.newStride u.acc with
      | none => rfl
      | some r =>
        have := addRemaining_any checks hp hS hold e.rem _ _ _ hrel.lens r hr
        have e2 : (check (r.1 = 0 ∨ u.valid = true)) = none := if_neg (by rw [this, b4]; simp; omega)
        simp only [Option.bind_some, e2, Option.bind_none]

end Machine
end Model
