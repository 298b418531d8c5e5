import Verif.Lemmas.Borrow

/-! The invariant of programs that hold views: values that share elements are borrowed from each other or read-only. -/

namespace Model.Borrow
open Spec

variable {α : Type}

structure Inv (checks : Bool) (st : St α) : Prop where
  idlt : ∀ i x, st.handles i = some x → i < st.next
  loanlt : ∀ i x, st.handles i = some x → ∀ l ∈ x.loans, l.1 < st.next
  shape : ∀ a s, st.shapes a = some s → a < st.nextAlloc ∧ GoodShape s
  place : ∀ i x, st.handles i = some x → ∃ s, st.shapes x.alloc = some s ∧ Fine checks s x.area
  owner : ∀ i x, st.handles i = some x → x.owner = true → x.loans = [] ∧ x.excl = true
  one : ∀ i x j y, st.handles i = some x → st.handles j = some y → x.owner = true → y.owner = true →
    x.alloc = y.alloc → i = j
  rooted : ∀ i x, st.handles i = some x → ∃ o y, st.handles o = some y ∧ y.owner = true ∧ y.alloc = x.alloc ∧
    (o = i ∨ BorrowedFrom x o)
  excl : ∀ i x, st.handles i = some x → x.excl = true → ∀ l ∈ x.loans, l.2 = true
  lender : ∀ i x j y, st.handles i = some x → (j, true) ∈ x.loans → st.handles j = some y → y.excl = true
  share : ∀ i x j y a p, st.handles i = some x → st.handles j = some y → i ≠ j → Covers x a p → Covers y a p →
    BorrowedFrom y i ∨ BorrowedFrom x j ∨ (x.excl = false ∧ y.excl = false)

theorem ends_false {h : Nat} {excl : Bool} {x : Handle} (hx : ends h excl x = false) (hb : BorrowedFrom x h) :
    excl = false ∧ (h, false) ∈ x.loans := by
  obtain ⟨l, hl, rfl⟩ := List.mem_map.1 hb
  simp only [ends, List.any_eq_false, Bool.and_eq_true, beq_iff_eq, Bool.or_eq_true, not_and, not_or,
    Bool.not_eq_true] at hx
  have := hx l hl rfl
  exact ⟨this.1, this.2 ▸ hl⟩

theorem use_some {st : St α} {h : Nat} {excl : Bool} {i : Nat} {x : Handle}
    (hx : (st.use h excl).handles i = some x) : st.handles i = some x ∧ ends h excl x = false := by
  simp only [St.use, Option.filter_eq_some_iff] at hx
  exact ⟨hx.1, by simpa using hx.2⟩

theorem use_of {st : St α} {h : Nat} {excl : Bool} {i : Nat} {x : Handle}
    (hx : st.handles i = some x) (he : ends h excl x = false) : (st.use h excl).handles i = some x := by
  simp only [St.use, Option.filter_eq_some_iff]
  exact ⟨hx, by simpa using he⟩

theorem ends_nil {h : Nat} {excl : Bool} {x : Handle} (hx : x.loans = []) : ends h excl x = false := by
  simp [ends, hx]

theorem Inv.use {checks : Bool} {st : St α} (hi : Inv checks st) (h : Nat) (excl : Bool) :
    Inv checks (st.use h excl) where
  idlt i x hx := hi.idlt i x (use_some hx).1
  loanlt i x hx := hi.loanlt i x (use_some hx).1
  shape := hi.shape
  place i x hx := hi.place i x (use_some hx).1
  owner i x hx := hi.owner i x (use_some hx).1
  one i x j y hx hy := hi.one i x j y (use_some hx).1 (use_some hy).1
  rooted i x hx := by
    obtain ⟨o, y, hy, ho, ha, hb⟩ := hi.rooted i x (use_some hx).1
    exact ⟨o, y, use_of hy (ends_nil (hi.owner o y hy ho).1), ho, ha, hb⟩
  excl i x hx := hi.excl i x (use_some hx).1
  lender i x j y hx hl hy := hi.lender i x j y (use_some hx).1 hl (use_some hy).1
  share i x j y a p hx hy := hi.share i x j y a p (use_some hx).1 (use_some hy).1

theorem remove_some {st : St α} {h : Nat} {i : Nat} {x : Handle} (hx : (st.remove h).handles i = some x) :
    i ≠ h ∧ st.handles i = some x := by
  simp only [St.remove] at hx
  split at hx
  · cases hx
  · exact ⟨by assumption, hx⟩

theorem remove_of {st : St α} {h : Nat} {i : Nat} {x : Handle} (hn : i ≠ h) (hx : st.handles i = some x) :
    (st.remove h).handles i = some x := by
  simp only [St.remove]
  rw [if_neg hn, hx]

theorem Inv.remove {checks : Bool} {st : St α} (hi : Inv checks st) {h : Nat}
    (ho : ∀ z, st.handles h = some z → z.owner = false) : Inv checks (st.remove h) where
  idlt i x hx := hi.idlt i x (remove_some hx).2
  loanlt i x hx := hi.loanlt i x (remove_some hx).2
  shape := hi.shape
  place i x hx := hi.place i x (remove_some hx).2
  owner i x hx := hi.owner i x (remove_some hx).2
  one i x j y hx hy := hi.one i x j y (remove_some hx).2 (remove_some hy).2
  rooted i x hx := by
    obtain ⟨o, y, hy, hyo, ha, hb⟩ := hi.rooted i x (remove_some hx).2
    refine ⟨o, y, remove_of (fun e => ?_) hy, hyo, ha, hb⟩
    subst e
    rw [ho y hy] at hyo
    cases hyo
  excl i x hx := hi.excl i x (remove_some hx).2
  lender i x j y hx hl hy := hi.lender i x j y (remove_some hx).2 hl (remove_some hy).2
  share i x j y a p hx hy := hi.share i x j y a p (remove_some hx).2 (remove_some hy).2

/-- A value that can be added to a state. -/
structure Fits (checks : Bool) (st : St α) (n : Handle) : Prop where
  owner : n.owner = false
  loanlt : ∀ l ∈ n.loans, l.1 < st.next
  place : ∃ s, st.shapes n.alloc = some s ∧ Fine checks s n.area
  rooted : ∃ o y, st.handles o = some y ∧ y.owner = true ∧ y.alloc = n.alloc ∧ BorrowedFrom n o
  excl : n.excl = true → ∀ l ∈ n.loans, l.2 = true
  lender : ∀ j y, (j, true) ∈ n.loans → st.handles j = some y → y.excl = true
  share : ∀ j y a p, st.handles j = some y → Covers n a p → Covers y a p →
    BorrowedFrom n j ∨ (n.excl = false ∧ y.excl = false)

theorem add_some {st : St α} {n : Handle} {i : Nat} {x : Handle} (hx : (st.add n).handles i = some x) :
    (i = st.next ∧ x = n) ∨ (i ≠ st.next ∧ st.handles i = some x) := by
  simp only [St.add] at hx
  split at hx
  · cases hx; exact .inl ⟨by assumption, rfl⟩
  · exact .inr ⟨by assumption, hx⟩

theorem add_of {st : St α} {n : Handle} {i : Nat} {x : Handle} (hn : i ≠ st.next) (hx : st.handles i = some x) :
    (st.add n).handles i = some x := by
  simp only [St.add]
  rw [if_neg hn, hx]

theorem Inv.add {checks : Bool} {st : St α} (hi : Inv checks st) {n : Handle} (hn : Fits checks st n) :
    Inv checks (st.add n) where
  idlt i x hx := by
    show i < st.next + 1
    rcases add_some hx with ⟨rfl, -⟩ | ⟨-, hx⟩
    · omega
    · have := hi.idlt i x hx; omega
  loanlt i x hx l hl := by
    show l.1 < st.next + 1
    rcases add_some hx with ⟨rfl, rfl⟩ | ⟨-, hx⟩
    · have := hn.loanlt l hl; omega
    · have := hi.loanlt i x hx l hl; omega
  shape := hi.shape
  place i x hx := by
    rcases add_some hx with ⟨rfl, rfl⟩ | ⟨-, hx⟩
    · exact hn.place
    · exact hi.place i x hx
  owner i x hx ho := by
    rcases add_some hx with ⟨rfl, rfl⟩ | ⟨-, hx⟩
    · rw [hn.owner] at ho; cases ho
    · exact hi.owner i x hx ho
  one i x j y hx hy ho ho' := by
    rcases add_some hx with ⟨rfl, rfl⟩ | ⟨-, hx⟩
    · rw [hn.owner] at ho; cases ho
    · rcases add_some hy with ⟨rfl, rfl⟩ | ⟨-, hy⟩
      · rw [hn.owner] at ho'; cases ho'
      · exact hi.one i x j y hx hy ho ho'
  rooted i x hx := by
    rcases add_some hx with ⟨rfl, rfl⟩ | ⟨-, hx⟩
    · obtain ⟨o, y, hy, ho, ha, hb⟩ := hn.rooted
      exact ⟨o, y, add_of (Nat.ne_of_lt (hi.idlt o y hy)) hy, ho, ha, .inr hb⟩
    · obtain ⟨o, y, hy, ho, ha, hb⟩ := hi.rooted i x hx
      exact ⟨o, y, add_of (Nat.ne_of_lt (hi.idlt o y hy)) hy, ho, ha, hb⟩
  excl i x hx := by
    rcases add_some hx with ⟨rfl, rfl⟩ | ⟨-, hx⟩
    · exact hn.excl
    · exact hi.excl i x hx
  lender i x j y hx hl hy := by
    have hj : (j, true).1 < st.next := by
      rcases add_some hx with ⟨rfl, rfl⟩ | ⟨-, hx⟩
      · exact hn.loanlt _ hl
      · exact hi.loanlt i x hx _ hl
    have hy' : st.handles j = some y := by
      rcases add_some hy with ⟨rfl, rfl⟩ | ⟨-, hy⟩
      · exact absurd hj (Nat.lt_irrefl _)
      · exact hy
    rcases add_some hx with ⟨rfl, rfl⟩ | ⟨-, hx⟩
    · exact hn.lender j y hl hy'
    · exact hi.lender i x j y hx hl hy'
  share i x j y a p hx hy hij cx cy := by
    rcases add_some hx with ⟨rfl, rfl⟩ | ⟨-, hx⟩
    · rcases add_some hy with ⟨rfl, rfl⟩ | ⟨-, hy⟩
      · exact absurd rfl hij
      · rcases hn.share j y a p hy cx cy with h | h
        · exact .inr (.inl h)
        · exact .inr (.inr h)
    · rcases add_some hy with ⟨rfl, rfl⟩ | ⟨-, hy⟩
      · rcases hn.share i x a p (by assumption) cy cx with h | h
        · exact .inl h
        · exact .inr (.inr h.symm)
      · exact hi.share i x j y a p hx hy hij cx cy

theorem Inv.addAll {checks : Bool} {alloc : Nat} {excl : Bool} {loans : List (Nat × Bool)} :
    ∀ {as : List Area} {st : St α}, Inv checks st →
    (∀ a ∈ as, Fits checks st ⟨false, excl, alloc, a, loans⟩) → as.Pairwise ApartA →
    Inv checks (st.addAll alloc excl loans as) := by
  intro as
  induction as with
  | nil => intro st hi _ _; exact hi
  | cons a as ih =>
    intro st hi hf hp
    have ha := hf a (by simp)
    refine ih (hi.add ha) (fun b hb => ?_) (List.pairwise_cons.1 hp).2
    have hb' := hf b (by simp [hb])
    refine ⟨rfl, fun l hl => Nat.lt_succ_of_lt (hb'.loanlt l hl), hb'.place, ?_, hb'.excl, ?_, ?_⟩
    · obtain ⟨o, y, hy, ho, h1, h2⟩ := hb'.rooted
      exact ⟨o, y, add_of (Nat.ne_of_lt (hi.idlt o y hy)) hy, ho, h1, h2⟩
    · intro j y hl hy
      rcases add_some hy with ⟨rfl, rfl⟩ | ⟨-, hy⟩
      · exact absurd (hb'.loanlt _ hl) (Nat.lt_irrefl _)
      · exact hb'.lender j y hl hy
    · intro j y c p hy hc hc'
      rcases add_some hy with ⟨rfl, rfl⟩ | ⟨-, hy⟩
      · obtain ⟨i, hi⟩ := hc.2
        obtain ⟨i', hi'⟩ := hc'.2
        exact absurd hi ((List.pairwise_cons.1 hp).1 b hb i' i p hi')
      · exact hb'.share j y c p hy hc hc'

theorem sig_cases {excl : Bool} {variant : Variant} {f : Fn} {s : Sig} (h : sig excl variant f = some s) :
    s = ⟨.ref, false⟩ ∨ s = ⟨.refMut, true⟩ ∨ s = ⟨.own, excl⟩ := by
  cases variant <;> cases f <;> simp [sig] at h <;> simp [← h]

theorem borrowed_cons {x : Handle} {h : Nat} {b : Bool} {loans : List (Nat × Bool)}
    (hx : x.loans = (h, b) :: loans) (j : Nat) : BorrowedFrom x j ↔ j = h ∨ j ∈ loans.map Prod.fst := by
  simp [BorrowedFrom, hx]

section
variable {checks : Bool} {st : St α} {h : Nat} {x : Handle} {v : View} {as : List Area}

/-- What is common to the values that a method gives. -/
theorem covers_lender (hv : x.area = .view v) {a : Area} (hin : Inside v a) {e : Bool} {loans : List (Nat × Bool)}
    {c : Nat} {p : Int} (hc : Covers ⟨false, e, x.alloc, a, loans⟩ c p) : Covers x c p := by
  obtain ⟨h1, i, h2⟩ := hc
  obtain ⟨j, hj⟩ := hin i p h2
  exact ⟨h1, j, by rw [hv]; exact hj⟩

theorem fits_ref (hi : Inv checks st) (hx : st.handles h = some x) (hv : x.area = .view v) {s : Shape}
    (hs : st.shapes x.alloc = some s) {a : Area} (hfi : Fine checks s a) (hin : Inside v a) :
    Fits checks (st.use h false) ⟨false, false, x.alloc, a, (h, false) :: x.loans⟩ where
  owner := rfl
  loanlt l hl := by
    rcases List.mem_cons.1 hl with rfl | hl
    · exact hi.idlt h x hx
    · exact hi.loanlt h x hx l hl
  place := ⟨s, hs, hfi⟩
  rooted := by
    obtain ⟨o, y, hy, ho, ha, hb⟩ := hi.rooted h x hx
    exact ⟨o, y, use_of hy (ends_nil (hi.owner o y hy ho).1), ho, ha, (borrowed_cons rfl o).2 hb⟩
  excl e := by cases e
  lender j y hl hy := by
    rcases List.mem_cons.1 hl with e | hl
    · cases e
    · exact hi.lender h x j y hx hl (use_some hy).1
  share j y c p hy cn cy := by
    obtain ⟨hy, he⟩ := use_some hy
    by_cases hj : j = h
    · exact .inl ((borrowed_cons rfl j).2 (.inl hj))
    · rcases hi.share h x j y c p hx hy (Ne.symm hj) (covers_lender hv hin cn) cy with hb | hb | hb
      · right
        refine ⟨rfl, ?_⟩
        by_contra hn
        have := hi.excl j y hy (by simpa using hn) _ (ends_false he hb).2
        cases this
      · exact .inl ((borrowed_cons rfl j).2 (.inr hb))
      · exact .inr ⟨rfl, hb.2⟩

theorem fits_refMut (hi : Inv checks st) (hx : st.handles h = some x) (hv : x.area = .view v)
    (hexcl : x.excl = true) {s : Shape}
    (hs : st.shapes x.alloc = some s) {a : Area} (hfi : Fine checks s a) (hin : Inside v a) :
    Fits checks (st.use h true) ⟨false, true, x.alloc, a, (h, true) :: x.loans⟩ where
  owner := rfl
  loanlt l hl := by
    rcases List.mem_cons.1 hl with rfl | hl
    · exact hi.idlt h x hx
    · exact hi.loanlt h x hx l hl
  place := ⟨s, hs, hfi⟩
  rooted := by
    obtain ⟨o, y, hy, ho, ha, hb⟩ := hi.rooted h x hx
    exact ⟨o, y, use_of hy (ends_nil (hi.owner o y hy ho).1), ho, ha, (borrowed_cons rfl o).2 hb⟩
  excl _ l hl := by
    rcases List.mem_cons.1 hl with rfl | hl
    · rfl
    · exact hi.excl h x hx hexcl l hl
  lender j y hl hy := by
    rcases List.mem_cons.1 hl with e | hl
    · cases e
      rw [(use_some hy).1] at hx
      cases hx
      exact hexcl
    · exact hi.lender h x j y hx hl (use_some hy).1
  share j y c p hy cn cy := by
    obtain ⟨hy, he⟩ := use_some hy
    by_cases hj : j = h
    · exact .inl ((borrowed_cons rfl j).2 (.inl hj))
    · rcases hi.share h x j y c p hx hy (Ne.symm hj) (covers_lender hv hin cn) cy with hb | hb | hb
      · exact absurd (ends_false he hb).1 (by simp)
      · exact .inl ((borrowed_cons rfl j).2 (.inr hb))
      · rw [hexcl] at hb; cases hb.1

theorem rooted_loans (hi : Inv checks st) (hx : st.handles h = some x) (ho : x.owner = false) :
    ∃ o y, o ≠ h ∧ st.handles o = some y ∧ y.owner = true ∧ y.alloc = x.alloc ∧ BorrowedFrom x o := by
  obtain ⟨o, y, hy, hyo, ha, hb⟩ := hi.rooted h x hx
  have hne : o ≠ h := by
    rintro rfl
    rw [hx] at hy
    cases hy
    rw [ho] at hyo
    cases hyo
  exact ⟨o, y, hne, hy, hyo, ha, hb.resolve_left hne⟩

theorem fits_own (hi : Inv checks st) (hx : st.handles h = some x) (hv : x.area = .view v)
    (hexcl : x.excl = true) (ho : x.owner = false) {s : Shape}
    (hs : st.shapes x.alloc = some s) {a : Area} (hfi : Fine checks s a) (hin : Inside v a) :
    Fits checks ((st.use h true).remove h) ⟨false, true, x.alloc, a, x.loans⟩ where
  owner := rfl
  loanlt l hl := hi.loanlt h x hx l hl
  place := ⟨s, hs, hfi⟩
  rooted := by
    obtain ⟨o, y, hne, hy, hyo, ha, hb⟩ := rooted_loans hi hx ho
    exact ⟨o, y, remove_of hne (use_of hy (ends_nil (hi.owner o y hy hyo).1)), hyo, ha, hb⟩
  excl _ l hl := hi.excl h x hx hexcl l hl
  lender j y hl hy := hi.lender h x j y hx hl (use_some (remove_some hy).2).1
  share j y c p hy cn cy := by
    obtain ⟨hj, hy⟩ := remove_some hy
    obtain ⟨hy, he⟩ := use_some hy
    rcases hi.share h x j y c p hx hy (Ne.symm hj) (covers_lender hv hin cn) cy with hb | hb | hb
    · exact absurd (ends_false he hb).1 (by simp)
    · exact .inl hb
    · rw [hexcl] at hb; cases hb.1

theorem fits_copy (hi : Inv checks st) (hx : st.handles h = some x) (hv : x.area = .view v)
    (hexcl : x.excl = false) (ho : x.owner = false) {s : Shape}
    (hs : st.shapes x.alloc = some s) {a : Area} (hfi : Fine checks s a) (hin : Inside v a) :
    Fits checks (st.use h false) ⟨false, false, x.alloc, a, x.loans⟩ where
  owner := rfl
  loanlt l hl := hi.loanlt h x hx l hl
  place := ⟨s, hs, hfi⟩
  rooted := by
    obtain ⟨o, y, hne, hy, hyo, ha, hb⟩ := rooted_loans hi hx ho
    exact ⟨o, y, use_of hy (ends_nil (hi.owner o y hy hyo).1), hyo, ha, hb⟩
  excl e := by cases e
  lender j y hl hy := hi.lender h x j y hx hl (use_some hy).1
  share j y c p hy cn cy := by
    obtain ⟨hy, he⟩ := use_some hy
    by_cases hj : j = h
    · subst hj
      have e := hx.symm.trans (by assumption : st.handles j = some y)
      cases e
      exact .inr ⟨rfl, hexcl⟩
    · rcases hi.share h x j y c p hx hy (Ne.symm hj) (covers_lender hv hin cn) cy with hb | hb | hb
      · right
        refine ⟨rfl, ?_⟩
        by_contra hn
        have := hi.excl j y hy (by simpa using hn) _ (ends_false he hb).2
        cases this
      · exact .inl hb
      · exact .inr ⟨rfl, hb.2⟩

end

theorem inv_start (checks : Bool) (mem : Nat → Int → α) : Inv checks (start mem) := by
  constructor <;> intros <;> simp_all [start]

theorem fine_whole (checks : Bool) {s : Shape} (hs : GoodShape s) : Fine checks s (.view ⟨0, .dense s⟩) :=
  fine_view hs (v := whole s) .refl

theorem inv_make {checks : Bool} {st : St α} (hi : Inv checks st) {s : Shape} (hs : GoodShape s) (init : Int → α) :
    Inv checks { st.add ⟨true, true, st.nextAlloc, .view ⟨0, .dense s⟩, []⟩ with
      shapes := fun a => if a = st.nextAlloc then some s else st.shapes a,
      nextAlloc := st.nextAlloc + 1,
      mem := fun a => if a = st.nextAlloc then init else st.mem a } := by
  have hal : ∀ i x, st.handles i = some x → x.alloc < st.nextAlloc := fun i x hx => by
    obtain ⟨s', hs', -⟩ := hi.place i x hx
    exact (hi.shape _ _ hs').1
  constructor
  case idlt =>
    intro i x hx
    show i < st.next + 1
    rcases add_some hx with ⟨rfl, -⟩ | ⟨-, hx⟩
    · omega
    · have := hi.idlt i x hx; omega
  case loanlt =>
    intro i x hx l hl
    show l.1 < st.next + 1
    rcases add_some hx with ⟨rfl, rfl⟩ | ⟨-, hx⟩
    · cases hl
    · have := hi.loanlt i x hx l hl; omega
  case shape =>
    intro a s' h
    show a < st.nextAlloc + 1 ∧ _
    simp only at h
    split at h
    · cases h; exact ⟨by omega, hs⟩
    · obtain ⟨h1, h2⟩ := hi.shape a s' h; exact ⟨by omega, h2⟩
  case place =>
    intro i x hx
    rcases add_some hx with ⟨rfl, rfl⟩ | ⟨-, hx⟩
    · exact ⟨s, if_pos rfl, fine_whole checks hs⟩
    · obtain ⟨s', hs', hf⟩ := hi.place i x hx
      exact ⟨s', (if_neg (Nat.ne_of_lt (hal i x hx))).trans hs', hf⟩
  case owner =>
    intro i x hx ho
    rcases add_some hx with ⟨rfl, rfl⟩ | ⟨-, hx⟩
    · exact ⟨rfl, rfl⟩
    · exact hi.owner i x hx ho
  case one =>
    intro i x j y hx hy ho ho' ha
    rcases add_some hx with ⟨rfl, rfl⟩ | ⟨-, hx⟩ <;> rcases add_some hy with ⟨rfl, rfl⟩ | ⟨-, hy⟩
    · rfl
    · have := hal j y hy; simp only at ha; omega
    · have := hal i x hx; simp only at ha; omega
    · exact hi.one i x j y hx hy ho ho' ha
  case rooted =>
    intro i x hx
    rcases add_some hx with ⟨rfl, rfl⟩ | ⟨hne, hx⟩
    · exact ⟨st.next, _, if_pos rfl, rfl, rfl, .inl rfl⟩
    · obtain ⟨o, y, hy, ho, ha, hb⟩ := hi.rooted i x hx
      exact ⟨o, y, add_of (Nat.ne_of_lt (hi.idlt o y hy)) hy, ho, ha, hb⟩
  case excl =>
    intro i x hx
    rcases add_some hx with ⟨rfl, rfl⟩ | ⟨-, hx⟩
    · intro _ l hl; cases hl
    · exact hi.excl i x hx
  case lender =>
    intro i x j y hx hl hy
    rcases add_some hx with ⟨rfl, rfl⟩ | ⟨-, hx⟩
    · cases hl
    · rcases add_some hy with ⟨rfl, rfl⟩ | ⟨-, hy⟩
      · rfl
      · exact hi.lender i x j y hx hl hy
  case share =>
    intro i x j y a p hx hy hij cx cy
    rcases add_some hx with ⟨rfl, rfl⟩ | ⟨-, hx⟩ <;> rcases add_some hy with ⟨rfl, rfl⟩ | ⟨-, hy⟩
    · exact absurd rfl hij
    · have := hal j y hy; have := cx.1; have := cy.1; simp only at *; omega
    · have := hal i x hx; have := cx.1; have := cy.1; simp only at *; omega
    · exact hi.share i x j y a p hx hy hij cx cy

/-- If an array is used as `&mut` no other value with its allocation is left. -/
theorem alone {checks : Bool} {st : St α} (hi : Inv checks st) {h : Nat} {z : Handle} (hz : st.handles h = some z)
    (ho : z.owner = true) {i : Nat} {x : Handle} (hx : (st.use h true).handles i = some x) (hne : i ≠ h) :
    x.alloc ≠ z.alloc ∧ ¬ BorrowedFrom x h := by
  obtain ⟨hx, he⟩ := use_some hx
  have hb : ¬ BorrowedFrom x h := fun hb => absurd (ends_false he hb).1 (by simp)
  refine ⟨fun ha => ?_, hb⟩
  obtain ⟨o, y, hy, hyo, hya, hyb⟩ := hi.rooted i x hx
  have : o = h := hi.one o y h z hy hz hyo ho (hya.trans ha)
  subst this
  rcases hyb with e | hyb
  · exact hne e.symm
  · exact hb hyb

theorem inv_change {checks : Bool} {st : St α} (hi : Inv checks st) {h : Nat} {z : Handle}
    (hz : st.handles h = some z) (hzo : z.owner = true) {s : Shape} (hs : GoodShape s) (init : Int → α) :
    Inv checks { st.use h true with
      handles := fun i => if i = h then some ⟨true, true, st.nextAlloc, .view ⟨0, .dense s⟩, []⟩
        else (st.use h true).handles i,
      shapes := fun a => if a = st.nextAlloc then some s else if a = z.alloc then none else st.shapes a,
      nextAlloc := st.nextAlloc + 1,
      mem := fun a => if a = st.nextAlloc then init else st.mem a } := by
  have hu := hi.use h true
  have hal : ∀ i x, st.handles i = some x → x.alloc < st.nextAlloc := fun i x hx => by
    obtain ⟨s', hs', -⟩ := hi.place i x hx
    exact (hi.shape _ _ hs').1
  have key : ∀ {i x}, (if i = h then some (⟨true, true, st.nextAlloc, .view ⟨0, .dense s⟩, []⟩ : Handle)
        else (st.use h true).handles i) = some x →
      (i = h ∧ x = ⟨true, true, st.nextAlloc, .view ⟨0, .dense s⟩, []⟩) ∨
      (i ≠ h ∧ (st.use h true).handles i = some x) := by
    intro i x hx
    split at hx
    · cases hx; exact .inl ⟨by assumption, rfl⟩
    · exact .inr ⟨by assumption, hx⟩
  constructor
  case idlt =>
    intro i x hx
    rcases key hx with ⟨rfl, -⟩ | ⟨-, hx⟩
    · exact hi.idlt _ _ hz
    · exact hu.idlt i x hx
  case loanlt =>
    intro i x hx l hl
    rcases key hx with ⟨rfl, rfl⟩ | ⟨-, hx⟩
    · cases hl
    · exact hu.loanlt i x hx l hl
  case shape =>
    intro a s' h
    show a < st.nextAlloc + 1 ∧ _
    simp only at h
    split at h
    · cases h; exact ⟨by omega, hs⟩
    · split at h
      · cases h
      · obtain ⟨h1, h2⟩ := hi.shape a s' h; exact ⟨by omega, h2⟩
  case place =>
    intro i x hx
    rcases key hx with ⟨rfl, rfl⟩ | ⟨hne, hx⟩
    · exact ⟨s, if_pos rfl, fine_whole checks hs⟩
    · obtain ⟨s', hs', hf⟩ := hu.place i x hx
      refine ⟨s', ?_, hf⟩
      simp only
      rw [if_neg (Nat.ne_of_lt (hal i x (use_some hx).1)), if_neg (alone hi hz hzo hx hne).1]
      exact hs'
  case owner =>
    intro i x hx ho
    rcases key hx with ⟨rfl, rfl⟩ | ⟨-, hx⟩
    · exact ⟨rfl, rfl⟩
    · exact hu.owner i x hx ho
  case one =>
    intro i x j y hx hy ho ho' ha
    rcases key hx with ⟨rfl, rfl⟩ | ⟨-, hx⟩ <;> rcases key hy with ⟨rfl, rfl⟩ | ⟨-, hy⟩
    · rfl
    · have := hal j y (use_some hy).1; simp only at ha; omega
    · have := hal i x (use_some hx).1; simp only at ha; omega
    · exact hu.one i x j y hx hy ho ho' ha
  case rooted =>
    intro i x hx
    rcases key hx with ⟨rfl, rfl⟩ | ⟨hne, hx⟩
    · exact ⟨i, _, if_pos rfl, rfl, rfl, .inl rfl⟩
    · obtain ⟨o, y, hy, ho, ha, hb⟩ := hu.rooted i x hx
      have hoh : o ≠ h := by
        rintro rfl
        rcases hb with e | hb
        · exact hne e.symm
        · exact (alone hi hz hzo hx hne).2 hb
      exact ⟨o, y, (if_neg hoh).trans hy, ho, ha, hb⟩
  case excl =>
    intro i x hx
    rcases key hx with ⟨rfl, rfl⟩ | ⟨-, hx⟩
    · intro _ l hl; cases hl
    · exact hu.excl i x hx
  case lender =>
    intro i x j y hx hl hy
    rcases key hx with ⟨rfl, rfl⟩ | ⟨-, hx⟩
    · cases hl
    · rcases key hy with ⟨rfl, rfl⟩ | ⟨-, hy⟩
      · rfl
      · exact hu.lender i x j y hx hl hy
  case share =>
    intro i x j y a p hx hy hij cx cy
    rcases key hx with ⟨rfl, rfl⟩ | ⟨-, hx⟩ <;> rcases key hy with ⟨rfl, rfl⟩ | ⟨-, hy⟩
    · exact absurd rfl hij
    · have := hal j y (use_some hy).1; have := cx.1; have := cy.1; simp only at *; omega
    · have := hal i x (use_some hx).1; have := cx.1; have := cy.1; simp only at *; omega
    · exact hu.share i x j y a p hx hy hij cx cy

theorem inv_drop {checks : Bool} {st : St α} (hi : Inv checks st) {h : Nat} {z : Handle}
    (hz : st.handles h = some z) :
    Inv checks { (st.use h true).remove h with
      shapes := fun a => if z.owner = true ∧ a = z.alloc then none else st.shapes a } := by
  have hu := hi.use h true
  cases hzo : z.owner with
  | false =>
    have := hu.remove (h := h) fun y hy => by
      have e := hz.symm.trans (use_some hy).1
      cases e
      exact hzo
    simp only [Bool.false_eq_true, false_and, if_false]
    exact this
  | true =>
    constructor
    case idlt => exact fun i x hx => hu.idlt i x (remove_some hx).2
    case loanlt => exact fun i x hx => hu.loanlt i x (remove_some hx).2
    case shape =>
      intro a s' h
      simp only at h
      split at h
      · cases h
      · exact hi.shape a s' h
    case place =>
      intro i x hx
      obtain ⟨hne, hx⟩ := remove_some hx
      obtain ⟨s', hs', hf⟩ := hu.place i x hx
      exact ⟨s', (if_neg fun e => (alone hi hz hzo hx hne).1 e.2).trans hs', hf⟩
    case owner => exact fun i x hx => hu.owner i x (remove_some hx).2
    case one => exact fun i x j y hx hy => hu.one i x j y (remove_some hx).2 (remove_some hy).2
    case rooted =>
      intro i x hx
      obtain ⟨hne, hx⟩ := remove_some hx
      obtain ⟨o, y, hy, ho, ha, hb⟩ := hu.rooted i x hx
      refine ⟨o, y, remove_of ?_ hy, ho, ha, hb⟩
      rintro rfl
      rcases hb with e | hb
      · exact hne e.symm
      · exact (alone hi hz hzo hx hne).2 hb
    case excl => exact fun i x hx => hu.excl i x (remove_some hx).2
    case lender => exact fun i x j y hx hl hy => hu.lender i x j y (remove_some hx).2 hl (remove_some hy).2
    case share => exact fun i x j y a p hx hy => hu.share i x j y a p (remove_some hx).2 (remove_some hy).2

end Model.Borrow
