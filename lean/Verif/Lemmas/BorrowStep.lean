import Verif.Lemmas.BorrowRun

/-! Steps of programs that hold views keep the invariant; what they access. -/

namespace Model.Borrow
open Spec

variable {α : Type} {checks : Bool}

theorem of_check {b : Prop} [Decidable b] {u : Unit} (h : check b = some u) : b := by
  by_contra hn
  rw [check, if_neg hn] at h
  cases h

theorem parts_getD {s : Shape} (hs : GoodShape s) {v : View} (hr : Reach checks (whole s) v)
    (hg : checks = true ∨ v.dims.length < 64) {f : Fn} (hf : TypedFn f) :
    Parts checks s v ((f.run checks v).getD []) := by
  cases h : f.run checks v with
  | none => exact parts_nil ..
  | some as => exact parts_run hs hr hg hf h

/-- A call, in terms of its parts. -/
theorem step_call {st st' : St α} {h : Nat} {variant : Variant} {f : Fn} {t : Option Touch}
    (hst : step checks st (.call h variant f) = some (st', t)) :
    ∃ x v s, st.handles h = some x ∧ x.area = .view v ∧ sig x.excl variant f = some s ∧
      (checks = true ∨ v.dims.length < 64) ∧ t = none ∧
      ((s.recv = .ref ∧ st' = (st.use h false).addAll x.alloc s.excl ((h, false) :: x.loans)
          ((f.run checks v).getD [])) ∨
       (s.recv = .refMut ∧ x.excl = true ∧ st' = (st.use h true).addAll x.alloc s.excl ((h, true) :: x.loans)
          ((f.run checks v).getD [])) ∨
       (s.recv = .own ∧ x.owner = false ∧ x.excl = true ∧
          st' = ((st.use h true).remove h).addAll x.alloc s.excl x.loans ((f.run checks v).getD [])) ∨
       (s.recv = .own ∧ x.owner = false ∧ x.excl = false ∧
          st' = (st.use h false).addAll x.alloc s.excl x.loans ((f.run checks v).getD []))) := by
  simp only [step] at hst
  split at hst
  case h_2 => cases hst
  case h_1 owner excl alloc v loans hx =>
    simp only [Option.bind_eq_bind, Option.bind_eq_some_iff] at hst
    obtain ⟨s, hs, _, hg, hst⟩ := hst
    refine ⟨_, v, s, hx, rfl, hs, of_check hg, ?_⟩
    cases hr : s.recv with
    | ref =>
      rw [hr] at hst
      cases hst
      exact ⟨rfl, .inl ⟨rfl, rfl⟩⟩
    | refMut =>
      rw [hr] at hst
      simp only [Option.bind_eq_some_iff] at hst
      obtain ⟨_, he, hst⟩ := hst
      cases hst
      exact ⟨rfl, .inr (.inl ⟨rfl, of_check he, rfl⟩)⟩
    | own =>
      rw [hr] at hst
      simp only [Option.bind_eq_some_iff] at hst
      obtain ⟨_, he, hst⟩ := hst
      split at hst
      · rename_i hexcl
        cases hst
        exact ⟨rfl, .inr (.inr (.inl ⟨rfl, of_check he, hexcl, rfl⟩))⟩
      · rename_i hexcl
        cases hst
        exact ⟨rfl, .inr (.inr (.inr ⟨rfl, of_check he, by simpa using hexcl, rfl⟩))⟩

theorem step_read {st st' : St α} {h : Nat} {idx : List Nat} {t : Option Touch}
    (hst : step checks st (.read h idx) = some (st', t)) :
    ∃ x p, st.handles h = some x ∧ x.area.pos idx = some p ∧ st' = st.use h false ∧
      t = some ⟨h, x.loans.map Prod.fst, x.alloc, p, false⟩ := by
  simp only [step, Option.bind_eq_bind, Option.bind_eq_some_iff] at hst
  obtain ⟨x, hx, p, hp, hst⟩ := hst
  cases hst
  exact ⟨x, p, hx, hp, rfl, rfl⟩

theorem step_write {st st' : St α} {h : Nat} {idx : List Nat} {y : α} {t : Option Touch}
    (hst : step checks st (.write h idx y) = some (st', t)) :
    ∃ x p, st.handles h = some x ∧ x.excl = true ∧ x.area.pos idx = some p ∧
      st' = { st.use h true with mem := fun a q => if a = x.alloc ∧ q = p then y else st.mem a q } ∧
      t = some ⟨h, x.loans.map Prod.fst, x.alloc, p, true⟩ := by
  simp only [step, Option.bind_eq_bind, Option.bind_eq_some_iff] at hst
  obtain ⟨x, hx, _, he, p, hp, hst⟩ := hst
  cases hst
  exact ⟨x, p, hx, of_check he, hp, rfl, rfl⟩

theorem inv_step {st st' : St α} (hi : Inv checks st) {op : Op α} (ho : Typed op) {t : Option Touch}
    (hst : step checks st op = some (st', t)) : Inv checks st' := by
  cases op with
  | make s init =>
    cases hst
    exact inv_make hi ⟨ho.1, ho.2.1, ho.2.2⟩ init
  | call h variant f =>
    obtain ⟨x, v, s, hx, hv, hs, hg, -, hc⟩ := step_call hst
    obtain ⟨shape, hsh, hfi⟩ := hi.place h x hx
    have hsh' := (hi.shape _ _ hsh).2
    have hp := parts_getD hsh' (hfi.1 v hv) hg ho
    have hsig := sig_cases hs
    rcases hc with ⟨hr, rfl⟩ | ⟨hr, he, rfl⟩ | ⟨hr, hw, he, rfl⟩ | ⟨hr, hw, he, rfl⟩
    · have hse : s.excl = false := by rcases hsig with rfl | rfl | rfl <;> simp_all
      rw [hse]
      exact (hi.use h false).addAll (fun a ha => fits_ref hi hx hv hsh (hp.fine a ha) (hp.inside a ha)) hp.apart
    · have hse : s.excl = true := by rcases hsig with rfl | rfl | rfl <;> simp_all
      rw [hse]
      exact (hi.use h true).addAll (fun a ha => fits_refMut hi hx hv he hsh (hp.fine a ha) (hp.inside a ha)) hp.apart
    · have hse : s.excl = true := by rcases hsig with rfl | rfl | rfl <;> simp_all
      rw [hse]
      refine ((hi.use h true).remove fun z hz => ?_).addAll
        (fun a ha => fits_own hi hx hv he hw hsh (hp.fine a ha) (hp.inside a ha)) hp.apart
      have e := hx.symm.trans (use_some hz).1
      cases e
      exact hw
    · have hse : s.excl = false := by rcases hsig with rfl | rfl | rfl <;> simp_all
      rw [hse]
      exact (hi.use h false).addAll (fun a ha => fits_copy hi hx hv he hw hsh (hp.fine a ha) (hp.inside a ha)) hp.apart
  | read h idx =>
    obtain ⟨x, p, -, -, rfl, -⟩ := step_read hst
    exact hi.use h false
  | write h idx y =>
    obtain ⟨x, p, -, -, -, rfl, -⟩ := step_write hst
    have := hi.use h true
    exact ⟨this.1, this.2, this.3, this.4, this.5, this.6, this.7, this.8, this.9, this.10⟩
  | change h s init =>
    simp only [step, Option.bind_eq_bind, Option.bind_eq_some_iff] at hst
    obtain ⟨x, hx, _, hc, hst⟩ := hst
    cases hst
    exact inv_change hi hx (of_check hc) ⟨ho.1, ho.2.1, ho.2.2⟩ init
  | drop h =>
    simp only [step, Option.bind_eq_bind, Option.bind_eq_some_iff] at hst
    obtain ⟨x, hx, hst⟩ := hst
    cases hst
    exact inv_drop hi hx

theorem run_cons {st st' : St α} {op : Op α} {ops : List (Op α)} {ts : List Touch}
    (h : run checks st (op :: ops) = some (st', ts)) :
    ∃ st₁ t ts', step checks st op = some (st₁, t) ∧ run checks st₁ ops = some (st', ts') ∧
      ts = t.toList ++ ts' := by
  simp only [run, Option.bind_eq_bind, Option.bind_eq_some_iff] at h
  obtain ⟨p, hp, q, hq, h⟩ := h
  cases h
  exact ⟨p.1, p.2, q.2, hp, hq, rfl⟩

theorem inv_run {ops : List (Op α)} : ∀ {st st' : St α} {ts : List Touch}, Inv checks st →
    (∀ op ∈ ops, Typed op) → run checks st ops = some (st', ts) → Inv checks st' := by
  induction ops with
  | nil => intro st st' ts hi _ h; cases h; exact hi
  | cons op ops ih =>
    intro st st' ts hi ho h
    obtain ⟨st₁, t, ts', h1, h2, -⟩ := run_cons h
    exact ih (inv_step hi (ho op (by simp)) h1) (fun o hm => ho o (by simp [hm])) h2

theorem inv_state {st : St α} (h : State checks st) : Inv checks st := by
  obtain ⟨mem, ops, ts, ho, hr⟩ := h
  exact inv_run (inv_start checks mem) ho hr

theorem state_run {st st' : St α} {ops : List (Op α)} {ts : List Touch} (h : State checks st)
    (ho : ∀ op ∈ ops, Typed op) (hr : run checks st ops = some (st', ts)) : State checks st' := by
  obtain ⟨mem, ops₀, ts₀, ho₀, hr₀⟩ := h
  refine ⟨mem, ops₀ ++ ops, ts₀ ++ ts, ?_, ?_⟩
  · intro op hop
    rcases List.mem_append.1 hop with h | h
    · exact ho₀ op h
    · exact ho op h
  · clear ho₀
    revert hr₀
    generalize start mem = s₀
    intro hr₀
    induction ops₀ generalizing s₀ ts₀ with
    | nil => cases hr₀; exact hr
    | cons op ops₀ ih =>
      obtain ⟨st₁, t, ts', h1, h2, rfl⟩ := run_cons hr₀
      have := ih _ _ h2
      simp only [List.cons_append, run, Option.bind_eq_bind]
      rw [h1]
      simp only [Option.bind_some]
      rw [this]
      simp

theorem addAll_of {alloc : Nat} {excl : Bool} {loans : List (Nat × Bool)} {as : List Area} :
    ∀ {st : St α} {i : Nat}, i < st.next →
    (st.addAll alloc excl loans as).handles i = st.handles i := by
  induction as with
  | nil => intro st i _; rfl
  | cons a as ih =>
    intro st i h
    have : (st.add ⟨false, excl, alloc, a, loans⟩).handles i = st.handles i := by
      simp only [St.add]
      rw [if_neg (Nat.ne_of_lt h)]
    rw [← this]
    exact ih (Nat.lt_succ_of_lt h)

theorem addAll_rest {alloc : Nat} {excl : Bool} {loans : List (Nat × Bool)} {as : List Area} :
    ∀ {st : St α}, st.next ≤ (st.addAll alloc excl loans as).next ∧
    (st.addAll alloc excl loans as).nextAlloc = st.nextAlloc ∧
    (st.addAll alloc excl loans as).mem = st.mem := by
  induction as with
  | nil => intro st; exact ⟨le_refl _, rfl, rfl⟩
  | cons a as ih =>
    intro st
    obtain ⟨h1, h2, h3⟩ := ih (st := st.add ⟨false, excl, alloc, a, loans⟩)
    exact ⟨Nat.le_of_succ_le h1, h2, h3⟩

/-- A value that is still there after a step has been there before, or it is an array that has got new memory. -/
theorem step_frame {st st' : St α} {op : Op α} {t : Option Touch} (h : step checks st op = some (st', t)) :
    st.next ≤ st'.next ∧ st.nextAlloc ≤ st'.nextAlloc ∧
    (∀ i x, i < st.next → st'.handles i = some x → st.handles i = some x ∨ st.nextAlloc ≤ x.alloc) ∧
    ∀ a p, a < st.nextAlloc → (∀ u, t = some u → u.write = true → u.alloc = a → u.pos ≠ p) →
      st'.mem a p = st.mem a p := by
  cases op with
  | make s init =>
    cases h
    refine ⟨Nat.le_succ _, Nat.le_succ _, fun i x hi hx => ?_, fun a p ha _ => ?_⟩
    · rcases add_some hx with ⟨rfl, -⟩ | ⟨-, hx⟩
      · omega
      · exact .inl hx
    · simp only; rw [if_neg (Nat.ne_of_lt ha)]
  | call h variant f =>
    obtain ⟨x, v, s, hx, hv, hs, hg, rfl, hc⟩ := step_call h
    rcases hc with ⟨-, rfl⟩ | ⟨-, -, rfl⟩ | ⟨-, -, -, rfl⟩ | ⟨-, -, -, rfl⟩
    all_goals
      refine ⟨by refine le_trans ?_ addAll_rest.1; exact le_refl st.next, by rw [addAll_rest.2.1]; exact le_refl st.nextAlloc, fun i y hi hy => .inl ?_, fun a p _ _ => ?_⟩
    · rw [addAll_of (by exact hi)] at hy; exact (use_some hy).1
    · rw [addAll_rest.2.2]; rfl
    · rw [addAll_of (by exact hi)] at hy; exact (use_some hy).1
    · rw [addAll_rest.2.2]; rfl
    · rw [addAll_of (by exact hi)] at hy; exact (use_some (remove_some hy).2).1
    · rw [addAll_rest.2.2]; rfl
    · rw [addAll_of (by exact hi)] at hy; exact (use_some hy).1
    · rw [addAll_rest.2.2]; rfl
  | read h idx =>
    obtain ⟨x, p, -, -, rfl, -⟩ := step_read h
    exact ⟨le_refl _, le_refl _, fun i y _ hy => .inl (use_some hy).1, fun _ _ _ _ => rfl⟩
  | write h idx y =>
    obtain ⟨x, p, -, -, -, rfl, rfl⟩ := step_write h
    refine ⟨le_refl _, le_refl _, fun i y _ hy => .inl (use_some hy).1, fun a q _ hn => ?_⟩
    simp only
    rw [if_neg]
    rintro ⟨rfl, rfl⟩
    exact hn _ rfl rfl rfl rfl
  | change h s init =>
    simp only [step, Option.bind_eq_bind, Option.bind_eq_some_iff] at h
    obtain ⟨x, hx, _, hc, hst⟩ := h
    cases hst
    refine ⟨le_refl _, Nat.le_succ _, fun i y hi hy => ?_, fun a p ha _ => ?_⟩
    · simp only at hy
      split at hy
      · cases hy; exact .inr (le_refl _)
      · exact .inl (use_some hy).1
    · simp only; rw [if_neg (Nat.ne_of_lt ha)]
  | drop h =>
    simp only [step, Option.bind_eq_bind, Option.bind_eq_some_iff] at h
    obtain ⟨x, hx, hst⟩ := h
    cases hst
    exact ⟨le_refl _, le_refl _, fun i y _ hy => .inl (use_some (remove_some hy).2).1, fun _ _ _ _ => rfl⟩

/-- An element is accessed through a value, which is used accordingly. -/
theorem step_touch {st st' : St α} {op : Op α} {t : Touch} (h : step checks st op = some (st', some t)) :
    ∃ x, st.handles t.handle = some x ∧ t.origins = x.loans.map Prod.fst ∧ Covers x t.alloc t.pos ∧
      (t.write = true → x.excl = true) ∧
      ∀ i y, st'.handles i = some y → st.handles i = some y ∧ ends t.handle t.write y = false := by
  cases op with
  | make s init => cases h
  | call h variant f => obtain ⟨x, v, s, hx, hv, hs, hg, ht, hc⟩ := step_call h; cases ht
  | read h idx =>
    obtain ⟨x, p, hx, hp, rfl, ht⟩ := step_read h
    cases ht
    exact ⟨x, hx, rfl, ⟨rfl, idx, hp⟩, fun e => by (cases e), fun i y hy => use_some hy⟩
  | write h idx y =>
    obtain ⟨x, p, hx, he, hp, rfl, ht⟩ := step_write h
    cases ht
    exact ⟨x, hx, rfl, ⟨rfl, idx, hp⟩, fun _ => he, fun i y hy => use_some hy⟩
  | change h s init =>
    simp only [step, Option.bind_eq_bind, Option.bind_eq_some_iff] at h
    obtain ⟨x, hx, _, hc, hst⟩ := h
    cases hst
  | drop h =>
    simp only [step, Option.bind_eq_bind, Option.bind_eq_some_iff] at h
    obtain ⟨x, hx, hst⟩ := h
    cases hst

theorem run_old {ops : List (Op α)} : ∀ {st st' : St α} {ts : List Touch} {i : Nat} {x : Handle} {N : Nat},
    run checks st ops = some (st', ts) → i < st.next → N ≤ st.nextAlloc → x.alloc < N → st'.handles i = some x →
    st.handles i = some x := by
  induction ops with
  | nil => intro st st' ts i x N h _ _ _ hx; cases h; exact hx
  | cons op ops ih =>
    intro st st' ts i x N h hi hN hx hx'
    obtain ⟨st₁, t, ts', h1, h2, -⟩ := run_cons h
    obtain ⟨f1, f2, f3, -⟩ := step_frame h1
    rcases f3 i x hi (ih h2 (by omega) (by omega) hx hx') with h | h
    · exact h
    · omega

/-- One access, and another value that is still there afterwards. -/
theorem touch_step {st st' : St α} (hi : Inv checks st) {op : Op α} {t : Touch}
    (h : step checks st op = some (st', some t)) {z : Nat} {x : Handle} (hz' : st'.handles z = some x)
    (hc : Covers x t.alloc t.pos) :
    t.handle = z ∨ z ∈ t.origins ∨ (t.write = false ∧ x.excl = false) := by
  obtain ⟨y, hy, ho, hcy, hw, hk⟩ := step_touch h
  obtain ⟨hx, he⟩ := hk z x hz'
  by_cases hne : t.handle = z
  · exact .inl hne
  · right
    rcases hi.share t.handle y z x t.alloc t.pos hy hx hne hcy hc with hb | hb | hb
    · right
      have := ends_false he hb
      refine ⟨this.1, ?_⟩
      by_contra hn
      have h2 := hi.excl z x hx (by simpa using hn) _ this.2
      cases h2
    · left
      rw [ho]
      exact hb
    · right
      refine ⟨?_, hb.2⟩
      by_contra hn
      have := hw (by simpa using hn)
      rw [hb.1] at this
      cases this

/-- A write is never done through a value borrowed from one that is read-only. -/
theorem write_step {st st' : St α} (hi : Inv checks st) {op : Op α} {t : Touch}
    (h : step checks st op = some (st', some t)) (hw : t.write = true) {z : Nat} {x : Handle}
    (hz : st.handles z = some x) (hm : t.handle = z ∨ z ∈ t.origins) : x.excl = true := by
  obtain ⟨y, hy, ho, hcy, hwe, hk⟩ := step_touch h
  rcases hm with e | hm
  · subst e
    rw [hy] at hz
    cases hz
    exact hwe hw
  · rw [ho] at hm
    obtain ⟨l, hl, rfl⟩ := List.mem_map.1 hm
    have := hi.excl _ y hy (hwe hw) l hl
    refine hi.lender _ y l.1 x hy ?_ hz
    rw [← this]
    exact hl

theorem touch_run {ops : List (Op α)} : ∀ {st st' : St α} {ts : List Touch}, Inv checks st →
    (∀ op ∈ ops, Typed op) → run checks st ops = some (st', ts) → ∀ {z : Nat} {x : Handle},
    st.handles z = some x → st'.handles z = some x → ∀ t ∈ ts, Covers x t.alloc t.pos →
    (t.handle = z ∨ z ∈ t.origins ∨ (t.write = false ∧ x.excl = false)) ∧
    (t.write = true → t.handle = z ∨ z ∈ t.origins → x.excl = true) := by
  induction ops with
  | nil => intro st st' ts _ _ h z x _ _ t ht; cases h; cases ht
  | cons op ops ih =>
    intro st st' ts hi ho h z x hz hz' t ht hc
    obtain ⟨st₁, t₁, ts', h1, h2, rfl⟩ := run_cons h
    have hi₁ := inv_step hi (ho op (by simp)) h1
    obtain ⟨s, hs, -⟩ := hi.place z x hz
    have hal := (hi.shape _ _ hs).1
    obtain ⟨f1, f2, -⟩ := step_frame h1
    have hz₁ : st₁.handles z = some x :=
      run_old h2 (Nat.lt_of_lt_of_le (hi.idlt z x hz) f1) f2 hal hz'
    rcases List.mem_append.1 ht with ht | ht
    · cases t₁ with
      | none => cases ht
      | some u =>
        simp only [Option.toList_some, List.mem_singleton] at ht
        subst ht
        exact ⟨touch_step hi h1 hz₁ hc, fun hw hm => write_step hi h1 hw hz hm⟩
    · exact ih hi₁ (fun o hm => ho o (by simp [hm])) h2 hz₁ hz' t ht hc

theorem mem_run {ops : List (Op α)} : ∀ {st st' : St α} {ts : List Touch} {a : Nat} {p : Int},
    run checks st ops = some (st', ts) → a < st.nextAlloc →
    (∀ t ∈ ts, t.write = true → t.alloc = a → t.pos ≠ p) → st'.mem a p = st.mem a p := by
  induction ops with
  | nil => intro st st' ts a p h _ _; cases h; rfl
  | cons op ops ih =>
    intro st st' ts a p h ha hn
    obtain ⟨st₁, t₁, ts', h1, h2, rfl⟩ := run_cons h
    obtain ⟨f1, f2, -, f4⟩ := step_frame h1
    rw [ih h2 (by omega) fun t ht => hn t (by simp [ht])]
    refine f4 a p ha fun u hu => hn u ?_
    simp [hu]

end Model.Borrow
