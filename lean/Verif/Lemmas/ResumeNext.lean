import Verif.Lemmas.Resume

/-! Iterators that go on with the next item after a panic. -/

namespace Model
open Spec

namespace Expr
variable {σ : Type} {α β : Type}

/-- The state after an item. -/
def advance : {α : Type} → Expr σ α → Expr σ α
  | _, fromFn s idx f =>
    if s.dims.length > 0 then
      match idx[s.dims.length - 1]? with
      | some k => fromFn s (idx.set (s.dims.length - 1) (k + 1)) f
      | none => fromFn s idx f
    else fromFn s idx f
  | _, intoExpr s buf idx => intoExpr s buf (idx + 1)
  | _, map e f => map e.advance f
  | _, enumerate e k => enumerate e.advance (k + 1)
  | _, zip a b s => zip a.advance b.advance s
  | _, view r v => view r v
  | _, axis r v a m off => axis r v a m off
  | _, lanes r v a m off => lanes r v a m off
  | _, fill f => fill f
  | _, fromElem s f => fromElem s f

theorem call_ok {S : Type 1} {r : Res σ α} {e : S} {x : α} {e' : S} {t : σ} (h : Out.call r e = .ok x e' t) :
    e' = e := by
  cases r <;> simp [Out.call] at h
  exact h.2.1.symm

theorem call_panic {S : Type 1} {r : Res σ α} {e : S} {e' : S} {t : σ} (h : Out.call r e = .panic e' t) :
    e' = e ∧ r = .panic t := by
  cases r <;> simp [Out.call] at h
  exact ⟨h.1.symm, by rw [h.2]⟩

theorem getE_ok {e : Expr σ α} {i : Nat} {s t : σ} {x : α} {e' : Expr σ α} (h : e.getE i s = .ok x e' t) :
    e' = e.advance := by
  induction e generalizing s t with
  | view r v =>
    simp only [getE, Out.ok.injEq] at h
    exact h.2.1.symm
  | axis r v a m off => exact call_ok h
  | lanes r v a m off => exact call_ok h
  | fill f => exact call_ok h
  | fromElem s f => exact call_ok h
  | fromFn sh idx f =>
    simp only [getE] at h
    cases hf : f idx s with
    | ok y u =>
      rw [hf] at h
      simp only [Out.call, Out.andThen] at h
      unfold advance
      split at h
      · rename_i hr
        rw [if_pos hr]
        rcases hk : idx[sh.dims.length - 1]? with _ | k
        · rw [hk] at h; simp at h
        · rw [hk] at h
          simp only [Out.ok.injEq] at h
          exact h.2.1.symm
      · rename_i hr
        rw [if_neg hr]
        simp only [Out.ok.injEq] at h
        exact h.2.1.symm
    | _ => rw [hf] at h; simp [Out.call, Out.andThen] at h
  | intoExpr sh buf idx =>
    simp only [getE] at h
    cases hb : buf[idx]? with
    | none => rw [hb] at h; simp at h
    | some y =>
      rw [hb] at h
      simp only [Out.ok.injEq] at h
      exact h.2.1.symm
  | map e f ih =>
    simp only [getE] at h
    cases hg : e.getE i s with
    | ok y e₁ u =>
      rw [hg] at h
      rw [call_ok h, advance, ih hg]
    | _ => rw [hg] at h; simp [Out.andThen] at h
  | enumerate e k ih =>
    simp only [getE] at h
    cases hg : e.getE i s with
    | ok y e₁ u =>
      rw [hg] at h
      simp only [Out.andThen, Out.ok.injEq] at h
      rw [← h.2.1, advance, ih hg]
    | _ => rw [hg] at h; simp [Out.andThen] at h
  | zip a b sh iha ihb =>
    simp only [getE] at h
    cases ha : a.getE i s with
    | ok y a' u =>
      rw [ha] at h
      simp only [Out.andThen] at h
      cases hb : b.getE i u with
      | ok z b' w =>
        rw [hb] at h
        simp only [Out.ok.injEq] at h
        rw [← h.2.1, advance, iha ha, ihb hb]
      | _ => rw [hb] at h; simp at h
    | _ => rw [ha] at h; simp [Out.andThen] at h

theorem positional_advance {e : Expr σ α} (h : Positional e) : e.advance = e := by
  induction e with
  | fromFn s idx f =>
    have : s.dims = [] := h
    simp [advance, this]
  | intoExpr s buf idx => exact h.elim
  | map e f ih => rw [advance, ih h]
  | enumerate e k ih => exact h.elim
  | zip a b s iha ihb => rw [advance, iha h.1, ihb h.2]
  | _ => rfl

theorem silent_getE {e : Expr σ α} (hw : e.Wfs) (h : Silent e) {i : Nat} {s t : σ} {e' : Expr σ α} :
    e.getE i s ≠ .panic e' t := by
  intro hp
  induction e generalizing s t with
  | view r v => simp [getE] at hp
  | axis r v a m off =>
    have := (call_panic hp).2
    obtain ⟨p, hp1, -⟩ := axis_dims hw.1 hw.2
    have hno := h p hp1
    rw [Axis.removeMap_eq a _ hw.1, show axisPos a v.map.dims.length = some p from hp1] at this
    have hcl : ((Mapping.mk (a.remove v.map.shape.ty) (v.map.dims.eraseIdx p)
        (v.map.strides.eraseIdx p) (a.split v.map.shape.ty v.map.layout))).shape.checkedLen =
        some (size (v.dims.eraseIdx p)) := by
      rw [Shape.checkedLen_eq, Mapping.mk_shape]
      exact if_pos hno
    rw [Mapping.mk_shape] at hcl
    simp [hcl, M.lift, M.pure] at this
  | lanes r v a m off =>
    have := (call_panic hp).2
    obtain ⟨p, hp1, -⟩ := lanes_dims hw.1 hw.2
    rw [Axis.get_eq a _ hw.1, show axisPos a v.map.dims.length = some p from hp1] at this
    simp [M.lift, M.pure] at this
  | fill f => exact h _ _ (call_panic hp).2
  | fromElem sh f => exact h _ _ (call_panic hp).2
  | fromFn sh idx f =>
    simp only [getE] at hp
    cases hf : f idx s with
    | ok y u =>
      rw [hf] at hp
      simp only [Out.call, Out.andThen] at hp
      split at hp
      · rename_i hr
        have hl := fromFn_length (f := f) hw (fun hb => hb.2 (h.1 hb.1)) (List.ne_nil_of_length_pos hr)
        rw [List.getElem?_eq_getElem (by omega)] at hp
        simp at hp
      · simp at hp
    | panic u => exact h.2 idx s u hf
    | ub => rw [hf] at hp; simp [Out.call, Out.andThen] at hp
    | abort => rw [hf] at hp; simp [Out.call, Out.andThen] at hp
  | intoExpr sh buf idx =>
    simp only [getE] at hp
    split at hp <;> simp at hp
  | map e f ih =>
    simp only [getE] at hp
    cases hg : e.getE i s with
    | ok y e₁ u =>
      rw [hg] at hp
      exact h.2 _ _ _ (call_panic hp).2
    | panic e₁ u => exact ih hw h.1 hg
    | ub => rw [hg] at hp; simp [Out.andThen] at hp
    | abort => rw [hg] at hp; simp [Out.andThen] at hp
  | enumerate e k ih =>
    simp only [getE] at hp
    cases hg : e.getE i s with
    | panic e₁ u => exact ih hw h hg
    | _ => rw [hg] at hp; simp [Out.andThen] at hp
  | zip a b sh iha ihb =>
    simp only [getE] at hp
    cases ha : a.getE i s with
    | ok y a' u =>
      rw [ha] at hp
      simp only [Out.andThen] at hp
      cases hb : b.getE i u with
      | panic b' w => exact ihb hw.2.1 h.2 hb
      | _ => rw [hb] at hp; simp at hp
    | panic a' u => exact iha hw.1 h.1 ha
    | ub => rw [ha] at hp; simp [Out.andThen] at hp
    | abort => rw [ha] at hp; simp [Out.andThen] at hp

theorem resumes_getE {e : Expr σ α} (hw : e.Wfs) (h : Resumes e) {i : Nat} {s t : σ} {e' : Expr σ α}
    (hp : e.getE i s = .panic e' t) : e' = e.advance := by
  induction e generalizing s t with
  | view r v => simp [getE] at hp
  | axis r v a m off => exact (call_panic hp).1
  | lanes r v a m off => exact (call_panic hp).1
  | fill f => exact (call_panic hp).1
  | fromElem sh f => exact (call_panic hp).1
  | fromFn sh idx f =>
    rcases h with h | h
    · simp only [getE] at hp
      unfold advance
      rw [if_neg (by simp [h])]
      cases hf : f idx s with
      | ok y u =>
        rw [hf] at hp
        simp [Out.call, Out.andThen, h] at hp
      | panic u =>
        rw [hf] at hp
        simp only [Out.call, Out.andThen, Out.panic.injEq] at hp
        exact hp.1.symm
      | _ => rw [hf] at hp; simp [Out.call, Out.andThen] at hp
    · exact (silent_getE hw (e := fromFn sh idx f) ⟨fun hd => (h.1 hd).elim, h.2⟩ hp).elim
  | intoExpr sh buf idx =>
    simp only [getE] at hp
    split at hp <;> simp at hp
  | map e f ih =>
    simp only [getE] at hp
    unfold advance
    cases hg : e.getE i s with
    | ok y e₁ u =>
      rw [hg] at hp
      rw [(call_panic hp).1, getE_ok hg]
    | panic e₁ u =>
      rw [hg] at hp
      simp only [Out.andThen, Out.panic.injEq] at hp
      rw [← hp.1, ih hw h hg]
    | ub => rw [hg] at hp; simp [Out.andThen] at hp
    | abort => rw [hg] at hp; simp [Out.andThen] at hp
  | enumerate e k ih =>
    simp only [getE] at hp
    unfold advance
    cases hg : e.getE i s with
    | panic e₁ u =>
      rw [hg] at hp
      simp only [Out.andThen, Out.panic.injEq] at hp
      rw [← hp.1, ih hw h hg]
    | _ => rw [hg] at hp; simp [Out.andThen] at hp
  | zip a b sh iha ihb =>
    simp only [getE] at hp
    unfold advance
    cases ha : a.getE i s with
    | ok y a' u =>
      rw [ha] at hp
      simp only [Out.andThen] at hp
      cases hb : b.getE i u with
      | panic b' w =>
        rw [hb] at hp
        simp only [Out.panic.injEq] at hp
        rw [← hp.1, getE_ok ha, ihb hw.2.1 h.2.1 hb]
      | _ => rw [hb] at hp; simp at hp
    | panic a' u =>
      rw [ha] at hp
      simp only [Out.andThen, Out.panic.injEq] at hp
      rcases h.2.2 with hs | hs
      · exact (silent_getE hw.1 hs ha).elim
      · rw [← hp.1, iha hw.1 h.1 ha, positional_advance hs]
    | ub => rw [ha] at hp; simp [Out.andThen] at hp
    | abort => rw [ha] at hp; simp [Out.andThen] at hp

theorem resumes_notBad {e : Expr σ α} (h : Resumes e) : ¬ BadFn e := by
  induction e with
  | fromFn s idx f =>
    rintro ⟨h1, h2⟩
    rcases h with h | h
    · exact h2 h
    · exact h.1 h1
  | map e f ih => exact ih h
  | enumerate e k ih => exact ih h
  | zip a b s iha ihb =>
    rintro (hb | hb)
    · exact iha h.1 hb
    · exact ihb h.2.1 hb
  | _ => exact id

theorem silent_adv {R : Nat} {p : List Nat} {c n : Nat} {e : Expr σ α} (h : Silent e) :
    Silent (adv R p c n e) := by
  induction e with
  | map e f ih => exact ⟨ih h.1, h.2⟩
  | enumerate e k ih => exact ih h
  | zip a b s iha ihb => exact ⟨iha h.1, ihb h.2⟩
  | _ => exact h

theorem positional_adv {R : Nat} {p : List Nat} {c n : Nat} {e : Expr σ α} (h : Positional e) :
    Positional (adv R p c n e) := by
  induction e with
  | map e f ih => exact ih h
  | enumerate e k ih => exact h.elim
  | zip a b s iha ihb => exact ⟨iha h.1, ihb h.2⟩
  | _ => exact h

theorem resumes_adv {R : Nat} {p : List Nat} {c n : Nat} {e : Expr σ α} (h : Resumes e) :
    Resumes (adv R p c n e) := by
  induction e with
  | map e f ih => exact ih h
  | enumerate e k ih => exact ih h
  | zip a b s iha ihb => exact ⟨iha h.1, ihb h.2.1, h.2.2.imp silent_adv positional_adv⟩
  | _ => exact h

theorem advance_adv {e : Expr σ α} (hw : e.Wf) {D pos : List Nat} {O c n : Nat} (hf : Fit e D O)
    (hO : O ≤ D.length) (hpl : pos.length = O) (hc : c < size (D.drop O)) :
    (adv D.length pos c n e).advance = adv D.length pos (c + 1) (n + 1) e := by
  induction e with
  | fromFn s idx f =>
    have hle : s.dims.length ≤ D.length := hf.le
    simp only [adv, advance]
    by_cases h0 : 0 < s.dims.length
    · have hi : D.length - O ≤ 1 := hf.inner 1 (by simp only [innerRank]; exact if_pos h0)
      obtain ⟨h1, h2⟩ := ownIdx_get hle h0 hi hO hpl hc
      rw [if_pos h0, h2]
      have : s.dims.length - 1 < (ownIdx s.dims.length (pos.drop (D.length - s.dims.length)) c).length := by
        simp [ownIdx]; omega
      rw [List.getD_eq_getElem?_getD, List.getElem?_eq_getElem this]; rfl
    · have hz : s.dims.length = 0 := by omega
      have e2 : pos.drop (D.length - s.dims.length) = [] := by
        apply List.drop_eq_nil_of_le; rw [hz]; omega
      have e3 : ∀ k, ownIdx s.dims.length (pos.drop (D.length - s.dims.length)) k = [] := by
        intro k; rw [e2, hz]; rfl
      rw [if_neg h0, e3, e3]
  | map e f ih => simp only [adv, advance, ih hw ⟨hf.suffix, hf.inner, hf.rep⟩]
  | enumerate e k ih => simp only [adv, advance, ih hw.1 ⟨hf.suffix, hf.inner, hf.rep⟩]
  | zip a b s iha ihb =>
    obtain ⟨ha, hb, hz⟩ := hw
    obtain ⟨fa, fb⟩ := hf.zip hz
    simp only [adv, advance, iha ha fa, ihb hb fb]
  | _ => rfl

theorem adv_repeatable (R : Nat) (p : List Nat) (c n : Nat) (e : Expr σ α) :
    (adv R p c n e).repeatable = e.repeatable := by
  induction e <;> simp_all [adv, repeatable]

theorem later_adv {R : Nat} {p : List Nat} {c n : Nat} {e : Expr σ α} (hw : e.Wf) (hb : ¬ BadFn e)
    (hR : e.dims.length ≤ R) (hp : p.length ≤ R) : (adv R p c n e).Wfs := by
  induction e with
  | view r v => exact hw
  | axis r v a m off => exact ⟨hw.1, hw.2.1⟩
  | lanes r v a m off => exact ⟨hw.1, hw.2.1⟩
  | fill f => trivial
  | fromElem s f => exact hw
  | fromFn s idx f =>
    refine ⟨hw.1, ?_⟩
    have hl : (dimsDefault s.ty).length = s.dims.length := by
      by_cases h : s.dims = []
      · obtain ⟨hs, -⟩ := hw
        cases hty : s.ty with
        | static ds =>
          have hs' : s.ty.Conforms s.dims := hs
          rw [hty] at hs'
          simp [dimsDefault, ShapeTy.conforms_static_length hs']
        | dynRank => simp [dimsDefault, h]
      · rw [← fromFn_length (f := f) (Wf.wfs hw) hb h, (Wf.wfs hw).2]
    rw [hl, ownIdx_length]
    rw [List.length_drop]
    have : s.dims.length ≤ R := hR
    omega
  | intoExpr s buf idx => exact ⟨hw.1, hw.2.1⟩
  | map e f ih => exact ih hw hb hR
  | enumerate e k ih => exact ih hw.1 hb hR
  | zip a b s iha ihb =>
    obtain ⟨ha, hb', hz⟩ := hw
    obtain ⟨-, sa, sb, -, -⟩ := zipShape_spec hz
    replace hR : s.dims.length ≤ R := hR
    have la : a.dims.length ≤ s.dims.length := by
      have := congrArg List.length sa; rw [List.length_drop] at this; omega
    have lb : b.dims.length ≤ s.dims.length := by
      have := congrArg List.length sb; rw [List.length_drop] at this; omega
    refine ⟨iha ha (fun h => hb (Or.inl h)) (by omega), ihb hb' (fun h => hb (Or.inr h)) (by omega), ?_⟩
    rw [← hz]
    unfold zipShape rank dims
    simp only [adv_shape, adv_repeatable]

end Expr

namespace Iter
variable {σ α τ : Type}
open Expr

theorem takeE_iterAt {e : Expr σ α} (hw : e.Wf) (hr : Resumes e) {q c n : Nat} (hc : c < row e) (s : σ) :
    match (iterAt e q c n).takeE s with
    | .ok _ it' _ => it' = iterAt e q (c + 1) (n + 1)
    | .panic it' _ => it' = iterAt e q (c + 1) (n + 1)
    | _ => True := by
  have hul : (unrank (lims e.dims e.outerRank) q).length = e.outerRank := by
    rw [length_unrank, length_lims (outerRank_le e)]
  have hadv : (iterAt e q c n).expr.advance = (iterAt e q (c + 1) (n + 1)).expr :=
    advance_adv hw (fit_self e) (outerRank_le e) hul hc
  unfold takeE
  cases hg : (iterAt e q c n).expr.getE (iterAt e q c n).innerIndex s with
  | ok x e' t =>
    have := getE_ok hg
    simp only [Out.andThen]
    rw [this, hadv]
    rfl
  | panic e' t =>
    have := resumes_getE (later_adv hw (resumes_notBad hr) (le_refl _)
      (by rw [hul]; exact outerRank_le e)) (resumes_adv hr) hg
    simp only [Out.andThen]
    rw [show e' = _ from this.trans hadv]
    rfl
  | _ => trivial

/-- The iterator after a call of `next` that did not return `None`. -/
theorem nextE_iterN {e : Expr σ α} (hw : e.Wf) (hr : Resumes e) {n : Nat} (hn : n < size e.dims) (s : σ) :
    match (iterN e n).nextE s with
    | .ok x it' _ => x ≠ none ∧ it' = iterN e (n + 1)
    | .panic it' _ => it' = iterN e (n + 1)
    | _ => True := by
  have hs : 0 < size e.dims := by omega
  have hrow := row_pos hs
  obtain ⟨q, c, h1, h2, h3, h4, -⟩ := iterN_parts (e := e) (n := n) (by omega)
  rw [h1]
  have hfin : ∀ (q c : Nat), c < row e → q * row e + c = n →
      match (iterAt e q c n).takeE s with
      | .ok x it' _ => x ≠ none ∧ it' = iterN e (n + 1)
      | .panic it' _ => it' = iterN e (n + 1)
      | _ => True := by
    intro q c hc h2
    have ht := takeE_iterAt hw hr (q := q) (n := n) hc s
    have h5 := iterN_of (e := e) (q := q) (c := c + 1) (by omega) (by omega)
    rw [show q * row e + (c + 1) = n + 1 by omega] at h5
    rw [h5]
    have hx : ∀ x it' t, (iterAt e q c n).takeE s = .ok x it' t → x ≠ none := by
      intro x it' t hx
      unfold takeE at hx
      cases hg : (iterAt e q c n).expr.getE (iterAt e q c n).innerIndex s with
      | ok y e' u =>
        rw [hg] at hx
        simp only [Out.andThen, Out.ok.injEq] at hx
        rw [← hx.1]; simp
      | _ => rw [hg] at hx; simp [Out.andThen] at hx
    cases hg : (iterAt e q c n).takeE s with
    | ok x it' t => rw [hg] at ht; exact ⟨hx x it' t hg, ht⟩
    | panic it' t => rw [hg] at ht; exact ht
    | _ => trivial
  unfold nextE
  by_cases hc : c < row e
  · rw [if_neg (show ¬ (iterAt e q c (q * row e + c)).innerIndex = (iterAt e q c (q * row e + c)).innerLimit
      from fun h => by have : c = row e := h; omega), h2]
    exact hfin q c hc h2
  · have hce : c = row e := by omega
    subst hce
    have hq : q + 1 < rows e := by
      by_contra h
      have : rows e = q + 1 := by omega
      rw [size_split hs, this, Nat.add_mul, Nat.one_mul] at hn
      omega
    rw [if_pos (show (iterAt e q (row e) (q * row e + row e)).innerIndex =
      (iterAt e q (row e) (q * row e + row e)).innerLimit from rfl)]
    have hstep := stepOuter_spec hw (q := q) (c := row e) (n := q * row e + row e) (k := row e)
      (by unfold rows at hq; omega) (by intro h _; left; unfold row; rw [h]; simp)
    rw [if_pos (show q + 1 < size (lims e.dims e.outerRank) from hq)] at hstep
    have hitr : ({ iterAt e q (row e) (q * row e + row e) with innerIndex := row e } : Iter σ α) =
      iterAt e q (row e) (q * row e + row e) := rfl
    rw [hitr, stepOuterE_eq] at hstep
    rcases hso : (iterAt e q (row e) (q * row e + row e)).stepOuterE with ⟨b, it'⟩
    rw [hso] at hstep
    simp only [Option.map_eq_some_iff, Prod.mk.injEq] at hstep
    obtain ⟨b', rfl, rfl, rfl⟩ := hstep
    have hit : ({ ({ iterAt e (q + 1) 0 (q * row e + row e) with innerIndex := row e } : Iter σ α) with
      innerIndex := 0 } : Iter σ α) = iterAt e (q + 1) 0 n := by rw [h2]; rfl
    simp only
    have := hfin (q + 1) 0 hrow (by rw [Nat.add_mul, Nat.one_mul]; exact h2)
    rw [← hit] at this
    exact this

theorem nextE_iterN_end {e : Expr σ α} (hw : e.Wf) (hp : Plain e) (s : σ) :
    ∃ it', (iterN e (size e.dims)).nextE s = .ok none it' s := by
  obtain ⟨c, h⟩ := next_iterN_end hw hp
  have h2 := nextE_erase (iterN e (size e.dims)) s
  rw [h] at h2
  cases hn : (iterN e (size e.dims)).nextE s with
  | ok x it' t =>
    rw [hn] at h2
    simp only [Out.erase, M.pure, Res.ok.injEq, Prod.mk.injEq] at h2
    obtain ⟨⟨rfl, -⟩, rfl⟩ := h2
    exact ⟨it', rfl⟩
  | panic it' t => rw [hn] at h2; simp [Out.erase, M.pure] at h2
  | ub => rw [hn] at h2; simp [Out.erase, M.pure] at h2
  | abort => rw [hn] at h2; simp [Out.erase, M.pure] at h2

theorem after_iterN {e : Expr σ α} (hw : e.Wf) (hS : Sound e) (hp : Plain e) (hr : Resumes e) {n : Nat}
    {it : Iter σ α} (h : After e n it) : n ≤ size e.dims ∧ it = iterN e n := by
  induction h with
  | new => exact ⟨Nat.zero_le _, by rw [new_eq hw hS]; rfl⟩
  | @item n it x it' s t _ hn ih =>
    obtain ⟨hle, rfl⟩ := ih
    rcases Nat.lt_or_eq_of_le hle with hlt | heq
    · have := nextE_iterN hw hr hlt s
      rw [hn] at this
      exact ⟨hlt, this.2⟩
    · obtain ⟨it'', hend⟩ := nextE_iterN_end hw hp s
      rw [← heq] at hend
      rw [hn] at hend
      simp at hend
  | @panic n it it' s t _ hn ih =>
    obtain ⟨hle, rfl⟩ := ih
    rcases Nat.lt_or_eq_of_le hle with hlt | heq
    · have := nextE_iterN hw hr hlt s
      rw [hn] at this
      exact ⟨hlt, this⟩
    · obtain ⟨it'', hend⟩ := nextE_iterN_end hw hp s
      rw [← heq] at hend
      rw [hn] at hend
      simp at hend

end Iter

theorem disposed_of {σ α : Type} {e : Expr σ α} (h : ∀ p ∈ e.owned, p.1 ≤ p.2) : Disposed e := by
  unfold Disposed Expr.dropE
  generalize e.owned = ps at h
  induction ps with
  | nil => exact ⟨[], rfl, .nil⟩
  | cons p ps ih =>
    obtain ⟨parts, h1, h2⟩ := ih fun q hq => h q (List.mem_cons_of_mem _ hq)
    have hp := h p List.mem_cons_self
    refine ⟨List.range' p.1 (p.2 - p.1) :: parts, ?_, .cons ?_ h2⟩
    · rw [List.mapM_cons, h1, if_pos hp]; rfl
    · obtain ⟨k, hk⟩ := Nat.exists_eq_add_of_le hp
      have := List.range'_append_1 (s := 0) (m := p.1) (n := k)
      rw [hk, List.range_eq_range', List.range_eq_range', Nat.add_sub_cancel_left]
      simpa using this

theorem _root_.Spec.SomeTaken.mem {ps qs : List (Nat × Nat)} (h : SomeTaken ps qs) :
    ∀ q ∈ qs, ∃ p ∈ ps, q.2 = p.2 ∧ (q.1 = p.1 ∨ q.1 = p.1 + 1) := by
  unfold SomeTaken at h
  induction h with
  | nil => simp
  | cons h _ ih =>
    intro q hq
    rcases List.mem_cons.1 hq with rfl | hq
    · exact ⟨_, List.mem_cons_self, h⟩
    · obtain ⟨p, hp, h⟩ := ih q hq
      exact ⟨p, List.mem_cons_of_mem _ hp, h⟩

end Model
