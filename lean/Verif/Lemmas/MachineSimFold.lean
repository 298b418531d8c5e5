import Verif.Lemmas.MachineSim

/-! Iteration with 64-bit integers does what it does with unbounded integers, or it panics because of an overflow
check: `get`, `fold` and `next`. -/

namespace Model
open Spec
namespace Machine
variable {σ α : Type}

theorem mem_erase_of_ne {l : List Nat} {p : Nat} (hp : p < l.length) (h : 0 ∈ l) (h0 : l[p] ≠ 0) :
    0 ∈ l.eraseIdx p := by
  obtain ⟨k, hk, hk0⟩ := List.getElem_of_mem h
  refine List.mem_eraseIdx_iff_getElem?.2 ⟨k, ?_, ?_⟩
  · rintro rfl
    exact h0 hk0
  · rw [List.getElem?_eq_getElem hk, hk0]

/-- The size of a lane can be computed. -/
theorem lane_bsize {v : View} {a : Axis} {item : Mapping} (hw : v.map.WF)
    (hv : bsize v.dims < 9223372036854775808)
    (hg : a.get v.map = some item) : bsize item.shape.dims ≤ usizeMax := by
  obtain ⟨q, -, hq2, hmd', -⟩ := Expr.axis_dims hw hg
  change bsize item.dims ≤ usizeMax
  rw [hmd', bsize_cons, bsize_nil, mul_one]
  have h1 := bsize_pos v.dims
  have h2 := le_bsize (List.getElem_mem hq2)
  rw [List.getD_eq_getElem?_getD, List.getElem?_eq_getElem hq2, Option.getD_some]
  exact usizeMax_lt (by omega)

/-- Results of `get`: the same item, and the same expression but for irrelevant offsets. -/
def SameGot (p q : α × Expr σ α) : Prop := p.1 = q.1 ∧ Same q.2 p.2

theorem SimM.got {checks : Bool} {x y : M σ (α × Expr σ α)} (h : x = y) : SimM checks SameGot x y :=
  (SimM.of_eq h).mono fun _ _ h => h ▸ ⟨rfl, .refl _⟩

section
variable {checks : Bool} {D pos : List Nat} {O c n i : Nat}

theorem get_sim {e : Expr σ α} (hw : e.Wf) (h64 : OkSim e) (hf : Expr.Fit e D O) (hO : O ≤ D.length)
    (hp : Valid (D.take O) pos) (hD : 0 < size D) (hu : size D ≤ usizeMax)
    (hc : c < size (D.drop O)) (hn : n + 1 ≤ usizeMax)
    {e' : Expr σ α} (hs : Same (Expr.adv D.length pos c n e) e') :
    SimM checks SameGot (get checks e' c) ((Expr.adv D.length pos c n e).get c) := by
  have hpos : ∀ {ds : List Nat}, ds = D.drop (D.length - ds.length) → ∀ d ∈ ds, d ≠ 0 := by
    intro ds h d hd h0
    rw [h] at hd
    have := size_pos_iff.1 hD d (List.mem_of_mem_drop hd)
    omega
  induction e with
  | view r v =>
    obtain rfl : e' = _ := hs
    obtain ⟨N, hv⟩ := h64
    refine SimM.got ?_
    simp only [Expr.adv, get, Expr.get]
    rw [hv.2.inner (m := v.map) hw hf.suffix hf.inner hO hD hc, M.lift_some, M.pure_bind]
  | axis r v a m off =>
    obtain ⟨o, rfl, ho⟩ := hs
    by_cases hv : 0 < size v.dims
    · rw [ho hv]
      exact SimM.got (get_eq hw (h64.2 hv) hf hO hp hD hu hc hn)
    · obtain ⟨p, hp1, hp2, hmd, -, -, -⟩ := Expr.axis_dims hw.1 hw.2.1
      have hne : v.dims[p] ≠ 0 := by
        refine hpos hf.suffix _ ?_
        change _ ∈ m.dims
        rw [hmd]
        simp [List.getD_eq_getElem?_getD, hp2]
      have h0 : ∀ item, a.removeMap v.map = some item → size item.dims = 0 := by
        intro item hi
        obtain ⟨p', hp1', -, hid, -, -⟩ := Expr.lanes_dims hw.1 hi
        obtain rfl : p = p' := Option.some.inj (hp1.symm.trans hp1')
        rw [hid]
        exact size_eq_zero_iff.2 (mem_erase_of_ne hp2 (size_eq_zero_iff.1 (by omega)) hne)
      simp only [Expr.adv, get, Expr.get, axisItem]
      refine SimM.bind (R := Eq) (SimM.lift ?_) ?_
      · rw [removeMap_eq h64.1]
        simp only [Option.bind_eq_bind]
        cases h1 : retI checks (m.innerStride * castI c) with
        | none => exact Or.inl ⟨retI_none h1, rfl⟩
        | some p =>
          simp only [Option.bind_some]
          cases h2 : retI checks (o + p) with
          | none => exact Or.inl ⟨retI_none h2, rfl⟩
          | some q =>
            simp only [Option.bind_some]
            cases h3 : a.removeMap v.map with
            | none => exact Or.inr (Or.inl ⟨rfl, rfl⟩)
            | some item =>
              simp only [Option.bind_some]
              cases h4 : item.shape.checkedLen with
              | none => exact Or.inr (Or.inl ⟨rfl, rfl⟩)
              | some k =>
                have hk : k = 0 := by
                  rw [Shape.checkedLen_eq] at h4
                  split at h4
                  · have := h0 item h3
                    simp only [Option.some.injEq] at h4
                    rw [← h4]
                    exact this
                  · simp at h4
                exact SimO.some (by simp [hk])
      · rintro w _ rfl
        exact SimM.pure ⟨rfl, o, rfl, ho⟩
  | lanes r v a m off =>
    obtain ⟨o, rfl, ho⟩ := hs
    by_cases hv : 0 < size v.dims
    · rw [ho hv]
      exact SimM.got (get_eq hw (h64.2 hv) hf hO hp hD hu hc hn)
    · obtain ⟨p, hp1, hp2, hmd, -, -⟩ := Expr.lanes_dims hw.1 hw.2.1
      have h0 : ∀ item, a.get v.map = some item → size item.dims = 0 := by
        intro item hi
        obtain ⟨p', hp1', -, hid, -⟩ := Expr.axis_dims hw.1 hi
        obtain rfl : p = p' := Option.some.inj (hp1.symm.trans hp1')
        have : v.dims[p] = 0 := by
          by_contra hne
          have hm := mem_erase_of_ne hp2 (size_eq_zero_iff.1 (by omega)) hne
          exact hpos hf.suffix 0 (show 0 ∈ m.dims from hmd ▸ hm) rfl
        rw [hid]
        simp [List.getD_eq_getElem?_getD, hp2, this]
      simp only [Expr.adv, get, Expr.get, lanesItem]
      refine SimM.bind (R := Eq) (SimM.lift ?_) ?_
      · rw [axisGet_eq h64.1]
        simp only [Option.bind_eq_bind]
        cases h1 : retI checks (m.innerStride * castI c) with
        | none => exact Or.inl ⟨retI_none h1, rfl⟩
        | some p =>
          simp only [Option.bind_some]
          cases h3 : a.get v.map with
          | none => exact Or.inr (Or.inl ⟨rfl, rfl⟩)
          | some item =>
            simp only [Option.bind_some]
            rw [isEmpty_eq (lane_bsize hw.1 h64.1 h3)]
            have he : item.shape.isEmpty = true := by
              have := h0 item h3
              unfold Shape.isEmpty
              rw [beq_iff_eq, Shape.len_eq]
              exact this
            simp only [Option.bind_some, he, if_true]
            exact SimO.some (by rw [if_pos (show item.isEmpty = true from he)])
      · rintro w _ rfl
        exact SimM.pure ⟨rfl, o, rfl, ho⟩
  | fill f => obtain rfl : e' = _ := hs; exact SimM.got rfl
  | fromElem s f => obtain rfl : e' = _ := hs; exact SimM.got rfl
  | fromFn s idx f =>
    obtain rfl : e' = _ := hs
    exact SimM.got (get_eq hw trivial hf hO hp hD hu hc hn)
  | intoExpr s buf idx =>
    obtain rfl : e' = _ := hs
    exact SimM.got (get_eq hw trivial hf hO hp hD hu hc hn)
  | map e f ih =>
    obtain ⟨e₁, rfl, hs⟩ := hs
    simp only [Expr.adv, get, Expr.get]
    refine SimM.bind (ih hw h64 ⟨hf.suffix, hf.inner, hf.rep⟩ hs) fun p q hpq => ?_
    rw [hpq.1]
    refine SimM.bind (SimM.refl _) ?_
    rintro y _ rfl
    exact SimM.pure ⟨rfl, _, rfl, hpq.2⟩
  | enumerate e k ih =>
    obtain ⟨e₁, rfl, hs⟩ := hs
    simp only [Expr.adv, get, Expr.get]
    rw [retU_fit hn, M.lift_some, M.pure_bind]
    refine SimM.bind (ih hw.1 h64 ⟨hf.suffix, hf.inner, hf.rep⟩ hs) fun p q hpq => ?_
    exact SimM.pure ⟨by rw [hpq.1], _, rfl, hpq.2⟩
  | zip a b s iha ihb =>
    obtain ⟨a₁, b₁, rfl, hsa, hsb⟩ := hs
    obtain ⟨ha, hb, hz⟩ := hw
    obtain ⟨fa, fb⟩ := hf.zip hz
    simp only [Expr.adv, get, Expr.get]
    refine SimM.bind (iha ha h64.1 fa hsa) fun p q hpq => ?_
    refine SimM.bind (ihb hb h64.2 fb hsb) fun p' q' hpq' => ?_
    exact SimM.pure ⟨by rw [hpq.1, hpq'.1], _, _, rfl, hpq.2, hpq'.2⟩

/-- The first item. -/
theorem get_first {e : Expr σ α} (hw : e.Wf) (h64 : OkSim e) : get checks e 0 = e.get 0 := by
  have h0 : castI 0 = 0 := castI_ok (n := 0) (by omega)
  induction e with
  | view r v =>
    simp only [get, Expr.get, h0, mul_zero, Nat.cast_zero]
    rw [retI_fit fits_zero, M.lift_some, M.pure_bind]
  | axis r v a m off =>
    obtain ⟨-, -, rfl⟩ := hw
    simp only [get, Expr.get, axisItem, h0, mul_zero, Nat.cast_zero]
    rw [retI_fit fits_zero, removeMap_eq h64.1]
    simp only [Option.bind_eq_bind, Option.bind_some, add_zero]
    rw [retI_fit fits_zero]
    rfl
  | lanes r v a m off =>
    simp only [get, Expr.get, lanesItem, h0, mul_zero, Nat.cast_zero]
    rw [retI_fit fits_zero, axisGet_eq h64.1]
    simp only [Option.bind_eq_bind, Option.bind_some]
    cases hg : a.get v.map with
    | none => rfl
    | some item =>
      simp only [Option.bind_some]
      rw [isEmpty_eq (lane_bsize hw.1 h64.1 hg)]
      rfl
  | fill f => exact get_zero (checks := checks) hw trivial
  | fromElem s f => exact get_zero (checks := checks) hw trivial
  | fromFn s idx f => exact get_zero (checks := checks) hw trivial
  | intoExpr s buf idx => exact get_zero (checks := checks) hw trivial
  | map e f ih =>
    simp only [get, Expr.get]
    rw [ih hw h64]
  | enumerate e k ih =>
    obtain ⟨hw, rfl⟩ := hw
    simp only [get, Expr.get]
    rw [ih hw h64, retU_fit (by unfold usizeMax; omega), M.lift_some, M.pure_bind]
  | zip a b s iha ihb =>
    simp only [get, Expr.get]
    rw [iha hw.1 h64.1, ihb hw.2.1 h64.2]

/-- A move does the same from expressions that are the same but for irrelevant offsets. -/
def MoveSim (checks : Bool) : Move σ α → Prop
  | .step e i => ∀ e', Same e e' → SimO checks (fun a b => Same b a) (stepDim checks e' i) (e.stepDim i)
  | .reset e i n => ∀ e', Same e e' → SimO checks (fun a b => Same b a) (resetDim checks e' i n) (e.resetDim i n)

theorem stepLoop_sim {limit : List Nat} (i : Nat) (e e' : Expr σ α) (oi : List Nat)
    (h : ∀ m ∈ loopMoves limit i e oi, MoveSim checks m) (ho : ∀ x ∈ oi, x + 1 ≤ usizeMax) (hs : Same e e') :
    SimO checks (fun a b => a.1 = b.1 ∧ Same b.2.1 a.2.1 ∧ a.2.2 = b.2.2)
      (stepLoop checks limit i e' oi) (Iter.stepLoop limit i e oi) := by
  induction i generalizing e e' oi with
  | zero => exact SimO.some ⟨rfl, hs, rfl⟩
  | succ i ih =>
    unfold stepLoop Iter.stepLoop
    unfold loopMoves at h
    cases hx : oi[i]? with
    | none => exact Or.inr (Or.inl ⟨rfl, rfl⟩)
    | some x =>
      rw [hx] at h
      simp only [Option.bind_some]
      rw [retU_fit (ho x (List.mem_of_getElem? hx)), Option.bind_some]
      cases hl : limit[i]? with
      | none => exact Or.inr (Or.inl ⟨rfl, rfl⟩)
      | some l =>
        rw [hl] at h
        simp only [Option.bind_some] at h ⊢
        by_cases hlt : x + 1 < l
        · rw [if_pos hlt] at h ⊢
          rw [if_pos hlt]
          have := h (.step e i) (by simp)
          exact SimO.map (this e' hs) fun a b hab => ⟨rfl, hab, rfl⟩
        · rw [if_neg hlt] at h ⊢
          rw [if_neg hlt]
          have := h (.reset e i x) (by simp)
          rcases this e' hs with ⟨hc, h1⟩ | ⟨h1, h2⟩ | ⟨a, b, h1, h2, hab⟩
          · rw [h1]; exact Or.inl ⟨hc, rfl⟩
          · rw [h1, h2]; exact Or.inr (Or.inl ⟨rfl, rfl⟩)
          · rw [h2] at h
            rw [h1, h2]
            simp only [Option.bind_some]
            refine ih b a _ (fun m hm => h m (by simp [hm])) ?_ hab
            intro y hy
            rcases List.mem_or_eq_of_mem_set hy with hy | rfl
            · exact ho y hy
            · unfold usizeMax; omega

/-- The second iterator is the first one, but for irrelevant offsets. -/
def SameIter (it it' : Iter σ α) : Prop := Same it.expr it'.expr ∧ it' = { it with expr := it'.expr }

theorem SameIter.refl (it : Iter σ α) : SameIter it it := ⟨.refl _, rfl⟩

theorem stepOuter_sim {it it' : Iter σ α} (h : ∀ m ∈ moves it, MoveSim checks m)
    (ho : ∀ x ∈ it.outerIndex, x + 1 ≤ usizeMax) (hs : SameIter it it') :
    SimO checks (fun a b => a.1 = b.1 ∧ SameIter b.2 a.2) (stepOuter checks it') it.stepOuter := by
  obtain ⟨h1, h2⟩ := hs
  rw [h2]
  generalize it'.expr = e' at h1
  unfold stepOuter Iter.stepOuter
  unfold moves at h
  simp only [h1.outerRank, h1.rank]
  refine SimO.bind (R := fun a b => Same b a ∧ ∀ m ∈ loopMoves it.outerLimit it.expr.outerRank b it.outerIndex,
    MoveSim checks m) ?_ ?_
  · by_cases hlt : it.expr.outerRank < it.expr.rank
    · rw [if_pos hlt] at h ⊢
      rw [if_pos hlt]
      have := h (.reset _ _ _) (List.mem_cons_self ..)
      rcases this e' h1 with ⟨hc, h3⟩ | ⟨h3, h4⟩ | ⟨a, b, h3, h4, hab⟩
      · exact Or.inl ⟨hc, h3⟩
      · exact Or.inr (Or.inl ⟨h3, h4⟩)
      · rw [h4] at h
        exact Or.inr (Or.inr ⟨a, b, h3, h4, hab, fun m hm => h m (List.mem_cons_of_mem _ hm)⟩)
    · rw [if_neg hlt] at h ⊢
      rw [if_neg hlt]
      exact SimO.some ⟨h1, h⟩
  · rintro a b ⟨hab, hm⟩
    refine SimO.map (stepLoop_sim _ _ _ _ hm ho hab) ?_
    rintro ⟨r1, r2, r3⟩ ⟨s1, s2, s3⟩ ⟨rfl, hr, rfl⟩
    exact ⟨rfl, hr, rfl⟩

end

section
variable {checks : Bool} {e : Expr σ α} (hw : e.Wf) (h64 : OkSim e) (hD : 0 < size e.dims)
  (hu : size e.dims ≤ usizeMax)
include hw h64 hD hu
open Iter

theorem moveSim_from {m : Move σ α} (h : From e m) : MoveSim checks m := by
  obtain ⟨pos, c, n, hv, hb, hm⟩ := h
  have hO := outerRank_le e
  rw [lims_eq hD] at hv
  cases m with
  | step e₁ i =>
    change e₁ = _ at hb
    subst hb
    intro e' hs
    have := stepDim_sim (checks := checks) (c := c) (n := n) hw h64 (Expr.fit_self e) hO hv hD hu hm.1 hm.2
      (by omega) hs
    rw [Nat.sub_self, Nat.sub_zero] at this
    exact this
  | reset e₁ i k =>
    change e₁ = _ at hb
    subst hb
    obtain ⟨h1, rfl⟩ := hm
    intro e' hs
    have := resetDim_sim (checks := checks) (c := c) (n := n) (i := i) hw h64 (Expr.fit_self e) hO hv hD
      (by omega) (by omega) hs
    rw [Nat.sub_self, Nat.sub_zero] at this
    exact this

omit hw h64 in
theorem index_bound {q c n k : Nat} (hq : q < rows e) :
    ∀ x ∈ ({ iterAt e q c n with innerIndex := k } : Iter σ α).outerIndex, x + 1 ≤ usizeMax := by
  intro x hx
  change x ∈ (if e.outerRank > 0 then _ else _) at hx
  split at hx
  · rw [List.mem_append] at hx
    rcases hx with hx | hx
    · have hv : Valid (lims e.dims e.outerRank) (unrank (lims e.dims e.outerRank) q) := unrank_valid hq
      rw [lims_eq hD] at hv hx
      obtain ⟨i, hi, rfl⟩ := List.getElem_of_mem hx
      have hi' : i < (e.dims.take e.outerRank).length := by rw [← hv.length]; exact hi
      have h1 := List.Forall₂.get hv hi hi'
      simp only [List.get_eq_getElem] at h1
      have h2 := le_bsize (List.mem_of_mem_take (List.getElem_mem hi'))
      rw [bsize_eq hD] at h2
      omega
    · rw [List.eq_of_mem_replicate hx]; unfold usizeMax; omega
  · simp at hx

theorem stepOuter_here {q c n k : Nat} (hq : q < rows e)
    (hc : e.outerRank = e.dims.length → 0 < e.dims.length → c = 1 ∨ ∀ d ∈ e.dims.take e.outerRank, d ≤ 1)
    {it' : Iter σ α} (hs : SameIter { iterAt e q c n with innerIndex := k } it') :
    SimO checks (fun a b => a.1 = b.1 ∧ SameIter b.2 a.2) (stepOuter checks it')
      (Iter.stepOuter { iterAt e q c n with innerIndex := k }) := by
  refine stepOuter_sim ?_ (index_bound hD hu hq) hs
  intro m hm
  exact moveSim_from hw h64 hD hu (moves_here hw (k := k) hq hc m hm).2

theorem get_here {q c : Nat} (hq : q < rows e) (hc : c < Iter.row e) {e' : Expr σ α}
    (hs : Same (Expr.adv e.dims.length (unrank (lims e.dims e.outerRank) q) c (q * Iter.row e + c) e) e') :
    SimM checks SameGot (get checks e' c)
      ((Expr.adv e.dims.length (unrank (lims e.dims e.outerRank) q) c (q * Iter.row e + c) e).get c) := by
  have hv : Valid (lims e.dims e.outerRank) (unrank (lims e.dims e.outerRank) q) := unrank_valid hq
  rw [lims_eq hD] at hv hs ⊢
  refine get_sim hw h64 (Expr.fit_self e) (outerRank_le e) hv hD hu hc ?_ hs
  have h1 := size_split hD
  have h2 : q * Iter.row e + Iter.row e ≤ rows e * Iter.row e := by
    rw [← Nat.succ_mul]; exact Nat.mul_le_mul_right _ hq
  omega

variable (hb : ¬ BadFn e)
include hb

/-- An item is taken. -/
theorem get_next {q c : Nat} (hq : q < rows e) (hc : c < Iter.row e) {e' : Expr σ α}
    (hs : Same (Expr.adv e.dims.length (unrank (lims e.dims e.outerRank) q) c (q * Iter.row e + c) e) e') :
    SimM checks (fun p x => p.1 = x ∧ Same (Expr.adv e.dims.length (unrank (lims e.dims e.outerRank) q) (c + 1)
      (q * Iter.row e + c + 1) e) p.2) (get checks e' c)
      (rawItem (e.dims.length - e.outerRank) e (q * Iter.row e + c) (unrank (visited e) (q * Iter.row e + c))) := by
  have := get_here (checks := checks) hw h64 hD hu hq hc hs
  rw [Iter.get_rawAt hw hb hq hc] at this
  exact this.unpure

theorem innerLoop_sim {τ : Type} (f : τ → α → M σ τ) {q : Nat} (hq : q < rows e) :
    ∀ (k c : Nat) (acc : τ) (e' : Expr σ α), c + k ≤ Iter.row e →
    Same (Expr.adv e.dims.length (unrank (lims e.dims e.outerRank) q) c (q * Iter.row e + c) e) e' →
    SimM checks (fun a b => a.1 = b.1 ∧ Same b.2 a.2) (innerLoop checks f (List.range' c k) e' acc)
      (Iter.innerLoop f (List.range' c k)
        (Expr.adv e.dims.length (unrank (lims e.dims e.outerRank) q) c (q * Iter.row e + c) e) acc) := by
  intro k
  induction k with
  | zero => intro c acc e' _ hs; exact SimM.pure ⟨rfl, hs⟩
  | succ k ih =>
    intro c acc e' hc hs
    rw [List.range'_succ]
    unfold innerLoop Iter.innerLoop
    rw [Iter.get_rawAt hw hb hq (by omega)]
    simp only [M.bind_assoc, M.pure_bind]
    refine SimM.bind (get_next hw h64 hD hu hb hq (by omega) hs) ?_
    rintro p x ⟨rfl, hp⟩
    refine SimM.bind (SimM.refl _) ?_
    rintro acc' _ rfl
    exact ih (c + 1) acc' p.2 (by omega) hp

theorem foldLoop_sim {τ : Type} (f : τ → α → M σ τ) :
    ∀ (fuel q c : Nat) (acc : τ) (it' : Iter σ α), q < rows e → c ≤ Iter.row e →
    SameIter (iterAt e q c (q * Iter.row e + c)) it' →
    SimM checks Eq (foldLoop checks f fuel it' acc)
      (Iter.foldLoop f fuel (iterAt e q c (q * Iter.row e + c)) acc) := by
  intro fuel
  induction fuel with
  | zero => intro q c acc it' _ _ _; exact SimM.refl _
  | succ fuel ih =>
    intro q c acc it' hq hc hs
    have hin := innerLoop_gen (G := fun k => rawItem (e.dims.length - e.outerRank) e k (unrank (visited e) k))
      (fun q c => Iter.get_rawAt hw hb) f hq (Iter.row e - c) c acc (by omega)
    obtain ⟨hs1, hs2⟩ := hs
    rw [hs2]
    generalize it'.expr = e' at hs1
    have hin' := innerLoop_sim (checks := checks) hw h64 hD hu hb f hq (Iter.row e - c) c acc e' (by omega) hs1
    unfold foldLoop Iter.foldLoop
    change SimM checks Eq (M.bind (innerLoop checks f (List.range' c (Iter.row e - c)) e' acc) _)
      (M.bind (Iter.innerLoop f (List.range' c (Iter.row e - c)) (Expr.adv e.dims.length
        (unrank (lims e.dims e.outerRank) q) c (q * Iter.row e + c) e) acc) _)
    rw [hin] at hin' ⊢
    simp only [M.bind_assoc, M.pure_bind]
    refine SimM.bind hin'.unpure ?_
    rintro ⟨acc', e''⟩ b ⟨rfl, he⟩
    simp only at he ⊢
    rw [show c + (Iter.row e - c) = Iter.row e by omega, show q * Iter.row e + c + (Iter.row e - c) = q * Iter.row e + Iter.row e by omega]
    rw [show c + (Iter.row e - c) = Iter.row e by omega, show q * Iter.row e + c + (Iter.row e - c) = q * Iter.row e + Iter.row e by omega] at he
    have hitr : ({ iterAt e q c (q * Iter.row e + c) with
        expr := Expr.adv e.dims.length (unrank (lims e.dims e.outerRank) q) (Iter.row e) (q * Iter.row e + Iter.row e) e } :
          Iter σ α) = { iterAt e q (Iter.row e) (q * Iter.row e + Iter.row e) with innerIndex := c } := rfl
    have hcr : e.outerRank = e.dims.length → 0 < e.dims.length →
        Iter.row e = 1 ∨ ∀ d ∈ e.dims.take e.outerRank, d ≤ 1 := by
      intro h _
      left; unfold Iter.row; rw [h]; simp
    rw [hitr]
    have hst := stepOuter_here (checks := checks) (k := c) (n := q * Iter.row e + Iter.row e) hw h64 hD hu hq hcr
      (it' := { iterAt e q c (q * Iter.row e + c) with expr := e'' }) ⟨he, rfl⟩
    rw [stepOuter_spec hw hq hcr] at hst ⊢
    refine SimM.bind (R := fun a b => (a.1 = b.1 ∧ SameIter b.2 a.2) ∧ (if q + 1 < size (lims e.dims e.outerRank) then
        some (true, ({ iterAt e (q + 1) 0 (q * Iter.row e + Iter.row e) with innerIndex := c } : Iter σ α))
      else some (false, { iterAt e 0 (if e.dims = [] then Iter.row e else 0) (q * Iter.row e + Iter.row e) with
        innerIndex := c })) = some b) (SimM.lift ?_) ?_
    · rcases hst with h | h | ⟨a, b, h1, h2, h3⟩
      · exact Or.inl h
      · exact Or.inr (Or.inl h)
      · exact Or.inr (Or.inr ⟨a, b, h1, h2, h3, h2⟩)
    · rintro a b ⟨⟨h1, h2⟩, h3⟩
      by_cases hl : q + 1 < size (lims e.dims e.outerRank)
      · rw [if_pos hl] at h3
        obtain rfl := Option.some.inj h3
        rw [h1, if_pos rfl, if_pos rfl]
        have := ih (q + 1) 0 acc' { a.2 with innerIndex := 0 } hl (Nat.zero_le _)
        rw [Nat.add_zero, Nat.add_mul, Nat.one_mul] at this
        refine this ⟨h2.1, ?_⟩
        rw [h2.2]
        rfl
      · rw [if_neg hl] at h3
        obtain rfl := Option.some.inj h3
        rw [h1, if_neg (by simp), if_neg (by simp)]
        exact SimM.refl _

theorem fold_here {τ : Type} (f : τ → α → M σ τ) (acc : τ) {q c : Nat} (hq : q < rows e) (hc : c ≤ Iter.row e)
    {it' : Iter σ α} (hs : SameIter (iterAt e q c (q * Iter.row e + c)) it') :
    SimM checks Eq (fold checks it' acc f) ((iterAt e q c (q * Iter.row e + c)).fold acc f) := by
  unfold fold Iter.fold
  have : it'.outerCount = (iterAt e q c (q * Iter.row e + c)).outerCount := by
    unfold outerCount
    rw [hs.1.outerRank, hs.2]
  rw [this]
  exact foldLoop_sim hw h64 hD hu hb f _ q c acc it' hq hc hs

theorem exprFold_sim {τ : Type} (f : τ → α → M σ τ) (acc : τ) :
    SimM checks Eq (exprFold checks e acc f) (e.fold acc f) := by
  unfold exprFold Expr.fold
  rw [iterNew_eq hD hu, M.lift_some, M.pure_bind,
    new_eq_of (Expr.adv_init_raw hw hb (outerRank_le e) (le_refl _))]
  have := fold_here (checks := checks) hw h64 hD hu hb f acc (q := 0) (c := 0) (rows_pos e) (Nat.zero_le _)
    (it' := iterAt e 0 0 0) (by rw [Nat.zero_mul]; exact .refl _)
  rwa [Nat.zero_mul] at this

/-- One call of `next`. After an item the position is one further. -/
theorem next_here {q c : Nat} (hq : q < rows e) (hc : c ≤ Iter.row e) {it' : Iter σ α}
    (hs : SameIter (iterAt e q c (q * Iter.row e + c)) it') :
    SimM checks (fun a b => a.1 = b.1 ∧ (b.1 ≠ none → ∃ q' c', q' < rows e ∧ c' ≤ Iter.row e ∧
        b.2 = iterAt e q' c' (q' * Iter.row e + c') ∧ SameIter b.2 a.2))
      (next checks it') (iterAt e q c (q * Iter.row e + c)).next := by
  have hr := row_le hD hu
  have hrp : 0 < Iter.row e := by
    have := hD
    rw [size_split hD] at this
    exact Nat.pos_of_mul_pos_left this
  have htake : ∀ q c, q < rows e → c < Iter.row e → ∀ it', SameIter (iterAt e q c (q * Iter.row e + c)) it' →
      SimM checks (fun a b => a.1 = b.1 ∧ (b.1 ≠ none → ∃ q' c', q' < rows e ∧ c' ≤ Iter.row e ∧
        b.2 = iterAt e q' c' (q' * Iter.row e + c') ∧ SameIter b.2 a.2))
      (take checks it')
      (M.bind ((iterAt e q c (q * Iter.row e + c)).expr.get c) fun p =>
        M.pure (some p.1, { iterAt e q c (q * Iter.row e + c) with expr := p.2, innerIndex := c + 1 })) := by
    intro q c hq hc it' hs
    obtain ⟨hs1, hs2⟩ := hs
    rw [hs2]
    generalize it'.expr = e' at hs1
    unfold take
    rw [show ({ iterAt e q c (q * Iter.row e + c) with expr := e' } : Iter σ α).innerIndex = c from rfl,
      retU_fit (by omega), M.lift_some, M.pure_bind]
    change SimM checks _ (M.bind (get checks e' c) _) (M.bind ((Expr.adv e.dims.length
      (unrank (lims e.dims e.outerRank) q) c (q * Iter.row e + c) e).get c) _)
    rw [Iter.get_rawAt hw hb hq hc, M.bind_assoc]
    simp only [M.pure_bind]
    refine SimM.bind (get_next hw h64 hD hu hb hq hc hs1) ?_
    rintro p x ⟨rfl, hp⟩
    exact SimM.pure ⟨rfl, fun _ => ⟨q, c + 1, hq, hc, rfl, hp, rfl⟩⟩
  unfold next Iter.next
  have hi : it'.innerIndex = c := by rw [hs.2]; rfl
  have hlim : it'.innerLimit = Iter.row e := by rw [hs.2]; rfl
  rw [hi, hlim]
  change SimM checks _ _ (if c = Iter.row e then _ else _)
  by_cases hl : c = Iter.row e
  · rw [if_pos hl, if_pos hl]
    have hcr : e.outerRank = e.dims.length → 0 < e.dims.length →
        c = 1 ∨ ∀ d ∈ e.dims.take e.outerRank, d ≤ 1 := by
      intro h _
      left; rw [hl]; unfold Iter.row; rw [h]; simp
    have h1 := stepOuter_here (checks := checks) (n := q * Iter.row e + c) (k := c) hw h64 hD hu hq hcr (it' := it')
      hs
    have h2 := stepOuter_spec (n := q * Iter.row e + c) (k := c) hw hq hcr
    rw [show ({ iterAt e q c (q * Iter.row e + c) with innerIndex := c } : Iter σ α) =
      iterAt e q c (q * Iter.row e + c) from rfl] at h1 h2
    rw [h2] at h1 ⊢
    refine SimM.bind (R := fun a b => (a.1 = b.1 ∧ SameIter b.2 a.2) ∧ (if q + 1 < size (lims e.dims e.outerRank) then
        some (true, ({ iterAt e (q + 1) 0 (q * Iter.row e + c) with innerIndex := c } : Iter σ α))
      else some (false, { iterAt e 0 (if e.dims = [] then c else 0) (q * Iter.row e + c) with
        innerIndex := c })) = some b) (SimM.lift ?_) ?_
    · rcases h1 with h | h | ⟨a, b, h1, h2, h3⟩
      · exact Or.inl h
      · exact Or.inr (Or.inl h)
      · exact Or.inr (Or.inr ⟨a, b, h1, h2, h3, h2⟩)
    · rintro a b ⟨⟨h3, h4⟩, h5⟩
      by_cases hl2 : q + 1 < size (lims e.dims e.outerRank)
      · rw [if_pos hl2] at h5
        obtain rfl := Option.some.inj h5
        rw [h3, if_pos rfl, if_pos rfl]
        have := htake (q + 1) 0 hl2 hrp { a.2 with innerIndex := 0 }
        rw [Nat.add_zero, Nat.add_mul, Nat.one_mul] at this
        rw [hl] at h4 ⊢
        refine this ⟨h4.1, ?_⟩
        rw [h4.2]
        rfl
      · rw [if_neg hl2] at h5
        obtain rfl := Option.some.inj h5
        rw [h3, if_neg (by simp), if_neg (by simp)]
        exact SimM.pure ⟨rfl, fun h => absurd rfl h⟩
  · rw [if_neg hl, if_neg hl]
    exact htake q c hq (by omega) it' hs

end
end Machine
end Model
