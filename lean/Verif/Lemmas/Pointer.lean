import Verif.Spec.Pointer
import Verif.Lemmas.NextRaw

/-! The pointers formed while iterating. -/

namespace Model
open Spec

namespace Iter
variable {σ α : Type}
open Expr

/-- `pos` is a position of the outer loop of `e`. -/
def Here (e : Expr σ α) (e' : Expr σ α) : Prop :=
  ∃ pos c n, Valid (lims e.dims e.outerRank) pos ∧ e' = adv e.dims.length pos c n e

/-- A move that starts at a position of the outer loop: a step to a position that exists, a reset from the
position, or the first reset of the last dimension. -/
def From (e : Expr σ α) (m : Move σ α) : Prop :=
  ∃ pos c n, Valid (lims e.dims e.outerRank) pos ∧ m.before = adv e.dims.length pos c n e ∧
    match m with
    | .step _ i => i < e.outerRank ∧ pos.getD i 0 + 1 < e.dims.getD i 0
    | .reset _ i k => (i < e.outerRank ∨ i + 1 = e.dims.length) ∧ k = pos.getD i 0

theorem valid_take_zeros {L : List Nat} {i : Nat} {p : List Nat} (hL : ∀ d ∈ L, 0 < d)
    (hv : Valid (L.take i) p) : Valid L (p ++ List.replicate (L.length - i) 0) := by
  have hlen : p.length = (L.take i).length := hv.length
  rw [← List.take_append_drop i L]
  rw [valid_append hlen]
  refine ⟨hv, ?_⟩
  have : (L.take i ++ L.drop i).length - i = (L.drop i).length := by simp
  rw [this]
  have hd : ∀ d ∈ L.drop i, 0 < d := fun d h => hL d (List.mem_of_mem_drop h)
  generalize L.drop i = M at hd
  induction M with
  | nil => exact List.Forall₂.nil
  | cons d M ih =>
    refine List.Forall₂.cons (hd d (by simp)) (ih fun d h => hd d (by simp [h]))

theorem dot_append_zeros (st : List Int) (p : List Nat) (k : Nat) :
    dot st (p ++ List.replicate k 0) = dot st p := by
  induction p generalizing st with
  | nil => simp [dot_zeros, dot_nil_right]
  | cons x p ih =>
    cases st with
    | nil => simp [dot_nil_left]
    | cons s st => rw [List.cons_append, dot_cons, dot_cons, ih]

theorem pos_of_mem_lims (D : List Nat) (O : Nat) : ∀ d ∈ lims D O, 0 < d := by
  intro d hd
  simp only [lims, List.mem_map] at hd
  obtain ⟨x, -, rfl⟩ := hd
  omega

theorem loopMoves_here {e : Expr σ α} (hw : e.Wf) {n : Nat} :
    ∀ (i : Nat) (p : List Nat) (c : Nat), i ≤ e.outerRank → p.length = i →
    Valid ((lims e.dims e.outerRank).take i) p →
    ((i < e.dims.length ∧ c = 0) ∨ (i = e.dims.length ∧
      (0 < e.dims.length → c = 1 ∨ ∀ d ∈ e.dims.take e.outerRank, d ≤ 1))) →
    ∀ m ∈ loopMoves e.dims i (adv e.dims.length (p ++ List.replicate (e.outerRank - i) 0) c n e)
      (p ++ List.replicate (e.dims.length - i) 0), (∃ e', m.after = some e' ∧ Here e e') ∧ From e m := by
  have hO := outerRank_le e
  have hf := fit_self e
  intro i
  induction i with
  | zero => intro p c _ _ _ _ m hm; simp [loopMoves] at hm
  | succ i ih =>
    intro p c hi hp hv hc m hm
    obtain ⟨q, x, rfl, hq⟩ := exists_snoc hp
    have hiL : i < (lims e.dims e.outerRank).length := by rw [length_lims hO]; omega
    have hiD : i < e.dims.length := by omega
    have hmx : (lims e.dims e.outerRank)[i] = max (e.dims[i]) 1 := by simp [lims]
    have hv0 := hv
    rw [take_succ_snoc _ _ hiL, hmx] at hv
    have hqL : q.length = ((lims e.dims e.outerRank).take i).length := by rw [List.length_take]; omega
    obtain ⟨hvq, hvx⟩ := (valid_append hqL).1 hv
    have hx : x < max (e.dims[i]) 1 := by simpa using hvx
    have h1 : (q ++ [x] ++ List.replicate (e.dims.length - (i + 1)) 0)[i]? = some x := by
      simp [← hq]
    have hgd : (q ++ [x] ++ List.replicate (e.outerRank - (i + 1)) 0).getD i 0 = x := by
      rw [List.getD_eq_getElem?_getD]; simp [← hq]
    have hsz : (q ++ [x] ++ List.replicate (e.outerRank - (i + 1)) 0).length = e.outerRank := by
      simp; omega
    have hsetL : ∀ (k y : Nat), (q ++ [x] ++ List.replicate k 0).set i y =
        q ++ [y] ++ List.replicate k 0 := by
      intro k y; subst hq; simp
    have hvp : Valid (lims e.dims e.outerRank) (q ++ [x] ++ List.replicate (e.outerRank - (i + 1)) 0) := by
      have := valid_take_zeros (pos_of_mem_lims e.dims e.outerRank) (i := i + 1) hv0
      rwa [length_lims hO] at this
    unfold loopMoves at hm
    rw [h1, List.getElem?_eq_getElem hiD] at hm
    simp only at hm
    by_cases hlt : x + 1 < e.dims[i]
    · have hno : ¬ ∀ d ∈ e.dims.take e.outerRank, d ≤ 1 := by
        intro h
        have := h (e.dims[i]) (List.mem_take_iff_getElem.2 ⟨i, by omega, rfl⟩)
        omega
      simp only [hno, or_false] at hc
      rw [if_pos hlt, List.mem_singleton] at hm
      subst hm
      have hstep := step_adv (n := n) hw hf hO hsz (i := i) (c := c) (by omega) (by omega)
      rw [Nat.sub_self, if_pos (Nat.zero_le _), Nat.sub_zero] at hstep
      refine ⟨⟨_, hstep, _, _, _, ?_, rfl⟩, _, _, _, hvp, rfl, by omega, ?_⟩
      swap
      · rw [hgd, List.getD_eq_getElem?_getD, List.getElem?_eq_getElem hiD]; exact hlt
      have hmod : (q ++ [x] ++ List.replicate (e.outerRank - (i + 1)) 0).modify i (· + 1) =
          q ++ [x + 1] ++ List.replicate (e.outerRank - (i + 1)) 0 := by
        subst hq
        exact modify_mid q x _ _
      rw [hmod]
      have := valid_take_zeros (pos_of_mem_lims e.dims e.outerRank) (i := i + 1) (p := q ++ [x + 1])
        (by
          rw [take_succ_snoc _ _ hiL, hmx, valid_append hqL]
          exact ⟨hvq, List.Forall₂.cons (by omega) List.Forall₂.nil⟩)
      rwa [length_lims hO] at this
    · rw [if_neg hlt] at hm
      have hreset := reset_adv (n := n) hw hf hO hsz (i := i) (c := c) (by omega)
      rw [Nat.sub_self, if_pos (Nat.zero_le _), Nat.sub_zero, hgd] at hreset
      rw [hreset] at hm
      have e1 : ∀ k, q ++ [0] ++ List.replicate k 0 = q ++ List.replicate (k + 1) 0 := by
        intro k; rw [List.append_assoc, List.replicate_succ]; rfl
      rw [hsetL, hsetL, e1, e1, show e.outerRank - (i + 1) + 1 = e.outerRank - i by omega,
        show e.dims.length - (i + 1) + 1 = e.dims.length - i by omega] at hm
      rw [List.mem_cons] at hm
      rcases hm with rfl | hm
      · refine ⟨⟨_, hreset, _, _, _, ?_, rfl⟩, _, _, _, hvp, rfl, .inl (by omega), hgd.symm⟩
        rw [hsetL, e1, show e.outerRank - (i + 1) + 1 = e.outerRank - i by omega]
        have := valid_take_zeros (pos_of_mem_lims e.dims e.outerRank) (i := i) (p := q) hvq
        rwa [length_lims hO] at this
      · exact ih q 0 (by omega) hq hvq (by omega) m hm

theorem moves_here {e : Expr σ α} (hw : e.Wf) {q c n k : Nat} (hq : q < rows e)
    (hc : e.outerRank = e.dims.length → 0 < e.dims.length →
      c = 1 ∨ ∀ d ∈ e.dims.take e.outerRank, d ≤ 1) :
    ∀ m ∈ moves { iterAt e q c n with innerIndex := k },
      (∃ e', m.after = some e' ∧ Here e e') ∧ From e m := by
  have hO := outerRank_le e
  have hf := fit_self e
  have hul : (unrank (lims e.dims e.outerRank) q).length = e.outerRank := by
    rw [length_unrank, length_lims hO]
  have htk : (lims e.dims e.outerRank).take e.outerRank = lims e.dims e.outerRank :=
    List.take_of_length_le (by rw [length_lims hO])
  have hvu : Valid (lims e.dims e.outerRank) (unrank (lims e.dims e.outerRank) q) := unrank_valid hq
  have hloop := fun (c' : Nat) hc' => loopMoves_here hw (n := n) e.outerRank
    (unrank (lims e.dims e.outerRank) q) c' (le_refl _) hul (by rw [htk]; exact hvu) hc'
  rw [Nat.sub_self, List.replicate_zero, List.append_nil] at hloop
  have hrest : ∀ c' (e' : Expr σ α), e' = adv e.dims.length (unrank (lims e.dims e.outerRank) q) c' n e →
      ((e.outerRank < e.dims.length ∧ c' = 0) ∨ (e.outerRank = e.dims.length ∧
      (0 < e.dims.length → c' = 1 ∨ ∀ d ∈ e.dims.take e.outerRank, d ≤ 1))) →
      ∀ m ∈ restMoves { iterAt e q c n with innerIndex := k } (some e'),
        (∃ e'', m.after = some e'' ∧ Here e e'') ∧ From e m := by
    rintro c' e' rfl hc' m hm
    have ho : (iterAt e q c n).expr.outerRank = e.outerRank := adv_outerRank ..
    change m ∈ loopMoves (iterAt e q c n).outerLimit (iterAt e q c n).expr.outerRank _
      (iterAt e q c n).outerIndex at hm
    rw [ho] at hm
    by_cases h0 : 0 < e.outerRank
    · rw [show (iterAt e q c n).outerLimit = e.dims from if_pos h0,
        show (iterAt e q c n).outerIndex = _ from if_pos h0] at hm
      exact hloop c' hc' m hm
    · rw [show e.outerRank = 0 by omega] at hm
      simp [loopMoves] at hm
  intro m hm
  have ho : (iterAt e q c n).expr.outerRank = e.outerRank := adv_outerRank ..
  have hrk : (iterAt e q c n).expr.rank = e.dims.length := by
    show (adv _ _ _ _ e).rank = _
    unfold rank dims
    rw [adv_shape]
  unfold moves at hm
  simp only [ho, hrk] at hm
  by_cases hlt : e.outerRank < e.dims.length
  · rw [if_pos hlt] at hm
    have hreset := reset_adv (n := n) hw hf hO hul (i := e.dims.length - 1) (c := c) (by omega)
    have hset : (unrank (lims e.dims e.outerRank) q).set (e.dims.length - 1) 0 =
        unrank (lims e.dims e.outerRank) q := List.set_eq_of_length_le (by omega)
    have hget : (unrank (lims e.dims e.outerRank) q).getD (e.dims.length - 1) 0 = 0 := by
      rw [List.getD_eq_getElem?_getD, List.getElem?_eq_none (by omega)]; rfl
    rw [Nat.sub_self, if_pos (Nat.zero_le _), Nat.sub_zero, hset, hget] at hreset
    change m ∈ Move.reset _ _ 0 :: restMoves _ ((adv _ _ c n e).resetDim _ 0) at hm
    rw [hreset, List.mem_cons] at hm
    rcases hm with rfl | hm
    · exact ⟨⟨_, hreset, _, _, _, hvu, rfl⟩, _, _, _, hvu, rfl, .inr (by omega), hget.symm⟩
    · exact hrest 0 _ rfl (.inl ⟨hlt, rfl⟩) m hm
  · rw [if_neg hlt] at hm
    exact hrest c _ rfl (.inr ⟨by omega, hc (by omega)⟩) m hm

/-- Occurring states are states of the odometer. -/
theorem occurs_iterAt {e : Expr σ α} (hw : e.Wf) (hb : ¬ BadFn e)
    (hne : 0 < size e.dims ∨ ∀ d ∈ e.dims.take e.outerRank, d ≤ 1) {it : Iter σ α} (h : Occurs e it) :
    ∃ q c, q < rows e ∧ c ≤ row e ∧ it = iterAt e q c (q * row e + c) := by
  have hstep : ∀ q c n it', q < rows e → c ≤ row e →
      (iterAt e q c n).innerIndex = (iterAt e q c n).innerLimit →
      (iterAt e q c n).stepOuter = some (true, it') →
      0 < row e ∧ q + 1 < rows e ∧ it' = { iterAt e (q + 1) 0 n with innerIndex := c } := by
    intro q c n it' hq hc he hs
    have hcr : c = row e := he
    have := stepOuter_spec hw (q := q) (c := c) (n := n) (k := c) hq (by
      intro h _; left; rw [hcr]; unfold row; rw [h]; simp)
    rw [show ({ iterAt e q c n with innerIndex := c } : Iter σ α) = iterAt e q c n from rfl, hs] at this
    by_cases hl : q + 1 < size (lims e.dims e.outerRank)
    · rw [if_pos hl] at this
      simp only [Option.some.injEq, Prod.mk.injEq, true_and] at this
      refine ⟨?_, hl, this⟩
      rcases hne with hne | hne
      · rw [size_split hne] at hne
        exact Nat.pos_of_mul_pos_left hne
      · exfalso
        have h1 : size (lims e.dims e.outerRank) = 1 := by
          unfold size lims
          apply List.prod_eq_one
          intro x hx
          simp only [List.mem_map] at hx
          obtain ⟨d, hd, rfl⟩ := hx
          have := hne d hd
          omega
        omega
    · rw [if_neg hl] at this; simp at this
  induction h with
  | new =>
    refine ⟨0, 0, rows_pos e, Nat.zero_le _, ?_⟩
    rw [Nat.zero_mul]
    exact new_eq_of (adv_init_raw hw hb (outerRank_le e) (le_refl _))
  | @get it x e' s t ho hlt hg ih =>
    obtain ⟨q, c, hq, hc, rfl⟩ := ih
    have hc' : c < row e := lt_of_le_of_ne hc hlt
    change (adv _ _ c _ e).get c s = _ at hg
    rw [get_rawAt hw hb hq hc'] at hg
    refine ⟨q, c + 1, hq, hc', ?_⟩
    unfold M.bind at hg
    split at hg
    · simp only [M.pure, Res.ok.injEq, Prod.mk.injEq] at hg
      obtain ⟨⟨-, rfl⟩, -⟩ := hg
      rfl
    all_goals simp at hg
  | @step it it' ho he hs ih =>
    obtain ⟨q, c, hq, hc, rfl⟩ := ih
    obtain ⟨-, hq', rfl⟩ := hstep q c _ it' hq hc he hs
    have hcr : c = row e := he
    refine ⟨q + 1, 0, hq', Nat.zero_le _, ?_⟩
    rw [hcr, Nat.add_mul, Nat.one_mul, Nat.add_zero]
    rfl
  | @stepGet it it' x e' s t ho he hs hg ih =>
    obtain ⟨q, c, hq, hc, rfl⟩ := ih
    obtain ⟨hr, hq', rfl⟩ := hstep q c _ it' hq hc he hs
    have hcr : c = row e := he
    change (adv _ _ 0 _ e).get 0 s = _ at hg
    rw [get_rawAt hw hb hq' hr] at hg
    refine ⟨q + 1, 1, hq', hr, ?_⟩
    unfold M.bind at hg
    split at hg
    · simp only [M.pure, Res.ok.injEq, Prod.mk.injEq] at hg
      obtain ⟨⟨-, rfl⟩, -⟩ := hg
      rw [hcr, Nat.add_mul, Nat.one_mul]
      rfl
    all_goals simp at hg

/-- With a `from_fn` of dynamic rank no other state than the first occurs. -/
theorem occurs_bad {e : Expr σ α} (hw : e.Wf) (hb : BadFn e)
    {it : Iter σ α} (h : Occurs e it) : it = Iter.new e := by
  have hnone : (Iter.new e).innerIndex = (Iter.new e).innerLimit → (Iter.new e).stepOuter = none := by
    intro h
    have hr : row e = 0 := by rw [← innerLimit_new]; exact h.symm
    have hlt : e.outerRank < e.dims.length := by
      by_contra h
      unfold row at hr
      rw [List.drop_eq_nil_of_le (by omega)] at hr
      simp at hr
    unfold stepOuter
    change (if e.outerRank < e.dims.length then e.resetDim (e.dims.length - 1) 0 else some e).bind _ = none
    rw [if_pos hlt, (reset_bad hw hb 0).2]
    rfl
  induction h with
  | new => rfl
  | @get it x e' s t ho hlt hg ih =>
    subst ih
    exfalso
    have hr : 0 < row e := by
      rw [← innerLimit_new]
      have : (Iter.new e).innerIndex = 0 := rfl
      rw [this] at hlt
      omega
    change e.get 0 s = _ at hg
    rw [get_bad hw hb (fit_self e) (outerRank_le e) hr (fun x => M.pure (x, e))] at hg
    have hbad := rawItem_bad (K := e.dims.length - e.outerRank) hb 0 (List.replicate e.dims.length 0)
    unfold M.bind at hg
    split at hg
    · exact hbad _ _ _ (by assumption)
    all_goals simp at hg
  | step ho he hs ih => subst ih; rw [hnone he] at hs; simp at hs
  | stepGet ho he hs _ ih => subst ih; rw [hnone he] at hs; simp at hs

theorem loopMoves_path (limit : List Nat) (i : Nat) (e : Expr σ α) (oi : List Nat) {r}
    (h : stepLoop limit i e oi = some r) : Path e (loopMoves limit i e oi) r.2.1 := by
  induction i generalizing e oi with
  | zero =>
    simp only [stepLoop, Option.some.injEq] at h
    subst h
    rfl
  | succ i ih =>
    unfold stepLoop at h
    simp only [Option.bind_eq_some_iff] at h
    obtain ⟨x, hx, l, hl, h⟩ := h
    unfold loopMoves
    rw [hx, hl]
    simp only
    by_cases hlt : x + 1 < l
    · rw [if_pos hlt] at h ⊢
      obtain ⟨e', he, rfl⟩ := Option.map_eq_some_iff.1 h
      exact ⟨rfl, e', he, rfl⟩
    · rw [if_neg hlt] at h ⊢
      obtain ⟨e', he, h⟩ := Option.bind_eq_some_iff.1 h
      rw [he]
      exact ⟨rfl, e', he, ih e' _ h⟩

theorem moves_path {it it' : Iter σ α} {b : Bool} (h : stepOuter it = some (b, it')) :
    Path it.expr (moves it) it'.expr := by
  unfold stepOuter at h
  simp only [Option.bind_eq_some_iff, Option.map_eq_some_iff, Prod.mk.injEq] at h
  obtain ⟨e, he, r, hr, -, rfl⟩ := h
  have hp := loopMoves_path _ _ _ _ hr
  unfold moves
  by_cases hlt : it.expr.outerRank < it.expr.rank
  · rw [if_pos hlt] at he ⊢
    rw [he]
    exact ⟨rfl, e, he, hp⟩
  · rw [if_neg hlt] at he ⊢
    obtain rfl := Option.some.inj he
    exact hp

theorem occurs_next {e : Expr σ α} {it it' : Iter σ α} {x : α} {s t : σ} (h : Occurs e it)
    (hn : it.next s = .ok (some x, it') t) : Occurs e it' := by
  unfold next at hn
  by_cases hlim : it.innerIndex = it.innerLimit
  · rw [if_pos hlim] at hn
    cases hs : stepOuter it with
    | none => rw [hs] at hn; simp [M.lift, M.bind, M.panic] at hn
    | some q =>
      obtain ⟨b, q⟩ := q
      rw [hs] at hn
      simp only [M.lift_some, M.pure_bind] at hn
      cases b with
      | false => simp [M.pure] at hn
      | true =>
        simp only [if_true] at hn
        unfold M.bind at hn
        split at hn
        · rename_i p t' hg
          simp only [M.pure, Res.ok.injEq, Prod.mk.injEq] at hn
          obtain ⟨⟨-, rfl⟩, -⟩ := hn
          exact .stepGet h hlim hs hg
        all_goals simp at hn
  · rw [if_neg hlim] at hn
    simp only [M.bind] at hn
    split at hn
    · rename_i p t' hg
      simp only [M.pure, Res.ok.injEq, Prod.mk.injEq] at hn
      obtain ⟨⟨-, rfl⟩, -⟩ := hn
      exact .get h hlim hg
    all_goals simp at hn

theorem near_adv {e : Expr σ α} (hw : e.Wf) {D pos : List Nat} {O c n : Nat} (hf : Fit e D O)
    (hO : O ≤ D.length) (hv : Valid (lims D O) pos) (hne : 0 < size D ∨ ∀ d ∈ D.take O, d ≤ 1) :
    StaysIn e (adv D.length pos c n e) := by
  unfold StaysIn
  induction e with
  | view r v =>
    refine List.Forall₂.cons ⟨rfl, ?_⟩ List.Forall₂.nil
    rcases hne with hne | hne
    · right
      have hs : v.dims = D.drop (D.length - v.dims.length) := hf.suffix
      have hle : v.dims.length ≤ D.length := hf.le
      have hpl : pos.length = O := by rw [hv.length, length_lims hO]
      have hD : ∀ d ∈ D, 0 < d := size_pos_iff.1 hne
      have hfull : Valid D (pos ++ List.replicate (D.length - O) 0) := by
        rw [lims_eq hne] at hv
        exact valid_take_zeros hD hv
      have hj : Valid v.dims ((pos ++ List.replicate (D.length - O) 0).drop (D.length - v.dims.length)) := by
        conv => arg 1; rw [hs]
        exact List.forall₂_drop _ hfull
      refine ⟨_, (View.index_eq v hw _).trans (if_pos hj |>.trans ?_)⟩
      congr 2
      rw [List.drop_append, List.drop_replicate]
      exact dot_append_zeros _ _ _
    · left
      have h0 : pos = List.replicate pos.length 0 := by
        apply List.eq_replicate_of_mem
        intro x hx
        obtain ⟨i, hi, rfl⟩ := List.getElem_of_mem hx
        have hil : i < (lims D O).length := by rw [← hv.length]; exact hi
        have := List.Forall₂.get hv hi hil
        simp only [List.get_eq_getElem, lims, List.getElem_map] at this
        have := hne _ (List.getElem_mem (l := D.take O) (n := i) (by simpa [lims] using hil))
        omega
      change v.ptr + dot v.map.strides (pos.drop _) = v.ptr
      rw [h0, List.drop_replicate, dot_zeros]
      simp
  | map e f ih => exact ih hw ⟨hf.suffix, hf.inner, hf.rep⟩
  | enumerate e k ih => exact ih hw.1 ⟨hf.suffix, hf.inner, hf.rep⟩
  | zip a b s iha ihb =>
    obtain ⟨hwa, hwb, hz⟩ := hw
    obtain ⟨hfa, hfb⟩ := Fit.zip hz hf
    exact List.rel_append (iha hwa hfa) (ihb hwb hfb)
  | _ => exact List.Forall₂.nil

/-- All moves made by an iterator keep the pointers within the views. -/
theorem moves_stay {e : Expr σ α} (hw : e.Wf)
    (hne : 0 < size e.dims ∨ ∀ d ∈ e.dims.take e.outerRank, d ≤ 1) {it : Iter σ α} (h : Occurs e it)
    (hend : it.innerIndex = it.innerLimit) {m : Move σ α} (hm : m ∈ moves it) {e' : Expr σ α}
    (he : m.after = some e') : StaysIn e e' := by
  by_cases hb : BadFn e
  · exfalso
    obtain rfl := occurs_bad hw hb h
    have hr : row e = 0 := by rw [← innerLimit_new]; exact hend.symm
    have hlt : e.outerRank < e.dims.length := by
      by_contra h
      unfold row at hr
      rw [List.drop_eq_nil_of_le (by omega)] at hr
      simp at hr
    unfold moves at hm
    change m ∈ if e.outerRank < e.dims.length then Move.reset e (e.dims.length - 1) 0 ::
      restMoves (Iter.new e) (e.resetDim (e.dims.length - 1) 0) else _ at hm
    have hn := (reset_bad hw hb 0).2
    rw [if_pos hlt, hn, List.mem_cons] at hm
    rcases hm with rfl | hm
    · rw [show (Move.reset e (e.dims.length - 1) 0).after = e.resetDim (e.dims.length - 1) 0 from rfl, hn] at he
      simp at he
    · simp [restMoves] at hm
  · obtain ⟨q, c, hq, hc, rfl⟩ := occurs_iterAt hw hb hne h
    have hcr : c = row e := hend
    obtain ⟨⟨e'', h1, pos, c', n', hv, rfl⟩, -⟩ := moves_here hw (k := c) (n := q * row e + c) hq (by
      intro h _; left; rw [hcr]; unfold row; rw [h]; simp) m hm
    rw [he] at h1
    obtain rfl := Option.some.inj h1
    exact near_adv hw (fit_self e) (outerRank_le e) hv hne

end Iter
end Model
