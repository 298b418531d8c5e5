import Verif.Lemmas.ResumeNext
import Verif.Lemmas.RawOps
import Verif.Spec.Owned

/-! Operations that use up an expression: agreement with the other model, and the arrays of the expression. -/

namespace Model
open Spec Expr Iter

namespace Out
variable {σ ρ α β : Type} {S S' : Type 1}

theorem result_mapState (g : S → S') (r : Out σ α S) : (r.mapState g).result = r.result := by
  cases r <;> rfl

theorem result_before (x : M σ β) (e : S) (k : β → σ → Out σ α S) {y : β → M σ α}
    (h : ∀ b s, (k b s).result = y b s) (s : σ) : (before x e k s).result = M.bind x y s := by
  unfold before M.bind
  cases x s with
  | ok b t => exact h b t
  | _ => rfl

theorem result_after (r : Out σ α S) (x : M σ β) {y : M σ α} {s : σ} (h : r.result = y s) :
    (r.after x).result = M.bind y (fun _ => x) s := by
  unfold after M.bind
  rw [← h]
  cases r with
  | ok a e t => simp only [andThen, result]; cases x t <;> rfl
  | _ => rfl

theorem result_onPanic (r : Out σ α S) (g : M σ Unit) {y : M σ α} {s : σ} (h : r.result = y s) :
    (r.onPanic g).result = M.onPanic y g s := by
  unfold onPanic M.onPanic
  rw [← h]
  cases r with
  | panic e t => simp only [result]; cases g t <;> rfl
  | _ => rfl

end Out

variable {σ T α β τ : Type}

theorem forEachE_result (e : Expr σ α) (f : α → M σ Unit) (s : σ) : (e.forEachE f s).result = e.forEach f s := by
  unfold Expr.forEachE
  rw [Out.result_mapState]
  exact foldE_result _ _ _ _

theorem cloneIntoVecE_result (e : Expr σ α) (c : α → M σ T) (s : σ × Own T) :
    (cloneIntoVecE e c s).result = cloneIntoVec e c s :=
  (Out.result_before _ _ _ (fun _ s => forEachE_result e.up _ s) s).trans rfl

theorem tensorFromExprE_result (e : Expr σ T) (s : σ × Own T) :
    (tensorFromExprE e s).result = tensorFromExpr e s := by
  refine (Out.result_before _ _ _ (y := fun _ => M.onPanic (cloneIntoVec e M.pure)
    (M.bind own fun o => dropCells 0 o.len))
    (fun _ s => Out.result_onPanic _ _ (cloneIntoVecE_result e M.pure s)) s).trans ?_
  unfold tensorFromExpr
  simp only [M.bind_eq, M.bind_assoc]

theorem arrayFromExprE_result (ty : ShapeTy) (e : Expr σ T) (s : σ × Own T) :
    (arrayFromExprE ty e s).result = arrayFromExpr ty e s := by
  refine (Out.result_before _ _ _ (y := fun _ => M.bind (M.onPanic (e.up.forEach vecAppend)
    (M.bind own fun o => dropCells 0 o.len)) fun _ => M.bind own fun o =>
      if o.cells.all Option.isSome then M.pure () else M.ub) (fun _ s => Out.result_after _ _
    (Out.result_onPanic _ _ (forEachE_result e.up vecAppend s))) s).trans ?_
  unfold arrayFromExpr
  simp only [M.bind_eq, M.bind_assoc]
  rfl

theorem expandE_result (e : Expr σ α) (c : α → M σ T) (s : σ × Own T) : (expandE e c s).result = expand e c s := by
  unfold expandE expand withMutParts
  refine (Out.result_before _ _ _ (y := fun _ => if 0 < e.shape.len then _ else _) (fun _ s => ?_) s).trans rfl
  by_cases h : 0 < e.shape.len
  · rw [if_pos h, if_pos h]
    refine (Out.result_before _ _ _ (y := fun _ => M.onPanic (M.bind _ fun _ => cloneIntoVec e c) partsGuard)
      (fun _ s => Out.result_onPanic _ _ (Out.result_before _ _ _ (fun _ s => cloneIntoVecE_result e c s) s)) s).trans ?_
    simp only [M.bind_eq, M.bind_assoc]
  · rw [if_neg h, if_neg h]
    rfl

theorem scope_result {σ ρ α : Type} {S : Type 1} (r : Out (σ × ρ) α S) {y : M (σ × ρ) α} {i : ρ} {s : σ}
    (h : r.result = y (s, i)) : r.scope.result = M.bind (M.scope i y) (fun p => M.pure p.1) s := by
  unfold M.bind M.scope
  simp only [← h]
  cases r <;> rfl

theorem zipWithE_result (e : Expr σ β) (f : T → β → M σ T) (s : σ × Own T) :
    (zipWithE e f s).result = zipWith e f s := by
  unfold zipWithE zipWith
  refine Out.result_before _ _ _ (fun o s => ?_) s
  refine (scope_result (i := 0) (s := s) _ (Out.result_onPanic _ _
    (y := M.bind (M.lift (Expr.zipNew (Expr.view false ⟨0, .dense o.shape⟩)
      (e.up.up : Expr ((σ × Own T) × Nat) β))) fun z => z.forEach (zipStep f)) ?_)).trans ?_
  rotate_left
  · rfl
  cases Expr.zipNew (Expr.view false ⟨0, .dense o.shape⟩) (e.up.up : Expr ((σ × Own T) × Nat) β) with
  | none => rfl
  | some z => exact forEachE_result z _ _

theorem assignE_result (v : View) (e : Expr σ α) (c : α → M σ T) (s : σ × List T) :
    (assignE v e c s).result = assign v e c s := by
  unfold assignE assign
  cases Expr.zipNew (Expr.view false v) (e.up : Expr (σ × List T) α) with
  | none => rfl
  | some z => exact forEachE_result z _ _

theorem opAssignE_result (v : View) (e : Expr σ β) (g : T → β → M σ T) (s : σ × List T) :
    (opAssignE v e g s).result = opAssign v e g s := by
  unfold opAssignE opAssign
  cases Expr.zipNew (Expr.view false v) (e.up : Expr (σ × List T) β) with
  | none => rfl
  | some z => exact forEachE_result z _ _

/-! The arrays whose elements are moved out. -/

/-- The arrays of `e` after `n` items. -/
def heldAt (e : Expr σ α) (n : Nat) : List (Nat × Nat) := e.owned.map fun p => (n, p.2)

theorem owned_adv (R : Nat) (pos : List Nat) (c n : Nat) (e : Expr σ α) :
    (adv R pos c n e).owned = heldAt e n := by
  unfold heldAt
  induction e <;> simp_all [adv, owned]

theorem owned_up {ρ : Type} (e : Expr σ α) : (e.up : Expr (σ × ρ) α).owned = e.owned := by
  induction e <;> simp_all [up, owned]

theorem erase_ok {S : Type 1} {r : Out σ α S} {x : α} {e : S} {t : σ} (h : r.erase = .ok (x, e) t) :
    r = .ok x e t := by
  cases r <;> simp_all [Out.erase]

theorem erase_panic {S : Type 1} {r : Out σ α S} {t : σ} (h : r.erase = .panic t) : ∃ e, r = .panic e t := by
  cases r <;> simp_all [Out.erase]

/-- A panic in item `j` (`R`) or in the function that is called for it (`R'`). -/
def Broken (e : Expr σ α) (N : Nat) (R R' : Nat → σ → Prop) (e' : Expr σ α) (t : σ) : Prop :=
  ∃ j, j < N ∧ ((R j t ∧ SomeTaken (heldAt e j) e'.owned) ∨ (R' j t ∧ e'.owned = heldAt e (j + 1)))

theorem innerLoopE_ends {e : Expr σ α} {G : Nat → M σ α}
    (hG : ∀ q c, q < rows e → c < row e →
      (adv e.dims.length (unrank (lims e.dims e.outerRank) q) c (q * row e + c) e).get c =
        M.bind (G (q * row e + c)) fun x =>
          M.pure (x, adv e.dims.length (unrank (lims e.dims e.outerRank) q) (c + 1) (q * row e + c + 1) e))
    {f : τ → α → M σ τ} {N : Nat} {I : Nat → τ → σ → Prop} {R R' : Nat → σ → Prop}
    (hf : ∀ n, n < N → ∀ acc s, I n acc s →
      M.Post (G n) s (fun x t => M.Post (f acc x) t (I (n + 1)) (R' n)) (R n))
    {q : Nat} (hq : q < rows e) (k c : Nat) (acc : τ) (s : σ) (hc : c + k ≤ row e)
    (hN : q * row e + c + k ≤ N) (h : I (q * row e + c) acc s) :
    match innerLoopE f (List.range' c k)
      (adv e.dims.length (unrank (lims e.dims e.outerRank) q) c (q * row e + c) e) acc s with
    | .ok acc' e' t => e' = adv e.dims.length (unrank (lims e.dims e.outerRank) q) (c + k)
        (q * row e + c + k) e ∧ I (q * row e + c + k) acc' t
    | .panic e' t => Broken e N R R' e' t
    | .ub => False
    | .abort => False := by
  induction k generalizing c acc s with
  | zero => exact ⟨rfl, h⟩
  | succ k ih =>
    simp only [List.range'_succ, innerLoopE]
    have hn : q * row e + c < N := by omega
    have hp := hf _ hn acc s h
    have hg := got_getE (adv e.dims.length (unrank (lims e.dims e.outerRank) q) c (q * row e + c) e) c s
    have he := getE_erase (adv e.dims.length (unrank (lims e.dims e.outerRank) q) c (q * row e + c) e) c s
    rw [hG q c hq (by omega)] at he
    unfold M.bind M.pure at he
    unfold M.Post at hp
    cases hx : G (q * row e + c) s with
    | ok x t =>
      rw [hx] at he hp
      rw [erase_ok he]
      simp only [Out.andThen]
      cases hy : f acc x t with
      | ok acc' u =>
        simp only [hy] at hp
        have := ih (c + 1) acc' u (by omega) (by omega) hp
        rw [show q * row e + (c + 1) = q * row e + c + 1 by omega, show c + 1 + k = c + (k + 1) by omega,
          show q * row e + c + 1 + k = q * row e + c + (k + 1) by omega] at this
        exact this
      | panic u =>
        simp only [hy] at hp
        exact ⟨_, hn, .inr ⟨hp, owned_adv _ _ _ _ _⟩⟩
      | ub => simp only [hy] at hp
      | abort => simp only [hy] at hp
    | panic t =>
      rw [hx] at he hp
      obtain ⟨e', he'⟩ := erase_panic he
      rw [he'] at hg ⊢
      refine ⟨_, hn, .inl ⟨hp, ?_⟩⟩
      have := hg.2
      rwa [owned_adv] at this
    | ub => rw [hx] at hp; exact hp.elim
    | abort => rw [hx] at hp; exact hp.elim

theorem foldLoopE_ends {e : Expr σ α} (hw : e.Wf) {G : Nat → M σ α}
    (hG : ∀ q c, q < rows e → c < row e →
      (adv e.dims.length (unrank (lims e.dims e.outerRank) q) c (q * row e + c) e).get c =
        M.bind (G (q * row e + c)) fun x =>
          M.pure (x, adv e.dims.length (unrank (lims e.dims e.outerRank) q) (c + 1) (q * row e + c + 1) e))
    {f : τ → α → M σ τ} {I : Nat → τ → σ → Prop} {R R' : Nat → σ → Prop}
    (hf : ∀ n, n < rows e * row e → ∀ acc s, I n acc s →
      M.Post (G n) s (fun x t => M.Post (f acc x) t (I (n + 1)) (R' n)) (R n))
    (fuel q : Nat) (acc : τ) (s : σ) (hq : q < rows e) (hfu : rows e - q ≤ fuel) (h : I (q * row e) acc s) :
    match foldLoopE f fuel (iterAt e q 0 (q * row e)) acc s with
    | .ok acc' e' t => e'.owned = heldAt e (rows e * row e) ∧ I (rows e * row e) acc' t
    | .panic e' t => Broken e (rows e * row e) R R' e' t
    | .ub => False
    | .abort => False := by
  induction fuel generalizing q acc s with
  | zero => omega
  | succ fuel ih =>
    have hle : (q + 1) * row e ≤ rows e * row e := Nat.mul_le_mul_right _ hq
    have hqr : (q + 1) * row e = q * row e + row e := by ring
    have hin := innerLoopE_ends hG hf hq (row e) 0 acc s (by omega) (by omega) h
    rw [Nat.add_zero, Nat.zero_add] at hin
    unfold foldLoopE
    rw [show (iterAt e q 0 (q * row e)).expr =
      adv e.dims.length (unrank (lims e.dims e.outerRank) q) 0 (q * row e) e from rfl,
      show (iterAt e q 0 (q * row e)).innerIndex = 0 from rfl,
      show (iterAt e q 0 (q * row e)).innerLimit = row e from rfl, Nat.sub_zero]
    generalize innerLoopE f (List.range' 0 (row e)) _ acc s = r at hin ⊢
    cases r with
    | ok acc' e' t =>
      obtain ⟨rfl, h'⟩ := hin
      simp only [Out.andThen]
      have hstep := stepOuter_spec hw (q := q) (c := row e) (n := q * row e + row e) (k := 0) hq (by
        intro h _
        left; unfold row; rw [h]; simp)
      rw [show ({ expr := adv e.dims.length (unrank (lims e.dims e.outerRank) q) (row e) (q * row e + row e) e
                  innerIndex := 0
                  innerLimit := row e
                  outerIndex := (iterAt e q 0 (q * row e)).outerIndex
                  outerLimit := (iterAt e q 0 (q * row e)).outerLimit } : Iter σ α) =
        { iterAt e q (row e) (q * row e + row e) with innerIndex := 0 } from rfl]
      rw [stepOuterE_eq] at hstep
      rcases hso : stepOuterE { iterAt e q (row e) (q * row e + row e) with innerIndex := 0 } with ⟨b, it'⟩
      rw [hso] at hstep
      by_cases hl : q + 1 < size (lims e.dims e.outerRank)
      · rw [if_pos hl] at hstep
        obtain ⟨b', rfl, hb'⟩ := Option.map_eq_some_iff.1 hstep
        simp only [Prod.mk.injEq] at hb'
        obtain ⟨rfl, rfl⟩ := hb'
        have := ih (q + 1) acc' t hl (by omega) (by rw [hqr]; exact h')
        rw [hqr] at this
        exact this
      · rw [if_neg hl] at hstep
        obtain ⟨b', rfl, hb'⟩ := Option.map_eq_some_iff.1 hstep
        simp only [Prod.mk.injEq] at hb'
        obtain ⟨rfl, rfl⟩ := hb'
        have hq' : rows e * row e = q * row e + row e := by
          rw [show rows e = q + 1 by unfold rows at hq ⊢; omega, hqr]
        rw [hq']
        exact ⟨owned_adv _ _ _ _ _, h'⟩
    | panic e' t => exact hin
    | ub => exact hin
    | abort => exact hin

/-- Rule for `fold`, with the arrays of the expression. -/
theorem foldE_ends {e : Expr σ α} (hb : Built e) (he : BadFn e → 0 < row e)
    (hp : size e.dims = 0 → size (e.dims.drop e.outerRank) = 0) {f : τ → α → M σ τ}
    (I : Nat → τ → σ → Prop) (R R' : Nat → σ → Prop)
    (hf : ∀ n, n < size e.dims → ∀ acc s, I n acc s →
      M.Post (rawNth e n) s (fun x t => M.Post (f acc x) t (I (n + 1)) (R' n)) (R n))
    {acc : τ} {s : σ} (h : I 0 acc s) :
    match (Iter.new e).foldE acc f s with
    | .ok acc' e' t => e'.owned = heldAt e (size e.dims) ∧ I (size e.dims) acc' t
    | .panic e' t => Broken e (size e.dims) R R' e' t
    | .ub => False
    | .abort => False := by
  have hw := wf_of_built hb
  have hk : rows e * row e = size e.dims := by
    rcases Nat.eq_zero_or_pos (size e.dims) with h0 | h0
    · rw [h0, show row e = 0 from hp h0, Nat.mul_zero]
    · exact (size_split h0).symm
  by_cases hbad : BadFn e
  · have hr := he hbad
    have hpos : 0 < size e.dims := by rw [← hk]; exact Nat.mul_pos (rows_pos e) hr
    have hz : rawNth e 0 = rawItem (e.dims.length - e.outerRank) e 0 (List.replicate e.dims.length 0) := by
      unfold rawNth
      rw [visited_eq, unrank_zero, List.length_append, length_lims (outerRank_le e), List.length_drop,
        Nat.add_sub_cancel' (outerRank_le e)]
    have hg := get_bad hw hbad (fit_self e) (outerRank_le e) hr (fun x => M.pure (x, e))
    rw [← hz] at hg
    have hn : NeverOk (rawNth e 0) := rawItem_bad hbad _ _
    have h1 := hf 0 hpos acc s h
    unfold foldE
    rw [show (Iter.new e).outerCount = rows e - 1 + 1 by have := rows_pos e; rw [outerCount_new]; omega]
    unfold foldLoopE
    rw [show (Iter.new e).innerIndex = 0 from rfl, innerLimit_new, Nat.sub_zero]
    obtain ⟨r, hr'⟩ : ∃ r, row e = r + 1 := ⟨_, (Nat.succ_pred_eq_of_pos hr).symm⟩
    rw [hr', List.range'_succ]
    simp only [innerLoopE]
    rw [show (Iter.new e).expr = e from rfl]
    have hgot := got_getE e 0 s
    have hE := getE_erase e 0 s
    rw [hg] at hE
    unfold M.bind at hE
    unfold M.Post at h1
    cases hx : rawNth e 0 s with
    | ok x t => exact (hn _ _ _ hx).elim
    | panic t =>
      rw [hx] at hE h1
      obtain ⟨e', he'⟩ := erase_panic hE
      rw [he'] at hgot ⊢
      refine ⟨0, hpos, .inl ⟨h1, ?_⟩⟩
      have : heldAt e 0 = e.owned := by
        unfold heldAt
        conv_rhs => rw [← List.map_id e.owned]
        exact List.map_congr_left fun p hp => by rw [id, ← owned_new hw p hp]
      rw [this]
      exact hgot.2
    | ub => rw [hx] at h1; exact h1.elim
    | abort => rw [hx] at h1; exact h1.elim
  · unfold foldE
    rw [new_eq_of (adv_init_raw hw hbad (outerRank_le e) (le_refl _)), outerCount_iterAt]
    have := foldLoopE_ends hw (G := fun n => rawNth e n) (fun q c hq hc => get_rawAt hw hbad hq hc)
      (f := f) (I := I) (R := R) (R' := R') (fun n hn => hf n (by rwa [hk] at hn)) (rows e) 0 acc s
      (rows_pos e) (Nat.sub_le _ _) (by rwa [Nat.zero_mul])
    rw [Nat.zero_mul, hk] at this
    exact this

/-! Rules for outcomes. -/

/-- The outcome is no undefined behaviour, and satisfies `Q` or, after a panic, `R`. -/
def Out.Post {S : Type 1} (r : Out σ α S) (Q : α → S → σ → Prop) (R : S → σ → Prop) : Prop :=
  match r with
  | .ok x e s => Q x e s
  | .panic e s => R e s
  | .ub => False
  | .abort => False

theorem Out.Post.mono {S : Type 1} {r : Out σ α S} {Q Q' : α → S → σ → Prop} {R R' : S → σ → Prop}
    (h : r.Post Q R) (hq : ∀ x e s, Q x e s → Q' x e s) (hr : ∀ e s, R e s → R' e s) : r.Post Q' R' := by
  cases r with
  | ok x e s => exact hq _ _ _ h
  | panic e s => exact hr _ _ h
  | ub => exact h
  | abort => exact h

theorem Out.post_before {S : Type 1} {x : M σ β} {e : S} {k : β → σ → Out σ α S} {s : σ}
    {Q : α → S → σ → Prop} {R : S → σ → Prop}
    (h : M.Post x s (fun b t => (k b t).Post Q R) (fun t => R e t)) : (Out.before x e k s).Post Q R := by
  unfold Out.before
  unfold M.Post at h
  cases hx : x s <;> rw [hx] at h <;> exact h

theorem Out.post_onPanic {S : Type 1} {r : Out σ α S} {g : M σ Unit} {Q : α → S → σ → Prop} {R : S → σ → Prop}
    (h : r.Post Q fun e t => M.Post g t (fun _ u => R e u) fun _ => False) : (r.onPanic g).Post Q R := by
  cases r with
  | panic e t =>
    have h : M.Post g t (fun _ u => R e u) fun _ => False := h
    unfold Out.onPanic
    unfold M.Post at h
    cases hg : g t <;> simp only [hg] at h ⊢ <;> exact h
  | ok x e s => exact h
  | ub => exact h
  | abort => exact h

theorem Out.post_after {S : Type 1} {r : Out σ α S} {x : M σ β} {Q : β → S → σ → Prop} {R : S → σ → Prop}
    (h : r.Post (fun _ e t => M.Post x t (fun b u => Q b e u) fun u => R e u) R) : (r.after x).Post Q R := by
  cases r with
  | ok a e t =>
    have h : M.Post x t (fun b u => Q b e u) fun u => R e u := h
    unfold Out.after
    unfold M.Post at h
    simp only [Out.andThen]
    cases hx : x t <;> rw [hx] at h <;> exact h
  | panic e s => exact h
  | ub => exact h
  | abort => exact h

theorem someMoved_of {e : Expr σ α} {ps : List (Nat × Nat)} {j : Nat} {l : Left} (h : ps = heldAt e j)
    (hs : SomeTaken ps l.expr.owned) : SomeMoved e j l := by
  subst h
  unfold SomeTaken heldAt at hs
  unfold SomeMoved
  exact (List.forall₂_map_left_iff.1 hs)

theorem allMoved_of {e : Expr σ α} (hw : e.Wf) {l : Left} (h : l.expr.owned = heldAt e (size e.dims)) :
    AllMoved e l := by
  unfold AllMoved
  rw [h]
  unfold heldAt
  exact List.map_congr_left fun p hp => by rw [(owned_size hw.wfs).1 p hp]

theorem disposed_some {e : Expr σ α} (hw : e.Wf) {j : Nat} (hj : j < size e.dims) {l : Left}
    (h : SomeMoved e j l) : Disposed l.expr := by
  refine disposed_of fun p hp => ?_
  unfold SomeMoved at h
  obtain ⟨i, hi, rfl⟩ := List.getElem_of_mem hp
  obtain ⟨h1, h2⟩ := List.forall₂_iff_get.1 h
  have := h2 i (by rw [h1]; exact hi) hi
  simp only [List.get_eq_getElem] at this
  rw [this.1, (owned_size hw.wfs).1 _ (List.getElem_mem _)]
  omega

theorem disposed_none {e : Expr σ α} (hw : e.Wf) {l : Left} (h : NoneMoved e l) : Disposed l.expr := by
  refine disposed_of fun p hp => ?_
  rw [h] at hp
  rw [owned_new hw p hp]
  exact Nat.zero_le _

theorem disposed_all {e : Expr σ α} {l : Left} (h : AllMoved e l) : Disposed l.expr := by
  refine disposed_of fun p hp => ?_
  rw [h] at hp
  obtain ⟨q, -, rfl⟩ := List.mem_map.1 hp
  exact le_refl _

/-- Rule for `for_each` inside a larger world. -/
theorem post_forEachE {ρ : Type} {e : Expr σ α} (hb : Built e) (he : BadFn e → 0 < row e)
    (hp : size e.dims = 0 → size (e.dims.drop e.outerRank) = 0) {f : α → M (σ × ρ) Unit}
    (I R R' : Nat → σ × ρ → Prop)
    (hf : ∀ n, n < size e.dims → ∀ s, I n s →
      M.Post (M.up (rawNth e n)) s (fun x t => M.Post (f x) t (fun _ => I (n + 1)) (R' n)) (R n))
    {s : σ × ρ} (h : I 0 s) :
    ((e.up : Expr (σ × ρ) α).forEachE f s).Post (fun _ l t => AllMoved e l ∧ I (size e.dims) t)
      fun l t => ∃ j, j < size e.dims ∧ SomeMoved e j l ∧ (R j t ∨ R' j t) := by
  have hd : (e.up : Expr (σ × ρ) α).dims = e.dims := by rw [dims, up_shape]
  have hrow : row (e.up : Expr (σ × ρ) α) = row e := by simp [row, Expr.dims]
  have hheld : ∀ n, heldAt (e.up : Expr (σ × ρ) α) n = heldAt e n := fun n => by
    unfold heldAt; rw [owned_up]
  have := foldE_ends (τ := Unit) (up_built (ρ := ρ) hb) (by rw [up_badFn, hrow]; exact he)
    (by rw [hd, up_outerRank]; exact hp) (f := fun _ x => f x) (fun n _ s => I n s) R R'
    (by
      intro n hn _ s hi
      rw [hd] at hn
      rw [up_rawNth]
      exact hf n hn s hi) (acc := ()) (s := s) h
  rw [hd] at this
  unfold Expr.forEachE
  cases hx : (Iter.new (e.up : Expr (σ × ρ) α)).foldE () (fun _ x => f x) s with
  | ok u e' t =>
    rw [hx] at this
    exact ⟨allMoved_of (wf_of_built hb) (by rw [← hheld]; exact this.1), this.2⟩
  | panic e' t =>
    rw [hx] at this
    obtain ⟨j, hj, ⟨h1, h2⟩ | ⟨h1, h2⟩⟩ := this
    · exact ⟨j, hj, someMoved_of (hheld j) h2, .inl h1⟩
    · refine ⟨j, hj, ?_, .inr h1⟩
      unfold SomeMoved
      show List.Forall₂ _ _ e'.owned
      rw [h2, hheld]
      unfold heldAt
      rw [List.forall₂_map_right_iff]
      exact List.forall₂_same.2 fun p _ => ⟨rfl, .inr rfl⟩
  | ub => rw [hx] at this; exact this
  | abort => rw [hx] at this; exact this

/-- An empty expression that panics at the end of its only row. -/
theorem forEachE_bad {ρ : Type} {e : Expr σ α} (hb : Built e) (he : BadFn e) (hr : row e = 0)
    (f : α → M (σ × ρ) Unit) (s : σ × ρ) :
    ((e.up : Expr (σ × ρ) α).forEachE f s).Post (fun _ _ _ => False) fun l t => NoneMoved e l ∧ t = s := by
  have hw := wf_of_built (up_built (ρ := ρ) hb)
  have hres := forEachE_result (e.up : Expr (σ × ρ) α) f s
  rw [forEach_bad hb he hr] at hres
  have hrow : row (e.up : Expr (σ × ρ) α) = 0 := by rw [← hr]; simp [row, Expr.dims]
  unfold Expr.forEachE at hres ⊢
  rw [Out.result_mapState] at hres
  have hnp : NoPhantom (e.up : Expr (σ × ρ) α) := fun _ => hrow
  have := foldE_folded (T := False) (τ := Unit) hw False.elim hnp (fun _ x => f x) False.elim (at_new _)
    (fun p hpm => by rw [owned_new hw p hpm]; exact Nat.zero_le _) () s
  rw [hrow, Nat.mul_zero, Nat.zero_sub] at this
  cases hx : (Iter.new (e.up : Expr (σ × ρ) α)).foldE () (fun _ x => f x) s with
  | panic e' t =>
    rw [hx] at this hres
    simp only [Out.result, M.panic, Res.panic.injEq] at hres
    refine ⟨?_, hres⟩
    rcases this.2 with ⟨j, hj, -⟩ | ⟨-, j, hj, h⟩
    · omega
    · have hj : j = 0 := by omega
      subst hj
      rw [plus_zero] at h
      exact h.trans (owned_up e)
  | _ => rw [hx] at hres; simp [Out.result, M.panic] at hres

/-! Operations that append the items to a vector. -/

theorem post_appendE {e : Expr σ α} (hb : Built e) (ht : TameRaw e) (he : BadFn e → 0 < row e)
    (hp : size e.dims = 0 → size (e.dims.drop e.outerRank) = 0) {c : α → M σ T}
    (hc : ∀ y, (c y).Tame) {s : σ} {o : Own T} {xs : List T} (h : Vec o xs)
    (hcap : xs.length + size e.dims ≤ o.cells.length) :
    ((e.up : Expr (σ × Own T) α).forEachE (fun x => M.bind (M.up (c x)) vecAppend) (s, o)).Post
      (fun _ l t => AllMoved e l ∧ ∃ ys, Ran (fun n => M.bind (rawNth e n) c) (size e.dims) s ys t.1 ∧
        Vec t.2 (xs ++ ys) ∧ Eff o t.2 [] ∧ t.2.cells.length = o.cells.length)
      (fun l t => ∃ k ys, k < size e.dims ∧ SomeMoved e k l ∧
        Stopped (fun n => M.bind (rawNth e n) c) (size e.dims) s k ys t.1 ∧ Vec t.2 (xs ++ ys) ∧
        Eff o t.2 [] ∧ t.2.cells.length = o.cells.length) := by
  let K : Nat → σ × Own T → Prop := fun k t => ∃ ys,
    Stopped (fun n => M.bind (rawNth e n) c) (size e.dims) s k ys t.1 ∧ Vec t.2 (xs ++ ys) ∧
        Eff o t.2 [] ∧ t.2.cells.length = o.cells.length
  refine (post_forEachE hb he hp (fun m t => ∃ ys, Ran (fun n => M.bind (rawNth e n) c) m s ys t.1 ∧
        Vec t.2 (xs ++ ys) ∧ Eff o t.2 [] ∧ t.2.cells.length = o.cells.length) K K ?_
    (s := (s, o)) ⟨[], ran_zero, by simpa using h, Eff.refl o, rfl⟩).mono (fun _ _ _ h => h) ?_
  · rintro m hm ⟨t, o1⟩ ⟨ys, hr, hv, he, hl⟩
    have hl : o1.cells.length = o.cells.length := hl
    have hlen := hr.length
    apply M.post_bind_iff.1
    have e1 : (M.bind (M.up (rawNth e m)) fun x => M.bind (M.up (c x)) vecAppend : M (σ × Own T) Unit) =
        M.bind (M.up (M.bind (rawNth e m) c)) vecAppend := by
      rw [M.up_bind, M.bind_assoc]
    rw [e1]
    refine M.Post.bind (P := fun x u => M.bind (rawNth e m) c t = .ok x u.1 ∧ u.2 = o1) (M.post_up
      ((((ht m hm).bind hc).post t).mono (fun x t' h => ⟨h, rfl⟩)
        fun t' h => ⟨ys, ⟨hm, t, hr, h⟩, hv, he, hl⟩)) ?_
    rintro x ⟨t2, o2⟩ ⟨hx, rfl⟩
    refine M.Post.mono (post_vecAppend x hv (by
      have hl : o2.cells.length = o.cells.length := hl
      show (xs ++ ys).length < o2.cells.length
      rw [List.length_append]; omega)) ?_ (fun t h => h)
    rintro - ⟨t3, o3⟩ ⟨rfl, h1, h2, h3⟩
    refine ⟨ys ++ [x], hr.succ hx, ?_, ?_, h3.trans hl⟩
    · rw [← List.append_assoc]; exact h1
    · simpa using he.trans h2
  · rintro l t ⟨k, hk, hm, h | h⟩ <;>
    · obtain ⟨ys, h⟩ := h
      exact ⟨k, ys, hk, hm, h⟩

/-- Outcome of the loop of a conversion, with the special case of an expression that panics at the end. -/
theorem post_fillE {e : Expr σ T} (hb : Built e) (ht : TameRaw e)
    (hp : size e.dims = 0 → size (e.dims.drop e.outerRank) = 0) {s : σ} {o : Own T} (h : Vec o [])
    (hcap : size e.dims ≤ o.cells.length) :
    ((e.up : Expr (σ × Own T) T).forEachE vecAppend (s, o)).Post
      (fun _ l t => AllMoved e l ∧ ∃ ys, Ran (rawNth e) (size e.dims) s ys t.1 ∧
        Vec t.2 ys ∧ Eff o t.2 [] ∧ t.2.cells.length = o.cells.length)
      (fun l t => (BadFn e ∧ size e.dims = 0 ∧ NoneMoved e l ∧ t = (s, o)) ∨ ∃ k ys, SomeMoved e k l ∧
        k < size e.dims ∧ Stopped (rawNth e) (size e.dims) s k ys t.1 ∧ Vec t.2 ys ∧ Eff o t.2 []) := by
  by_cases he : BadFn e ∧ row e = 0
  · obtain ⟨he, hr⟩ := he
    have hz : size e.dims = 0 := by
      rcases Nat.eq_zero_or_pos (size e.dims) with h | h
      · exact h
      · rw [size_split h, hr, Nat.mul_zero]
    exact (forEachE_bad hb he hr vecAppend (s, o)).mono (fun _ _ _ h => h.elim)
      fun l t h => .inl ⟨he, hz, h⟩
  · have he' : BadFn e → 0 < row e := fun h => Nat.pos_of_ne_zero fun h0 => he ⟨h, h0⟩
    have := post_appendE (o := o) (xs := []) (s := s) hb ht he' hp (c := M.pure)
      (fun y => M.tame_pure y) h (by simpa using hcap)
    have hbody : (fun x => M.bind (M.up (M.pure x)) vecAppend : T → M (σ × Own T) Unit) = vecAppend := by
      funext x; rfl
    have hstep : (fun n => M.bind (rawNth e n) (M.pure : T → M σ T)) = rawNth e := by
      funext n; exact M.bind_pure _
    rw [hbody, hstep] at this
    exact this.mono (fun _ _ _ h => h) fun l t ⟨k, ys, h1, h2, h3, h4, h5, _⟩ => .inr ⟨k, ys, h2, h1, h3, h4, h5⟩

theorem post_tensorFromExprE {e : Expr σ T} (hb : Built e) (ht : TameRaw e)
    (hp : size e.dims = 0 → size (e.dims.drop e.outerRank) = 0) (s : σ) (o : Own T) :
    (tensorFromExprE e (s, o)).Post
      (fun _ l t => AllMoved e l ∧ ∃ ys, Ran (rawNth e) (size e.dims) s ys t.1 ∧ Holds t.2 ys ∧
        t.2.shape = e.shape ∧ t.2.log = o.log)
      (fun l t => Disposed l.expr ∧ (((o.limit < size e.dims ∨ (BadFn e ∧ size e.dims = 0)) ∧ NoneMoved e l ∧
          t.1 = s ∧ t.2.log = o.log) ∨ ∃ k ys, SomeMoved e k l ∧
          Stopped (rawNth e) (size e.dims) s k ys t.1 ∧ t.2.log = o.log ++ ys)) := by
  have hw := wf_of_built hb
  have hlen : e.shape.len = size e.dims := Shape.len_eq _
  have hdn : Disposed (Left.mk e).expr := disposed_none hw (l := ⟨e⟩) rfl
  refine Out.post_before ?_
  show M.Post (M.bind (M.lift (check (e.shape.len ≤ o.limit))) _)
    (s, { o with cells := [], len := 0, shape := e.shape }) _ _
  by_cases hl : e.shape.len ≤ o.limit
  swap
  · rw [show check (e.shape.len ≤ o.limit) = none from if_neg hl]
    exact ⟨hdn, Or.inl ⟨.inl (by rw [← hlen]; omega), rfl, rfl, rfl⟩⟩
  rw [show check (e.shape.len ≤ o.limit) = some () from if_pos hl]
  let o1 : Own T := { o with
    cells := List.replicate e.shape.len none
    len := 0
    shape := e.shape }
  show ((cloneIntoVecE e M.pure (s, o1)).onPanic _).Post _ _
  refine Out.post_onPanic (Out.post_before ?_)
  show M.Post (M.lift (check (e.shape.len ≤ o1.cells.length - o1.len))) (s, o1) _ _
  rw [show check (e.shape.len ≤ o1.cells.length - o1.len) = some () from if_pos (by simp [o1])]
  have hbody : (fun x => M.bind (M.up (M.pure x)) vecAppend : T → M (σ × Own T) Unit) = vecAppend := by
    funext x; rfl
  show ((e.up : Expr (σ × Own T) T).forEachE (fun x => M.bind (M.up (M.pure x)) vecAppend) (s, o1)).Post _ _
  rw [hbody]
  refine (post_fillE (o := o1) hb ht hp ⟨rfl, by simp⟩ (by simp [o1, hlen])).mono ?_ ?_
  · rintro - l t ⟨h1, ys, a1, a2, a3, -⟩
    have hsh : t.2.shape = e.shape := a3.shape
    refine ⟨h1, ys, a1, a2.holds (by rw [hsh]; exact shape_wf hw) ?_, hsh, ?_⟩
    · rw [hsh, a1.length]
    · rw [a3.log, List.append_nil]
  · rintro l t (⟨h1, h2, h3, rfl⟩ | ⟨k, ys, h1, hk, a1, a2, a3⟩)
    · refine post_dropAll (ys := []) ⟨rfl, by simp⟩ fun o' ho' => ⟨disposed_none hw h3,
        .inl ⟨.inr ⟨h1, h2⟩, h3, rfl, by rw [ho', List.append_nil]⟩⟩
    · refine post_dropAll a2 fun o' ho' => ⟨disposed_some hw hk h1, Or.inr ⟨k, ys, h1, a1, ?_⟩⟩
      rw [ho', a3.log, List.append_nil]

theorem post_arrayFromExprE {ty : ShapeTy} {e : Expr σ T} (hb : Built e) (ht : TameRaw e)
    (hp : size e.dims = 0 → size (e.dims.drop e.outerRank) = 0) (s : σ) (o : Own T) :
    (arrayFromExprE ty e (s, o)).Post
      (fun _ l t => AllMoved e l ∧ ∃ ys, Ran (rawNth e) (size e.dims) s ys t.1 ∧ Holds t.2 ys ∧
        t.2.shape = ⟨ty, e.dims⟩ ∧ t.2.log = o.log)
      (fun l t => Disposed l.expr ∧ (((¬ ty.Conforms e.dims ∨ (BadFn e ∧ size e.dims = 0)) ∧ NoneMoved e l ∧
          t.1 = s ∧ t.2.log = o.log) ∨ ∃ k ys, SomeMoved e k l ∧
          Stopped (rawNth e) (size e.dims) s k ys t.1 ∧ t.2.log = o.log ++ ys)) := by
  have hw := wf_of_built hb
  refine Out.post_before ?_
  show M.Post (M.bind (M.lift (Shape.fromDims ty e.dims)) _) (s, o) _ _
  rw [Shape.fromDims_eq]
  by_cases hc : ty.Conforms e.dims
  swap
  · rw [if_neg hc]; exact ⟨disposed_none hw (l := ⟨e⟩) rfl, Or.inl ⟨.inl hc, rfl, rfl, rfl⟩⟩
  rw [if_pos hc]
  have hlen : Shape.len ⟨ty, e.dims⟩ = size e.dims := Shape.len_eq _
  let o1 : Own T := { o with
    cells := List.replicate (Shape.len ⟨ty, e.dims⟩) none
    len := 0
    shape := ⟨ty, e.dims⟩ }
  show ((((e.up : Expr (σ × Own T) T).forEachE vecAppend (s, o1)).onPanic _).after _).Post _ _
  refine Out.post_after (Out.post_onPanic ((post_fillE (o := o1) hb ht hp ⟨rfl, by simp⟩
    (by simp [o1, hlen])).mono ?_ ?_))
  · rintro - l ⟨t, o2⟩ ⟨h1, ys, a1, a2, a3, a4⟩
    have hsh : o2.shape = ⟨ty, e.dims⟩ := a3.shape
    have hyl := a1.length
    have hcells : o2.cells = ys.map some := by
      obtain ⟨-, rest, hrest⟩ := a2
      have hl : o2.cells.length = _ := a4
      have hl1 : o1.cells.length = size e.dims := by simp [o1, hlen]
      rw [hl1] at hl
      have hrest' : ys.map some ++ rest = o2.cells := hrest
      have : rest = [] := by
        apply List.length_eq_zero_iff.1
        have := congrArg List.length hrest'
        rw [List.length_append, List.length_map] at this
        omega
      rw [← hrest', this, List.append_nil]
    show M.Post (if o2.cells.all Option.isSome then _ else _ : M (σ × Own T) Unit) (t, o2) _ _
    rw [if_pos (by rw [hcells]; simp)]
    refine ⟨h1, ys, a1, a2.holds (by rw [hsh]; exact hc) ?_, hsh, ?_⟩
    · rw [hsh, hyl]
    · rw [a3.log, List.append_nil]
  · rintro l t (⟨h1, h2, h3, rfl⟩ | ⟨k, ys, h1, hk, a1, a2, a3⟩)
    · refine post_dropAll (ys := []) ⟨rfl, by simp⟩ fun o' ho' => ⟨disposed_none hw h3,
        .inl ⟨.inr ⟨h1, h2⟩, h3, rfl, by rw [ho', List.append_nil]⟩⟩
    · refine post_dropAll a2 fun o' ho' => ⟨disposed_some hw hk h1, Or.inr ⟨k, ys, h1, a1, ?_⟩⟩
      rw [ho', a3.log, List.append_nil]

theorem post_partsE {S : Type 1} {e : S} {k : σ × Own T → Out (σ × Own T) α S} {s : σ} {o : Own T}
    {Q : α → S → σ × Own T → Prop} {R : S → σ × Own T → Prop}
    (hx : (k (s, parts o)).Post Q fun l t => Recovers (R l) t ∧
      ∀ ys, Vec t.2 ys → ys.length ≠ size t.2.shape.dims →
        size (Shape.default t.2.shape.ty).dims = 0) :
    (Out.before (upd fun o => { o with len := o.shape.len }) e (fun _ s => (k s).onPanic partsGuard) (s, o)).Post Q R := by
  show ((k (s, parts o)).onPanic partsGuard).Post Q R
  refine Out.post_onPanic (hx.mono (fun _ _ _ h => h) ?_)
  rintro l ⟨t, o'⟩ ⟨⟨ys, hv, h1, h2⟩, hd⟩
  by_cases hl : ys.length = size o'.shape.dims
  · exact M.post_of_eq (partsGuard_same hv hl t) (h1 hl)
  · obtain ⟨o2, e, a1, a2, a3, a4⟩ := partsGuard_reset hv hl (hd ys hv hl) t
    exact M.post_of_eq e (h2 hl (hd ys hv hl) o2 a1 a2 a3 a4)

theorem post_expandE {e : Expr σ α} (hb : Built e) (ht : TameRaw e)
    {c : α → M σ T} (hc : ∀ y, (c y).Tame) {s : σ} {o : Own T} {xs : List T} (h : Holds o xs) :
    (expandE e c (s, o)).Post
      (fun _ l t => AllMoved e l ∧ ((size e.dims = 0 ∧ t = (s, o)) ∨ ∃ ys,
          Ran (fun n => M.bind (rawNth e n) c) (size e.dims) s ys t.1 ∧ Holds t.2 (xs ++ ys) ∧ t.2.log = o.log))
      (fun l t => Disposed l.expr ∧ ((NoneMoved e l ∧ t.1 = s ∧ Same o t.2 xs) ∨
        ∃ k ys, SomeMoved e k l ∧ Stopped (fun n => M.bind (rawNth e n) c) (size e.dims) s k ys t.1 ∧
          Holds t.2 [] ∧ t.2.log = o.log ++ (xs ++ ys))) := by
  have hw := wf_of_built hb
  have hdn : Disposed (Left.mk e).expr := disposed_none hw (l := ⟨e⟩) rfl
  refine Out.post_before (post_checkHead (fun hrh => ?_) fun hn => ⟨hdn, Or.inl ⟨rfl, rfl, Same.refl h⟩⟩)
  obtain ⟨hr, hh⟩ := hrh
  have hlen : e.shape.len = size e.dims := Shape.len_eq _
  by_cases h0 : 0 < e.shape.len
  swap
  · rw [if_neg h0]
    rw [hlen] at h0
    have hz : size e.dims = 0 := by omega
    refine ⟨allMoved_of hw ?_, Or.inl ⟨hz, rfl⟩⟩
    unfold heldAt
    conv_lhs => rw [← List.map_id (Left.mk e).expr.owned]
    exact List.map_congr_left fun p hp => by rw [id, hz, ← owned_new hw p hp]
  rw [if_pos h0]
  rw [hlen] at h0
  have hvec := parts_vec h
  have hdef := Shape.default_size_of_head h.1 hr hh
  have same : ∀ o', Vec o' xs → Eff (parts o) o' [] → ∀ R : σ × Own T → Prop, R (s, o') →
      (Recovers R (s, o') ∧ ∀ ys, Vec (s, o').2 ys → ys.length ≠ size (s, o').2.shape.dims →
        size (Shape.default (s, o').2.shape.ty).dims = 0) := by
    intro o' hv he R hR
    refine ⟨⟨xs, hv, fun _ => hR, fun hn => absurd ?_ hn⟩, fun ys _ _ => ?_⟩
    · show _ = size o'.shape.dims
      rw [he.shape]; exact h.2.1
    · show size (Shape.default o'.shape.ty).dims = 0
      rw [he.shape]; exact hdef
  refine post_partsE (Out.post_before (M.Post.bind (P := fun _ t => t.1 = s ∧ Vec t.2 xs ∧ Eff (parts o) t.2 [] ∧
    xs.length + size e.dims ≤ t.2.cells.length) (M.Post.mono (post_vecReserve e.shape.len hvec) ?_ ?_) ?_))
  · intro _ ⟨t, o1⟩ h1
    rw [hlen] at h1
    exact h1
  · rintro t ⟨rfl, hl⟩
    exact same _ hvec (Eff.refl _) _ ⟨hdn, Or.inl ⟨rfl, rfl, parts_same h hvec (Eff.refl _)⟩⟩
  · rintro - ⟨t, o1⟩ ⟨rfl, hv1, he1, hc1⟩
    have hsh : o1.shape = o.shape := he1.shape
    refine post_setShape (fun s' hs' => ?_) (fun hn => ?_)
    · rw [hsh] at hs'
      obtain ⟨w1, w2, w3, w4⟩ := expandShape_some hr hs' h0
      have hv2 : Vec ({ o1 with shape := s' } : Own T) xs := hv1
      have hc1 : xs.length + size e.dims ≤ o1.cells.length := hc1
      refine Out.post_before ?_
      show M.Post (M.lift (check (e.shape.len ≤ o1.cells.length - o1.len))) (t, { o1 with shape := s' }) _ _
      rw [show check (e.shape.len ≤ o1.cells.length - o1.len) = some () from
        if_pos (by rw [hlen, hv1.1]; omega)]
      have hrow : 0 < row e := by
        have := size_split h0
        rcases Nat.eq_zero_or_pos (row e) with h | h
        · rw [h] at this; omega
        · exact h
      refine (post_appendE (o := { o1 with shape := s' }) hb ht (fun _ => hrow) (fun h => by omega) hc hv2 hc1).mono ?_ ?_
      · rintro - l u ⟨h1, ys, a1, a2, a3, -⟩
        have a3s : u.2.shape = s' := a3.shape
        refine ⟨h1, Or.inr ⟨ys, a1, a2.holds (by rw [a3s]; exact w1) ?_, ?_⟩⟩
        · rw [a3s, w3, List.length_append, a1.length, h.2.1]
        · have := a3.log; have := he1.log; simp_all [parts]
      · rintro l u ⟨k, ys, hk, hm, a1, a2, a3, -⟩
        have a3s : u.2.shape = s' := a3.shape
        obtain ⟨hk, t', ht', -⟩ := id a1
        have hyl := ht'.length
        refine ⟨⟨xs ++ ys, a2, fun heq => ?_, fun _ _ o' b1 b2 b3 b4 => ?_⟩, fun _ _ _ => ?_⟩
        · exfalso
          rw [a3s, w3, List.length_append, h.2.1] at heq
          omega
        · refine ⟨disposed_some hw hk hm, Or.inr ⟨k, ys, hm, a1, b1, ?_⟩⟩
          rw [b2]; have := a3.log; have := he1.log; simp_all [parts]
        · rw [a3s, w2]; exact hdef
    · exact same _ hv1 he1 _ ⟨hdn, Or.inl ⟨rfl, rfl, parts_same h hv1 he1⟩⟩

/-! Operations with an exclusive view: the expression is combined with it first. -/

theorem forEachE_moved {ρ γ : Type} {z : Expr ρ γ} (hb : Built z) (hp : NoPhantomRows z) (f : γ → M ρ Unit)
    (s : ρ) {e : Expr σ α} (ho : z.owned = e.owned) :
    match z.forEachE f s with
    | .ok _ l _ => AllMoved e l
    | .panic l _ => Disposed l.expr ∧ ∃ n, SomeMoved e n l
    | _ => True := by
  have hw := wf_of_built hb
  have hk : rows z * row z = size z.dims := by
    rcases Nat.eq_zero_or_pos (size z.dims) with h0 | h0
    · rw [h0, show row z = 0 from hp h0, Nat.mul_zero]
    · exact (size_split h0).symm
  have h := foldE_folded (T := False) (τ := Unit) hw False.elim hp (fun _ x => f x) False.elim (at_new z)
    (fun p hpm => by rw [owned_new hw p hpm]; exact Nat.zero_le _) () s
  rw [show pos z 0 0 = 0 by simp [pos], Nat.sub_zero, hk] at h
  have hplus : ∀ j, plus j (Iter.new z).expr.owned = e.owned.map fun p => (j, p.2) := by
    intro j
    show plus j z.owned = _
    rw [← ho]
    exact List.map_congr_left fun p hpm => by rw [owned_new hw p hpm, Nat.zero_add]
  have hsz : ∀ p ∈ e.owned, p.2 = size z.dims := fun p hpm => by
    rw [← ho] at hpm; exact (owned_size hw.wfs).1 p hpm
  unfold Expr.forEachE
  cases hx : (Iter.new z).foldE () (fun _ x => f x) s with
  | ok x e' t =>
    rw [hx] at h
    show e'.owned = _
    rw [h.2, hplus]
    exact List.map_congr_left fun p hpm => by rw [hsz p hpm]
  | panic e' t =>
    rw [hx] at h
    have key : ∃ j, SomeMoved e j ⟨e'⟩ ∧ ∀ p ∈ e'.owned, p.1 ≤ p.2 := by
      rcases h.2 with ⟨j, hj, h⟩ | ⟨-, j, hj, h⟩
      · rw [hplus] at h
        have h' : SomeMoved e j ⟨e'⟩ := List.forall₂_map_left_iff.1 h
        refine ⟨j, h', fun p hpm => ?_⟩
        obtain ⟨i, hi, rfl⟩ := List.getElem_of_mem hpm
        obtain ⟨h1, h2⟩ := List.forall₂_iff_get.1 h'
        have := h2 i (by rw [h1]; exact hi) hi
        simp only [List.get_eq_getElem] at this
        rw [this.1, hsz _ (List.getElem_mem _)]
        omega
      · rw [hplus] at h
        refine ⟨j, ?_, fun p hpm => ?_⟩
        · show List.Forall₂ _ _ e'.owned
          rw [h, List.forall₂_map_right_iff]
          exact List.forall₂_same.2 fun p _ => ⟨rfl, .inl rfl⟩
        · rw [h] at hpm
          obtain ⟨q, hq, rfl⟩ := List.mem_map.1 hpm
          show j ≤ q.2
          rw [hsz q hq]
          exact hj
    obtain ⟨j, h1, h2⟩ := key
    exact ⟨disposed_of h2, j, h1⟩
  | ub => trivial
  | abort => trivial

theorem zipNew_owned {ρ : Type} {v : View} {e : Expr ρ β} {z : Expr ρ (Int × β)}
    (h : zipNew (view false v) e = some z) : z.owned = e.owned := by
  unfold zipNew at h
  obtain ⟨s, -, rfl⟩ := Option.map_eq_some_iff.1 h
  rfl

/-- The loop over a view and an expression. -/
def viewLoop {ρ : Type} (v : View) (e : Expr σ α) (e' : Expr ρ α) (f : Int × α → M ρ Unit) (s : ρ) : Out ρ Unit Left :=
  match zipNew (view false v) e' with
  | some z => z.forEachE f s
  | none => .panic ⟨e⟩ s

theorem viewLoop_moved {ρ : Type} {v : View} (hv : v.map.WF) {e : Expr σ α} (hb : Built e)
    {e' : Expr ρ α} (hb' : Built e') (hd : e'.dims = e.dims) (hr : e'.repeatable = e.repeatable)
    (ho : e'.owned = e.owned) (hp : ∀ z, zipNew (view false v) e' = some z → NoPhantomRows z)
    (f : Int × α → M ρ Unit) (s : ρ) {r : Out ρ Unit Left}
    (hx : viewLoop v e e' f s = r) :
    (∀ l t, r = .ok () l t → CanCast e v.dims ∧ AllMoved e l) ∧
    ∀ l t, r = .panic l t → Disposed l.expr ∧
      ((¬ CanCast e v.dims ∧ NoneMoved e l ∧ t = s) ∨ (CanCast e v.dims ∧ ∃ n, SomeMoved e n l)) := by
  have hsome := zipNew_view_isSome (σ := ρ) hv hb'
  have hcc : CanCast e' v.dims ↔ CanCast e v.dims := by unfold CanCast; rw [hd, hr]
  rw [hcc] at hsome
  unfold viewLoop at hx
  cases hz : zipNew (view false v) e' with
  | none =>
    rw [hz] at hsome hx
    subst hx
    refine ⟨fun l t h => (by cases h), fun l t h => ?_⟩
    cases h
    exact ⟨disposed_none (wf_of_built hb) (l := ⟨e⟩) rfl, .inl ⟨fun h => by simpa using hsome.2 h, rfl, rfl⟩⟩
  | some z =>
    rw [hz] at hsome hx
    have hc := hsome.1 rfl
    have := forEachE_moved (e := e) (.zip (.view hv) hb' hz) (hp z hz) f s (by rw [zipNew_owned hz, ho])
    have hx : z.forEachE f s = r := hx
    rw [hx] at this
    refine ⟨fun l t h => ?_, fun l t h => ?_⟩
    · rw [h] at this; exact ⟨hc, this⟩
    · rw [h] at this; exact ⟨this.1, .inr ⟨hc, this.2⟩⟩

theorem noPhantom_up {ρ : Type} {v : View} {e : Expr σ α}
    (hp : ∀ z, zipNew (view false v) e = some z → NoPhantomRows z) :
    ∀ z, zipNew (view false v) (e.up : Expr (σ × ρ) α) = some z → NoPhantomRows z := by
  intro z hz
  rw [show (view false v : Expr (σ × ρ) Int) = (view false v : Expr σ Int).up from rfl, up_zipNew] at hz
  obtain ⟨z', hz', rfl⟩ := Option.map_eq_some_iff.1 hz
  have := hp z' hz'
  unfold NoPhantomRows dims at this ⊢
  rw [up_shape, up_outerRank]
  exact this

end Model
