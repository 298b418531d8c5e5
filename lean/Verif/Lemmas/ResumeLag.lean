import Verif.Lemmas.ResumeNext
import Verif.Spec.Lag

/-! Iterators of expressions that do not go on with the next item after a panic. -/

namespace Model
open Spec

variable {σ α β : Type}

namespace Iter
open Expr

/-- After `n` calls there is the position `n`, whatever the calls have done. -/
theorem next_count {e : Expr σ α} (hw : e.Wf) (hp : Plain e) (hb : ¬ BadFn e) {n : Nat} {it : Iter σ α}
    (h : After e n it) : n ≤ size e.dims ∧ ∀ s, match it.nextE s with
      | .ok (some _) _ _ => n < size e.dims
      | .ok none _ _ => n = size e.dims
      | .panic _ _ => n < size e.dims
      | _ => n < size e.dims := by
  obtain ⟨q, c, hat, -, -, hpos⟩ := after_at hw hp h (owned_new hw)
  replace hpos := hpos hb
  subst hpos
  have hle := pos_le hp hat
  refine ⟨hle, fun s => ?_⟩
  have hn := nextE_at hw hp hat s
  have hlt : ∀ q' c' (it' : Iter σ α), At e q' c' it' → pos e q' c' = pos e q c + 1 → pos e q c < size e.dims :=
    fun q' c' it' h1 h2 => by have := pos_le hp h1; omega
  have hend : pos e q c = size e.dims → ∃ it' t, it.nextE s = .ok none it' t := by
    intro heq
    have hcr : c = row e ∧ q + 1 = rows e := by
      rcases Nat.eq_zero_or_pos (size e.dims) with h0 | h0
      · have hr : row e = 0 := noPhantom hp h0
        have h1 : rows e = 1 := by
          rcases hp with hp | hp
          · omega
          · exact rows_eq_one hp.2
        have := hat.hc
        have := hat.hq
        omega
      · rw [size_split h0] at heq
        have hq := hat.hq
        have hc := hat.hc
        have hr := row_pos h0
        unfold pos at heq
        have h1 : q + 1 = rows e := by
          by_contra hne
          have : (q + 2) * row e ≤ rows e * row e := Nat.mul_le_mul_right _ (by omega)
          rw [Nat.add_mul] at this
          omega
        rw [← h1, Nat.add_mul, Nat.one_mul] at heq
        exact ⟨by omega, h1⟩
    unfold nextE
    rw [if_pos (by rw [hat.inner, hat.limit]; exact hcr.1)]
    obtain ⟨-, h1 | h1 | h1⟩ := stepOuterE_at hw hat
    · exact (hb h1.2.1).elim
    · omega
    · rcases hst : it.stepOuterE with ⟨b, it'⟩
      rw [hst] at h1
      obtain ⟨rfl, -⟩ := h1
      exact ⟨_, _, rfl⟩
  cases hx : it.nextE s with
  | ok x it' t =>
    rw [hx] at hn
    cases x with
    | some x => obtain ⟨-, q', c', h1, h2⟩ := hn; exact hlt q' c' it' h1 h2
    | none =>
      obtain ⟨-, h1, h2, -⟩ := hn
      show pos e q c = _
      rcases Nat.eq_zero_or_pos (size e.dims) with h0 | h0
      · omega
      · rw [size_split h0, ← h2, h1, Nat.add_mul, Nat.one_mul]; rfl
  | panic it' t =>
    rw [hx] at hn
    obtain ⟨-, ⟨q', c', h1, h2⟩ | ⟨h, -⟩⟩ := hn
    · exact hlt q' c' it' h1 h2
    · exact (hb h).elim
  | ub =>
    rcases Nat.lt_or_eq_of_le hle with h | h
    · exact h
    · obtain ⟨_, _, h'⟩ := hend h; rw [hx] at h'; cases h'
  | abort =>
    rcases Nat.lt_or_eq_of_le hle with h | h
    · exact h
    · obtain ⟨_, _, h'⟩ := hend h; rw [hx] at h'; cases h'

/-! `from_fn` -/

/-- The iterator of a `from_fn` in row `q`, after `c` calls in that row of which `k` have panicked. -/
def lagAt (e : Expr σ α) (q c k : Nat) : Iter σ α := { iterAt e q (c - k) 0 with innerIndex := c }

theorem fromFn_adv {s : Shape} {idx : List Nat} {f : List Nat → M σ α} (R : Nat) (p : List Nat) (c n m : Nat) :
    adv R p c n (fromFn s idx f) = adv R p c m (fromFn s idx f) := rfl

theorem fromFn_panic {s : Shape} {idx : List Nat} {f : List Nat → M σ α} {i : Nat} {t u : σ} {e'}
    (h : (fromFn s idx f).getE i t = .panic e' u) : e' = fromFn s idx f := by
  simp only [getE] at h
  cases hf : f idx t with
  | ok x t' =>
    rw [hf] at h
    simp only [Out.call, Out.andThen] at h
    split at h
    · split at h
      · cases h
      · injection h with h _; exact h.symm
    · cases h
  | panic t' =>
    rw [hf] at h
    simp only [Out.call, Out.andThen, id] at h
    injection h with h _; exact h.symm
  | ub => rw [hf] at h; cases h
  | abort => rw [hf] at h; cases h

section
variable {s : Shape} {idx : List Nat} {f : List Nat → M σ α}

theorem takeE_lag (hw : (fromFn s idx f).Wf) {q c k : Nat} (hk : k ≤ c) (hc : c < row (fromFn s idx f)) (t : σ) :
    match (lagAt (fromFn s idx f) q c k).takeE t with
    | .ok _ it' _ => it' = lagAt (fromFn s idx f) q (c + 1) k
    | .panic it' _ => it' = lagAt (fromFn s idx f) q (c + 1) (k + 1)
    | _ => True := by
  set e := fromFn s idx f with he
  have hul : (unrank (lims e.dims e.outerRank) q).length = e.outerRank := by
    rw [length_unrank, length_lims (outerRank_le e)]
  have hadv : (lagAt e q c k).expr.advance = (lagAt e q (c + 1) k).expr := by
    have h1 : (lagAt e q c k).expr.advance = adv e.dims.length _ (c - k + 1) (0 + 1) e :=
      advance_adv hw (fit_self e) (outerRank_le e) hul (show c - k < row e by omega)
    rw [h1, show c - k + 1 = c + 1 - k by omega]
    rfl
  unfold takeE
  cases hg : (lagAt e q c k).expr.getE (lagAt e q c k).innerIndex t with
  | ok x e' u =>
    have := getE_ok hg
    simp only [Out.andThen]
    rw [this, hadv]
    rfl
  | panic e' u =>
    have : e' = (lagAt e q c k).expr := fromFn_panic hg
    simp only [Out.andThen]
    rw [this]
    unfold lagAt
    rw [show c + 1 - (k + 1) = c - k by omega]
  | _ => trivial

theorem take_lag (hw : (fromFn s idx f).Wf) (hb : ¬ BadFn (fromFn s idx f)) (hs : 0 < size s.dims) {q c k : Nat}
    (hq : q < rows (fromFn s idx f)) (hk : k ≤ c) (hc : c < row (fromFn s idx f)) (t : σ) :
    ((lagAt (fromFn s idx f) q c k).takeE t).result =
      M.bind (f (unrank s.dims (q * row (fromFn s idx f) + c - k))) (fun x => M.pure (some x)) t := by
  set e := fromFn s idx f with he
  have hR : Sound e := by
    intro h
    by_contra h'
    exact hb ⟨h, h'⟩
  have hg := get_iterAt (e := e) hw hR hs (q := q) (c := c - k) hq (by omega)
  have hg' : ((lagAt e q c k).expr).get (lagAt e q c k).innerIndex =
      M.bind (f (unrank s.dims (q * row e + c - k))) fun x => M.pure (x, adv e.dims.length
        (unrank (lims e.dims e.outerRank) q) (c - k + 1) (q * row e + (c - k) + 1) e) := by
    rw [show q * row e + c - k = q * row e + (c - k) by omega]
    exact hg
  have h1 := takeE_erase (lagAt e q c k) t
  rw [hg'] at h1
  have h2 : ((lagAt e q c k).takeE t).result =
      match ((lagAt e q c k).takeE t).erase with
      | .ok x s => .ok x.1 s
      | .panic s => .panic s
      | .ub => .ub
      | .abort => .abort := by
    cases (lagAt e q c k).takeE t <;> rfl
  rw [h2, h1]
  simp only [M.bind]
  cases f (unrank s.dims (q * row e + c - k)) t <;> rfl

theorem stepOuterE_lag (hw : (fromFn s idx f).Wf) (hd : s.dims ≠ []) {q k : Nat}
    (hq : q + 1 < rows (fromFn s idx f)) :
    (lagAt (fromFn s idx f) q (row (fromFn s idx f)) k).stepOuterE =
      (some true, { lagAt (fromFn s idx f) (q + 1) 0 0 with innerIndex := row (fromFn s idx f) }) := by
  set e := fromFn s idx f with he
  have ho : e.outerRank ≠ e.dims.length := by
    have : 0 < s.dims.length := List.length_pos_iff.2 hd
    have h1 : e.dims = s.dims := rfl
    unfold outerRank
    simp only [he, innerRank, if_pos this]
    show s.dims.length - 1 ≠ s.dims.length
    omega
  have hstep := stepOuter_spec (e := e) hw (q := q) (c := row e - k) (n := 0) (k := row e)
    (by unfold rows at hq; omega) (fun h _ => (ho h).elim)
  rw [if_pos (show q + 1 < size (lims e.dims e.outerRank) from hq)] at hstep
  rw [show ({ iterAt e q (row e - k) 0 with innerIndex := row e } : Iter σ α) = lagAt e q (row e) k from rfl,
    stepOuterE_eq] at hstep
  rcases hso : (lagAt e q (row e) k).stepOuterE with ⟨b, it'⟩
  rw [hso] at hstep
  simp only [Option.map_eq_some_iff, Prod.mk.injEq] at hstep
  obtain ⟨b', rfl, rfl, rfl⟩ := hstep
  rfl

theorem afterRow_after {e : Expr σ α} {w n k : Nat} {it : Iter σ α} (h : AfterRow e w n k it) : After e n it := by
  induction h with
  | new => exact .new
  | item _ hn ih => exact .item ih hn
  | panic _ hn ih => exact .panic ih hn

theorem afterAll_after {e : Expr σ α} {n k : Nat} {it : Iter σ α} (h : AfterAll e n k it) : After e n it := by
  induction h with
  | new => exact .new
  | item _ hn ih => exact .item ih hn
  | panic _ hn ih => exact .panic ih hn

/-- One call of `next`. -/
theorem nextE_lag (hw : (fromFn s idx f).Wf) (hb : ¬ BadFn (fromFn s idx f)) (hs : 0 < size s.dims)
    (hd : s.dims ≠ []) {q c k n : Nat} (hn : q * row (fromFn s idx f) + c = n) (hlt : n < size s.dims)
    (hq : q < rows (fromFn s idx f)) (hc : c ≤ row (fromFn s idx f)) (hk : k ≤ c) (h0 : 0 < c ∨ n = 0) (t : σ) :
    ((lagAt (fromFn s idx f) q c k).nextE t).result =
      M.bind (f (unrank s.dims (n - inRow (row (fromFn s idx f)) n k))) (fun x => M.pure (some x)) t ∧
    ∃ q' c', q' * row (fromFn s idx f) + c' = n + 1 ∧ q' < rows (fromFn s idx f) ∧ 0 < c' ∧
      c' ≤ row (fromFn s idx f) ∧ inRow (row (fromFn s idx f)) n k < c' ∧
      match (lagAt (fromFn s idx f) q c k).nextE t with
      | .ok _ it' _ => it' = lagAt (fromFn s idx f) q' c' (inRow (row (fromFn s idx f)) n k)
      | .panic it' _ => it' = lagAt (fromFn s idx f) q' c' (inRow (row (fromFn s idx f)) n k + 1)
      | _ => True := by
  set e := fromFn s idx f with he
  have hr : 0 < row e := row_pos (e := e) hs
  by_cases hcr : c = row e
  · subst hcr
    have hq1 : q + 1 < rows e := by
      by_contra h
      have h1 : rows e = q + 1 := by omega
      have h2 : size s.dims = rows e * row e := size_split (e := e) hs
      rw [h2, h1, Nat.add_mul, Nat.one_mul] at hlt
      omega
    have hin : inRow (row e) n k = 0 := by
      unfold inRow
      rw [if_pos]
      rw [← hn, Nat.mul_comm]
      simp
    have hnx : (lagAt e q (row e) k).nextE t = (lagAt e (q + 1) 0 0).takeE t := by
      unfold nextE
      rw [if_pos (show (lagAt e q (row e) k).innerIndex = (lagAt e q (row e) k).innerLimit from rfl),
        stepOuterE_lag hw hd hq1]
      rfl
    have hn' : (q + 1) * row e + 0 = n := by rw [Nat.add_mul, Nat.one_mul]; exact hn
    rw [hnx, hin]
    refine ⟨?_, q + 1, 1, by omega, hq1, by omega, by omega, by omega, takeE_lag hw (le_refl _) hr t⟩
    rw [take_lag hw hb hs hq1 (le_refl _) hr t, hn']
  · have hcl : c < row e := by omega
    have hin : inRow (row e) n k = k := by
      unfold inRow
      split
      · rename_i h
        rcases h0 with h0 | h0
        · rw [← hn, Nat.mul_comm, Nat.mul_add_mod, Nat.mod_eq_of_lt hcl] at h
          omega
        · omega
      · rfl
    have hnx : (lagAt e q c k).nextE t = (lagAt e q c k).takeE t := by
      unfold nextE
      rw [if_neg (show ¬ (lagAt e q c k).innerIndex = (lagAt e q c k).innerLimit from hcr)]
    rw [hnx, hin]
    refine ⟨?_, q, c + 1, by omega, hq, by omega, by omega, by omega, takeE_lag hw hk hcl t⟩
    rw [take_lag hw hb hs hq hk hcl t, hn]

theorem afterRow_lag (hw : (fromFn s idx f).Wf) (hb : ¬ BadFn (fromFn s idx f)) (hs : 0 < size s.dims)
    (hd : s.dims ≠ []) {n k : Nat} {it : Iter σ α} (h : AfterRow (fromFn s idx f) (row (fromFn s idx f)) n k it) :
    ∃ q c, it = lagAt (fromFn s idx f) q c k ∧ q * row (fromFn s idx f) + c = n ∧ q < rows (fromFn s idx f) ∧
      c ≤ row (fromFn s idx f) ∧ k ≤ c ∧ (0 < c ∨ n = 0) := by
  have hp : Plain (fromFn s idx f) := Or.inl hs
  have hlt : ∀ {n k it}, AfterRow (fromFn s idx f) (row (fromFn s idx f)) n k it →
      (∃ t, ∀ it' u, it.nextE t ≠ .ok none it' u) → n < size s.dims := by
    intro n k it h ⟨t, ht⟩
    have := (next_count hw hp hb (afterRow_after h)).2 t
    cases hx : it.nextE t with
    | ok x it' u =>
      rw [hx] at this
      cases x with
      | none => exact (ht _ _ hx).elim
      | some x => exact this
    | _ => rw [hx] at this; exact this
  induction h with
  | new =>
    refine ⟨0, 0, ?_, by simp, rows_pos _, Nat.zero_le _, le_refl _, Or.inr rfl⟩
    rw [new_eq hw (fun h => by by_contra h'; exact hb ⟨h, h'⟩)]
    rfl
  | @item n k it x it' t u h hn ih =>
    obtain ⟨q, c, rfl, h1, h2, h3, h4, h5⟩ := ih
    obtain ⟨-, q', c', g1, g2, g3, g4, g5, g6⟩ := nextE_lag hw hb hs hd h1
      (hlt h ⟨t, fun _ _ h' => by rw [hn] at h'; cases h'⟩) h2 h3 h4 h5 t
    rw [hn] at g6
    exact ⟨q', c', g6, g1, g2, g4, by omega, Or.inl g3⟩
  | @panic n k it it' t u h hn ih =>
    obtain ⟨q, c, rfl, h1, h2, h3, h4, h5⟩ := ih
    obtain ⟨-, q', c', g1, g2, g3, g4, g5, g6⟩ := nextE_lag hw hb hs hd h1
      (hlt h ⟨t, fun _ _ h' => by rw [hn] at h'; cases h'⟩) h2 h3 h4 h5 t
    rw [hn] at g6
    exact ⟨q', c', g6, g1, g2, g4, by omega, Or.inl g3⟩

end
end Iter
end Model
