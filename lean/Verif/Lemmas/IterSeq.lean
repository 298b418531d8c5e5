import Verif.Lemmas.Iter

/-! The sequence of items seen by `next`, `fold` and `size_hint`. -/

namespace Model
open Spec

namespace Iter
variable {σ α : Type}
open Expr

/-- The iterator of `e` after `n` items. -/
def iterN (e : Expr σ α) (n : Nat) : Iter σ α :=
  if n = 0 then iterAt e 0 0 0 else iterAt e ((n - 1) / row e) ((n - 1) % row e + 1) n

theorem noPhantom {e : Expr σ α} (h : Plain e) : NoPhantom e := by
  intro h0
  rcases h with h | h
  · omega
  · exact h.1

theorem plain_of_outer {e : Expr σ α} (h : e.outerRank = 0) : Plain e := by
  rcases Nat.eq_zero_or_pos (size e.dims) with h0 | h0
  · exact Or.inr (by rw [h]; exact ⟨h0, by simp⟩)
  · exact Or.inl h0

theorem rows_eq_one {e : Expr σ α} (h1 : ∀ d ∈ e.dims.take e.outerRank, d ≤ 1) : rows e = 1 := by
  unfold rows lims
  have : (e.dims.take e.outerRank).map (fun d => max d 1) =
      (e.dims.take e.outerRank).map fun _ => 1 := by
    apply List.map_congr_left
    intro d hd
    have := h1 d hd
    omega
  rw [this, List.map_const']
  unfold size; simp

theorem row_pos {e : Expr σ α} (h : 0 < size e.dims) : 0 < row e := by
  rw [size_split h] at h; exact Nat.pos_of_mul_pos_left h

theorem rows_pos (e : Expr σ α) : 0 < rows e := lims_pos _ _

theorem iterN_parts {e : Expr σ α} {n : Nat} (hn : n ≤ size e.dims) :
    ∃ q c, iterN e n = iterAt e q c (q * row e + c) ∧ q * row e + c = n ∧ q < rows e ∧ c ≤ row e ∧
      (0 < size e.dims → (0 < c ∨ n = 0)) := by
  unfold iterN
  by_cases h : n = 0
  · subst h
    refine ⟨0, 0, ?_, ?_, rows_pos e, Nat.zero_le _, fun _ => Or.inr rfl⟩
    · rw [if_pos rfl]; simp
    · simp
  · rw [if_neg h]
    have hs : 0 < size e.dims := by omega
    have hr := row_pos hs
    have hm := Nat.mod_lt (n - 1) hr
    have hd : (n - 1) / row e * row e + ((n - 1) % row e + 1) = n := by
      have := Nat.div_add_mod' (n - 1) (row e); omega
    refine ⟨(n - 1) / row e, (n - 1) % row e + 1, ?_, hd, ?_, by omega, fun _ => Or.inl (by omega)⟩
    · rw [hd]
    · rw [Nat.div_lt_iff_lt_mul hr, ← size_split hs]; omega

theorem iterN_of {e : Expr σ α} {q c : Nat} (hc : 0 < c) (hc' : c ≤ row e) :
    iterN e (q * row e + c) = iterAt e q c (q * row e + c) := by
  unfold iterN
  rw [if_neg (by omega)]
  have e1 : q * row e + c - 1 = (c - 1) + q * row e := by omega
  have e2 : (q * row e + c - 1) / row e = q := by
    rw [e1, Nat.add_mul_div_right _ _ (by omega), Nat.div_eq_of_lt (by omega), Nat.zero_add]
  have e3 : (q * row e + c - 1) % row e + 1 = c := by
    rw [e1, Nat.add_mul_mod_self_right, Nat.mod_eq_of_lt (by omega)]; omega
  rw [e2, e3]

theorem next_iterN {e : Expr σ α} (hw : e.Wf) (hR : Sound e) {n : Nat} (hn : n < size e.dims) :
    (iterN e n).next = M.bind (item e n (unrank e.dims n)) fun x =>
      M.pure (some x, iterN e (n + 1)) := by
  have hs : 0 < size e.dims := by omega
  have hr := row_pos hs
  obtain ⟨q, c, h1, h2, h3, h4, -⟩ := iterN_parts (e := e) (n := n) (by omega)
  rw [h1]
  by_cases hc : c < row e
  · rw [next_inner hw hR hs h3 hc, h2]
    have := iterN_of (e := e) (q := q) (c := c + 1) (by omega) (by omega)
    rw [show q * row e + (c + 1) = n + 1 by omega] at this
    rw [this]
    congr 1
    funext x
    rw [show q * row e + (c + 1) = n + 1 by omega]
  · have hce : c = row e := by omega
    subst hce
    have hq : q + 1 < rows e := by
      by_contra h
      have : rows e = q + 1 := by omega
      rw [size_split hs, this, Nat.add_mul, Nat.one_mul] at hn
      omega
    have hn' : (q + 1) * row e = n := by rw [Nat.add_mul, Nat.one_mul]; exact h2
    rw [next_outer hw hR hs hq, hn']
    have := iterN_of (e := e) (q := q + 1) (c := 1) (by omega) (by omega)
    rw [hn'] at this
    rw [this]

/-- State after the end of the iteration. -/
def ended (e : Expr σ α) (c n : Nat) : Iter σ α := { iterAt e 0 c n with innerIndex := row e }

theorem next_iterN_end {e : Expr σ α} (hw : e.Wf) (hp : Plain e) :
    ∃ c, (iterN e (size e.dims)).next = M.pure (none, ended e c (size e.dims)) := by
  rcases Nat.eq_zero_or_pos (size e.dims) with h0 | h0
  · have hr : row e = 0 := noPhantom hp h0
    have hrows : rows e = 1 := by
      rcases hp with h | h
      · omega
      · exact rows_eq_one h.2
    refine ⟨if e.dims = [] then 0 else 0, ?_⟩
    have := next_end (n := 0) hw (show 0 + 1 = rows e by omega)
    rw [hr] at this
    rw [h0, show iterN e 0 = iterAt e 0 0 0 from rfl, this]
    unfold ended
    rw [hr]
  · have hr := row_pos h0
    have hro := rows_pos e
    refine ⟨if e.dims = [] then row e else 0, ?_⟩
    have hsz : size e.dims = (rows e - 1) * row e + row e := by
      rw [size_split h0, Nat.mul_sub_right_distrib, Nat.one_mul]
      have : row e ≤ rows e * row e := Nat.le_mul_of_pos_left _ hro
      omega
    have := iterN_of (e := e) (q := rows e - 1) (c := row e) hr (le_refl _)
    rw [← hsz] at this
    rw [this, next_end hw (by omega)]
    rfl

theorem runNext_iterN {e : Expr σ α} (hw : e.Wf) (hR : Sound e) :
    ∀ (k n : Nat), n + k ≤ size e.dims →
    runNext k (iterN e n) =
      M.bind ((List.range' n k).mapM fun n => item e n (unrank e.dims n)) fun xs =>
        M.pure (xs.map some, iterN e (n + k)) := by
  intro k
  induction k with
  | zero => intro n _; rfl
  | succ k ih =>
    intro n hn
    simp only [runNext, List.range'_succ, List.mapM_cons, M.bind_eq, M.pure_eq]
    rw [next_iterN hw hR (by omega)]
    simp only [M.bind_assoc, M.pure_bind]
    congr 1
    funext x
    rw [ih (n + 1) (by omega)]
    simp only [M.bind_assoc, M.pure_bind, List.map_cons]
    rw [show n + 1 + k = n + (k + 1) by omega]

theorem runNext_add (a b : Nat) (it : Iter σ α) :
    runNext (a + b) it = M.bind (runNext a it) fun p => M.bind (runNext b p.2) fun q =>
      M.pure (p.1 ++ q.1, q.2) := by
  induction a generalizing it with
  | zero => simp [runNext]
  | succ a ih =>
    rw [Nat.add_right_comm]
    simp only [runNext, ih, M.bind_assoc, M.pure_bind, List.cons_append]

theorem zipIdx_allIdx (ds : List Nat) :
    (allIdx ds).zipIdx = (List.range (size ds)).map fun n => (unrank ds n, n) := by
  rw [allIdx_eq_map_unrank, List.zipIdx_map]
  apply List.ext_getElem?
  intro n
  simp only [List.getElem?_map, List.getElem?_zipIdx]
  by_cases h : n < size ds
  · simp [h]
  · simp [h]

theorem mapM_map' {β γ δ : Type} (f : γ → M σ δ) (g : β → γ) (l : List β) :
    (l.map g).mapM f = l.mapM (fun x => f (g x)) := by
  induction l with
  | nil => rfl
  | cons x l ih => simp [List.mapM_cons, ih]

theorem firstItems_eq (e : Expr σ α) {k : Nat} (hk : k ≤ size e.dims) :
    firstItems e k = (List.range' 0 k).mapM fun n => item e n (unrank e.dims n) := by
  unfold firstItems
  rw [zipIdx_allIdx, ← List.map_take, mapM_map', List.take_range, Nat.min_eq_left hk,
    List.range_eq_range']

theorem fold_iterN {τ : Type} {e : Expr σ α} (hw : e.Wf) (hR : Sound e) (hp : NoPhantom e)
    (f : τ → α → M σ τ) (acc : τ) {n : Nat} (hn : n ≤ size e.dims) :
    (iterN e n).fold acc f = (List.range' n (size e.dims - n)).foldlM (visit e f) acc := by
  obtain ⟨q, c, h1, h2, h3, h4, -⟩ := iterN_parts hn
  rw [h1, fold_iterAt hw hR hp f acc h3 h4, h2]

theorem hintLoop_zero (n : Nat) (ls : List Nat) (len : Nat) :
    ∃ L, hintLoop len ls (List.replicate n 0) = some L := by
  induction n generalizing ls len with
  | zero => exact ⟨len, by cases ls <;> simp [hintLoop]⟩
  | succ n ih =>
    cases ls with
    | nil => exact ⟨len, by simp [hintLoop]⟩
    | cons l ls => simpa [hintLoop, List.replicate_succ] using ih ls (len * l)

theorem sizeHint_iterN {e : Expr σ α} (hp : Plain e) {n : Nat} (hn : n ≤ size e.dims) :
    (iterN e n).sizeHint = some (size e.dims - n) := by
  rcases Nat.eq_zero_or_pos (size e.dims) with h0 | h0
  · have hr : row e = 0 := noPhantom hp h0
    have : n = 0 := by omega
    subst this
    have e0 : (iterN e 0).expr.outerRank = e.outerRank := by simp [iterN, iterAt]
    have e1 : ∃ L, hintLoop 1 ((iterN e 0).outerLimit.take e.outerRank)
        ((iterN e 0).outerIndex.take e.outerRank) = some L := by
      by_cases h : e.outerRank > 0
      · have h2 : (iterN e 0).outerIndex.take e.outerRank = List.replicate e.outerRank 0 := by
          simp only [iterN, if_true, iterAt, if_pos h]
          rw [unrank_zero, length_lims (outerRank_le e), ← List.replicate_add, List.take_replicate]
          congr 1; omega
        rw [h2]
        exact hintLoop_zero _ _ _
      · rw [show e.outerRank = 0 by omega]; exact ⟨1, by simp [hintLoop]⟩
    obtain ⟨L, hL⟩ := e1
    have e2 : (iterN e 0).innerIndex = 0 := rfl
    have e3 : (iterN e 0).innerLimit = 0 := hr
    simp [sizeHint, e0, hL, e2, e3, check, h0]
  · obtain ⟨q, c, h1, h2, h3, h4, -⟩ := iterN_parts hn
    rw [h1, sizeHint_iterAt h0 h3 h4, h2]

theorem driveNext_iterN {τ : Type} {e : Expr σ α} (hw : e.Wf) (hR : Sound e) (f : τ → α → M σ τ) :
    ∀ (k n : Nat) (acc : τ), n + k ≤ size e.dims →
    driveNext f k (iterN e n) acc = M.bind ((List.range' n k).foldlM (visit e f) acc) fun acc' =>
      M.pure (acc', iterN e (n + k)) := by
  intro k
  induction k with
  | zero => intro n acc _; rfl
  | succ k ih =>
    intro n acc hn
    simp only [driveNext, List.range'_succ, List.foldlM_cons, M.bind_eq]
    rw [next_iterN hw hR (by omega)]
    simp only [M.bind_assoc, M.pure_bind, visit]
    congr 1
    funext x
    congr 1
    funext acc'
    rw [ih (n + 1) acc' (by omega), show n + 1 + k = n + (k + 1) by omega]

theorem next_ended {e : Expr σ α} (hw : e.Wf) (h1 : ∀ d ∈ e.dims.take e.outerRank, d ≤ 1)
    (c n : Nat) : ∃ c', (ended e c n : Iter σ α).next = M.pure (none, ended e c' n) := by
  have hrows : rows e = 1 := rows_eq_one h1
  have hr1 : size (lims e.dims e.outerRank) = 1 := hrows
  have hstep := stepOuter_spec hw (q := 0) (c := c) (n := n) (k := row e) (by omega)
    (fun _ _ => Or.inr h1)
  rw [hr1, if_neg (by omega)] at hstep
  unfold next
  rw [if_pos (show (ended e c n).innerIndex = (ended e c n).innerLimit from rfl)]
  refine ⟨if e.dims = [] then c else 0, ?_⟩
  change M.bind (M.lift (stepOuter { iterAt e 0 c n with innerIndex := row e })) _ = _
  rw [hstep]
  rfl

theorem runNext_ended {e : Expr σ α} (hw : e.Wf) (h1 : ∀ d ∈ e.dims.take e.outerRank, d ≤ 1) (n : Nat) :
    ∀ (m c : Nat), ∃ it', runNext m (ended e c n : Iter σ α) = M.pure (List.replicate m none, it') := by
  intro m
  induction m with
  | zero => intro c; exact ⟨_, rfl⟩
  | succ m ih =>
    intro c
    obtain ⟨c', hc'⟩ := next_ended hw h1 c n
    obtain ⟨it', hi⟩ := ih c'
    refine ⟨it', ?_⟩
    simp only [runNext, hc', M.pure_bind, hi, List.replicate_succ]

end Iter
end Model
