import Verif.Lemmas.ResumeLag

/-! Iterators that move elements out of an array together with items that may panic before. -/

namespace Model
open Spec

variable {σ α β : Type}

namespace Iter
open Expr

section
variable {s z : Shape} {buf : List β}

/-- Together with an array of which `m` elements have been moved out. -/
def withBuf (s z : Shape) (buf : List β) (A : Expr σ α) (m : Nat) : Expr σ (α × β) := zip A (intoExpr s buf m) z

theorem outerRank_congr {e : Expr σ α} {e' : Expr σ β} (h : e.innerRank = e'.innerRank) (h' : e.rank = e'.rank) :
    e.outerRank = e'.outerRank := by
  unfold outerRank
  rw [h, h']

theorem stepDimE_buf (A : Expr σ α) (i : Nat) :
    ∃ b A', ∀ m, (withBuf s z buf A m).stepDimE i = (b, withBuf s z buf A' m) := by
  rcases hp : (if z.dims.length - i ≤ A.rank then A.stepDimE (A.rank - (z.dims.length - i)) else (true, A))
    with ⟨b, A'⟩
  refine ⟨b, A', fun m => ?_⟩
  simp only [withBuf, stepDimE, hp]
  cases b <;> simp

theorem resetDimE_buf (A : Expr σ α) (i n : Nat) :
    ∃ b A', ∀ m, (withBuf s z buf A m).resetDimE i n = (b, withBuf s z buf A' m) := by
  rcases hp : (if z.dims.length - i ≤ A.rank then A.resetDimE (A.rank - (z.dims.length - i)) n else (true, A))
    with ⟨b, A'⟩
  refine ⟨b, A', fun m => ?_⟩
  simp only [withBuf, resetDimE, hp]
  cases b <;> simp

theorem stepLoopE_buf (limit : List Nat) (n : Nat) (A : Expr σ α) (oi : List Nat) :
    ∃ b A' oi', ∀ m, stepLoopE limit n (withBuf s z buf A m) oi = (b, withBuf s z buf A' m, oi') := by
  induction n generalizing A oi with
  | zero => exact ⟨_, _, _, fun m => rfl⟩
  | succ i ih =>
    simp only [stepLoopE]
    cases h1 : oi[i]? with
    | none => exact ⟨none, A, oi, fun m => rfl⟩
    | some x =>
      cases h2 : limit[i]? with
      | none => exact ⟨none, A, oi, fun m => rfl⟩
      | some l =>
        simp only
        by_cases hx : x + 1 < l
        · simp only [if_pos hx]
          obtain ⟨b, A', h⟩ := stepDimE_buf (s := s) (z := z) (buf := buf) A i
          simp only [h]
          cases b
          · exact ⟨none, A', _, fun m => rfl⟩
          · exact ⟨some true, A', _, fun m => rfl⟩
        · simp only [if_neg hx]
          obtain ⟨b, A', h⟩ := resetDimE_buf (s := s) (z := z) (buf := buf) A i x
          simp only [h]
          cases b
          · exact ⟨none, A', _, fun m => rfl⟩
          · exact ih A' _

theorem stepOuterE_buf (A : Expr σ α) (ii il : Nat) (oi ol : List Nat) (o : Nat)
    (ho : ∀ m, (withBuf s z buf A m).outerRank = o) :
    ∃ b A' oi', ∀ m, stepOuterE ⟨withBuf s z buf A m, ii, il, oi, ol⟩ =
      (b, ⟨withBuf s z buf A' m, ii, il, oi', ol⟩) := by
  unfold stepOuterE
  simp only [ho]
  have hp : ∃ b A', ∀ m, (if o < (withBuf s z buf A m).rank then
      (withBuf s z buf A m).resetDimE ((withBuf s z buf A m).rank - 1) 0 else (true, withBuf s z buf A m)) =
      (b, withBuf s z buf A' m) := by
    change ∃ b A', ∀ m, (if o < z.dims.length then
      (withBuf s z buf A m).resetDimE (z.dims.length - 1) 0 else (true, withBuf s z buf A m)) =
      (b, withBuf s z buf A' m)
    by_cases h : o < z.dims.length
    · simp only [if_pos h]
      exact resetDimE_buf _ _ _
    · simp only [if_neg h]
      exact ⟨true, A, fun m => rfl⟩
  obtain ⟨b, A', h⟩ := hp
  simp only [h]
  cases b
  · exact ⟨none, A', oi, fun m => rfl⟩
  · obtain ⟨b, A'', oi', h⟩ := stepLoopE_buf (s := s) (z := z) (buf := buf) ol o A' oi
    simp only [h]
    exact ⟨b, A'', oi', fun m => rfl⟩

variable {a : Expr σ α}

/-- The iterator of `zip a b` in row `q`, after `c` calls in that row and `n` calls altogether, when `m` elements
have been moved out of the array `b`. -/
def bufAt (s z : Shape) (buf : List β) (a : Expr σ α) (q c n m : Nat) : Iter σ (α × β) :=
  { iterAt (withBuf s z buf a 0) q c n with
    expr := withBuf s z buf (adv z.dims.length
      (unrank (lims z.dims (withBuf s z buf a 0).outerRank) q) c n a) m }

theorem bufAt_self (q c n : Nat) : bufAt s z buf a q c n n = iterAt (withBuf s z buf a 0) q c n := rfl

theorem takeE_buf (hw : (withBuf s z buf a 0).Wf) (hr : Resumes a) {q c n m : Nat}
    (hc : c < row (withBuf s z buf a 0)) (t : σ) :
    match (bufAt s z buf a q c n m).takeE t with
    | .ok _ it' _ => it' = bufAt s z buf a q (c + 1) (n + 1) (m + 1)
    | .panic it' _ => it' = bufAt s z buf a q (c + 1) (n + 1) m
    | _ => True := by
  set e := withBuf s z buf a 0 with he
  have hul : (unrank (lims e.dims e.outerRank) q).length = e.outerRank := by
    rw [length_unrank, length_lims (outerRank_le e)]
  obtain ⟨fa, -⟩ := (fit_self e).zip hw.2.2
  have hadv := advance_adv (n := n) hw.1 fa (outerRank_le e) hul hc
  unfold takeE
  rw [show (bufAt s z buf a q c n m).expr.getE (bufAt s z buf a q c n m).innerIndex t =
    (zip (adv e.dims.length (unrank (lims e.dims e.outerRank) q) c n a) (intoExpr s buf m) z).getE c t from rfl]
  simp only [getE]
  have hla : a.dims.length ≤ e.dims.length := by
    have := congrArg List.length fa.suffix
    rw [List.length_drop] at this
    omega
  cases hg : (adv e.dims.length (unrank (lims e.dims e.outerRank) q) c n a).getE c t with
  | ok x A' u =>
    have h1 := getE_ok hg
    rw [hadv] at h1
    simp only [Out.andThen]
    cases hb : buf[m]? with
    | none => trivial
    | some y =>
      simp only
      rw [h1]
      rfl
  | panic A' u =>
    have h1 := resumes_getE (later_adv hw.1 (resumes_notBad hr) hla
      (by rw [hul]; exact outerRank_le e)) (resumes_adv hr) hg
    rw [hadv] at h1
    simp only [Out.andThen]
    rw [h1]
    rfl
  | _ => trivial

theorem take_buf (hw : (withBuf s z buf a 0).Wf) (hR : Sound (withBuf s z buf a 0))
    (hs : 0 < size z.dims) {q c m : Nat} (hq : q < rows (withBuf s z buf a 0))
    (hc : c < row (withBuf s z buf a 0)) {y : β} (hy : buf[m]? = some y) (t : σ) :
    ((bufAt s z buf a q c (q * row (withBuf s z buf a 0) + c) m).takeE t).result =
      M.bind (item a (q * row (withBuf s z buf a 0) + c)
        ((unrank z.dims (q * row (withBuf s z buf a 0) + c)).drop (z.dims.length - a.dims.length)))
        (fun x => M.pure (some (x, y))) t := by
  set e := withBuf s z buf a 0 with he
  have hz : e.dims = z.dims := rfl
  obtain ⟨fa, -⟩ := (fit_self e).zip hw.2.2
  have hg : (adv e.dims.length (unrank (lims e.dims e.outerRank) q) c (q * row e + c) a).get c =
      M.bind (item a (q * row e + c) ((unrank e.dims (q * row e + c)).drop (e.dims.length - a.dims.length)))
        fun x => M.pure (x, adv e.dims.length (unrank (lims e.dims e.outerRank) q) (c + 1)
          (q * row e + c + 1) a) := by
    have hl := lims_eq (O := e.outerRank) (show 0 < size e.dims from hs)
    unfold rows at hq
    rw [hl] at hq ⊢
    obtain ⟨h1, h2⟩ := unrank_block hq hc
    rw [List.take_append_drop] at h1 h2
    have := get_adv hw.1 fa hR.1 (outerRank_le e) (unrank_valid hq) hc
    rw [← h2, rowMajor_unrank h1] at this
    exact this
  have h1 := takeE_erase (bufAt s z buf a q c (q * row e + c) m) t
  have h2 : ((bufAt s z buf a q c (q * row e + c) m).takeE t).result =
      match ((bufAt s z buf a q c (q * row e + c) m).takeE t).erase with
      | .ok x s => .ok x.1 s
      | .panic s => .panic s
      | .ub => .ub
      | .abort => .abort := by
    cases (bufAt s z buf a q c (q * row e + c) m).takeE t <;> rfl
  rw [show (bufAt s z buf a q c (q * row e + c) m).expr.get (bufAt s z buf a q c (q * row e + c) m).innerIndex =
    (zip (adv e.dims.length (unrank (lims e.dims e.outerRank) q) c (q * row e + c) a) (intoExpr s buf m) z).get c
    from rfl] at h1
  rw [h2, h1]
  simp only [Expr.get, hg, hy, M.bind_assoc, M.pure_bind]
  rw [hz]
  simp only [M.bind]
  cases item a (q * row e + c) ((unrank z.dims (q * row e + c)).drop (z.dims.length - a.dims.length)) t <;> rfl

theorem stepOuterE_bufAt (hw : (withBuf s z buf a 0).Wf) {q n m : Nat}
    (hq : q + 1 < rows (withBuf s z buf a 0)) :
    (bufAt s z buf a q (row (withBuf s z buf a 0)) n m).stepOuterE =
      (some true, { bufAt s z buf a (q + 1) 0 n m with innerIndex := row (withBuf s z buf a 0) }) := by
  set e := withBuf s z buf a 0 with he
  have hstep := stepOuter_spec (e := e) hw (q := q) (c := row e) (n := n) (k := row e)
    (by unfold rows at hq; omega) (by intro h _; left; unfold row; rw [h]; simp)
  rw [if_pos (show q + 1 < size (lims e.dims e.outerRank) from hq)] at hstep
  rw [show ({ iterAt e q (row e) n with innerIndex := row e } : Iter σ (α × β)) = bufAt s z buf a q (row e) n n
    from rfl, stepOuterE_eq] at hstep
  have hor : ∀ m, (withBuf s z buf (adv z.dims.length (unrank (lims z.dims e.outerRank) q) (row e) n a) m).outerRank =
      e.outerRank := by
    intro m
    have : (withBuf s z buf (adv z.dims.length (unrank (lims z.dims e.outerRank) q) (row e) n a) m).innerRank =
        e.innerRank := by
      simp only [he, withBuf, innerRank, adv_innerRank]
    exact outerRank_congr this rfl
  obtain ⟨b, A', oi', hall⟩ := stepOuterE_buf (s := s) (z := z) (buf := buf)
    (adv z.dims.length (unrank (lims z.dims e.outerRank) q) (row e) n a) (row e)
    (bufAt s z buf a q (row e) n m).innerLimit (bufAt s z buf a q (row e) n m).outerIndex
    (bufAt s z buf a q (row e) n m).outerLimit _ hor
  have hn := hall n
  change (bufAt s z buf a q (row e) n n).stepOuterE = _ at hn
  rw [hn] at hstep
  simp only [Option.map_eq_some_iff, Prod.mk.injEq] at hstep
  obtain ⟨b', rfl, rfl, h3⟩ := hstep
  have hm := hall m
  change (bufAt s z buf a q (row e) n m).stepOuterE = _ at hm
  rw [hm]
  have h4 := congrArg Iter.expr h3
  have h5 := congrArg Iter.outerIndex h3
  simp only at h4 h5
  have h6 : A' = adv z.dims.length (unrank (lims z.dims e.outerRank) (q + 1)) 0 n a := by
    have : withBuf s z buf A' n = withBuf s z buf
      (adv z.dims.length (unrank (lims z.dims e.outerRank) (q + 1)) 0 n a) n := h4
    unfold withBuf at this
    injection this
  rw [h5, h6]
  rfl

/-- One call of `next`. -/
theorem nextE_buf (hw : (withBuf s z buf a 0).Wf) (hR : Sound (withBuf s z buf a 0)) (hr : Resumes a)
    (hs : 0 < size z.dims) {q c n m : Nat} (hn : q * row (withBuf s z buf a 0) + c = n) (hlt : n < size z.dims)
    (hq : q < rows (withBuf s z buf a 0)) (hc : c ≤ row (withBuf s z buf a 0)) {y : β} (hy : buf[m]? = some y)
    (t : σ) :
    ((bufAt s z buf a q c n m).nextE t).result =
      M.bind (item a n ((unrank z.dims n).drop (z.dims.length - a.dims.length)))
        (fun x => M.pure (some (x, y))) t ∧
    ∃ q' c', q' * row (withBuf s z buf a 0) + c' = n + 1 ∧ q' < rows (withBuf s z buf a 0) ∧
      c' ≤ row (withBuf s z buf a 0) ∧
      match (bufAt s z buf a q c n m).nextE t with
      | .ok _ it' _ => it' = bufAt s z buf a q' c' (n + 1) (m + 1)
      | .panic it' _ => it' = bufAt s z buf a q' c' (n + 1) m
      | _ => True := by
  set e := withBuf s z buf a 0 with he
  have hrow : 0 < row e := row_pos (e := e) hs
  by_cases hcr : c = row e
  · subst hcr
    have hq1 : q + 1 < rows e := by
      by_contra h
      have h1 : rows e = q + 1 := by omega
      have h2 : size z.dims = rows e * row e := size_split (e := e) hs
      rw [h2, h1, Nat.add_mul, Nat.one_mul] at hlt
      omega
    have hnx : (bufAt s z buf a q (row e) n m).nextE t = (bufAt s z buf a (q + 1) 0 n m).takeE t := by
      unfold nextE
      rw [if_pos (show (bufAt s z buf a q (row e) n m).innerIndex = (bufAt s z buf a q (row e) n m).innerLimit
        from rfl), stepOuterE_bufAt hw hq1]
      rfl
    have hn' : (q + 1) * row e + 0 = n := by rw [Nat.add_mul, Nat.one_mul]; exact hn
    rw [hnx]
    refine ⟨?_, q + 1, 1, by omega, hq1, by omega, takeE_buf hw hr hrow t⟩
    have := take_buf hw hR hs hq1 hrow hy t
    rw [hn'] at this
    exact this
  · have hcl : c < row e := by omega
    have hnx : (bufAt s z buf a q c n m).nextE t = (bufAt s z buf a q c n m).takeE t := by
      unfold nextE
      rw [if_neg (show ¬ (bufAt s z buf a q c n m).innerIndex = (bufAt s z buf a q c n m).innerLimit from hcr)]
    rw [hnx]
    refine ⟨?_, q, c + 1, by omega, hq, by omega, takeE_buf hw hr hcl t⟩
    have := take_buf hw hR hs hq hcl hy t
    rw [hn] at this
    exact this

theorem afterAll_buf (hw : (withBuf s z buf a 0).Wf) (hR : Sound (withBuf s z buf a 0)) (hr : Resumes a)
    (hs : 0 < size z.dims) (hl : buf.length = size z.dims) {n k : Nat} {it : Iter σ (α × β)}
    (h : AfterAll (withBuf s z buf a 0) n k it) :
    ∃ q c, it = bufAt s z buf a q c n (n - k) ∧ q * row (withBuf s z buf a 0) + c = n ∧
      q < rows (withBuf s z buf a 0) ∧ c ≤ row (withBuf s z buf a 0) ∧ k ≤ n := by
  have hp : Plain (withBuf s z buf a 0) := Or.inl hs
  have hb : ¬ BadFn (withBuf s z buf a 0) := notBad_of_regular hR
  have hlt : ∀ {n k it}, AfterAll (withBuf s z buf a 0) n k it →
      (∃ t, ∀ it' u, it.nextE t ≠ .ok none it' u) → n < size z.dims := by
    intro n k it h ⟨t, ht⟩
    have := (next_count hw hp hb (afterAll_after h)).2 t
    cases hx : it.nextE t with
    | ok x it' u =>
      rw [hx] at this
      cases x with
      | none => exact (ht _ _ hx).elim
      | some x => exact this
    | _ => rw [hx] at this; exact this
  induction h with
  | new =>
    refine ⟨0, 0, ?_, by simp, rows_pos _, Nat.zero_le _, le_refl _⟩
    rw [new_eq hw hR]
    rfl
  | @item n k it x it' t u h hn ih =>
    obtain ⟨q, c, rfl, h1, h2, h3, h4⟩ := ih
    have hlt' := hlt h ⟨t, fun _ _ h' => by rw [hn] at h'; cases h'⟩
    obtain ⟨-, q', c', g1, g2, g3, g4⟩ := nextE_buf hw hR hr hs h1 hlt' h2 h3
      (List.getElem?_eq_getElem (show n - k < buf.length by omega)) t
    rw [hn] at g4
    rw [show n + 1 - k = n - k + 1 by omega]
    exact ⟨q', c', g4, g1, g2, g3, by omega⟩
  | @panic n k it it' t u h hn ih =>
    obtain ⟨q, c, rfl, h1, h2, h3, h4⟩ := ih
    have hlt' := hlt h ⟨t, fun _ _ h' => by rw [hn] at h'; cases h'⟩
    obtain ⟨-, q', c', g1, g2, g3, g4⟩ := nextE_buf hw hR hr hs h1 hlt' h2 h3
      (List.getElem?_eq_getElem (show n - k < buf.length by omega)) t
    rw [hn] at g4
    rw [show n + 1 - (k + 1) = n - k by omega]
    exact ⟨q', c', g4, g1, g2, g3, by omega⟩

end
end Iter
end Model
