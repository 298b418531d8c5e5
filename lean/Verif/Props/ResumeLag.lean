import Verif.Lemmas.ResumeZip
import Verif.Props.Resume

/-!
C74 where it does not hold: which items come after a panic in `from_fn`, or in front of an array whose elements
are moved out (B20).
-/

namespace Props
open Model Spec
open Model.Expr Model.Iter

variable {σ α β : Type}

/-- The second part of C74 without conditions on where panics come from: the iteration ends after as many calls
as there are items, not earlier and not later. Excluded is only `from_fn` with a dynamic rank, which panics by
itself. -/
theorem C74_count (e : Expr σ α) (hb : Built e) (hp : Plain e) (hd : ¬ BadFn e) (n : Nat) (it : Iter σ α)
    (h : After e n it) :
    n ≤ size e.dims ∧ ∀ s, (∃ it' t, it.nextE s = .ok none it' t) ↔ n = size e.dims := by
  obtain ⟨h1, h2⟩ := next_count (wf_of_built hb) hp hd h
  refine ⟨h1, fun s => ⟨?_, fun hn => ?_⟩⟩
  · rintro ⟨it', t, hx⟩
    have := h2 s
    rw [hx] at this
    exact this
  · have := h2 s
    cases hx : it.nextE s with
    | ok x it' t =>
      rw [hx] at this
      cases x with
      | none => exact ⟨_, _, rfl⟩
      | some x => have : n < size e.dims := this; omega
    | panic it' t => rw [hx] at this; have : n < size e.dims := this; omega
    | ub => rw [hx] at this; have : n < size e.dims := this; omega
    | abort => rw [hx] at this; have : n < size e.dims := this; omega

/-- C74_count: `retried` of C74_violated ends after two calls although only one of them returns an item. -/
example : Built retried ∧ Plain retried ∧ ¬ BadFn retried ∧ ∃ it, After retried 2 it ∧
    ∃ it', it.nextE 1 = .ok none it' 1 :=
  ⟨.fromFn (s := ⟨.static [.dyn], [2]⟩) (f := onceFn) (by decide) rfl, .inl (by decide), (fun h => nomatch h.1), _,
    .item (s := 1) (t := 1) (.panic (s := 0) (t := 1) .new rfl) rfl, _, rfl⟩

/-- C74, exactly, for `from_fn`: if `k` of the calls for the current row have panicked then the call number `n`
passes the index of the item number `n - k`. So indices are repeated, and at the end of a row with `k` panics
the last `k` indices have not been used. -/
theorem C74_from_fn_exact (s : Shape) (f : List Nat → M σ α) (e : Expr σ α) (hw : s.WF)
    (he : Expr.fromFnNew s f = some e) (hd : s.ty ≠ .dynRank) (hs : 0 < size s.dims) (hr : s.dims ≠ [])
    (n k : Nat) (it : Iter σ α) (h : AfterRow e (s.dims.getLastD 0) n k it) (hn : n < size s.dims) (t : σ) :
    (it.nextE t).result = M.bind (f (unrank s.dims (n - inRow (s.dims.getLastD 0) n k)))
      (fun x => M.pure (some x)) t := by
  obtain ⟨idx, rfl⟩ : ∃ idx, e = .fromFn s idx f := by
    unfold Expr.fromFnNew at he
    simp only [Option.map_eq_some_iff] at he
    obtain ⟨_, -, rfl⟩ := he
    exact ⟨_, rfl⟩
  have hwf : (Expr.fromFn s idx f).Wf := wf_of_built (.fromFn hw he)
  have hb : ¬ BadFn (Expr.fromFn s idx f) := fun h => hd h.1
  have hrow : row (Expr.fromFn s idx f) = s.dims.getLastD 0 := by
    have h1 : 0 < s.dims.length := List.length_pos_iff.2 hr
    have ho : (Expr.fromFn s idx f).outerRank = s.dims.length - 1 := by
      unfold outerRank
      simp only [innerRank, if_pos h1]
      rfl
    unfold row
    rw [ho]
    change size (s.dims.drop (s.dims.length - 1)) = _
    rw [List.drop_length_sub_one hr]
    simp [List.getLastD_eq_getLast?, List.getLast?_eq_getLast_of_ne_nil hr]
  rw [← hrow] at h ⊢
  obtain ⟨q, c, rfl, h1, h2, h3, h4, h5⟩ := afterRow_lag hwf hb hs hr h
  exact (nextE_lag hwf hb hs hr h1 hn h2 h3 h4 h5 t).1

/-- Pairs of the coordinates of a `[2, 3]` array, by a closure that panics when it is called for the second
time. -/
def stalled : Expr Nat (Nat × Nat) := .fromFn ⟨.static [.dyn, .dyn], [2, 3]⟩ [0, 0] fun j s =>
  if s = 1 then .panic 2 else .ok (j.getD 0 0, j.getD 1 0) (s + 1)

/-- C74_from_fn_exact: after a panic in the first row `[0, 1]` is passed again, and then the second row starts as
it should; `[0, 2]` is never passed. -/
example : Expr.fromFnNew (⟨.static [.dyn, .dyn], [2, 3]⟩ : Shape) (fun j (s : Nat) =>
      if s = 1 then .panic 2 else .ok (j.getD 0 0, j.getD 1 0) (s + 1)) = some stalled ∧
    ∃ it₁ it₂ it₃ it₄, (Iter.new stalled).nextE 0 = .ok (some (0, 0)) it₁ 1 ∧ it₁.nextE 1 = .panic it₂ 2 ∧
      it₂.nextE 2 = .ok (some (0, 1)) it₃ 3 ∧ it₃.nextE 3 = .ok (some (1, 0)) it₄ 4 ∧
      AfterRow stalled 3 2 1 it₂ :=
  ⟨rfl, _, _, _, _, rfl, rfl, rfl, rfl,
    .panic (s := 1) (t := 2) (.item (s := 0) (t := 1) .new rfl) rfl⟩

/-- C74, exactly, for items that are combined with an array whose elements are moved out: after `n` calls of
which `k` have panicked (in `a`, which goes on with its next item) the item number `n` of `a` comes with the
element number `n - k` of the array. -/
theorem C74_zip_exact (a : Expr σ α) (s : Shape) (buf : List β) (e : Expr σ (α × β)) (ha : Built a)
    (hw : s.WF) (hl : buf.length = size s.dims) (he : Expr.zipNew a (.intoExpr s buf 0) = some e) (hS : Sound e)
    (h0 : 0 < size e.dims) (hr : Resumes a) (n k : Nat) (it : Iter σ (α × β)) (h : AfterAll e n k it)
    (hn : n < size e.dims) :
    k ≤ n ∧ ∃ y, buf[n - k]? = some y ∧ ∀ t, (it.nextE t).result =
      M.bind (item a n ((unrank e.dims n).drop (e.dims.length - a.dims.length)))
        (fun x => M.pure (some (x, y))) t := by
  have hb : Built e := .zip ha (.intoExpr hw hl) he
  have hwf := wf_of_built hb
  obtain ⟨z, hz, rfl⟩ : ∃ z, zipShape a (.intoExpr s buf 0) = some z ∧ e = withBuf s z buf a 0 := by
    unfold Expr.zipNew at he
    simp only [Option.map_eq_some_iff] at he
    obtain ⟨z, hz, rfl⟩ := he
    exact ⟨z, hz, rfl⟩
  have hlen : buf.length = size z.dims := (owned_size hwf.wfs).1 (0, buf.length) (by simp [withBuf, owned])
  obtain ⟨q, c, rfl, h1, h2, h3, h4⟩ := afterAll_buf hwf hS hr h0 hlen h
  replace hn : n < size z.dims := hn
  have hy := List.getElem?_eq_getElem (show n - k < buf.length by omega)
  exact ⟨h4, _, hy, fun t => (nextE_buf hwf hS hr h0 h1 hn h2 h3 hy t).1⟩

/-- C74_zip_exact: `shifted` of C74_violated. -/
example : Expr.zipNew (.map (.view true ⟨0, .dense ⟨.static [.dyn], [2]⟩⟩) fun x (s : Nat) =>
      if s = 0 then .panic 1 else .ok x s) (.intoExpr ⟨.static [.dyn], [2]⟩ [10, 11] 0) = some shifted ∧
    Sound shifted ∧ ∃ it, AfterAll shifted 1 1 it ∧ ∃ it', it.nextE 1 = .ok (some (1, 10)) it' 1 :=
  ⟨rfl, ⟨trivial, trivial⟩, _, .panic (s := 0) (t := 1) .new rfl, _, rfl⟩

end Props
