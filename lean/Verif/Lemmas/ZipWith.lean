import Verif.Lemmas.Drain
import Verif.Lemmas.Assign
import Verif.Lemmas.Reach

/-! Rules for the in-place `zip_with`. -/

namespace Model
open Spec Expr Iter

variable {σ T α β : Type}

theorem post_zipStep {f : T → β → M σ T} (hf : ∀ x y, (f x y).Tame) {t : σ} {o : Own T} {n : Nat} {y : β}
    {ys r : List T} {x : T} {rest : List (Option T)}
    (h : o.cells = ys.map some ++ (x :: r).map some ++ rest) (hn : ys.length = n) :
    M.Post (zipStep f ((n : Int), y)) ((t, o), n)
      (fun _ u => ∃ z, f x y t = .ok z u.1.1 ∧ u.2 = n + 1 ∧
        u.1.2 = { o with cells := (ys ++ [z]).map some ++ r.map some ++ rest })
      (fun u => f x y t = .panic u.1.1 ∧ u.2 = n + 1 ∧
        u.1.2 = { o with cells := ys.map some ++ none :: r.map some ++ rest }) := by
  have h' : o.cells = ys.map some ++ some x :: (r.map some ++ rest) := by rw [h]; simp
  have e1 := takeCell_eq (p := n) t h' (by simp [hn])
  refine M.Post.bind (M.post_of_eq (a := ()) (t := ((t, o), n + 1)) (Q := fun _ u => u = ((t, o), n + 1))
    rfl rfl) ?_
  rintro - - rfl
  refine M.Post.bind (P := fun a u => a = x ∧ u = ((t, ({ o with
    cells := ys.map some ++ none :: (r.map some ++ rest) } : Own T)), n + 1)) (M.post_up (M.post_of_eq
      (a := x) (by simpa using e1) ⟨rfl, rfl⟩)) ?_
  rintro a - ⟨ha, rfl⟩
  subst a
  refine M.Post.bind (P := fun z u => f x y t = .ok z u.1.1 ∧ u.2 = n + 1 ∧ u.1.2 = ({ o with
    cells := ys.map some ++ none :: (r.map some ++ rest) } : Own T)) (M.post_up (M.post_up
      (((hf x y).post t).mono ?_ ?_))) ?_
  · intro z t' h1
    exact ⟨h1, rfl, rfl⟩
  · intro t' h1
    exact ⟨h1, rfl, by simp⟩
  · rintro z ⟨⟨t', o'⟩, n'⟩ ⟨h1, h2, h3⟩
    simp only at h1 h2 h3
    subst h2 h3
    have e2 := writeCell_eq (o := { o with cells := ys.map some ++ none :: (r.map some ++ rest) })
      (p := n) t' z rfl (by simp [hn])
    refine M.post_up (M.post_of_eq (a := ()) (by simpa using e2) ⟨z, h1, rfl, by simp⟩)

theorem post_zipGuard {s : σ} {o : Own T} {n len : Nat} {as bs : List T} {gap rest : List (Option T)} {R}
    (h : o.cells = as.map some ++ gap ++ bs.map some ++ rest) (ha : as.length = n - 1)
    (hg : as.length + gap.length = n) (hl : len - n = bs.length) :
    M.Post (zipGuard len) ((s, o), n)
      (fun _ u => u.1.1 = s ∧ u.1.2.log = o.log ++ as ++ bs ∧ u.1.2.limit = o.limit) R := by
  refine M.Post.bind (M.post_get (Q := fun a t => a = ((s, o), n) ∧ t = ((s, o), n)) ⟨rfl, rfl⟩) ?_
  rintro - - ⟨rfl, rfl⟩
  refine M.Post.bind (P := fun _ t => t = ((s, ({ o with
    cells := List.replicate as.length none ++ gap ++ bs.map some ++ rest
    log := o.log ++ as } : Own T)), n)) ?_ ?_
  · by_cases hn : 1 < n
    · rw [if_pos hn]
      have e := dropCells_eq (o := o) (pre := []) (ys := as) (xs := gap ++ bs.map some ++ rest)
        (n := n - 1) s (by rw [h]; simp) ha.symm
      refine M.post_up (M.post_of_eq (a := ()) e ?_)
      simp
    · rw [if_neg hn]
      have : as = [] := List.eq_nil_of_length_eq_zero (by omega)
      subst this
      refine M.post_pure ?_
      simp only [List.length_nil, List.replicate_zero, List.nil_append, List.append_nil]
      rw [← show o.cells = gap ++ bs.map some ++ rest by rw [h]; simp]
  · rintro - - rfl
    have e := dropCells_eq (o := { o with
      cells := List.replicate as.length none ++ gap ++ bs.map some ++ rest
      log := o.log ++ as }) (pre := List.replicate as.length none ++ gap) (ys := bs) (xs := rest)
      (n := len - n) s rfl hl
    have hlen : (List.replicate as.length (none : Option T) ++ gap).length = n := by simp [hg]
    rw [hlen] at e
    exact M.post_up (M.post_of_eq (a := ()) e ⟨rfl, rfl, rfl⟩)

theorem post_zipWith {s : σ} {o : Own T} {xs : List T} {e : Expr σ β} {f : T → β → M σ T}
    (h : Holds o xs) (hb : Built e) (ht : TameItems e) (hf : ∀ x y, (f x y).Tame)
    (hs : ∀ z, zipNew (view false (whole o.shape)) e = some z → Sound z ∧
      (size z.dims = 0 → size (z.dims.drop z.outerRank) = 0)) :
    M.Post (zipWith e f) (s, o)
      (fun _ t => CanCast e o.shape.dims ∧ ∃ ys,
        Ran (zipItem o.shape.dims xs e f) (size o.shape.dims) s ys t.1 ∧ Holds t.2 ys ∧
          t.2.shape = o.shape ∧ t.2.log = o.log ∧ t.2.limit = o.limit ∧
          t.2.cells.length = o.cells.length)
      (fun t => (¬ CanCast e o.shape.dims ∧ t.1 = s ∧ t.2.log = o.log ++ xs) ∨
        (CanCast e o.shape.dims ∧ ∃ k ys, 
          (ZipStopped o.shape.dims xs e f s k ys t.1 false ∧ t.2.log = o.log ++ ys ++ xs.drop (k + 1)) ∨
          (ZipStopped o.shape.dims xs e f s k ys t.1 true ∧
            t.2.log = o.log ++ ys.take (k - 1) ++ xs.drop k))) := by
  have hwf : (whole o.shape).map.WF := Mapping.wf_dense.2 h.1
  have hsome := zipNew_view_isSome (σ := σ) hwf hb
  obtain ⟨rest, hcells⟩ := h.2.2
  have hlen : Shape.len o.shape = xs.length := by rw [Shape.len_eq, h.2.1]
  show M.Post (M.bind (M.scope 0 (M.onPanic (M.bind (M.lift (zipNew (view false (whole o.shape))
      (e.up.up : Expr ((σ × Own T) × Nat) β))) fun z => z.forEach (zipStep f))
      (zipGuard o.shape.len))) fun _ => M.pure ()) (s, o) _ _
  rw [show (view false (whole o.shape) : Expr ((σ × Own T) × Nat) Int) =
    ((view false (whole o.shape) : Expr σ Int).up : Expr (σ × Own T) Int).up from rfl, up_zipNew, up_zipNew]
  refine M.Post.bind (P := fun _ t => CanCast e o.shape.dims ∧ ∃ ys,
        Ran (zipItem o.shape.dims xs e f) (size o.shape.dims) s ys t.1 ∧ Holds t.2 ys ∧
          t.2.shape = o.shape ∧ t.2.log = o.log ∧ t.2.limit = o.limit ∧
          t.2.cells.length = o.cells.length) (M.post_scope (M.post_onPanic ?_))
    fun _ t h => M.post_pure h
  cases hz : zipNew (view false (whole o.shape) : Expr σ Int) e with
  | none =>
    rw [hz] at hsome
    have hcc : ¬ CanCast e o.shape.dims := fun h => by simpa using hsome.2 h
    refine (M.Post.mono (post_zipGuard (s := s) (o := o) (n := 0) (len := o.shape.len) (as := []) (bs := xs)
      (gap := []) (rest := rest) (by simp [hcells]) rfl rfl (by rw [hlen]; rfl)) ?_ (fun _ h => h) :
      M.Post (zipGuard o.shape.len) ((s, o), 0) _ _)
    rintro - u ⟨h1, h2, -⟩
    exact .inl ⟨hcc, h1, by rw [h2]; simp⟩
  | some z =>
    rw [hz] at hsome
    have hcc : CanCast e o.shape.dims := hsome.1 rfl
    obtain ⟨hd, hi⟩ := zip_view hz
    replace hd : z.dims = o.shape.dims := hd
    replace hi : ∀ n p, (whole o.shape).index (unrank o.shape.dims n) = some p →
      item z n (unrank o.shape.dims n) = M.bind (castItem o.shape.dims e n) fun y => M.pure (p, y) := hi
    have htame : ∀ n, n < size o.shape.dims → (castItem o.shape.dims e n).Tame := by
      intro n hn
      refine ht n _ ?_
      rw [List.suffix_iff_eq_drop.1 hcc.1]
      have hl : e.dims.length ≤ o.shape.dims.length := hcc.1.length_le
      rw [List.length_drop, show o.shape.dims.length - (o.shape.dims.length -
        (o.shape.dims.length - e.dims.length)) = o.shape.dims.length - e.dims.length by omega]
      exact (unrank_valid hn).drop _
    have hup : ((z.up : Expr (σ × Own T) (Int × β)).dims) = o.shape.dims := by
      show (z.up : Expr (σ × Own T) (Int × β)).shape.dims = _
      rw [up_shape]; exact hd
    have := post_fold_up (ρ := Nat) (τ := Unit) (e := (z.up : Expr (σ × Own T) (Int × β)))
      (up_built (.zip (.view hwf) hb hz)) (up_sound (hs z hz).1)
      (by rw [hup, up_outerRank, ← hd]; exact (hs z hz).2)
      (f := fun _ x => zipStep f x)
      (R := fun u => ∃ k ys, (ZipStopped o.shape.dims xs e f s k ys u.1.1 false ∧ u.2 = k + 1 ∧
          u.1.2.cells = ys.map some ++ none :: (xs.drop (k + 1)).map some ++ rest ∧ u.1.2.log = o.log) ∨
        (ZipStopped o.shape.dims xs e f s k ys u.1.1 true ∧ u.2 = k ∧
          u.1.2.cells = ys.map some ++ (xs.drop k).map some ++ rest ∧ u.1.2.log = o.log))
      (I := fun n _ u => n ≤ size o.shape.dims → ∃ ys, Ran (zipItem o.shape.dims xs e f) n s ys u.1.1 ∧ u.2 = n ∧
        u.1.2 = { o with cells := ys.map some ++ (xs.drop n).map some ++ rest })
      (by
        rintro n hn - ⟨⟨t, o'⟩, m⟩ hI
        rw [hup] at hn
        obtain ⟨ys, h1, h2, h3⟩ := hI hn.le
        have h1' : Ran (zipItem o.shape.dims xs e f) n s ys t := h1
        simp only at h2 h3
        subst h2 h3
        rw [hup, up_item]
        have hidx : (whole o.shape).index (unrank o.shape.dims m) = some (m : Int) := by
          rw [View.index_whole h.1, if_pos (unrank_valid hn), rowMajor_unrank hn]
        rw [hi m m hidx]
        have hx : m < xs.length := by rw [h.2.1]; exact hn
        simp only [M.up_bind, M.up_pure]
        refine M.Post.bind (P := fun y u => ∃ t', castItem o.shape.dims e m t = .ok y t' ∧
          u = ((t', ({ o with cells := ys.map some ++ (xs.drop m).map some ++ rest } : Own T)), m))
          (M.post_up (M.post_up (((htame m hn).post t).mono ?_ ?_))) ?_
        · intro y t' h
          exact ⟨t', h, rfl⟩
        · intro t' h
          exact ⟨m, ys, .inr ⟨⟨hn, t, h1', .inl ⟨rfl, h⟩⟩, rfl, rfl, rfl⟩⟩
        · rintro y - ⟨t', hy, rfl⟩
          refine M.post_pure ?_
          have hdrop : xs.drop m = xs[m] :: xs.drop (m + 1) := List.drop_eq_getElem_cons hx
          have hstep : ∀ z t'', f xs[m] y t' = .ok z t'' → zipItem o.shape.dims xs e f m t = .ok z t'' := by
            intro z t'' hz
            simp only [zipItem, M.bind, hy, List.getElem?_eq_getElem hx, orUb, M.pure, hz]
          refine M.Post.mono (post_zipStep (x := xs[m]) (r := xs.drop (m + 1)) (ys := ys) (rest := rest) hf
            (by rw [hdrop]) h1'.length) ?_ ?_
          · rintro - u ⟨z, h4, h5, h6⟩ -
            exact ⟨ys ++ [z], h1'.succ (hstep z _ h4), h5, h6⟩
          · rintro u ⟨h4, h5, h6⟩
            refine ⟨m, ys, .inl ⟨⟨hn, t, h1', .inr ⟨rfl, y, t', hy, xs[m], List.getElem?_eq_getElem hx, h4⟩⟩, h5,
              ?_, ?_⟩⟩
            · rw [h6]
            · rw [h6])
      (acc := ()) (s := ((s, o), 0)) (fun _ => ⟨[], ran_zero, rfl, by simp [hcells]⟩)
    rw [hup] at this
    refine M.Post.mono this ?_ ?_
    · rintro - ⟨⟨t, o'⟩, m⟩ hI
      obtain ⟨ys, h1, h2, h3⟩ := hI le_rfl
      simp only at h3
      subst h3
      have hl : ys.length = size o.shape.dims := h1.length
      refine ⟨hcc, ys, h1, ⟨h.1, hl, ?_⟩, rfl, rfl, rfl, ?_⟩
      · simp only [List.append_assoc]; exact List.prefix_append _ _
      · simp only [← hcells, List.length_append, List.length_map, List.length_drop, h.2.1, hl]; omega
    · rintro ⟨⟨t, o'⟩, m⟩ ⟨k, ys, h1⟩
      rcases h1 with ⟨h1, h2, h3, h4⟩ | ⟨h1, h2, h3, h4⟩
      · simp only at h2 h3 h4
        subst h2
        have hyl : ys.length = k := by obtain ⟨-, t0, hr, -⟩ := h1; exact hr.length
        refine M.Post.mono (post_zipGuard (s := t) (o := o') (n := k + 1) (len := o.shape.len) (as := ys)
          (bs := xs.drop (k + 1)) (gap := [none]) (rest := rest) (by rw [h3]; simp) (by omega)
          (by simp [hyl]) (by rw [hlen, List.length_drop])) ?_ (fun _ h => h)
        rintro - u ⟨h5, h6, -⟩
        exact .inr ⟨hcc, k, ys, .inl ⟨by rw [h5]; exact h1, by rw [h6, h4]⟩⟩
      · simp only at h2 h3 h4
        subst h2
        have hyl : ys.length = m := by obtain ⟨-, t0, hr, -⟩ := h1; exact hr.length
        refine M.Post.mono (post_zipGuard (s := t) (o := o') (n := m) (len := o.shape.len)
          (as := ys.take (m - 1)) (bs := xs.drop m) (gap := (ys.drop (m - 1)).map some) (rest := rest)
          (by rw [h3, ← List.map_append (l₁ := ys.take (m - 1)), List.take_append_drop]) (by rw [List.length_take]; omega)
          (by rw [List.length_map, List.length_take, List.length_drop]; omega)
          (by rw [hlen, List.length_drop])) ?_ (fun _ h => h)
        rintro - u ⟨h5, h6, -⟩
        exact .inr ⟨hcc, m, ys, .inr ⟨by rw [h5]; exact h1, by rw [h6, h4]⟩⟩


end Model
