import Verif.Lemmas.Raw
import Verif.Spec.Raw
import Verif.Lemmas.ZipWith

/-! Operations of owned arrays with arbitrary expressions, as long as there are no phantom rows. -/

namespace Model
open Spec Expr Iter

variable {σ T α β : Type}

theorem _root_.Spec.Stopped.congr {step step' : Nat → M σ α} {n k : Nat} {s t : σ} {ys : List α}
    (h : Stopped step n s k ys t) (he : ∀ k, k < n → step k = step' k) : Stopped step' n s k ys t := by
  obtain ⟨h1, u, h2, h3⟩ := h
  exact ⟨h1, u, h2.congr fun k hk => he k (by omega), by rw [← he k h1]; exact h3⟩

theorem forEach_mimic {ρ : Type} {e : Expr σ α} (hb : Built e) (he : BadFn e → 0 < row e)
    (hp : size e.dims = 0 → size (e.dims.drop e.outerRank) = 0) (f : α → M (σ × ρ) Unit) :
    (e.up : Expr (σ × ρ) α).forEach f = ((mimic e).up : Expr (σ × ρ) α).forEach f :=
  mimic_fold hb he hp _ _

theorem expand_mimic {e : Expr σ α} (hb : Built e) (c : α → M σ T) :
    expand e c = expand (mimic e) c := by
  unfold expand
  by_cases h0 : 0 < e.shape.len
  · have hpos : 0 < size e.dims := by rw [Shape.len_eq] at h0; exact h0
    have hc : cloneIntoVec e c = cloneIntoVec (mimic e) c := by
      unfold cloneIntoVec
      rw [forEach_mimic hb (fun _ => ?_) (fun h => by omega)]
      · rfl
      · have := size_split hpos
        rcases Nat.eq_zero_or_pos (row e) with h | h
        · rw [h] at this; omega
        · exact h
    rw [hc]
    rfl
  · have h1 : ¬ 0 < (mimic e).shape.len := h0
    rw [if_neg h0, if_neg h1]

theorem tensorFromExpr_mimic {e : Expr σ T} (hb : Built e) (he : BadFn e → 0 < row e)
    (hp : size e.dims = 0 → size (e.dims.drop e.outerRank) = 0) :
    tensorFromExpr e = tensorFromExpr (mimic e) := by
  have hc : cloneIntoVec e M.pure = cloneIntoVec (mimic e) (M.pure : T → M σ T) := by
    unfold cloneIntoVec
    rw [forEach_mimic hb he hp]
    rfl
  unfold tensorFromExpr
  rw [hc]
  rfl

theorem arrayFromExpr_mimic {ty : ShapeTy} {e : Expr σ T} (hb : Built e) (he : BadFn e → 0 < row e)
    (hp : size e.dims = 0 → size (e.dims.drop e.outerRank) = 0) :
    arrayFromExpr ty e = arrayFromExpr ty (mimic e) := by
  unfold arrayFromExpr
  rw [forEach_mimic hb he hp]
  rfl

theorem step_mimic (e : Expr σ α) (c : α → M σ T) {n : Nat} (hn : n < size e.dims) :
    itemStep (mimic e) c n = M.bind (rawNth e n) c := by
  unfold itemStep
  rw [show (mimic e).dims = e.dims from rfl, mimic_item e hn]

theorem post_expand_raw {e : Expr σ α} (hb : Built e) (ht : TameRaw e)
    {c : α → M σ T} (hc : ∀ y, (c y).Tame) {s : σ} {o : Own T} {xs : List T} (h : Holds o xs) :
    M.Post (expand e c) (s, o)
      (fun _ t => (0 < o.shape.rank ∧ o.shape.ty.head = .dyn) ∧
        ((size e.dims = 0 ∧ t = (s, o)) ∨
        (0 < size e.dims ∧ Fits o.shape e.dims ∧ ∃ ys,
          Ran (fun n => M.bind (rawNth e n) c) (size e.dims) s ys t.1 ∧
          Holds t.2 (xs ++ ys) ∧ t.2.shape.ty = o.shape.ty ∧ t.2.shape.dims =
            (if size o.shape.dims = 0 then e.dims else
              (o.shape.dims.getD 0 0 + e.dims.getD 0 0) :: o.shape.dims.tail) ∧
          t.2.log = o.log ∧ t.2.limit = o.limit)))
      (fun t => (t.1 = s ∧ Same o t.2 xs ∧ (¬ (0 < o.shape.rank ∧ o.shape.ty.head = .dyn) ∨
          (0 < size e.dims ∧ (¬ Fits o.shape e.dims ∨ o.limit < xs.length + size e.dims)))) ∨
        (0 < size e.dims ∧ Fits o.shape e.dims ∧ ∃ k ys,
          Stopped (fun n => M.bind (rawNth e n) c) (size e.dims) s k ys t.1 ∧
          Holds t.2 [] ∧ t.2.shape = Shape.default o.shape.ty ∧ t.2.log = o.log ++ (xs ++ ys) ∧
          t.2.limit = o.limit)) := by
  rw [expand_mimic hb]
  refine (post_expand (mimic_built (wf_of_built hb)) (mimic_sound e) (mimic_tame ht) hc h).mono ?_ ?_
  · rintro - t ⟨h1, h2 | ⟨h2, h3, ys, h4, h5⟩⟩
    · exact ⟨h1, .inl h2⟩
    · exact ⟨h1, .inr ⟨h2, h3, ys, h4.congr fun k hk => step_mimic e c hk, h5⟩⟩
  · rintro t (h1 | ⟨h2, h3, k, ys, h4, h5⟩)
    · exact .inl h1
    · exact .inr ⟨h2, h3, k, ys, h4.congr fun k hk => step_mimic e c hk, h5⟩

theorem forEach_bad {ρ : Type} {e : Expr σ α} (hb : Built e) (he : BadFn e) (hr : row e = 0)
    (f : α → M (σ × ρ) Unit) : (e.up : Expr (σ × ρ) α).forEach f = M.panic :=
  fold_bad_zero (wf_of_built (up_built hb)) (up_badFn.2 he)
    (by rw [← hr]; simp [row, Expr.dims]) _ _

theorem post_tensorFromExpr_raw {e : Expr σ T} (hb : Built e) (ht : TameRaw e)
    (hp : size e.dims = 0 → size (e.dims.drop e.outerRank) = 0) (s : σ) (o : Own T) :
    M.Post (tensorFromExpr e) (s, o)
      (fun _ t => ∃ ys, Ran (rawNth e) (size e.dims) s ys t.1 ∧
        Holds t.2 ys ∧ t.2.shape = e.shape ∧ t.2.log = o.log)
      (fun t => ((o.limit < size e.dims ∨ (BadFn e ∧ size e.dims = 0)) ∧ t.1 = s ∧ t.2.log = o.log) ∨
        ∃ k ys, Stopped (rawNth e) (size e.dims) s k ys t.1 ∧ t.2.log = o.log ++ ys) := by
  by_cases he : BadFn e ∧ row e = 0
  · obtain ⟨he, hr⟩ := he
    have hz : size e.dims = 0 := by
      rcases Nat.eq_zero_or_pos (size e.dims) with h | h
      · exact h
      · rw [size_split h, hr, Nat.mul_zero]
    have hlen : e.shape.len = 0 := by rw [Shape.len_eq]; exact hz
    unfold M.Post tensorFromExpr cloneIntoVec
    rw [forEach_bad hb he hr]
    simp [M.bind_eq, M.bind, upd, own, M.lift, hlen, check, M.onPanic, dropCells, M.panic, hz, he]
  · have he' : BadFn e → 0 < row e := fun h => Nat.pos_of_ne_zero fun h0 => he ⟨h, h0⟩
    rw [tensorFromExpr_mimic hb he' hp]
    refine (post_tensorFromExpr (mimic_built (wf_of_built hb)) (mimic_sound e) (mimic_tame ht)
      (shape_wf (wf_of_built (mimic_built (wf_of_built hb)))) (by rw [mimic_outerRank]; exact id) s o).mono ?_ ?_
    · rintro - t ⟨ys, h1, h2⟩
      exact ⟨ys, h1.congr fun k hk => mimic_item e hk k, h2⟩
    · rintro t (⟨h1, h2⟩ | ⟨k, ys, h1, h2⟩)
      · exact .inl ⟨.inl h1, h2⟩
      · exact .inr ⟨k, ys, h1.congr fun k hk => mimic_item e hk k, h2⟩

theorem post_arrayFromExpr_raw {ty : ShapeTy} {e : Expr σ T} (hb : Built e) (ht : TameRaw e)
    (hp : size e.dims = 0 → size (e.dims.drop e.outerRank) = 0) (s : σ) (o : Own T) :
    M.Post (arrayFromExpr ty e) (s, o)
      (fun _ t => ty.Conforms e.dims ∧
        ∃ ys, Ran (rawNth e) (size e.dims) s ys t.1 ∧
          Holds t.2 ys ∧ t.2.shape = ⟨ty, e.dims⟩ ∧ t.2.log = o.log ∧ t.2.cells = ys.map some)
      (fun t => (¬ ty.Conforms e.dims ∧ t = (s, o)) ∨ (ty.Conforms e.dims ∧
        ((BadFn e ∧ size e.dims = 0 ∧ t.1 = s ∧ t.2.log = o.log) ∨
          ∃ k ys, Stopped (rawNth e) (size e.dims) s k ys t.1 ∧ t.2.log = o.log ++ ys))) := by
  by_cases he : BadFn e ∧ row e = 0
  · obtain ⟨he, hr⟩ := he
    have hz : size e.dims = 0 := by
      rcases Nat.eq_zero_or_pos (size e.dims) with h | h
      · exact h
      · rw [size_split h, hr, Nat.mul_zero]
    unfold M.Post arrayFromExpr
    rw [forEach_bad hb he hr, Shape.fromDims_eq]
    by_cases hc : ty.Conforms e.dims
    · simp [M.bind_eq, M.bind, upd, own, M.lift, M.onPanic, dropCells, M.panic, M.pure, hz, he, hc]
    · simp [M.bind_eq, M.bind, M.lift, M.panic, hc]
  · have he' : BadFn e → 0 < row e := fun h => Nat.pos_of_ne_zero fun h0 => he ⟨h, h0⟩
    rw [arrayFromExpr_mimic hb he' hp]
    refine (post_arrayFromExpr (mimic_built (wf_of_built hb)) (mimic_sound e) (mimic_tame ht)
      (by rw [mimic_outerRank]; exact id) s o).mono ?_ ?_
    · rintro - t ⟨h0, ys, h1, h2⟩
      exact ⟨h0, ys, h1.congr fun k hk => mimic_item e hk k, h2⟩
    · rintro t (h1 | ⟨h0, k, ys, h1, h2⟩)
      · exact .inl h1
      · exact .inr ⟨h0, .inr ⟨k, ys, h1.congr fun k hk => mimic_item e hk k, h2⟩⟩

/-- An operand without any known defect for which `zip_with` does the same. -/
def mimicOperand (z : Expr σ (Int × β)) (sh : Shape) : Expr σ β :=
  map (intoExpr sh (List.range (size sh.dims)) 0) (operand z)

theorem rawNth_zip {sh : Shape} (hw : sh.WF) {e : Expr σ β} {z}
    (hz : zipNew (view false (whole sh)) e = some z) {n : Nat} (hn : n < size sh.dims) :
    rawNth z n = M.bind (operand z n) fun y => M.pure ((n : Int), y) := by
  obtain ⟨hd, -⟩ := zip_view hz
  replace hd : z.dims = sh.dims := hd
  obtain ⟨s, rfl, -, -, -, -⟩ := zip_trailing hz
  have hsd : s.dims = sh.dims := hd
  have hv : visited (zip (view false (whole sh)) e s) = sh.dims := by
    rw [visited_of_pos (by rw [hd]; omega), hd]
  have hidx := View.index_whole hw (unrank sh.dims n)
  rw [View.index_eq _ (Mapping.wf_dense.2 hw), if_pos (show Valid (whole sh).dims (unrank sh.dims n) from unrank_valid hn),
    if_pos (unrank_valid hn), rowMajor_unrank hn] at hidx
  injection hidx with hidx
  unfold operand rawNth
  simp only [rawItem, hv, M.pure_bind, M.bind_assoc]
  rw [show (view false (whole sh) : Expr σ Int).dims = sh.dims from rfl, hsd, Nat.sub_self,
    List.drop_zero, hidx]

theorem zipWith_mimic {s : σ} {o : Own T} {e : Expr σ β} {f : T → β → M σ T} (hw : o.shape.WF)
    (hb : Built e) {z} (hz : zipNew (view false (whole o.shape)) e = some z)
    (he : BadFn z → 0 < row z) (hp : size z.dims = 0 → size (z.dims.drop z.outerRank) = 0) :
    zipWith e f (s, o) = zipWith (mimicOperand z o.shape) f (s, o) ∧
      Built (mimicOperand z o.shape) ∧
      (∀ n, n < size o.shape.dims → castItem o.shape.dims (mimicOperand z o.shape) n = operand z n) ∧
      ∀ z', zipNew (view false (whole o.shape)) (mimicOperand z o.shape) = some z' → Sound z' ∧
        (size z'.dims = 0 → size (z'.dims.drop z'.outerRank) = 0) := by
  have hwf : (whole o.shape).map.WF := Mapping.wf_dense.2 hw
  have hb' : Built (mimicOperand z o.shape) := .map (.intoExpr hw (by simp))
  have hcast : ∀ n, n < size o.shape.dims →
      castItem o.shape.dims (mimicOperand z o.shape) n = operand z n := by
    intro n hn
    unfold castItem
    simp only [mimicOperand, item]
    rw [show (map (intoExpr o.shape (List.range (size o.shape.dims)) 0) (operand z) : Expr σ β).dims =
      o.shape.dims from rfl, Nat.sub_self, List.drop_zero, rowMajor_unrank hn,
      List.getElem?_eq_getElem (by simpa using hn), List.getElem_range]
    rfl
  have hs' : ∀ z', zipNew (view false (whole o.shape)) (mimicOperand z o.shape) = some z' → Sound z' ∧
        z'.outerRank = 0 := by
    intro z' hz'
    obtain ⟨s', rfl, -⟩ := zip_trailing hz'
    refine ⟨by unfold Sound mimicOperand Regular Regular; exact ⟨trivial, trivial⟩, ?_⟩
    have hd : s'.dims = o.shape.dims := (zip_view hz').1
    unfold outerRank
    simp only [innerRank, mimicOperand, mapInnerRank]
    have : (whole o.shape).map.isDense = true := rfl
    rw [if_pos this]
    by_cases h0 : (whole o.shape).map.shape.ty.rank? = some 0
    · rw [if_pos h0]; rfl
    · rw [if_neg h0]
      show s'.dims.length - o.shape.dims.length = 0
      rw [hd]; exact Nat.sub_self _
  refine ⟨?_, hb', hcast, fun z' hz' => ⟨(hs' z' hz').1, by rw [(hs' z' hz').2]; exact id⟩⟩
  obtain ⟨z', hz'⟩ := Option.isSome_iff_exists.1 ((zipNew_view_isSome (σ := σ) hwf hb').2
    ⟨List.suffix_refl _, fun _ => rfl⟩)
  have hdz : z.dims = o.shape.dims := (zip_view hz).1
  have hdz' : z'.dims = o.shape.dims := (zip_view hz').1
  have hbz : Built z := .zip (.view hwf) hb hz
  have hbz' : Built z' := .zip (.view hwf) hb' hz'
  have hvis : size (visited z) = size o.shape.dims := by
    rw [← hdz]
    rcases Nat.eq_zero_or_pos (size z.dims) with h | h
    · rw [size_visited, h]; unfold row; rw [hp h, Nat.mul_zero]
    · rw [visited_of_pos h]
  have hvis' : size (visited z') = size o.shape.dims := by
    unfold visited
    rw [(hs' z' hz').2, hdz']; simp
  have hfold : ∀ g : Int × β → M ((σ × Own T) × Nat) Unit,
      ((z.up : Expr (σ × Own T) (Int × β)).up : Expr ((σ × Own T) × Nat) (Int × β)).forEach g =
      ((z'.up : Expr (σ × Own T) (Int × β)).up : Expr ((σ × Own T) × Nat) (Int × β)).forEach g := by
    intro g
    unfold Expr.forEach
    rw [fold_raw (wf_of_built (up_built (up_built hbz))), fold_raw (wf_of_built (up_built (up_built hbz')))]
    · simp only [up_visited, hvis, hvis']
      refine foldlM_congr (fun n hn a => ?_) ()
      have hn := List.mem_range.1 hn
      unfold visitRaw
      simp only [up_rawNth]
      have e1 := rawNth_zip hw hz hn
      have e2 := rawNth_eq (wf_of_built hbz') (hs' z' hz').1 (n := n) (by rw [hdz']; exact hn)
      have e3 : item z' n (unrank o.shape.dims n) = M.bind
          (castItem o.shape.dims (mimicOperand z o.shape) n) fun y => M.pure ((n : Int), y) :=
        (zip_view hz').2 n n (by
          show (whole o.shape).index (unrank o.shape.dims n) = _
          rw [View.index_whole hw, if_pos (unrank_valid hn), rowMajor_unrank hn])
      rw [hdz', e3, hcast n hn] at e2
      rw [e2, ← e1]
    · intro h
      exact absurd (up_badFn.1 (up_badFn.1 h)) (notBad_of_regular (hs' z' hz').1)
    · intro h
      rw [show row ((z.up : Expr (σ × Own T) (Int × β)).up : Expr ((σ × Own T) × Nat) (Int × β)) = row z by
        simp [row, Expr.dims]]
      exact he (up_badFn.1 (up_badFn.1 h))
  unfold zipWith
  have e0 : (Expr.view false ⟨0, .dense o.shape⟩ : Expr ((σ × Own T) × Nat) Int) =
    ((view false (whole o.shape) : Expr σ Int).up : Expr (σ × Own T) Int).up := rfl
  change M.bind (M.scope 0 (M.onPanic (M.bind (M.lift (zipNew _ _)) _) _)) _ (s, o) =
    M.bind (M.scope 0 (M.onPanic (M.bind (M.lift (zipNew _ _)) _) _)) _ (s, o)
  rw [e0, up_zipNew, up_zipNew, up_zipNew, up_zipNew, hz, hz']
  simp only [Option.map_some, M.lift_some, M.pure_bind, hfold]

theorem post_zipWith_raw {s : σ} {o : Own T} {xs : List T} {e : Expr σ β} {f : T → β → M σ T}
    (h : Holds o xs) (hb : Built e) (hf : ∀ x y, (f x y).Tame)
    (hs : ∀ z, zipNew (view false (whole o.shape)) e = some z → TameRaw z ∧
      (size z.dims = 0 → size (z.dims.drop z.outerRank) = 0)) :
    M.Post (zipWith e f) (s, o)
      (fun _ t => ∃ z, zipNew (view false (whole o.shape)) e = some z ∧ ∃ ys,
        Ran (zipResult xs (operand z) f) (size o.shape.dims) s ys t.1 ∧ Holds t.2 ys ∧
          t.2.shape = o.shape ∧ t.2.log = o.log)
      (fun t => (¬ CanCast e o.shape.dims ∧ t.1 = s ∧ t.2.log = o.log ++ xs) ∨
        ∃ z, zipNew (view false (whole o.shape)) e = some z ∧
          ((BadFn z ∧ size o.shape.dims = 0 ∧ t.1 = s ∧ t.2.log = o.log) ∨ ∃ k ys,
          (ZipStops (size o.shape.dims) xs (operand z) f s k ys t.1 false ∧
            t.2.log = o.log ++ ys ++ xs.drop (k + 1)) ∨
          (ZipStops (size o.shape.dims) xs (operand z) f s k ys t.1 true ∧
            t.2.log = o.log ++ ys.take (k - 1) ++ xs.drop k))) := by
  have hwf : (whole o.shape).map.WF := Mapping.wf_dense.2 h.1
  obtain ⟨rest, hcells⟩ := h.2.2
  have hlen : Shape.len o.shape = xs.length := by rw [Shape.len_eq, h.2.1]
  have hguard : M.Post (zipGuard o.shape.len) ((s, o), 0)
      (fun _ u => u.1.1 = s ∧ u.1.2.log = o.log ++ xs) (fun _ => False) :=
    M.Post.mono (post_zipGuard (s := s) (o := o) (n := 0) (len := o.shape.len) (as := []) (bs := xs)
      (gap := []) (rest := rest) (by simp [hcells]) rfl rfl (by rw [hlen]; rfl))
      (fun _ u ⟨h1, h2, _⟩ => ⟨h1, by rw [h2]; simp⟩) (fun _ h => h)
  have hun : zipWith e f (s, o) = M.bind (M.scope 0 (M.onPanic (M.bind (M.lift
      (Option.map Expr.up (Option.map Expr.up (zipNew (view false (whole o.shape)) e)))) fun z =>
        z.forEach (zipStep f)) (zipGuard o.shape.len))) (fun _ => M.pure ()) (s, o) := by
    unfold zipWith
    change M.bind (M.scope 0 (M.onPanic (M.bind (M.lift (zipNew _ _)) _) _)) _ (s, o) = _
    rw [show (Expr.view false ⟨0, .dense o.shape⟩ : Expr ((σ × Own T) × Nat) Int) =
      ((view false (whole o.shape) : Expr σ Int).up : Expr (σ × Own T) Int).up from rfl, up_zipNew, up_zipNew]
  cases hz : zipNew (view false (whole o.shape) : Expr σ Int) e with
  | none =>
    have hcc : ¬ CanCast e o.shape.dims := fun h => by
      have := (zipNew_view_isSome (σ := σ) hwf hb).2 h
      rw [hz] at this
      cases this
    unfold M.Post
    rw [hun, hz]
    change M.Post (M.bind (M.scope 0 (M.onPanic M.panic _)) _) (s, o) _ _
    refine M.Post.bind (P := fun _ _ => False) (M.post_scope (M.post_onPanic ?_)) (fun _ _ h => h.elim)
    refine (M.Post.mono hguard ?_ (fun _ h => h.elim) :
      M.Post (zipGuard o.shape.len) ((s, o), 0) _ _)
    exact fun _ u hu => .inl ⟨hcc, hu⟩
  | some z =>
    obtain ⟨ht, hp⟩ := hs z hz
    have hdz : z.dims = o.shape.dims := (zip_view hz).1
    by_cases he : BadFn z ∧ row z = 0
    · obtain ⟨he, hr⟩ := he
      have h0 : size z.dims = 0 := by
        rcases Nat.eq_zero_or_pos (size z.dims) with h | h
        · exact h
        · rw [size_split h, hr, Nat.mul_zero]
      have hxs : xs = [] := by
        apply List.length_eq_zero_iff.1
        rw [h.2.1, ← hdz, h0]
      have hbz : Built z := .zip (.view hwf) hb hz
      unfold M.Post
      rw [hun, hz]
      simp only [Option.map_some, M.lift_some, M.pure_bind]
      rw [forEach_bad (up_built hbz) (up_badFn.2 he) (by rw [← hr]; simp [row, Expr.dims])]
      change M.Post (M.bind (M.scope 0 (M.onPanic M.panic _)) _) (s, o) _ _
      refine M.Post.bind (P := fun _ _ => False) (M.post_scope (M.post_onPanic ?_)) (fun _ _ h => h.elim)
      refine (M.Post.mono hguard ?_ (fun _ h => h.elim) :
        M.Post (zipGuard o.shape.len) ((s, o), 0) _ _)
      refine fun _ u hu => .inr ⟨z, rfl, .inl ⟨he, ?_, hu.1, ?_⟩⟩
      · rw [← hdz, h0]
      · rw [hu.2, hxs, List.append_nil]
    · have he' : BadFn z → 0 < row z := fun h => Nat.pos_of_ne_zero fun h0 => he ⟨h, h0⟩
      obtain ⟨h1, h2, h3, h4⟩ := zipWith_mimic (s := s) (f := f) h.1 hb hz he' hp
      have htame : TameItems (mimicOperand z o.shape) := by
        intro n j hj
        have hj : Valid o.shape.dims j := hj
        have hlt := rowMajor_lt hj
        have := h3 _ hlt
        unfold castItem at this
        rw [show (mimicOperand z o.shape).dims = o.shape.dims from rfl, Nat.sub_self, List.drop_zero,
          unrank_rowMajor hj] at this
        have e1 : item (mimicOperand z o.shape) n j =
          item (mimicOperand z o.shape) (rowMajor o.shape.dims j) j := rfl
        rw [e1, this]
        exact (ht _ (by rw [hdz]; exact hlt)).bind fun _ => M.tame_pure _
      have hstep : ∀ k, k < size o.shape.dims → zipItem o.shape.dims xs (mimicOperand z o.shape) f k =
          zipResult xs (operand z) f k := by
        intro k hk
        unfold zipItem zipResult
        rw [h3 k hk]
      have hstop : ∀ k ys t b, ZipStopped o.shape.dims xs (mimicOperand z o.shape) f s k ys t b →
          ZipStops (size o.shape.dims) xs (operand z) f s k ys t b := by
        rintro k ys t b ⟨k1, u, k2, k3⟩
        refine ⟨k1, u, k2.congr fun i hi => hstep i (by omega), ?_⟩
        rw [h3 k k1] at k3
        exact k3
      have key := post_zipWith (s := s) h h2 htame hf h4
      unfold M.Post at key ⊢
      rw [h1]
      refine M.Post.mono key ?_ ?_
      · rintro - t ⟨-, ys, a1, a2, a3, a4, -⟩
        exact ⟨z, rfl, ys, a1.congr hstep, a2, a3, a4⟩
      · rintro t (⟨hn, -⟩ | ⟨-, k, ys, ⟨a1, a2⟩ | ⟨a1, a2⟩⟩)
        · exact absurd ⟨List.suffix_refl _, fun _ => rfl⟩ hn
        · exact .inr ⟨z, rfl, .inr ⟨k, ys, .inl ⟨hstop _ _ _ _ a1, a2⟩⟩⟩
        · exact .inr ⟨z, rfl, .inr ⟨k, ys, .inr ⟨hstop _ _ _ _ a1, a2⟩⟩⟩

end Model
