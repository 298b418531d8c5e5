import Verif.Lemmas.RawOps
import Verif.Lemmas.ShapeReshape
import Verif.Spec.History

/-! Every operation on tensors leaves them usable. -/

namespace Model
open Spec Model.Iter Model.Expr

variable {σ T α β : Type}

/-- A mismatch is found before the expression is evaluated. -/
theorem post_expand_mismatch {e : Expr σ α} {c : α → M σ T} {s : σ} {o : Own T} {xs : List T}
    (h : Holds o xs) (hm : ¬ (0 < o.shape.rank ∧ o.shape.ty.head = .dyn) ∨
      (0 < size e.dims ∧ ¬ Fits o.shape e.dims)) :
    M.Post (expand e c) (s, o) (fun _ _ => False) (fun t => t.1 = s ∧ Same o t.2 xs) := by
  refine M.Post.bind (P := fun _ t => t = (s, o) ∧ 0 < o.shape.rank ∧ o.shape.ty.head = .dyn)
    (post_checkHead (fun h => ⟨rfl, h⟩) fun hn => ⟨rfl, Same.refl h⟩) ?_
  rintro - t ⟨rfl, hr, hh⟩
  obtain ⟨h0, hfit⟩ := hm.resolve_left (fun h => h ⟨hr, hh⟩)
  have hlen : e.shape.len = size e.dims := Shape.len_eq _
  show M.Post (if 0 < e.shape.len then _ else _ : M (σ × Own T) Unit) (s, o) _ _
  rw [if_pos (by omega)]
  have hvec := parts_vec h
  have hdef := Shape.default_size_of_head h.1 hr hh
  have same : ∀ o', Vec o' xs → Eff (parts o) o' [] → ∀ R : σ × Own T → Prop, R (s, o') →
      (Recovers R (s, o') ∧ ∀ ys, Vec (s, o').2 ys → ys.length ≠ size (s, o').2.shape.dims →
        size (Shape.default (s, o').2.shape.ty).dims = 0) := by
    intro o' hv he R hR
    refine ⟨⟨xs, hv, fun _ => hR, fun hn => absurd ?_ hn⟩, fun ys _ _ => ?_⟩
    · show _ = size o'.shape.dims
      rw [he.shape]; exact h.2.1
    · show size (Shape.default o'.shape.ty).dims = 0
      rw [he.shape]; exact hdef
  refine post_withMutParts (M.Post.bind (M.Post.mono (post_vecReserve e.shape.len hvec)
    (fun _ _ h => h) ?_) ?_)
  · rintro t ⟨rfl, hl⟩
    exact same _ hvec (Eff.refl _) _ ⟨rfl, parts_same h hvec (Eff.refl _)⟩
  · rintro - ⟨t, o1⟩ ⟨rfl, hv1, he1, hc1⟩
    have hsh : o1.shape = o.shape := he1.shape
    refine M.Post.bind (P := fun _ _ => False) (post_setShape ?_ ?_) (fun _ _ h => h.elim)
    · intro s' hs'
      rw [hsh, (expandShape_none hr h.1 hh).2 hfit] at hs'
      cases hs'
    · intro _
      exact same _ hv1 he1 _ ⟨rfl, parts_same h hv1 he1⟩

/-- A successful reshape gives a shape with the same number of elements. -/
theorem reshape_ok {s ns s' : Shape} (hw : ns.WF) (h : s.reshape ns = some s') :
    s'.WF ∧ size s'.dims = size s.dims := by
  by_cases hm : usizeMax ∈ ns.dims
  · obtain ⟨a, b, he, ha⟩ := List.eq_append_cons_of_mem hm
    by_cases hb : usizeMax ∈ b
    · rw [Shape.reshape_many s ns a b he ha hb] at h; cases h
    · rw [Shape.reshape_infer_eq s ns a b he ha hb] at h
      split at h
      · rename_i hc
        injection h with h
        subst h
        refine ⟨hc.2.2.2.2, ?_⟩
        have := Nat.div_mul_cancel (Nat.dvd_of_mod_eq_zero hc.2.2.2.1)
        show size (a ++ _ :: b) = _
        rw [size_append] at this ⊢
        rw [size_cons]
        rw [size_append]
        calc _ = size s.dims / (size a * size b) * (size a * size b) := by ring
          _ = _ := this
      · cases h
  · rw [Shape.reshape_none_eq s ns hw hm] at h
    split at h
    · rename_i hc
      injection h with h
      subst h
      exact ⟨hw, hc.2⟩
    · cases h

/-- An operation on the first tensor. -/
theorem postA_onA {x : M (σ × Own T) α} {S : Sys σ T} {Q : α → Sys σ T → Prop} {R : Sys σ T → Prop}
    {A : Prop} (h : M.PostA x (S.world, S.a) (fun a t => Q a ⟨t.1, t.2, S.b⟩)
      (fun t => R ⟨t.1, t.2, S.b⟩) A) : M.PostA (onA x) S Q R A := by
  unfold M.PostA onA at *
  cases hx : x (S.world, S.a) <;> rw [hx] at h <;> exact h

theorem post_onA {x : M (σ × Own T) α} {S : Sys σ T} {Q : α → σ × Own T → Prop}
    {R : σ × Own T → Prop} {Q' : α → Sys σ T → Prop} {R' : Sys σ T → Prop} {A : Prop}
    (h : M.Post x (S.world, S.a) Q R) (hq : ∀ a t, Q a t → Q' a ⟨t.1, t.2, S.b⟩)
    (hr : ∀ t, R t → R' ⟨t.1, t.2, S.b⟩) : M.PostA (onA x) S Q' R' A :=
  postA_onA (h.mono hq hr).toA

/-- Both tensors are usable. -/
def Good (S : Sys σ T) : Prop := Usable S.a ∧ Usable S.b

theorem zip_built {s : Shape} (hs : s.WF) {e : Expr σ α} (hb : Built e) {z}
    (hz : zipNew (view false (whole s)) e = some z) : Built z :=
  .zip (.view (Mapping.wf_dense.2 hs)) hb hz

theorem zip_tame {s : Shape} {e : Expr σ α} {z} (hz : zipNew (view false (whole s)) e = some z)
    (h : TameClosures e) : TameClosures z := by
  obtain ⟨_, rfl, -⟩ := zip_trailing hz
  exact ⟨trivial, h⟩

/-- Each operation leaves both tensors usable. -/
theorem post_op (op : TensorOp σ T) (S : Sys σ T) (h : Good S) (hop : op.Allowed S) :
    M.PostA op.run S (fun _ S' => Good S') (fun S' => op.Consumes ∨ Good S')
      (∃ dims f, op = .resizeWith dims f ∧ size (Shape.default S.a.shape.ty).dims ≠ 0 ∧
        ResizeFails S.a dims f) := by
  obtain ⟨⟨xs, ha⟩, ⟨ys, hb⟩⟩ := id h
  cases op with
  | swap => exact ⟨h.2, h.1⟩
  | expand e c =>
    obtain ⟨h1, h2, h3⟩ := hop
    refine post_onA (post_expand_raw h1 (tameRaw_of_closures h1 h2) h3 ha) ?_ ?_
    · rintro - t ⟨-, ⟨-, rfl⟩ | ⟨-, -, zs, -, h, -⟩⟩
      · exact h
      · exact ⟨⟨_, h⟩, ⟨_, hb⟩⟩
    · rintro t (⟨-, h, -⟩ | ⟨-, -, k, zs, -, h, -⟩)
      · exact .inr ⟨⟨_, h.holds⟩, ⟨_, hb⟩⟩
      · exact .inr ⟨⟨_, h⟩, ⟨_, hb⟩⟩
  | append =>
    have := post_tensorAppend (s := S.world) ha hb
    show M.PostA (onBoth tensorAppend) S _ _ _
    unfold M.Post at this
    unfold M.PostA onBoth
    cases hx : (tensorAppend : M ((σ × Own T) × Own T) Unit) ((S.world, S.b), S.a) with
    | ok a t =>
      rw [hx] at this
      exact ⟨⟨_, this.2.2.2.2.2.2.1⟩, ⟨_, this.2.2.1⟩⟩
    | panic t =>
      rw [hx] at this
      refine .inr ⟨⟨_, this.2.1.holds⟩, ?_⟩
      rcases this.2.2 with ⟨h, -⟩ | ⟨-, h, -⟩
      · show Usable t.1.2
        rw [h]; exact ⟨_, hb⟩
      · exact ⟨_, h⟩
    | ub => rw [hx] at this; exact this
    | abort => rw [hx] at this; exact this.elim
  | drain start stop k leak =>
    refine post_onA (Q := fun _ t => Usable t.2) (M.Post.bind (post_drainRun start stop k leak ha) ?_)
      (fun _ _ h => ⟨h, ⟨_, hb⟩⟩) ?_
    · rintro l t ⟨-, d0, ds, a, b, -, -, -, -, -, -, -, ⟨-, h, -⟩ | ⟨-, h, -⟩⟩
      · exact M.post_pure ⟨_, h⟩
      · exact M.post_pure ⟨_, h⟩
    · rintro t ⟨rfl, -⟩
      exact .inr h
  | truncate n =>
    refine post_onA (post_tensorTruncate n ha) ?_ ?_
    · rintro - t ⟨-, h, -⟩
      exact ⟨⟨_, h⟩, ⟨_, hb⟩⟩
    · rintro t ⟨rfl, -⟩
      exact .inr h
  | clear =>
    refine post_onA (post_tensorClear ha) ?_ ?_
    · rintro - t ⟨-, h, -⟩
      exact ⟨⟨_, h⟩, ⟨_, hb⟩⟩
    · rintro t ⟨rfl, -⟩
      exact .inr h
  | resizeWith dims f =>
    refine postA_onA ?_
    have := post_resizeWith hop (newDims := dims) (s := S.world) ha
    unfold M.PostA at this ⊢
    cases hx : resizeWith dims f (S.world, S.a) with
    | ok a t =>
      rw [hx] at this
      obtain ⟨zs, _, _, -, -, -, -, h, -⟩ := this
      exact ⟨⟨_, h⟩, ⟨_, hb⟩⟩
    | panic t =>
      rw [hx] at this
      obtain ⟨zs, _, _, -, h, -⟩ := this
      exact .inr ⟨⟨_, h⟩, ⟨_, hb⟩⟩
    | ub => rw [hx] at this; exact this
    | abort => rw [hx] at this; exact ⟨dims, f, rfl, this⟩
  | extend n step =>
    refine post_onA (post_tensorExtend hop.2 ha hop.1) ?_ ?_
    · rintro - t ⟨zs, -, h, -⟩
      exact ⟨⟨_, h⟩, ⟨_, hb⟩⟩
    · rintro t ⟨k, zs, ends, -, -, ⟨-, h, -⟩ | ⟨-, h, -⟩, -⟩
      · exact .inr ⟨⟨_, h⟩, ⟨_, hb⟩⟩
      · exact .inr ⟨⟨_, h⟩, ⟨_, hb⟩⟩
  | reserve n =>
    refine post_onA (post_tensorReserve n ha) ?_ ?_
    · rintro - t ⟨-, h, -⟩
      exact ⟨⟨_, h.holds⟩, ⟨_, hb⟩⟩
    · rintro t ⟨-, h, -⟩
      exact .inr ⟨⟨_, h.holds⟩, ⟨_, hb⟩⟩
  | shrinkTo n =>
    refine post_onA (post_tensorShrinkTo (R := fun _ => False) n ha) ?_ ?_
    · rintro - t ⟨-, h⟩
      exact ⟨⟨_, h.holds⟩, ⟨_, hb⟩⟩
    · exact fun _ h => h.elim
  | cloneFrom c =>
    have hpre : S.b.cells.take S.b.shape.len = ys.map some := by
      obtain ⟨-, h2, rest, h3⟩ := hb
      rw [Shape.len_eq, ← h2, ← h3, List.take_left' (by simp)]
    have hall : (S.b.cells.take S.b.shape.len).all Option.isSome = true := by
      rw [hpre]; simp
    have hfm : (S.b.cells.take S.b.shape.len).filterMap id = ys := by
      rw [hpre, List.filterMap_map]; simp
    have : M.PostA (onA (cloneFrom ys S.b.shape c)) S (fun _ S' => Good S')
        (fun S' => (TensorOp.cloneFrom c : TensorOp σ T).Consumes ∨ Good S')
        (∃ dims f, (TensorOp.cloneFrom c : TensorOp σ T) = .resizeWith dims f ∧
          size (Shape.default S.a.shape.ty).dims ≠ 0 ∧ ResizeFails S.a dims f) := by
      refine post_onA (post_cloneFrom hop.2 ha hb.1 hb.2.1 hop.1) ?_ ?_
      · rintro - t ⟨zs, -, h, -⟩
        exact ⟨⟨_, h⟩, ⟨_, hb⟩⟩
      · rintro t ⟨k, zs, -, -, -, ⟨h, -⟩ | ⟨h, -⟩⟩
        · exact .inr ⟨⟨_, h⟩, ⟨_, hb⟩⟩
        · exact .inr ⟨⟨_, h⟩, ⟨_, hb⟩⟩
    unfold M.PostA at this ⊢
    have e : (TensorOp.cloneFrom c : TensorOp σ T).run S = onA (cloneFrom ys S.b.shape c) S := by
      show (if (S.b.cells.take S.b.shape.len).all Option.isSome = true then
        onA (cloneFrom ((S.b.cells.take S.b.shape.len).filterMap id) S.b.shape c) S else .ub) = _
      rw [if_pos hall, hfm]
    rw [e]
    exact this
  | intoShape s =>
    refine post_onA (post_tensorInto (f := fun x => x.reshape s) ha fun s' hs' =>
      reshape_ok hop hs') ?_ ?_
    · rintro - t ⟨-, h, -⟩
      exact ⟨⟨_, h⟩, ⟨_, hb⟩⟩
    · exact fun _ _ => .inl trivial
  | intoMapping ty =>
    refine post_onA (post_tensorInto (f := fun x => Shape.fromDims ty x.dims) ha fun s' hs' => ?_) ?_ ?_
    · rw [Shape.fromDims_eq] at hs'
      split at hs'
      · rename_i hc
        injection hs' with hs'
        subst hs'
        exact ⟨hc, rfl⟩
      · cases hs'
    · rintro - t ⟨-, h, -⟩
      exact ⟨⟨_, h⟩, ⟨_, hb⟩⟩
    · exact fun _ _ => .inl trivial
  | intoFlat =>
    refine post_onA (post_tensorInto (f := fun x => some ⟨.static [.dyn], [x.len]⟩) ha
      fun s' hs' => ?_) ?_ ?_
    · injection hs' with hs'
      subst hs'
      refine ⟨by simp [Shape.WF, ShapeTy.Conforms], ?_⟩
      show size [S.a.shape.len] = _
      rw [Shape.len_eq]; simp [size]
    · rintro - t ⟨-, h, -⟩
      exact ⟨⟨_, h⟩, ⟨_, hb⟩⟩
    · exact fun _ _ => .inl trivial
  | zipWith e f =>
    obtain ⟨h1, h2, h3, h4⟩ := hop
    refine post_onA (post_zipWith_raw ha h1 h3 fun z hz => ⟨tameRaw_of_closures (zip_built ha.1 h1 hz)
      (zip_tame hz h2), h4 z hz⟩) ?_ ?_
    · rintro - t ⟨z, -, zs, -, h, -⟩
      exact ⟨⟨_, h⟩, ⟨_, hb⟩⟩
    · exact fun _ _ => .inl trivial
  | fromExpr e =>
    obtain ⟨h1, h2, h3⟩ := hop
    refine post_onA (post_tensorFromExpr_raw h1 (tameRaw_of_closures h1 h2) h3 _ _) ?_ ?_
    · rintro - t ⟨zs, -, h, -⟩
      exact ⟨⟨_, h⟩, ⟨_, hb⟩⟩
    · exact fun _ _ => .inl trivial

theorem good_of_history {S S' : Sys σ T} (h : History S S') (hg : Good S) : Good S' := by
  induction h with
  | refl => exact hg
  | ok _ hop hr ih =>
    have := post_op _ _ ih hop
    unfold M.PostA at this
    rw [hr] at this
    exact this
  | caught _ hop hc hr ih =>
    have := post_op _ _ ih hop
    unfold M.PostA at this
    rw [hr] at this
    exact this.resolve_left hc

end Model
