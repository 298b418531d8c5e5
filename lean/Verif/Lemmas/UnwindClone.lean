import Verif.Lemmas.UnwindResize

/-! Destructors that panic in `clone_from`. -/

namespace Model
open Spec

namespace Unwind
variable {σ T : Type} {bad : T → Bool}

theorem post_cloneSlice {src : List T} {c : T → M σ T} (hc : ∀ y, (c y).Tame) (s : σ) {N : Nat}
    (l : List T) :
    ∀ (pre olds ys : List T) (o : Own T) (t : σ), src.take N = pre ++ l → N ≤ src.length →
      olds.length = l.length → ys.length = pre.length →
      Ran (cloneStep src c) pre.length s ys t → Vec o (ys ++ olds) →
      M.Post (cloneSlice bad c pre.length l) (t, o)
        (fun _ u => ∃ zs, Ran (cloneStep src c) N s zs u.1 ∧ Vec u.2 zs ∧ Eff o u.2 olds ∧
          u.2.cells.length = o.cells.length ∧ olds.countP bad = 0)
        (fun u => ∃ k zs, pre.length ≤ k ∧ k ≤ N ∧
          Vec u.2 (zs ++ olds.drop (k - pre.length)) ∧ Eff o u.2 (olds.take (k - pre.length)) ∧
          (Stopped (cloneStep src c) src.length s k zs u.1 ∧ (olds.take (k - pre.length)).countP bad = 0 ∨
            Ran (cloneStep src c) k s zs u.1 ∧ (olds.take (k - pre.length)).countP bad = 1)) := by
  induction l with
  | nil =>
    intro pre olds ys o t h1 hN h2 h3 hr hv
    have : olds = [] := List.length_eq_zero_iff.1 h2
    subst this
    have hl : pre.length = N := by
      have := congrArg List.length h1
      rw [List.length_take, List.append_nil] at this; omega
    exact ⟨ys, hl ▸ hr, by simpa using hv, Eff.refl o, rfl, rfl⟩
  | cons y l ih =>
    intro pre olds ys o t h1 hN h2 h3 hr hv
    obtain ⟨x, olds, rfl⟩ : ∃ x l', olds = x :: l' := by
      cases olds with
      | nil => simp at h2
      | cons x l' => exact ⟨x, l', rfl⟩
    have hl : pre.length + 1 ≤ N := by
      have := congrArg List.length h1
      rw [List.length_take, List.length_append, List.length_cons] at this; omega
    have hy : src[pre.length]? = some y := by
      have : (src.take N)[pre.length]? = some y := by rw [h1]; simp
      rwa [List.getElem?_take_of_lt (by omega)] at this
    have hstep := cloneStep_eq (c := c) hy
    unfold cloneSlice
    refine M.Post.bind (P := fun z u => c y t = .ok z u.1 ∧ u.2 = o) (M.post_up
      (((hc y).post t).mono (fun x t' h => ⟨h, rfl⟩) ?_)) ?_
    · intro t' h
      refine ⟨pre.length, ys, le_refl _, by omega, ?_, ?_, .inl ⟨⟨by omega, t, hr, by rw [hstep]; exact h⟩, ?_⟩⟩
      · simpa using hv
      · simpa using Eff.refl o
      · simp
    · rintro z ⟨t', o'⟩ ⟨hz, rfl⟩
      obtain ⟨hlen, rest, hrest⟩ := hv
      simp only [List.map_append, List.map_cons, List.append_assoc, List.cons_append] at hrest
      have e1 := dropCells_eq (o := o') (pre := ys.map some) (ys := [x]) (n := 1)
        (xs := olds.map some ++ rest) t' (by simp only [List.map_cons, List.map_nil, ← hrest]; simp) rfl
      rw [List.length_map, h3] at e1
      have e1' := drops (after_dropCells (bad := bad) pre.length 1) e1 rfl
      have e2 := writeCell_eq (o := { o' with
        cells := ys.map some ++ List.replicate 1 none ++ (olds.map some ++ rest)
        log := o'.log ++ [x] }) (pre := ys.map some) (c := none) (xs := olds.map some ++ rest)
        (p := pre.length) t' z (by simp) (by simp [h3])
      have hr' : Ran (cloneStep src c) (pre ++ [y]).length s (ys ++ [z]) t' := by
        rw [List.length_append]
        exact hr.succ (by rw [hstep]; exact hz)
      cases hb : bad x with
      | true =>
        have hbind : ∀ k : Unit → M (σ × Own T) Unit,
            M.bind (M.onPanic (dropCells bad pre.length 1) (writeCell pre.length z)) k (t', o') =
            .panic (t', { o' with
              cells := ys.map some ++ some z :: (olds.map some ++ rest)
              log := o'.log ++ [x] }) := by
          intro k
          have e3 : afterDrops bad [x] () (t', { o' with
              cells := ys.map some ++ List.replicate [x].length none ++ (olds.map some ++ rest)
              log := o'.log ++ [x] }) = (.panic (t', { o' with
              cells := ys.map some ++ List.replicate [x].length none ++ (olds.map some ++ rest)
              log := o'.log ++ [x] }) : Res (σ × Own T) Unit) := by
            simp [afterDrops, hb]
          simp only [M.bind, M.onPanic]
          rw [e1', e3]
          dsimp only
          rw [show [x].length = 1 from rfl, e2]
        unfold M.Post
        rw [hbind]
        refine ⟨pre.length + 1, ys ++ [z], by omega, hl, ?_, ?_, .inr ⟨by simpa using hr', ?_⟩⟩
        · rw [Nat.add_sub_cancel_left]
          exact ⟨by simpa using hlen, rest, by simp⟩
        · rw [Nat.add_sub_cancel_left]
          exact ⟨rfl, rfl, rfl⟩
        · rw [Nat.add_sub_cancel_left]
          simp [hb]
      | false =>
        have hbind : ∀ k : Unit → M (σ × Own T) Unit,
            M.bind (M.onPanic (dropCells bad pre.length 1) (writeCell pre.length z))
              (fun _ => M.bind (writeCell pre.length z) k) (t', o') =
            k () (t', { o' with
              cells := ys.map some ++ some z :: (olds.map some ++ rest)
              log := o'.log ++ [x] }) := by
          intro k
          have e3 : afterDrops bad [x] () (t', { o' with
              cells := ys.map some ++ List.replicate [x].length none ++ (olds.map some ++ rest)
              log := o'.log ++ [x] }) = (.ok () (t', { o' with
              cells := ys.map some ++ List.replicate [x].length none ++ (olds.map some ++ rest)
              log := o'.log ++ [x] }) : Res (σ × Own T) Unit) := by
            simp [afterDrops, hb]
          simp only [M.bind, M.onPanic]
          rw [e1', e3]
          dsimp only
          rw [show [x].length = 1 from rfl, e2]
        unfold M.Post
        rw [hbind]
        change M.Post _ _ _ _
        have := ih (pre ++ [y]) olds (ys ++ [z]) { o' with
              cells := ys.map some ++ some z :: (olds.map some ++ rest)
              log := o'.log ++ [x] } t' (by rw [h1]; simp) hN (by simpa using h2) (by simp [h3]) hr'
              ⟨by simpa using hlen, rest, by simp⟩
        rw [List.length_append] at this
        refine M.Post.mono this ?_ ?_
        · rintro - u ⟨zs, a1, a2, a3, a4, a5⟩
          refine ⟨zs, a1, a2, ⟨?_, a3.shape, a3.limit⟩, ?_, ?_⟩
          · rw [a3.log]; simp
          · rw [a4, ← hrest]; simp
          · rw [List.countP_cons, hb, a5]; rfl
        · rintro u ⟨k, zs, a1, a2, a3, a4, a5⟩
          simp only [List.length_singleton] at a1 a3 a4 a5
          have hk : k - pre.length = (k - (pre.length + 1)) + 1 := by omega
          refine ⟨k, zs, by omega, a2, ?_, ⟨?_, a4.shape, a4.limit⟩, ?_⟩
          · rwa [hk, List.drop_succ_cons]
          · rw [a4.log, hk, List.take_succ_cons]; simp
          · rw [hk, List.take_succ_cons, List.countP_cons, hb]
            simpa using a5

/-- The assignments ended at element `k`. -/
def CloneEnd (src : List T) (c : T → M σ T) (s : σ) (k : Nat) (ys : List T) (t : σ) : Prop :=
  (Stopped (cloneStep src c) src.length s k ys t ∨ Ran (cloneStep src c) k s ys t) ∧ k ≤ src.length

/-- Two destructors panic, or one after a failure, in `clone_from`. -/
def CloneTwo (bad : T → Bool) (src : List T) (c : T → M σ T) (F : Prop) (xs : List T) (s : σ) : Prop :=
  ∃ k ys t, CloneEnd src c s k ys t ∧ (2 ≤ (xs ++ ys).countP bad ∨ F ∧ 1 ≤ (xs ++ ys).countP bad)

/-- Outcome of a panic in `Vec::clone_from`. -/
def CloneStuck (bad : T → Bool) (src : List T) (c : T → M σ T) (F : Prop) (xs : List T) (s : σ) (o : Own T)
    (t : σ × Own T) : Prop :=
  ∃ k ys, CloneEnd src c s k ys t.1 ∧ Vec t.2 (ys ++ (xs.take src.length).drop k) ∧
    Eff o t.2 (xs.drop src.length ++ (xs.take src.length).take k) ∧
    ((xs.drop src.length ++ (xs.take src.length).take k).countP bad = 0 ∧ F ∨
      (xs.drop src.length ++ (xs.take src.length).take k).countP bad = 1)

theorem postA_vecCloneFrom {s : σ} {o : Own T} {xs src : List T} {c : T → M σ T} {F : Prop}
    (hF : (o.limit < src.length ∨ ∃ y ∈ src, ∃ u v, c y u = .panic v) → F)
    (hc : ∀ y, (c y).Tame) (h : Vec o xs) :
    M.PostA (vecCloneFrom bad src c) (s, o) (fun _ _ => True) (CloneStuck bad src c F xs s o)
      (CloneTwo bad src c F xs s) := by
  have hstop : ∀ {k ys t}, Stopped (cloneStep src c) src.length s k ys t → F := by
    rintro k ys t ⟨h1, u, h2, h3⟩
    refine hF (.inr ⟨src[k], List.getElem_mem h1, u, t, ?_⟩)
    rwa [cloneStep_eq (List.getElem?_eq_getElem h1)] at h3
  unfold vecCloneFrom
  have hb := post_vecTruncate (s := s) (R := fun _ => False) src.length h
  unfold M.Post at hb
  cases hx : (Model.vecTruncate src.length : M (σ × Own T) Unit) (s, o) with
  | panic _ => rw [hx] at hb; exact hb.elim
  | ub => rw [hx] at hb; exact hb.elim
  | abort => rw [hx] at hb; exact hb.elim
  | ok a t =>
  rw [hx] at hb
  obtain ⟨a1, hv1, he1⟩ := hb
  obtain ⟨t, o1⟩ := t
  simp only at a1 hv1 he1
  subst a1
  have e := drops (after_vecTruncate (bad := bad) _) hx he1.log
  refine M.PostA.bind' (M.postA_drops e (fun h0 => ?_) (fun hone => ?_) fun htwo => ?_)
  rotate_left
  · exact ⟨0, [], ⟨.inr ran_zero, Nat.zero_le _⟩, by simpa using hv1, by simpa using he1,
      .inr (by simpa using hone)⟩
  · refine ⟨0, [], t, ⟨.inr ran_zero, Nat.zero_le _⟩, .inl ?_⟩
    have := congrArg (List.countP bad) (List.take_append_drop src.length xs)
    rw [List.countP_append] at this
    rw [List.append_nil]
    omega
  show M.PostA (M.bind (cloneSlice bad c 0 (src.take o1.len)) _) (t, o1) _ _ _
  have hlen : o1.len = min src.length xs.length := by rw [hv1.1, List.length_take]
  have := post_cloneSlice (bad := bad) (src := src) (N := o1.len) hc t (src.take o1.len) [] (xs.take src.length)
    [] o1 t (by simp) (by omega) (by simp only [List.length_take]; omega) rfl ran_zero (by simpa using hv1)
  refine M.postA_bind (M.Post.mono this ?_ ?_)
  rotate_left
  · rintro u ⟨k, zs, -, a3, a4, a5, a6⟩
    simp only [List.length_nil, Nat.sub_zero] at a4 a5 a6
    refine ⟨k, zs, ⟨a6.imp (fun h => h.1) fun h => h.1, by omega⟩, a4, he1.trans a5, ?_⟩
    rw [List.countP_append, h0, Nat.zero_add]
    exact a6.imp (fun h => ⟨h.2, hstop h.1⟩) fun h => h.2
  · rintro - ⟨t2, o2⟩ ⟨zs, a1, a2, a3, a4, a5⟩
    have hzs := a1.length
    have hcnt : (xs.drop src.length ++ (xs.take src.length)).countP bad = 0 := by
      rw [List.countP_append, h0, a5]
    refine M.postA_bind (M.Post.mono (post_vecReserve (src.length - o1.len) a2) ?_ ?_)
    rotate_left
    · rintro u ⟨rfl, hlim⟩
      have htake : (xs.take src.length).take o1.len = xs.take src.length :=
        List.take_of_length_le (by rw [List.length_take]; omega)
      refine ⟨o1.len, zs, ⟨.inr a1, by omega⟩, ?_, ?_, .inl ⟨?_, hF (.inl ?_)⟩⟩
      · rw [List.drop_of_length_le (by rw [List.length_take]; omega), List.append_nil]
        exact a2
      · rw [htake]
        exact he1.trans a3
      · rw [htake]; exact hcnt
      · have h1 : o2.limit = o.limit := (he1.trans a3).limit
        omega
    · rintro - ⟨t3, o3⟩ ⟨rfl, b1, b2, b3⟩
      have b3 : zs.length + (src.length - o1.len) ≤ o3.cells.length := b3
      have hall : Eff o o3 (xs.drop src.length ++ xs.take src.length) := by
        simpa using (he1.trans a3).trans b2
      refine M.Post.postA' (M.Post.mono (M.post_foldlM (σ := σ × Own T) (τ := Unit)
        (f := fun _ y => M.bind (M.up (c y)) vecAppend)
        (R := fun t' => ∃ k ys, Stopped (cloneStep src c) src.length t k ys t'.1 ∧ o1.len ≤ k ∧
          Vec t'.2 ys ∧ Eff o3 t'.2 [])
        (I := fun m _ t' => ∃ ys, Ran (cloneStep src c) (o1.len + m) t ys t'.1 ∧ Vec t'.2 ys ∧
          Eff o3 t'.2 [] ∧ t'.2.cells.length = o3.cells.length)
        (src.drop o1.len) ?_ (acc := ()) (s := (t3, o3))
        ⟨zs, a1, b1, Eff.refl o3, rfl⟩) (fun _ _ _ => trivial) ?_)
      · rintro m hm - ⟨t4, o4⟩ ⟨ys, c1, c2, c3, c4⟩
        have c4 : o4.cells.length = o3.cells.length := c4
        have hl := c1.length
        have hy : src[o1.len + m]? = some (src.drop o1.len)[m] := by
          rw [List.getElem_drop, List.getElem?_eq_getElem]
        rw [List.length_drop] at hm
        refine M.Post.bind (P := fun z u => c (src.drop o1.len)[m] t4 = .ok z u.1 ∧ u.2 = o4)
          (M.post_up (((hc _).post t4).mono (fun x t' h => ⟨h, rfl⟩) ?_)) ?_
        · intro t' h
          exact ⟨o1.len + m, ys, ⟨by omega, t4, c1, by rw [cloneStep_eq hy]; exact h⟩, by omega, c2, c3⟩
        · rintro z ⟨t5, o5⟩ ⟨hz, rfl⟩
          refine M.Post.mono (post_vecAppend z c2 (by
            have c4 : o5.cells.length = o3.cells.length := c4
            show ys.length < o5.cells.length
            omega)) ?_ (fun t h => h)
          rintro - ⟨t6, o6⟩ ⟨rfl, d1, d2, d3⟩
          exact ⟨ys ++ [z], c1.succ (by rw [cloneStep_eq hy]; exact hz), d1, by simpa using c3.trans d2,
            d3.trans c4⟩
      · rintro t' ⟨k, ys, c1, ck, c2, c3⟩
        have htake : (xs.take src.length).take k = xs.take src.length :=
          List.take_of_length_le (by rw [List.length_take]; omega)
        refine ⟨k, ys, ⟨.inl c1, c1.1.le⟩, ?_, ?_, .inl ⟨by rw [htake]; exact hcnt, hstop c1⟩⟩
        · rw [List.drop_of_length_le (by rw [List.length_take]; omega), List.append_nil]
          exact c2
        · rw [htake]
          simpa using hall.trans c3

theorem postA_cloneFrom {s : σ} {o : Own T} {xs src : List T} {sh : Shape} {c : T → M σ T}
    {F : Prop} (hF : (o.limit < src.length ∨ ∃ y ∈ src, ∃ u v, c y u = .panic v) → F)
    (hc : ∀ y, (c y).Tame) (h : Holds o xs) (hw : sh.WF) (hl : src.length = size sh.dims)
    (hty : sh.ty = o.shape.ty) :
    M.PostA (cloneFrom bad src sh c) (s, o) (fun _ _ => True)
      (fun t => ∃ k ys dr, CloneEnd src c s k ys t.1 ∧ t.2.limit = o.limit ∧
        ((Holds t.2 (ys ++ (xs.take src.length).drop k) ∧ t.2.shape = o.shape ∧
          dr = xs.drop src.length ++ (xs.take src.length).take k) ∨
        (Holds t.2 [] ∧ t.2.shape = Shape.default o.shape.ty ∧
          dr = xs.drop src.length ++ (xs.take src.length).take k ++ ys ++ (xs.take src.length).drop k)) ∧
        t.2.log = o.log ++ dr ∧ (F ∧ dr.countP bad = 0 ∨ dr.countP bad = 1))
      (CloneTwo bad src c F xs s) := by
  show M.PostA (M.onPanic _ (partsGuard bad)) (s, parts o) _ _ _
  refine M.PostA.onPanic' (M.PostA.mono' (Q := fun _ _ => True) (R := CloneStuck bad src c F xs s (parts o))
    (A := CloneTwo bad src c F xs s) (M.PostA.bind' (M.PostA.mono'
      (postA_vecCloneFrom (o := parts o) hF hc (parts_vec h))
      (fun _ _ _ => M.Post.postA' (M.post_of_eq rfl trivial)) (fun _ h => h) fun h => h))
    (fun _ _ h => h) ?_ id)
  rintro ⟨t, o'⟩ ⟨k, ys, a1, a2, a3, a4⟩
  have hsh : o'.shape = o.shape := a3.shape
  have hyl : ys.length = k := by
    rcases a1.1 with a1 | a1
    · exact a1.2.choose_spec.1.length
    · exact a1.length
  have hxs := congrArg (List.countP bad) (List.take_append_drop src.length xs)
  have hxs' := congrArg (List.countP bad) (List.take_append_drop k (xs.take src.length))
  rw [List.countP_append] at hxs hxs'
  refine partsGuard_drops a2 (fun hy => ?_) (fun _ _ hz o2 b1 b2 b3 b4 => ?_) (fun _ _ hz => ?_) fun hne hd => ?_
  · exact ⟨k, ys, _, a1, a3.limit, .inl ⟨a2.holds (by rw [hsh]; exact h.1) hy, hsh, rfl⟩, a3.log,
      a4.imp (fun h => ⟨h.2, h.1⟩) id⟩
  · refine ⟨k, ys, _, a1, b4.trans a3.limit, .inr ⟨b1, by rw [b3, hsh], rfl⟩, ?_, ?_⟩
    · rw [b2, a3.log]; simp [parts]
    · rw [List.append_assoc, List.countP_append, hz, Nat.add_zero]
      exact a4.imp (fun h => ⟨h.2, h.1⟩) id
  · refine ⟨k, ys, t, a1, ?_⟩
    simp only [List.countP_append] at hz a4 ⊢
    rcases a4 with ⟨a4, hf⟩ | a4
    · exact .inr ⟨hf, by omega⟩
    · exact .inl (by omega)
  · exfalso
    rw [hsh] at hd hne
    apply hne
    have e1 := Shape.default_unique hd h.1
    have e2 := Shape.default_unique hd (show o.shape.ty.Conforms sh.dims by rw [← hty]; exact hw)
    have : src.length = xs.length := by rw [hl, h.2.1, e1, e2]
    have hk := a1.2
    rw [List.length_append, List.length_drop, List.length_take, ← h.2.1]
    omega

end Unwind
end Model
