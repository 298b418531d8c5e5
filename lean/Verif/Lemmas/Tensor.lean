import Verif.Lemmas.Post
import Verif.Spec.Tensor
import Verif.Lemmas.Shape

/-! Rules for the vector operations below `Tensor`. -/

namespace Model
open Spec

variable {σ T α β : Type}

namespace M

theorem Post.toA {x : M σ α} {s} {Q : α → σ → Prop} {R : σ → Prop} {A : Prop} (h : Post x s Q R) :
    PostA x s Q R A := by
  unfold Post PostA at *
  cases hx : x s <;> simp only [hx] at h ⊢
  · exact h
  · exact h

theorem post_and {x : M σ α} {s} {Q Q' : α → σ → Prop} {R R' : σ → Prop} (h : Post x s Q R)
    (h' : Post x s Q' R') : Post x s (fun a t => Q a t ∧ Q' a t) fun t => R t ∧ R' t := by
  unfold Post at *
  cases hx : x s <;> simp only [hx] at h h' ⊢
  · exact ⟨h, h'⟩
  · exact ⟨h, h'⟩

theorem postA_bind {x : M σ α} {f : α → M σ β} {s} {Q : β → σ → Prop} {R : σ → Prop} {A : Prop}
    (h : Post x s (fun a s' => PostA (f a) s' Q R A) R) : PostA (bind x f) s Q R A := by
  unfold Post PostA bind at *
  cases hx : x s <;> simp only [hx] at h ⊢
  · exact h
  · exact h

theorem post_of_eq {x : M σ α} {s t : σ} {a : α} {Q : α → σ → Prop} {R : σ → Prop}
    (h : x s = .ok a t) (hq : Q a t) : Post x s Q R := by
  unfold Post; rw [h]; exact hq

theorem post_panic_of_eq {x : M σ α} {s t : σ} {Q : α → σ → Prop} {R : σ → Prop}
    (h : x s = .panic t) (hr : R t) : Post x s Q R := by
  unfold Post; rw [h]; exact hr

end M

/-- The vector holds the elements `xs`. -/
def Vec (o : Own T) (xs : List T) : Prop := o.len = xs.length ∧ xs.map some <+: o.cells

theorem dropCells_eq {o : Own T} {pre xs : List (Option T)} {ys : List T} {n : Nat} (s : σ)
    (h : o.cells = pre ++ ys.map some ++ xs) (hn : n = ys.length) :
    dropCells pre.length n (s, o) = .ok () (s, { o with
      cells := pre ++ List.replicate ys.length none ++ xs, log := o.log ++ ys }) := by
  subst hn
  unfold dropCells
  have h1 : (o.cells.drop pre.length).take ys.length = ys.map some := by
    rw [h, List.append_assoc, List.drop_left]
    rw [show ys.length = (ys.map some).length by simp, List.take_left]
  have h2 : o.cells.take pre.length = pre := by
    rw [h, List.append_assoc, List.take_left]
  have h3 : o.cells.drop (pre.length + ys.length) = xs := by
    rw [h, show pre.length + ys.length = (pre ++ ys.map some).length by simp, List.drop_left]
  simp only [h1, h2, h3]
  rw [if_pos (by constructor <;> simp)]
  simp

theorem writeCell_eq {o : Own T} {pre xs : List (Option T)} {c : Option T} {p : Nat} (s : σ) (x : T)
    (h : o.cells = pre ++ c :: xs) (hp : p = pre.length) :
    writeCell p x (s, o) = .ok () (s, { o with cells := pre ++ some x :: xs }) := by
  subst hp
  unfold writeCell
  rw [if_pos (by simp [h])]
  simp [h]

theorem takeCell_eq {o : Own T} {pre xs : List (Option T)} {x : T} {p : Nat} (s : σ)
    (h : o.cells = pre ++ some x :: xs) (hp : p = pre.length) :
    takeCell p (s, o) = .ok x (s, { o with cells := pre ++ none :: xs }) := by
  subst hp
  unfold takeCell
  simp [h]

/-- Effect of a vector operation on everything but the elements. -/
structure Eff (o o' : Own T) (dropped : List T) : Prop where
  log : o'.log = o.log ++ dropped
  shape : o'.shape = o.shape
  limit : o'.limit = o.limit

theorem Eff.refl (o : Own T) : Eff o o [] := ⟨by simp, rfl, rfl⟩

theorem Eff.trans {o o' o'' : Own T} {a b : List T} (h : Eff o o' a) (h' : Eff o' o'' b) :
    Eff o o'' (a ++ b) :=
  ⟨by rw [h'.log, h.log, List.append_assoc], h'.shape.trans h.shape, h'.limit.trans h.limit⟩

theorem post_vecClear {o : Own T} {xs : List T} {s : σ} {R} (h : Vec o xs) :
    M.Post vecClear (s, o) (fun _ t => t.1 = s ∧ Vec t.2 [] ∧ Eff o t.2 xs) R := by
  obtain ⟨h1, rest, h2⟩ := h
  have := dropCells_eq (o := { o with len := 0 }) (pre := []) (ys := xs) (xs := rest) (n := o.len) s
    (by simpa using h2.symm) h1
  refine M.post_of_eq (a := ()) (t := _) this ?_
  exact ⟨rfl, ⟨rfl, by simp⟩, ⟨rfl, rfl, rfl⟩⟩

theorem post_vecTruncate {o : Own T} {xs : List T} {s : σ} {R} (n : Nat) (h : Vec o xs) :
    M.Post (vecTruncate n) (s, o)
      (fun _ t => t.1 = s ∧ Vec t.2 (xs.take n) ∧ Eff o t.2 (xs.drop n)) R := by
  obtain ⟨h1, rest, h2⟩ := h
  unfold vecTruncate
  show M.Post (fun t : σ × Own T => _) (s, o) _ R
  by_cases hn : n ≤ o.len
  · have hl : ((xs.take n).map some).length = n := by
      rw [List.length_map, List.length_take]; omega
    have := dropCells_eq (o := { o with len := n }) (pre := (xs.take n).map some) (ys := xs.drop n)
      (xs := rest) (n := o.len - n) s
      (by rw [← List.map_append, List.take_append_drop]; exact h2.symm) (by simp [h1])
    rw [hl] at this
    refine M.post_of_eq (a := ()) (t := _) (by
      show (if n ≤ o.len then _ else _ : M (σ × Own T) Unit) (s, o) = _
      rw [if_pos hn]
      exact this) ?_
    refine ⟨rfl, ⟨by simp only [List.length_take]; omega, ?_⟩, ⟨rfl, rfl, rfl⟩⟩
    simp only [List.append_assoc]
    exact List.prefix_append _ _
  · refine M.post_of_eq (a := ()) (t := (s, o)) (by
      show (if n ≤ o.len then _ else _ : M (σ × Own T) Unit) (s, o) = _
      rw [if_neg hn]
      rfl) ?_
    rw [List.take_of_length_le (by omega), List.drop_of_length_le (by omega)]
    exact ⟨rfl, ⟨h1, rest, h2⟩, Eff.refl o⟩

theorem post_vecReserve {o : Own T} {xs : List T} {s : σ} (add : Nat) (h : Vec o xs) :
    M.Post (vecReserve add) (s, o)
      (fun _ t => t.1 = s ∧ Vec t.2 xs ∧ Eff o t.2 [] ∧ xs.length + add ≤ t.2.cells.length)
      (fun t => t = (s, o) ∧ o.limit < xs.length + add) := by
  obtain ⟨h1, rest, h2⟩ := h
  by_cases hc : o.len + add ≤ o.cells.length
  · refine M.post_of_eq (a := ()) (t := (s, o)) ?_ ⟨rfl, ⟨h1, rest, h2⟩, Eff.refl o, by show _ ≤ o.cells.length; omega⟩
    show (if _ then _ else _ : M (σ × Own T) Unit) (s, o) = _
    rw [if_pos hc]; rfl
  · by_cases hl : o.len + add ≤ o.limit
    · refine M.post_of_eq (a := ()) (t := (s, { o with
          cells := o.cells ++ List.replicate (o.len + add - o.cells.length) none })) ?_ ?_
      · show (if _ then _ else _ : M (σ × Own T) Unit) (s, o) = _
        rw [if_neg hc, if_pos hl]; rfl
      · refine ⟨rfl, ⟨h1, ?_⟩, ⟨by simp, rfl, rfl⟩, ?_⟩
        · exact ⟨rest ++ List.replicate (o.len + add - o.cells.length) none, by
            rw [← List.append_assoc, h2]⟩
        · simp only [List.length_append, List.length_replicate]; omega
    · refine M.post_panic_of_eq (t := (s, o)) ?_ ⟨rfl, by omega⟩
      show (if _ then _ else _ : M (σ × Own T) Unit) (s, o) = _
      rw [if_neg hc, if_neg hl]; rfl

theorem post_vecAppend {o : Own T} {xs : List T} {s : σ} {R} (x : T) (h : Vec o xs)
    (hc : xs.length < o.cells.length) :
    M.Post (vecAppend x) (s, o)
      (fun _ t => t.1 = s ∧ Vec t.2 (xs ++ [x]) ∧ Eff o t.2 [] ∧
        t.2.cells.length = o.cells.length) R := by
  obtain ⟨h1, rest, h2⟩ := h
  cases rest with
  | nil => rw [← h2] at hc; simp at hc
  | cons c rest =>
    have := writeCell_eq (o := o) (p := o.len) s x h2.symm (by simp [h1])
    refine M.post_of_eq (a := ()) (t := (s, { o with
        cells := xs.map some ++ some x :: rest
        len := o.len + 1 })) ?_ ⟨rfl, ⟨?_, ?_⟩, ⟨by simp, rfl, rfl⟩, ?_⟩
    · show M.bind (writeCell o.len x) (fun _ => upd fun o => { o with len := o.len + 1 }) (s, o) = _
      unfold M.bind
      rw [this]
      rfl
    · simp [h1]
    · exact ⟨rest, by simp⟩
    · simp only [← h2]; simp

/-- Loops that produce values and append them. -/
theorem post_appendLoop {s : σ} {o : Own T} {xs : List T} {n : Nat} {step : Nat → M σ T}
    {body : Nat → M (σ × Own T) Unit}
    (ht : ∀ k, k < n → (step k).Tame)
    (hbody : ∀ k, k < n → body k = M.bind (M.up (step k)) vecAppend)
    (h : Vec o xs) (hc : xs.length + n ≤ o.cells.length) :
    M.Post ((List.range n).foldlM (fun _ k => body k) ()) (s, o)
      (fun _ t => ∃ ys, Ran step n s ys t.1 ∧ Vec t.2 (xs ++ ys) ∧ Eff o t.2 [] ∧
        t.2.cells.length = o.cells.length)
      (fun t => ∃ k ys, Stopped step n s k ys t.1 ∧ Vec t.2 (xs ++ ys) ∧ Eff o t.2 [] ∧
        t.2.cells.length = o.cells.length) := by
  have := M.post_foldlM (σ := σ × Own T) (τ := Unit) (f := fun _ k => body k)
    (R := fun t => ∃ k ys, Stopped step n s k ys t.1 ∧ Vec t.2 (xs ++ ys) ∧ Eff o t.2 [] ∧
        t.2.cells.length = o.cells.length)
    (I := fun m _ t => ∃ ys, Ran step m s ys t.1 ∧ Vec t.2 (xs ++ ys) ∧ Eff o t.2 [] ∧
        t.2.cells.length = o.cells.length)
    (List.range n)
    (by
      intro m hm _ t ht'
      obtain ⟨ys, hr, hv, he, hl⟩ := ht'
      rw [List.length_range] at hm
      rw [List.getElem_range, hbody m hm]
      obtain ⟨t1, o1⟩ := t
      refine M.Post.bind (P := fun x u => step m t1 = .ok x u.1 ∧ u.2 = o1) (M.post_up
        (((ht m hm).post t1).mono (fun x t' h => ⟨h, rfl⟩)
          fun t' h => ⟨m, ys, ⟨hm, t1, hr, h⟩, hv, he, hl⟩)) ?_
      rintro x ⟨t2, o2⟩ ⟨hx, rfl⟩
      have hlen := hr.length
      refine M.Post.mono (post_vecAppend x hv (by
        have hl : o2.cells.length = o.cells.length := hl
        rw [List.length_append]; omega)) ?_ (fun t h => h)
      rintro - ⟨t3, o3⟩ ⟨rfl, h1, h2, h3⟩
      refine ⟨ys ++ [x], hr.succ hx, ?_, ?_, by rw [h3, hl]⟩
      · rw [← List.append_assoc]; exact h1
      · simpa using he.trans h2)
    (acc := ()) (s := (s, o)) ⟨[], ran_zero, by simpa using h, Eff.refl o, rfl⟩
  rwa [List.length_range] at this

theorem repeatM_eq (n : Nat) (x : M σ Unit) :
    repeatM n x = (List.range n).foldlM (fun _ _ => x) () := by
  have : ∀ l : List Nat, l.length = n → repeatM n x = l.foldlM (fun _ _ => x) () := by
    induction n with
    | zero => intro l hl; rw [List.length_eq_zero_iff.1 hl]; rfl
    | succ n ih =>
      intro l hl
      cases l with
      | nil => simp at hl
      | cons a l =>
        rw [repeatM, List.foldlM_cons, ih l (by simpa using hl)]
        rfl
  exact this _ List.length_range

theorem post_vecResizeWith {s : σ} {o : Own T} {xs : List T} (n : Nat) {f : M σ T} (hf : f.Tame)
    (h : Vec o xs) :
    M.Post (vecResizeWith n f) (s, o)
      (fun _ t => ∃ ys, Ran (fun _ => f) (n - xs.length) s ys t.1 ∧ Vec t.2 (xs.take n ++ ys) ∧
        Eff o t.2 (xs.drop n))
      (fun t => (∃ ys, CallsEnd f s ys t.1 ∧ Vec t.2 (xs ++ ys) ∧ Eff o t.2 []) ∧
        (o.limit < n ∨ ∃ u v, f u = .panic v)) := by
  unfold vecResizeWith
  have hlen := h.1
  show M.Post (if o.len < n then _ else _ : M (σ × Own T) Unit) (s, o) _ _
  by_cases hn : o.len < n
  · rw [if_pos hn]
    refine M.Post.bind (M.Post.mono (post_vecReserve (n - o.len) h) (fun _ _ h => h) ?_) ?_
    · rintro t ⟨rfl, hlim⟩
      exact ⟨⟨[], Or.inl ⟨0, ran_zero⟩, by simpa using h, Eff.refl o⟩, .inl (by omega)⟩
    · rintro - ⟨t, o'⟩ ⟨rfl, hv, he, hcap⟩
      rw [repeatM_eq]
      refine M.Post.mono (post_appendLoop (step := fun _ => f) (fun _ _ => hf) (fun _ _ => rfl) hv
        (by omega)) ?_ ?_
      · rintro - u ⟨ys, hr, h1, h2, -⟩
        refine ⟨ys, by rwa [← hlen], ?_, ?_⟩
        · rwa [List.take_of_length_le (by omega)]
        · rw [List.drop_of_length_le (by omega)]
          simpa using he.trans h2
      · rintro u ⟨k, ys, ⟨hk, w, hw, hp⟩, h1, h2, -⟩
        exact ⟨⟨ys, Or.inr ⟨w, ⟨k, hw⟩, hp⟩, h1, by simpa using he.trans h2⟩, .inr ⟨_, _, hp⟩⟩
  · rw [if_neg hn]
    refine M.Post.mono (post_vecTruncate n h) ?_ (fun _ h => h)
    rintro - ⟨t, o'⟩ ⟨rfl, h1, h2⟩
    refine ⟨[], ?_, by simpa using h1, h2⟩
    rw [show n - xs.length = 0 by omega]
    exact ran_zero

theorem post_vecExtend {s : σ} {o : Own T} {xs : List T} {n : Nat} {step : Nat → M σ T}
    (ht : ∀ k, k < n → (step k).Tame) (h : Vec o xs) :
    M.Post (vecExtend n step) (s, o)
      (fun _ t => ∃ ys, Ran step n s ys t.1 ∧ Vec t.2 (xs ++ ys) ∧ Eff o t.2 [])
      (fun t => (∃ k ys, Stopped step n s k ys t.1 ∧ Vec t.2 (xs ++ ys) ∧ Eff o t.2 []) ∨
        ∃ k ys y, k < n ∧ Ran step (k + 1) s (ys ++ [y]) t.1 ∧ Vec t.2 (xs ++ ys) ∧
          Eff o t.2 [y]) := by
  have := M.post_foldlM (σ := σ × Own T) (τ := Unit)
    (f := fun _ k => M.bind (M.up (step k)) fun x =>
      M.bind (M.onPanic (vecReserve 1) (upd fun o => { o with log := o.log ++ [x] })) fun _ =>
        vecAppend x)
    (R := fun t => (∃ k ys, Stopped step n s k ys t.1 ∧ Vec t.2 (xs ++ ys) ∧ Eff o t.2 []) ∨
        ∃ k ys y, k < n ∧ Ran step (k + 1) s (ys ++ [y]) t.1 ∧ Vec t.2 (xs ++ ys) ∧ Eff o t.2 [y])
    (I := fun m _ t => ∃ ys, Ran step m s ys t.1 ∧ Vec t.2 (xs ++ ys) ∧ Eff o t.2 [])
    (List.range n)
    (by
      intro m hm _ t ht'
      obtain ⟨ys, hr, hv, he⟩ := ht'
      rw [List.length_range] at hm
      rw [List.getElem_range]
      obtain ⟨t1, o1⟩ := t
      refine M.Post.bind (P := fun x u => step m t1 = .ok x u.1 ∧ u.2 = o1) (M.post_up
        (((ht m hm).post t1).mono (fun x t' h => ⟨h, rfl⟩)
          fun t' h => Or.inl ⟨m, ys, ⟨hm, t1, hr, h⟩, hv, he⟩)) ?_
      rintro x ⟨t2, o2⟩ ⟨hx, rfl⟩
      refine M.Post.bind (M.post_onPanic (M.Post.mono (post_vecReserve 1 hv) (fun _ _ h => h) ?_)) ?_
      · rintro u ⟨rfl, -⟩
        refine M.post_of_eq rfl (Or.inr ⟨m, ys, x, hm, hr.succ hx, hv, ?_⟩)
        exact ⟨by show o2.log ++ [x] = _; rw [show o2.log = o.log by simpa using he.log], he.shape, he.limit⟩
      · rintro - ⟨t3, o3⟩ ⟨rfl, hv', he', hc⟩
        refine M.Post.mono (post_vecAppend x hv' (by have : _ ≤ o3.cells.length := hc; omega)) ?_ (fun t h => h)
        rintro - ⟨t3, o3⟩ ⟨rfl, h1, h2, h3⟩
        refine ⟨ys ++ [x], hr.succ hx, ?_, ?_⟩
        · rw [← List.append_assoc]; exact h1
        · simpa using (he.trans he').trans h2)
    (acc := ()) (s := (s, o)) ⟨[], ran_zero, by simpa using h, Eff.refl o⟩
  rwa [List.length_range] at this

theorem cloneStep_eq {src : List T} {c : T → M σ T} {n : Nat} {y : T} (h : src[n]? = some y) :
    cloneStep src c n = c y := by
  unfold cloneStep; rw [h]; rfl

theorem post_cloneSlice {src : List T} {c : T → M σ T} (hc : ∀ y, (c y).Tame) (s : σ) {N : Nat}
    (l : List T) :
    ∀ (pre olds ys : List T) (o : Own T) (t : σ), src.take N = pre ++ l → N ≤ src.length →
      olds.length = l.length → ys.length = pre.length →
      Ran (cloneStep src c) pre.length s ys t → Vec o (ys ++ olds) →
      M.Post (cloneSlice c pre.length l) (t, o)
        (fun _ u => ∃ zs, Ran (cloneStep src c) N s zs u.1 ∧ Vec u.2 zs ∧ Eff o u.2 olds ∧
          u.2.cells.length = o.cells.length)
        (fun u => ∃ k zs, Stopped (cloneStep src c) src.length s k zs u.1 ∧ pre.length ≤ k ∧ k < N ∧
          Vec u.2 (zs ++ olds.drop (k - pre.length)) ∧ Eff o u.2 (olds.take (k - pre.length))) := by
  induction l with
  | nil =>
    intro pre olds ys o t h1 hN h2 h3 hr hv
    have : olds = [] := List.length_eq_zero_iff.1 h2
    subst this
    have hl : pre.length = N := by
      have := congrArg List.length h1
      rw [List.length_take, List.append_nil] at this; omega
    exact ⟨ys, hl ▸ hr, by simpa using hv, Eff.refl o, rfl⟩
  | cons y l ih =>
    intro pre olds ys o t h1 hN h2 h3 hr hv
    obtain ⟨x, olds, rfl⟩ : ∃ x l', olds = x :: l' := by
      cases olds with
      | nil => simp at h2
      | cons x l' => exact ⟨x, l', rfl⟩
    have hl : pre.length + 1 ≤ N := by
      have := congrArg List.length h1
      rw [List.length_take, List.length_append, List.length_cons] at this; omega
    have hy : src[pre.length]? = some y := by
      have : (src.take N)[pre.length]? = some y := by rw [h1]; simp
      rwa [List.getElem?_take_of_lt (by omega)] at this
    have hstep := cloneStep_eq (c := c) hy
    unfold cloneSlice
    refine M.Post.bind (P := fun z u => c y t = .ok z u.1 ∧ u.2 = o) (M.post_up
      (((hc y).post t).mono (fun x t' h => ⟨h, rfl⟩) ?_)) ?_
    · intro t' h
      refine ⟨pre.length, ys, ⟨by omega, t, hr, by rw [hstep]; exact h⟩, le_refl _, by omega, ?_, ?_⟩
      · simpa using hv
      · simpa using Eff.refl o
    · rintro z ⟨t', o'⟩ ⟨hz, rfl⟩
      obtain ⟨hlen, rest, hrest⟩ := hv
      simp only [List.map_append, List.map_cons, List.append_assoc, List.cons_append] at hrest
      have e1 := dropCells_eq (o := o') (pre := ys.map some) (ys := [x]) (n := 1)
        (xs := olds.map some ++ rest) t' (by simp only [List.map_cons, List.map_nil, ← hrest]; simp) rfl
      rw [List.length_map, h3] at e1
      have e2 := writeCell_eq (o := { o' with
        cells := ys.map some ++ List.replicate 1 none ++ (olds.map some ++ rest)
        log := o'.log ++ [x] }) (pre := ys.map some) (c := none) (xs := olds.map some ++ rest)
        (p := pre.length) t' z (by simp) (by simp [h3])
      have hbind : ∀ k : Unit → M (σ × Own T) Unit,
          M.bind (dropCells pre.length 1) (fun _ => M.bind (writeCell pre.length z) k) (t', o') =
          k () (t', { o' with
            cells := ys.map some ++ some z :: (olds.map some ++ rest)
            log := o'.log ++ [x] }) := by
        intro k
        simp only [M.bind]
        rw [e1]
        dsimp only
        rw [show [x].length = 1 from rfl, e2]
      unfold M.Post
      rw [hbind]
      change M.Post _ _ _ _
      have hr' : Ran (cloneStep src c) (pre ++ [y]).length s (ys ++ [z]) t' := by
        rw [List.length_append]
        exact hr.succ (by rw [hstep]; exact hz)
      have := ih (pre ++ [y]) olds (ys ++ [z]) { o' with
            cells := ys.map some ++ some z :: (olds.map some ++ rest)
            log := o'.log ++ [x] } t' (by rw [h1]; simp) hN (by simpa using h2) (by simp [h3]) hr'
            ⟨by simpa using hlen, rest, by simp⟩
      rw [List.length_append] at this
      refine M.Post.mono this ?_ ?_
      · rintro - u ⟨zs, a1, a2, a3, a4⟩
        refine ⟨zs, a1, a2, ⟨?_, a3.shape, a3.limit⟩, ?_⟩
        · rw [a3.log]; simp
        · rw [a4, ← hrest]; simp
      · rintro u ⟨k, zs, a1, a2, a3, a4, a5⟩
        simp only [List.length_singleton] at a2 a4 a5
        have hk : k - pre.length = (k - (pre.length + 1)) + 1 := by omega
        refine ⟨k, zs, a1, by omega, a3, ?_, ⟨?_, a5.shape, a5.limit⟩⟩
        · rwa [hk, List.drop_succ_cons]
        · rw [a5.log, hk, List.take_succ_cons]; simp

theorem post_vecCloneFrom {s : σ} {o : Own T} {xs src : List T} {c : T → M σ T}
    (hc : ∀ y, (c y).Tame) (h : Vec o xs) :
    M.Post (vecCloneFrom src c) (s, o)
      (fun _ t => ∃ ys, Ran (cloneStep src c) src.length s ys t.1 ∧ Vec t.2 ys ∧
        Eff o t.2 (xs.drop src.length ++ xs.take src.length))
      (fun t => ∃ k ys, (Stopped (cloneStep src c) src.length s k ys t.1 ∨
          Ran (cloneStep src c) k s ys t.1) ∧ k ≤ src.length ∧
        Vec t.2 (ys ++ (xs.take src.length).drop k) ∧
        Eff o t.2 (xs.drop src.length ++ (xs.take src.length).take k)) := by
  unfold vecCloneFrom
  refine M.Post.bind (post_vecTruncate src.length h) ?_
  rintro - ⟨t, o1⟩ ⟨rfl, hv1, he1⟩
  show M.Post (M.bind (cloneSlice c 0 (src.take o1.len)) _) (t, o1) _ _
  have hlen : o1.len = min src.length xs.length := by rw [hv1.1, List.length_take]
  have := post_cloneSlice (src := src) (N := o1.len) hc t (src.take o1.len) [] (xs.take src.length) [] o1 t
    (by simp) (by omega) (by simp only [List.length_take]; omega) rfl ran_zero (by simpa using hv1)
  refine M.Post.bind (M.Post.mono this (fun _ _ h => h) ?_) ?_
  · rintro u ⟨k, zs, a1, -, a3, a4, a5⟩
    refine ⟨k, zs, Or.inl a1, by omega, ?_, ?_⟩
    · simpa using a4
    · simpa using he1.trans a5
  · rintro - ⟨t2, o2⟩ ⟨zs, a1, a2, a3, a4⟩
    have hzs := a1.length
    refine M.Post.bind (M.Post.mono (post_vecReserve (src.length - o1.len) a2) (fun _ _ h => h) ?_) ?_
    · rintro u ⟨rfl, -⟩
      refine ⟨o1.len, zs, Or.inr a1, by omega, ?_, ?_⟩
      · rw [List.drop_of_length_le (by rw [List.length_take]; omega), List.append_nil]
        exact a2
      · rw [List.take_of_length_le (by rw [List.length_take]; omega)]
        exact he1.trans a3
    · rintro - ⟨t3, o3⟩ ⟨rfl, b1, b2, b3⟩
      have b3 : zs.length + (src.length - o1.len) ≤ o3.cells.length := b3
      have hall : Eff o o3 (xs.drop src.length ++ xs.take src.length) := by
        simpa using (he1.trans a3).trans b2
      refine M.Post.mono (M.post_foldlM (σ := σ × Own T) (τ := Unit)
        (f := fun _ y => M.bind (M.up (c y)) vecAppend)
        (R := fun t' => ∃ k ys, Stopped (cloneStep src c) src.length t k ys t'.1 ∧ o1.len ≤ k ∧
          Vec t'.2 ys ∧ Eff o3 t'.2 [])
        (I := fun m _ t' => ∃ ys, Ran (cloneStep src c) (o1.len + m) t ys t'.1 ∧ Vec t'.2 ys ∧
          Eff o3 t'.2 [] ∧ t'.2.cells.length = o3.cells.length)
        (src.drop o1.len) ?_ (acc := ()) (s := (t3, o3))
        ⟨zs, a1, b1, Eff.refl o3, rfl⟩) ?_ ?_
      · rintro m hm - ⟨t4, o4⟩ ⟨ys, c1, c2, c3, c4⟩
        have c4 : o4.cells.length = o3.cells.length := c4
        have hl := c1.length
        have hy : src[o1.len + m]? = some (src.drop o1.len)[m] := by
          rw [List.getElem_drop, List.getElem?_eq_getElem]
        rw [List.length_drop] at hm
        refine M.Post.bind (P := fun z u => c (src.drop o1.len)[m] t4 = .ok z u.1 ∧ u.2 = o4)
          (M.post_up (((hc _).post t4).mono (fun x t' h => ⟨h, rfl⟩) ?_)) ?_
        · intro t' h
          exact ⟨o1.len + m, ys, ⟨by omega, t4, c1, by rw [cloneStep_eq hy]; exact h⟩, by omega, c2, c3⟩
        · rintro z ⟨t5, o5⟩ ⟨hz, rfl⟩
          refine M.Post.mono (post_vecAppend z c2 (by
            have c4 : o5.cells.length = o3.cells.length := c4
            show ys.length < o5.cells.length
            omega)) ?_ (fun t h => h)
          rintro - ⟨t6, o6⟩ ⟨rfl, d1, d2, d3⟩
          exact ⟨ys ++ [z], c1.succ (by rw [cloneStep_eq hy]; exact hz), d1, by simpa using c3.trans d2,
            d3.trans c4⟩
      · rintro - t' ⟨ys, c1, c2, c3, -⟩
        rw [List.length_drop, show o1.len + (src.length - o1.len) = src.length by omega] at c1
        exact ⟨ys, c1, c2, by simpa using hall.trans c3⟩
      · rintro t' ⟨k, ys, c1, ck, c2, c3⟩
        refine ⟨k, ys, Or.inl c1, c1.1.le, ?_, ?_⟩
        · rw [List.drop_of_length_le (by rw [List.length_take]; omega), List.append_nil]
          exact c2
        · rw [List.take_of_length_le (by rw [List.length_take]; omega)]
          simpa using hall.trans c3

end Model
