import Verif.Lemmas.Drain
import Verif.Lemmas.Post
import Verif.Lemmas.ViewOps
import Verif.Spec.UserRange

/-!
Ranges defined outside of the crate.
-/

namespace Model
open Spec

variable {σ ρ T : Type}

namespace UserRange

/-- The value of a start bound. -/
def startO : Bnd → Option Nat
  | .included n => some n
  | .excluded n => if n + 1 ≤ usizeMax then some (n + 1) else none
  | .unbounded => some 0

/-- The value of an end bound. -/
def stopO (len : Nat) : Bnd → Option Nat
  | .included n => if n + 1 ≤ usizeMax then some (n + 1) else none
  | .excluded n => some n
  | .unbounded => some len

/-- The checks at the end. -/
def tailO (len s e : Nat) : Option (Nat × Nat) := do
  check (s ≤ e)
  check (e ≤ len)
  pure (s, e)

theorem rangeNorm_parts (a b : Bnd) (len : Nat) :
    rangeNorm a b len = (startO a).bind fun s => (stopO len b).bind fun e => tailO len s e := by
  cases a <;> cases b <;> simp only [rangeNorm, startO, stopO] <;> (repeat' split) <;> rfl

theorem norm_parts (r : UserRange σ) (len : Nat) :
    r.norm len = M.bind r.start fun a => M.bind (M.lift (startO a)) fun s => M.bind r.stop fun b =>
      M.bind (M.lift (stopO len b)) fun e => M.lift (tailO len s e) := by
  have h : ∀ s e, (M.bind (M.lift (check (s ≤ e))) fun _ => M.bind (M.lift (check (e ≤ len))) fun _ =>
      M.pure (s, e) : M σ (Nat × Nat)) = M.lift (tailO len s e) := by
    intro s e
    unfold tailO check
    by_cases h1 : s ≤ e <;> by_cases h2 : e ≤ len <;> simp [h1, h2] <;> rfl
  unfold norm
  show M.bind r.start _ = _
  congr 1; funext a
  show M.bind _ _ = _
  have e1 : ∀ (x y : Option Nat) (f g : Nat → M σ (Nat × Nat)), x = y → f = g →
    M.bind (M.lift x) f = M.bind (M.lift y) g := by rintro _ _ _ _ rfl rfl; rfl
  refine e1 _ _ _ _ (by cases a <;> rfl) ?_
  funext s
  show M.bind r.stop _ = _
  congr 1; funext b
  refine e1 _ _ _ _ (by cases b <;> rfl) ?_
  funext e
  exact h s e

theorem post_noteIt {x : M σ Bnd} (h : x.Tame) (w : σ) (l : List Bnd) {Q : Bnd → σ × List Bnd → Prop}
    {R : σ × List Bnd → Prop} (hq : ∀ b w', Q b (w', l ++ [b])) (hr : ∀ w', x w = .panic w' → R (w', l)) :
    M.Post (noteIt x) (w, l) Q R := by
  have := h w
  unfold M.Post noteIt at *
  cases hx : x w <;> simp only [hx] at this ⊢
  · exact hq _ _
  · exact hr _ hx

/-- The bounds are asked for once each, and decide about the result. -/
theorem post_norm {r : UserRange σ} (h : SafeRange r) (len : Nat) (w : σ) (l : List Bnd) :
    M.Post ((notedRange r).norm len) (w, l)
      (fun q t => ∃ a b, t.2 = l ++ [a, b] ∧ rangeNorm a b len = some q)
      (fun t => ∃ l', t.2 = l ++ l' ∧ l'.length ≤ 2 ∧
        (CalmRange r → ∀ a b m, [a, b] = l' ++ m → rangeNorm a b len = none)) := by
  rw [norm_parts]
  refine M.post_bind (post_noteIt h.1 w l (fun a w1 => ?_)
    fun w' hp => ⟨[], by simp, by simp, fun hc => ((hc w w').1 hp).elim⟩)
  refine M.post_bind (M.post_lift (fun s hs => ?_) fun hn => ⟨[a], rfl, by simp, fun _ a' b m e => ?_⟩)
  swap
  · injection e with e
    subst e
    rw [rangeNorm_parts, hn]; rfl
  refine M.post_bind (post_noteIt h.2 w1 (l ++ [a]) (fun b w2 => ?_)
    fun w' hp => ⟨[a], rfl, by simp, fun hc => ((hc w1 w').2 hp).elim⟩)
  have el : (l ++ [a]) ++ [b] = l ++ [a, b] := by simp
  rw [el]
  have hab : ∀ a' b' : Bnd, ∀ m, [a', b'] = [a, b] ++ m → a' = a ∧ b' = b := by
    intro a' b' m e
    simp at e
    exact ⟨e.1, e.2.1⟩
  refine M.post_bind (M.post_lift (fun e he => ?_) fun hn => ⟨[a, b], rfl, by simp, fun _ a' b' m e => ?_⟩)
  · refine M.post_lift (fun q hq => ⟨a, b, rfl, ?_⟩) fun hn => ⟨[a, b], rfl, by simp, fun _ a' b' m e => ?_⟩
    · rw [rangeNorm_parts, hs]; show (stopO len b).bind _ = _; rw [he]; exact hq
    · obtain ⟨rfl, rfl⟩ := hab _ _ _ e
      rw [rangeNorm_parts, hs]; show (stopO len b').bind _ = _; rw [he]; exact hn
  · obtain ⟨rfl, rfl⟩ := hab _ _ _ e
    rw [rangeNorm_parts, hs]; show (stopO len b').bind _ = _; rw [hn]; rfl

theorem checkHead_ok {s : σ} {o : Own T} (h : 0 < o.shape.rank ∧ o.shape.ty.head = .dyn) :
    (checkHead : M (σ × Own T) Unit) (s, o) = .ok () (s, o) := by
  have := post_checkHead (σ := σ) (s := s) (o := o) (Q := fun _ t => t = (s, o)) (R := fun _ => False)
    (fun _ => rfl) fun h' => h' h
  unfold M.Post at this
  cases hx : (checkHead : M (σ × Own T) Unit) (s, o) <;> simp only [hx] at this
  rw [this]

theorem checkHead_panic {s : σ} {o : Own T} (h : ¬ (0 < o.shape.rank ∧ o.shape.ty.head = .dyn)) :
    (checkHead : M (σ × Own T) Unit) (s, o) = .panic (s, o) := by
  have := post_checkHead (σ := σ) (s := s) (o := o) (Q := fun _ _ => False) (R := fun t => t = (s, o))
    (fun h' => h h') fun _ => rfl
  unfold M.Post at this
  cases hx : (checkHead : M (σ × Own T) Unit) (s, o) <;> simp only [hx] at this
  rw [this]

/-- Draining is the same as with the bounds that are returned. -/
theorem drainNew_ok {r : UserRange σ} {w w' : σ} {o : Own T} {p : Nat × Nat} {a b : Bnd}
    (h : 0 < o.shape.rank ∧ o.shape.ty.head = .dyn) (hn : r.norm (o.shape.dims.getD 0 0) w = .ok p w')
    (hp : rangeNorm a b (o.shape.dims.getD 0 0) = some p) :
    (r.drainNew : M (σ × Own T) DrainSt) (w, o) = Model.drainNew a b (w', o) := by
  unfold drainNew Model.drainNew
  simp only [M.bind_eq, M.bind, checkHead_ok h]
  show M.bind (M.up (r.norm (o.shape.dims.getD 0 0))) _ (w, o) =
    M.bind (M.lift (rangeNorm a b (o.shape.dims.getD 0 0))) _ (w', o)
  rw [hp]
  simp only [M.bind, M.up, hn, M.lift, M.pure]

theorem drainNew_panic {r : UserRange σ} {w w' : σ} {o : Own T}
    (h : 0 < o.shape.rank ∧ o.shape.ty.head = .dyn) (hn : r.norm (o.shape.dims.getD 0 0) w = .panic w') :
    (r.drainNew : M (σ × Own T) DrainSt) (w, o) = .panic (w', o) := by
  unfold drainNew
  simp only [M.bind_eq, M.bind, checkHead_ok h]
  show M.bind (M.up (r.norm (o.shape.dims.getD 0 0))) _ (w, o) = _
  simp only [M.bind, M.up, hn]

theorem drainNew_head {r : UserRange σ} {w : σ} {o : Own T}
    (h : ¬ (0 < o.shape.rank ∧ o.shape.ty.head = .dyn)) :
    (r.drainNew : M (σ × Own T) DrainSt) (w, o) = .panic (w, o) := by
  unfold drainNew
  simp only [M.bind_eq, M.bind, checkHead_panic h]

theorem post_drainRun {r : UserRange σ} (hr : SafeRange r) {w : σ} {o : Own T} {xs : List T} (k : Nat) (leak : Bool)
    (h : Holds o xs) :
    M.Post ((notedRange r).drainRun k leak) ((w, []), o)
      (fun ys t => ∃ start stop, t.1.2 = [start, stop] ∧ o.shape.ty.head = .dyn ∧
        ∃ d0 ds a b, o.shape.dims = d0 :: ds ∧
        rangeNorm start stop d0 = some (a, b) ∧ ys = (rowsOf (size ds) a b xs).take k ∧
        ((leak = true ∧ Holds t.2 (xs.take (a * size ds)) ∧ t.2.shape = ⟨o.shape.ty, a :: ds⟩ ∧
          t.2.log = o.log) ∨
        (leak = false ∧ Holds t.2 (xs.take (a * size ds) ++ xs.drop (b * size ds)) ∧
          t.2.shape = ⟨o.shape.ty, (d0 - (b - a)) :: ds⟩ ∧
          t.2.log = o.log ++ (rowsOf (size ds) a b xs).drop k)))
      (fun t => t.2 = o ∧ ((0 < o.shape.rank ∧ o.shape.ty.head = .dyn) → CalmRange r →
        ∀ a b l, [a, b] = t.1.2 ++ l → rangeNorm a b (o.shape.dims.getD 0 0) = none)) := by
  by_cases hh : 0 < o.shape.rank ∧ o.shape.ty.head = .dyn
  swap
  · unfold M.Post drainRun M.bind
    rw [drainNew_head hh]
    exact ⟨rfl, fun h' => (hh h').elim⟩
  have hn := post_norm hr (o.shape.dims.getD 0 0) w []
  unfold M.Post at hn
  cases hx : (notedRange r).norm (o.shape.dims.getD 0 0) (w, []) with
  | ok p w' =>
    rw [hx] at hn
    obtain ⟨a, b, e, hp⟩ := hn
    have := Model.post_drainRun (s := w') a b k leak h
    unfold M.Post Model.drainRun M.bind at this
    unfold M.Post drainRun M.bind
    rw [drainNew_ok hh hx hp]
    refine M.Post.mono (x := fun _ => _) (s := ((w, []), o)) this ?_ ?_
    · rintro ys t ⟨-, d0, ds, a', b', e1, e2, -, -, e3, -, e4, e5⟩
      refine ⟨a, b, by rw [e3]; exact e, hh.2, d0, ds, a', b', e1, e2, e4, e5⟩
    · rintro t ⟨-, h1 | h1⟩
      · exact (h1 hh).elim
      · rw [hp] at h1; cases h1
  | panic w' =>
    rw [hx] at hn
    unfold M.Post drainRun M.bind
    rw [drainNew_panic hh hx]
    obtain ⟨l', e, -, hn⟩ := hn
    rw [List.nil_append] at e
    subst e
    exact ⟨rfl, fun _ c a b l e => hn c a b l e⟩
  | ub => rw [hx] at hn; exact hn.elim
  | abort => rw [hx] at hn; exact hn.elim

end UserRange

namespace UserIdx

/-- The last part for stepped ranges. -/
def stepO (stride : Int) (k : Int) (ty : ShapeTy) (l : Layout) (q : Int × Mapping) (p : Nat × Nat) :
    Option (Int × Mapping) := do
  check (k.natAbs ≠ 0)
  let len := (p.2 - p.1 + k.natAbs - 1) / k.natAbs
  let delta : Nat := if k < 0 ∧ p.1 < p.2 then p.2 - 1 else p.1
  let r ← q.2.prependDim len (stride * k) ty l
  pure (q.1 + stride * (delta : Int), r)

/-- What is done for one argument. -/
def headO (x : DimIdx) (size : Nat) (stride : Int) (ty : ShapeTy) (l : Layout) (q : Int × Mapping) :
    Option (Int × Mapping) :=
  match x with
  | .int i => do
    check (i < size)
    let r ← q.2.remap ty l
    pure (q.1 + stride * (i : Int), r)
  | .full => do
    let r ← q.2.prependDim size stride ty l
    pure (q.1, r)
  | .range a b => do
    let p ← rangeNorm a b size
    let r ← q.2.prependDim (p.2 - p.1) stride ty l
    pure (q.1 + stride * (p.1 : Int), r)
  | .step a b k => (rangeNorm a b size).bind (stepO stride k ty l q)

theorem own_parts (m : Mapping) (x : DimIdx) (xs : List DimIdx) (s : ShapeTy) :
    ViewIdx.viewIndex m (x :: xs) s = (ViewIdx.viewIndex m xs s.tail).bind fun q =>
      (m.dim (m.rank - 1 - xs.length)).bind fun size => (m.stride (m.rank - 1 - xs.length)).bind fun stride =>
        headO x size stride (ViewIdx.shapeTy (x :: xs) s) (ViewIdx.layout m.layout (x :: xs)) q := by
  cases x <;> rfl

theorem lift_bind {α β : Type} (x : Option α) (f : α → Option β) :
    (M.lift (x.bind f) : M σ β) = M.bind (M.lift x) fun a => M.lift (f a) := by
  cases x <;> rfl

theorem user_parts (m : Mapping) (u : UserIdx σ) (us : List (UserIdx σ)) (s : ShapeTy) :
    viewIndex m (u :: us) s = M.bind (viewIndex m us s.tail) fun q =>
      M.bind (M.lift (m.dim (m.rank - 1 - us.length))) fun size =>
        M.bind (M.lift (m.stride (m.rank - 1 - us.length))) fun stride =>
        match u with
        | .own x => M.lift (headO x size stride (ViewIdx.shapeTy (x :: us.map kind) s)
            (ViewIdx.layout m.layout (x :: us.map kind)) q)
        | .step r k => M.bind (r.norm size) fun p =>
            M.lift (stepO stride k (ViewIdx.shapeTy (kind u :: us.map kind) s)
              (ViewIdx.layout m.layout (kind u :: us.map kind)) q p) := by
  show M.bind _ _ = _
  congr 1; funext q
  show M.bind _ _ = _
  congr 1; funext size
  show M.bind _ _ = _
  congr 1; funext stride
  have hs : ∀ k ty l (p : Nat × Nat), (M.lift (stepO stride k ty l q p) : M σ (Int × Mapping)) =
      M.bind (M.lift (check (k.natAbs ≠ 0))) fun _ =>
        M.bind (M.lift (q.2.prependDim ((p.2 - p.1 + k.natAbs - 1) / k.natAbs) (stride * k) ty l)) fun r =>
          M.pure (q.1 + stride * ((if k < 0 ∧ p.1 < p.2 then p.2 - 1 else p.1 : Nat) : Int), r) := by
    intro k ty l p
    refine (lift_bind _ _).trans ?_
    congr 1; funext _
    exact lift_bind _ _
  cases u with
  | own x =>
    cases x with
    | int i =>
      refine Eq.symm ((lift_bind _ _).trans ?_)
      show M.bind _ _ = M.bind _ _
      congr 1; funext _
      exact lift_bind _ _
    | full =>
      refine Eq.symm ((lift_bind _ _).trans ?_)
      rfl
    | range a b =>
      refine Eq.symm ((lift_bind _ _).trans ?_)
      show M.bind _ _ = M.bind _ _
      congr 1; funext _
      exact lift_bind _ _
    | step a b k =>
      refine Eq.symm ((lift_bind _ _).trans ?_)
      show M.bind _ _ = M.bind _ _
      congr 1; funext p
      exact hs k _ _ p
  | step r k =>
    show M.bind _ _ = M.bind _ _
    congr 1; funext p
    exact (hs k _ _ p).symm

/-- How many bounds are asked for. -/
def count : List (UserIdx σ) → Nat
  | [] => 0
  | .own _ :: us => count us
  | .step _ _ :: us => count us + 2

theorem _root_.Spec.Asked.count {us : List (UserIdx σ)} {xs : List DimIdx} {bs : List Bnd} (h : Asked us xs bs) :
    bs.length = count us ∧ xs.length = us.length := by
  induction us generalizing xs bs with
  | nil => cases xs <;> simp_all [Asked, UserIdx.count]
  | cons u us ih =>
    cases xs with
    | nil => cases u <;> exact h.elim
    | cons x xs =>
      cases u with
      | own y => simpa [UserIdx.count] using ih h.2
      | step r k =>
        obtain ⟨a, b, bs', -, rfl, h⟩ := h
        have := ih h
        simp [UserIdx.count, this]

theorem _root_.Spec.Asked.unique {us : List (UserIdx σ)} {xs ys : List DimIdx} {bs : List Bnd} (h : Asked us xs bs)
    (h' : Asked us ys bs) : xs = ys := by
  induction us generalizing xs ys bs with
  | nil =>
    have := h.count.2
    have := h'.count.2
    simp_all
  | cons u us ih =>
    cases xs with
    | nil => cases u <;> exact h.elim
    | cons x xs =>
      cases ys with
      | nil => cases u <;> exact h'.elim
      | cons y ys =>
        cases u with
        | own z => rw [h.1, h'.1, ih h.2 h'.2]
        | step r k =>
          obtain ⟨a, b, l, rfl, e, h⟩ := h
          obtain ⟨a', b', l', rfl, e', h'⟩ := h'
          rw [e] at e'
          obtain ⟨rfl, e2⟩ := List.append_inj' e' rfl
          simp at e2
          rw [e2.1, e2.2, ih h h']

theorem _root_.Spec.Asked.types {us : List (UserIdx σ)} {xs : List DimIdx} {bs : List Bnd} (h : Asked us xs bs)
    (l : Layout) : (∀ s, ViewIdx.shapeTy (us.map kind) s = ViewIdx.shapeTy xs s) ∧
      ViewIdx.outer l (us.map kind) = ViewIdx.outer l xs ∧ ViewIdx.layout l (us.map kind) = ViewIdx.layout l xs := by
  induction us generalizing xs bs with
  | nil =>
    have := h.count.2
    cases xs
    · exact ⟨fun _ => rfl, rfl, rfl⟩
    · simp at this
  | cons u us ih =>
    cases xs with
    | nil => cases u <;> exact h.elim
    | cons x xs =>
      cases u with
      | own y =>
        obtain ⟨rfl, h⟩ := h
        obtain ⟨h1, h2, h3⟩ := ih h
        cases x <;> simp [ViewIdx.shapeTy, ViewIdx.outer, ViewIdx.layout, kind, h1, h2, h3]
      | step r k =>
        obtain ⟨a, b, bs', rfl, -, h⟩ := h
        obtain ⟨h1, h2, h3⟩ := ih h
        simp [ViewIdx.shapeTy, ViewIdx.outer, ViewIdx.layout, kind, h1]

theorem kind_noted (us : List (UserIdx σ)) : (us.map notedArg).map kind = us.map kind := by
  rw [List.map_map]
  refine List.map_congr_left fun u _ => ?_
  cases u <;> rfl

theorem post_viewIndex (m : Mapping) (us : List (UserIdx σ)) (h : SafeArgs us) (s : ShapeTy) (w : σ) :
    M.Post (viewIndex m (us.map notedArg) s) (w, [])
      (fun q t => ∃ xs, Asked us xs t.2 ∧ ViewIdx.viewIndex m xs s = some q)
      (fun t => t.2.length ≤ count us ∧
        (CalmArgs us → ∀ xs l, Asked us xs (t.2 ++ l) → ViewIdx.viewIndex m xs s = none)) := by
  induction us generalizing s with
  | nil => exact ⟨[], rfl, rfl⟩
  | cons u us ih =>
    have hc : CalmArgs (u :: us) → CalmArgs us := fun h r k hm => h r k (List.mem_cons_of_mem _ hm)
    rw [List.map_cons, user_parts]
    refine M.Post.bind (P := fun q t => ∃ xs, Asked us xs t.2 ∧ ViewIdx.viewIndex m xs s.tail = some q)
      ((ih (fun r k hm => h r k (List.mem_cons_of_mem _ hm)) s.tail).mono (fun _ _ h => h) ?_) ?_
    · rintro t ⟨h1, h2⟩
      refine ⟨by cases u <;> simp only [count] <;> omega, fun c xs l ha => ?_⟩
      have h2 := h2 (hc c)
      cases xs with
      | nil => cases u <;> exact ha.elim
      | cons x xs =>
        rw [own_parts]
        cases u with
        | own y => rw [h2 xs l ha.2]; rfl
        | step r k =>
          obtain ⟨a, b, l', -, e, ha⟩ := ha
          obtain ⟨l2, rfl⟩ : t.2 <+: l' :=
            List.prefix_of_prefix_length_le ⟨l, e⟩ (List.prefix_append _ _) (by rw [ha.count.1]; exact h1)
          rw [h2 xs l2 ha]; rfl
    · rintro q ⟨w1, bs⟩ ⟨xs, ha, hq⟩
      change Asked us xs bs at ha
      have hl : (us.map notedArg).length = xs.length := by rw [List.length_map, ha.count.2]
      obtain ⟨t1, t2, t3⟩ := ha.types m.layout
      rw [hl]
      -- what the tail is, for all answers that continue the present ones
      have hx : ∀ {ys : List DimIdx} {l}, Asked (u :: us) ys (bs ++ l) → ∃ y, ys = y :: xs ∧ match u with
          | .own z => y = z
          | .step _ k => ∃ a b, y = .step a b k ∧ l = [a, b] := by
        intro ys l hy
        cases ys with
        | nil => cases u <;> exact hy.elim
        | cons y ys =>
          cases u with
          | own z =>
            refine ⟨y, ?_, hy.1⟩
            have : l = [] := by
              have := hy.2.count.1
              rw [List.length_append, ha.count.1] at this
              exact List.length_eq_zero_iff.1 (by omega)
            subst this
            rw [List.append_nil] at hy
            rw [hy.2.unique ha]
          | step r k =>
            obtain ⟨a, b, l', e1, e2, hy⟩ := hy
            obtain ⟨e3, e4⟩ := List.append_inj e2 (by rw [ha.count.1, hy.count.1])
            subst e3
            exact ⟨y, by rw [hy.unique ha], a, b, e1, e4⟩
      have hcnt : bs.length ≤ count (u :: us) := by
        rw [ha.count.1]; cases u <;> simp [count]
      refine M.post_bind (M.post_lift (fun size hsize => ?_) fun hn => ⟨hcnt, fun _ ys l hy => ?_⟩)
      swap
      · obtain ⟨y, rfl, -⟩ := hx hy
        rw [own_parts, hq]; show (m.dim _).bind _ = _; rw [hn]; rfl
      refine M.post_bind (M.post_lift (fun stride hstride => ?_) fun hn => ⟨hcnt, fun _ ys l hy => ?_⟩)
      swap
      · obtain ⟨y, rfl, -⟩ := hx hy
        rw [own_parts, hq]; show (m.dim _).bind _ = _; rw [hsize]; show (m.stride _).bind _ = _; rw [hn]; rfl
      have hown : ∀ y, ViewIdx.viewIndex m (y :: xs) s =
          headO y size stride (ViewIdx.shapeTy (y :: xs) s) (ViewIdx.layout m.layout (y :: xs)) q := by
        intro y
        rw [own_parts, hq]; show (m.dim _).bind _ = _; rw [hsize]; show (m.stride _).bind _ = _; rw [hstride]; rfl
      cases u with
      | own z =>
        have ht : Asked (.own z :: us) (z :: xs) bs := ⟨rfl, ha⟩
        obtain ⟨s1, s2, s3⟩ := ht.types m.layout
        rw [List.map_cons] at s1 s3
        show M.Post (M.lift (headO z size stride (ViewIdx.shapeTy (z :: (us.map notedArg).map kind) s)
          (ViewIdx.layout m.layout (z :: (us.map notedArg).map kind)) q)) _ _ _
        rw [kind_noted, show ViewIdx.shapeTy (z :: us.map kind) s = _ from s1 s,
          show ViewIdx.layout m.layout (z :: us.map kind) = _ from s3]
        refine M.post_lift (fun p hp => ⟨z :: xs, ht, (hown z).trans hp⟩) fun hn => ⟨hcnt, fun _ ys l hy => ?_⟩
        obtain ⟨y, rfl, hyz⟩ := hx hy
        change y = z at hyz
        rw [hyz, hown, hn]
      | step r k =>
        have ht : ∀ a b, Asked (.step r k :: us) (.step a b k :: xs) (bs ++ [a, b]) :=
          fun a b => ⟨a, b, bs, rfl, rfl, ha⟩
        show M.Post (M.bind ((notedRange r).norm size) fun p => M.lift (stepO stride k
          (ViewIdx.shapeTy (kind (.step r k) :: (us.map notedArg).map kind) s)
          (ViewIdx.layout m.layout (kind (.step r k) :: (us.map notedArg).map kind)) q p)) _ _ _
        rw [kind_noted]
        have e1 : ∀ a b, ViewIdx.shapeTy (kind (.step r k) :: us.map kind) s =
            ViewIdx.shapeTy (.step a b k :: xs) s := fun a b => ((ht a b).types m.layout).1 s
        have e2 : ∀ a b, ViewIdx.layout m.layout (kind (.step r k) :: us.map kind) =
            ViewIdx.layout m.layout (.step a b k :: xs) := fun a b => ((ht a b).types m.layout).2.2
        refine M.Post.bind ((UserRange.post_norm (h r k (by simp)) size w1 bs).mono (fun _ _ h => h) ?_) ?_
        · rintro ⟨w2, l2⟩ ⟨l', e, hl2, hn⟩
          change l2 = bs ++ l' at e
          subst e
          refine ⟨by simp [count, ← ha.count.1]; omega, fun c ys l hy => ?_⟩
          rw [List.append_assoc] at hy
          obtain ⟨y, rfl, a, b, rfl, e⟩ := hx hy
          rw [hown]
          show (rangeNorm a b size).bind _ = _
          rw [hn (c r k (by simp)) a b l e.symm]; rfl
        · rintro p ⟨w2, l2⟩ ⟨a, b, e, hn⟩
          change l2 = bs ++ [a, b] at e
          subst e
          rw [e1 a b, e2 a b]
          have hh : ViewIdx.viewIndex m (.step a b k :: xs) s = stepO stride k
              (ViewIdx.shapeTy (.step a b k :: xs) s) (ViewIdx.layout m.layout (.step a b k :: xs)) q p := by
            rw [hown]
            show (rangeNorm a b size).bind _ = _
            rw [hn]; rfl
          refine M.post_lift (fun z hz => ⟨_, ht a b, hh.trans hz⟩) fun hz => ⟨?_, fun _ ys l hy => ?_⟩
          · simp [count, ha.count.1]
          · have hl0 : l = [] := by
              have := hy.count.1
              rw [List.length_append, (ht a b).count.1] at this
              exact List.length_eq_zero_iff.1 (by omega)
            subst hl0
            rw [List.append_nil] at hy
            rw [hy.unique (ht a b), hh, hz]

theorem post_view (v : View) (us : List (UserIdx σ)) (h : SafeArgs us) (w : σ) :
    M.Post (view v (us.map notedArg)) (w, [])
      (fun v' t => ∃ xs, Asked us xs t.2 ∧ v.view xs = some v')
      (fun t => CalmArgs us → ∀ xs l, Asked us xs (t.2 ++ l) → v.view xs = none) := by
  refine M.Post.bind ((post_viewIndex v.map us h v.ty w).mono (fun _ _ h => h) ?_) ?_
  · rintro t ⟨-, h2⟩ c xs l ha
    unfold View.view
    rw [h2 c xs l ha]; rfl
  · rintro ⟨o, m⟩ t ⟨xs, ha, hx⟩
    refine ⟨xs, ha, ?_⟩
    unfold View.view
    rw [hx]; rfl

/-- Both computations do the same, apart from what is noted. -/
def Proj {α : Type} (x : M σ α) (y : M (σ × List Bnd) α) : Prop := ∀ w l, match x w with
  | .ok a w' => ∃ l', y (w, l) = .ok a (w', l')
  | .panic w' => ∃ l', y (w, l) = .panic (w', l')
  | .ub => y (w, l) = .ub
  | .abort => y (w, l) = .abort

theorem Proj.bind {α β : Type} {x : M σ α} {y : M (σ × List Bnd) α} {f : α → M σ β} {g : α → M (σ × List Bnd) β}
    (h : Proj x y) (hf : ∀ a, Proj (f a) (g a)) : Proj (M.bind x f) (M.bind y g) := by
  intro w l
  have := h w l
  unfold M.bind
  cases hx : x w <;> simp only [hx] at this ⊢
  · rename_i a w'
    obtain ⟨l', e⟩ := this
    simp only [e]
    exact hf a w' l'
  · obtain ⟨l', e⟩ := this
    exact ⟨l', by rw [e]⟩
  · rw [this]
  · rw [this]

theorem proj_lift {α : Type} (x : Option α) : Proj (M.lift x : M σ α) (M.lift x) := by
  intro w l
  cases x <;> exact ⟨l, rfl⟩

theorem proj_noteIt (x : M σ Bnd) : Proj x (noteIt x) := by
  intro w l
  unfold noteIt
  cases x w <;> simp

theorem proj_norm (r : UserRange σ) (n : Nat) : Proj (r.norm n) ((notedRange r).norm n) := by
  rw [UserRange.norm_parts, UserRange.norm_parts]
  exact (proj_noteIt _).bind fun _ => (proj_lift _).bind fun _ => (proj_noteIt _).bind fun _ =>
    (proj_lift _).bind fun _ => proj_lift _

theorem proj_viewIndex (m : Mapping) (us : List (UserIdx σ)) (s : ShapeTy) :
    Proj (viewIndex m us s) (viewIndex m (us.map notedArg) s) := by
  induction us generalizing s with
  | nil => exact proj_lift (some _)
  | cons u us ih =>
    rw [List.map_cons, user_parts, user_parts, List.length_map, kind_noted]
    refine (ih _).bind fun q => (proj_lift _).bind fun size => (proj_lift _).bind fun stride => ?_
    cases u with
    | own x => exact proj_lift _
    | step r k => exact (proj_norm r size).bind fun p => proj_lift _

theorem proj_view (v : View) (us : List (UserIdx σ)) : Proj (view v us) (view v (us.map notedArg)) :=
  (proj_viewIndex v.map us v.ty).bind fun _ => proj_lift (some _)

theorem Proj.post {α : Type} {x : M σ α} {y : M (σ × List Bnd) α} (h : Proj x y) {w : σ} {l : List Bnd}
    {Q : α → Prop} (hy : M.Post y (w, l) (fun a _ => Q a) fun _ => True) :
    M.Post x w (fun a _ => Q a) fun _ => True := by
  have := h w l
  unfold M.Post at *
  cases hx : x w <;> simp only [hx] at this ⊢
  · obtain ⟨l', e⟩ := this
    rw [e] at hy; exact hy
  · rw [this] at hy; exact hy
  · rw [this] at hy; exact hy

end UserIdx
end Model
