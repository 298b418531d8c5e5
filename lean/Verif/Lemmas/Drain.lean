import Verif.Lemmas.Resize
import Verif.Lemmas.ViewOps

/-! Rules for moving elements out: `drain`, `append` and iteration by value. -/

namespace Model
open Spec Expr Iter

variable {σ T α : Type}

theorem takeItems_eq (s : σ) (pos : Nat) (rest : List (Option T)) :
    ∀ (a : List T) (idx : Nat) (o : Own T) (pre : List (Option T)), o.cells = pre ++ a.map some ++ rest →
      pre.length = pos + idx → takeItems pos idx a.length (s, o) =
        .ok a (s, { o with cells := pre ++ List.replicate a.length none ++ rest }) := by
  intro a
  induction a with
  | nil =>
    intro idx o pre h _
    simp only [List.map_nil, List.append_nil] at h
    simp [takeItems, M.pure, ← h]
  | cons x a ih =>
    intro idx o pre h hp
    have h1 : o.cells = pre ++ some x :: (a.map some ++ rest) := by rw [h]; simp
    have e1 := takeCell_eq (p := pos + idx) s h1 hp.symm
    have e2 := ih (idx + 1) { o with cells := pre ++ none :: (a.map some ++ rest) } (pre ++ [none])
      (by simp) (by simp only [List.length_append, List.length_singleton]; omega)
    simp only [List.length_cons, takeItems, M.bind, e1, e2, M.pure]
    congr 2
    simp [List.replicate_succ]

theorem rows_split {w a b d : Nat} {xs : List T} (hab : a ≤ b) (hbd : b ≤ d) (hl : xs.length = d * w) :
    xs = xs.take (a * w) ++ rowsOf w a b xs ++ xs.drop (b * w) ∧
      (xs.take (a * w)).length = a * w ∧ (rowsOf w a b xs).length = (b - a) * w ∧
      (xs.drop (b * w)).length = (d - b) * w := by
  have h1 := Nat.mul_le_mul_right w hab
  have h2 := Nat.mul_le_mul_right w hbd
  have h3 : (b - a) * w = b * w - a * w := Nat.sub_mul ..
  have h4 : (d - b) * w = d * w - b * w := Nat.sub_mul ..
  refine ⟨?_, by rw [List.length_take]; omega, by rw [rowsOf, List.length_take, List.length_drop]; omega,
    by rw [List.length_drop]; omega⟩
  have e : xs.drop (b * w) = (xs.drop (a * w)).drop ((b - a) * w) := by
    rw [List.drop_drop]; congr 1; omega
  rw [rowsOf, e, List.append_assoc, List.take_append_drop, List.take_append_drop]

theorem rangeNorm_some {a b : Bnd} {d : Nat} {r : Nat × Nat} (h : rangeNorm a b d = some r) :
    r.1 = lo a ∧ r.2 = hi d b ∧ r.1 ≤ r.2 ∧ r.2 ≤ d := by
  have key : ∀ {x y : Nat}, ((do check (x ≤ y); check (y ≤ d); pure (x, y)) : Option (Nat × Nat)) = some r →
      r.1 = x ∧ r.2 = y ∧ r.1 ≤ r.2 ∧ r.2 ≤ d := by
    intro x y h
    rw [check_bind, check_bind] at h
    by_cases h1 : x ≤ y <;> by_cases h2 : y ≤ d <;> simp [h1, h2] at h
    subst h
    exact ⟨rfl, rfl, h1, h2⟩
  unfold rangeNorm at h
  cases a <;> cases b <;> simp only at h <;> repeat' split at h
  all_goals first | exact key h | cases h

theorem post_drainNew {s : σ} {o : Own T} {xs : List T} (start stop : Bnd) (h : Holds o xs) :
    M.Post (drainNew start stop) (s, o)
      (fun d t => (0 < o.shape.rank ∧ o.shape.ty.head = .dyn) ∧ ∃ d0 ds a b, o.shape.dims = d0 :: ds ∧
        rangeNorm start stop d0 = some (a, b) ∧ a ≤ b ∧ b ≤ d0 ∧
        t = (s, { o with shape := ⟨o.shape.ty, a :: ds⟩ }) ∧
        d = ⟨a * size ds, ⟨o.shape.ty, (b - a) :: ds⟩, d0 - (b - a), (d0 - b) * size ds⟩)
      (fun t => t = (s, o) ∧ (¬ (0 < o.shape.rank ∧ o.shape.ty.head = .dyn) ∨
        rangeNorm start stop (o.shape.dims.getD 0 0) = none)) := by
  refine M.Post.bind (P := fun _ t => t = (s, o) ∧ 0 < o.shape.rank ∧ o.shape.ty.head = .dyn)
    (post_checkHead (fun h => ⟨rfl, h⟩) fun h => ⟨rfl, .inl h⟩) ?_
  rintro - t ⟨rfl, hr, hh⟩
  obtain ⟨d0, ds, hd⟩ : ∃ d ds, o.shape.dims = d :: ds := by
    cases hd : o.shape.dims with
    | nil => simp [Shape.rank, hd] at hr
    | cons d ds => exact ⟨d, ds, rfl⟩
  have hconf : ∀ n, o.shape.ty.Conforms (n :: ds) := by
    intro n
    have := h.1; unfold Shape.WF at this; rw [hd] at this
    exact ShapeTy.conforms_head_dyn hh this
  show M.Post (M.bind (M.lift (rangeNorm start stop (o.shape.dims.getD 0 0))) _) (s, o) _ _
  refine M.post_bind (M.post_lift ?_ fun h => ⟨rfl, .inr h⟩)
  intro r hr'
  obtain ⟨a, b⟩ := r
  have hd0 : o.shape.dims.getD 0 0 = d0 := by rw [hd]; rfl
  obtain ⟨-, -, hab, hbd⟩ := rangeNorm_some hr'
  rw [hd0] at hr' hbd
  simp only at hab hbd
  refine M.post_bind (M.post_lift ?_ ?_)
  rotate_left
  · intro hc
    exfalso
    have : check (a ≤ b ∧ b ≤ d0) = some () := if_pos ⟨hab, hbd⟩
    rw [hd0] at hc
    simp only [this] at hc
    cases hc
  intro _ _
  obtain ⟨tm, hrm, htm⟩ : ∃ tm, (Axis.const 0).resizeMap (.dense o.shape)
      (o.shape.dims.getD 0 0 - (b - a) - a) = some tm ∧ tm.shape.dims = (d0 - b) :: ds := by
    have := View.resizeMap_eq ⟨0, .dense o.shape⟩ (Mapping.wf_dense.2 h.1)
      (a := .const 0) (p := 0) (o.shape.dims.getD 0 0 - (b - a) - a)
      (show (Axis.const 0).index o.shape.dims.length = some 0 from if_pos hr)
    refine ⟨_, this, ?_⟩
    rw [Mapping.mk_shape]
    show o.shape.dims.set 0 _ = _
    rw [hd0, hd]
    simp only [List.set_cons_zero]
    congr 1
    omega
  refine M.post_bind (M.post_lift ?_ ?_)
  rotate_left
  · intro hc; simp only [hrm] at hc; cases hc
  intro tm' htm'
  simp only [hrm] at htm'
  injection htm' with htm'
  subst htm'
  have hrs : ∀ (n m : Nat), (⟨o.shape.ty, m :: ds⟩ : Shape).resizeDim o.shape.ty 0 n = some ⟨o.shape.ty, n :: ds⟩ := by
    intro n m
    rw [Shape.resizeDim_eq, if_pos]
    · rfl
    · exact ⟨by simp, by simpa using hconf n⟩
  have hrs0 : o.shape.resizeDim o.shape.ty 0 a = some ⟨o.shape.ty, a :: ds⟩ := by
    rw [Shape.resizeDim_eq, if_pos]
    · rw [hd]; rfl
    · rw [hd]; exact ⟨by simp, by simpa using hconf a⟩
  refine M.Post.bind (P := fun _ t => t = (s, { o with shape := ⟨o.shape.ty, a :: ds⟩ }))
    (post_setShape ?_ ?_) ?_
  · intro s' hs'
    rw [hrs0] at hs'
    injection hs' with hs'
    rw [← hs']
  · intro hs'
    rw [hrs0] at hs'
    cases hs'
  rintro - t rfl
  show M.Post (M.bind (M.lift ((⟨o.shape.ty, a :: ds⟩ : Shape).resizeDim o.shape.ty 0 (b - a))) _) (s, _) _ _
  rw [hrs]
  refine ⟨⟨hr, hh⟩, d0, ds, a, b, hd, hr', hab, hbd, rfl, ?_⟩
  rw [hd0]
  simp only [Shape.len_eq, htm, size_cons]

theorem dropItems_eq {s : σ} {o : Own T} {pre rest : List (Option T)} {ys : List T} {pos len idx : Nat}
    (h : o.cells = pre ++ ys.map some ++ rest) (hp : pre.length = pos + idx) (hl : len - idx = ys.length) :
    dropItems pos len idx (s, o) = .ok () (s, { o with
      cells := pre ++ List.replicate ys.length none ++ rest
      log := o.log ++ ys }) := by
  unfold dropItems
  rw [← hp]
  exact dropCells_eq s h hl

theorem drainDrop_eq {s : σ} {o : Own T} {pre rest : List (Option T)} {ys : List T} {d : DrainSt} {s' : Shape}
    (hs : o.shape.resizeDim o.shape.ty 0 d.newSize = some s')
    (h : o.cells = pre ++ List.replicate d.shape.len none ++ ys.map some ++ rest) (hp : pre.length = d.pos)
    (hl : d.tail = ys.length) :
    drainDrop d (s, o) = .ok () (s, { o with
      cells := pre ++ ys.map some ++ List.replicate d.shape.len none ++ rest
      shape := s' }) := by
  have e1 : (o.cells.drop (d.pos + d.shape.len)).take d.tail = ys.map some := by
    rw [h, List.append_assoc, show d.pos + d.shape.len = (pre ++ List.replicate d.shape.len none).length by
      simp [hp], List.drop_left, hl, show ys.length = (ys.map some).length by simp, List.take_left]
  have e2 : o.cells.take d.pos = pre := by
    rw [h, List.append_assoc, List.append_assoc, ← hp, List.take_left]
  have e3 : o.cells.drop (d.pos + d.shape.len + d.tail) = rest := by
    rw [h, show d.pos + d.shape.len + d.tail =
      (pre ++ List.replicate d.shape.len none ++ ys.map some).length by simp [hp, hl]; omega, List.drop_left]
  show M.bind (M.lift (o.shape.resizeDim o.shape.ty 0 d.newSize)) _ (s, o) = _
  rw [hs]
  show (if ((o.cells.drop (d.pos + d.shape.len)).take d.tail).length = d.tail ∧ _ then _ else _ :
    M (σ × Own T) Unit) (s, o) = _
  simp only [e1]
  rw [if_pos (by simp [hl])]
  unfold upd
  simp only [e2, e3]

theorem post_drainRun {s : σ} {o : Own T} {xs : List T} (start stop : Bnd) (k : Nat) (leak : Bool)
    (h : Holds o xs) :
    M.Post (drainRun start stop k leak) (s, o)
      (fun ys t => (0 < o.shape.rank ∧ o.shape.ty.head = .dyn) ∧ ∃ d0 ds a b, o.shape.dims = d0 :: ds ∧
        rangeNorm start stop d0 = some (a, b) ∧ a ≤ b ∧ b ≤ d0 ∧ t.1 = s ∧ t.2.limit = o.limit ∧
        ys = (rowsOf (size ds) a b xs).take k ∧
        ((leak = true ∧ Holds t.2 (xs.take (a * size ds)) ∧ t.2.shape = ⟨o.shape.ty, a :: ds⟩ ∧
          t.2.log = o.log) ∨
        (leak = false ∧ Holds t.2 (xs.take (a * size ds) ++ xs.drop (b * size ds)) ∧
          t.2.shape = ⟨o.shape.ty, (d0 - (b - a)) :: ds⟩ ∧
          t.2.log = o.log ++ (rowsOf (size ds) a b xs).drop k)))
      (fun t => t = (s, o) ∧ (¬ (0 < o.shape.rank ∧ o.shape.ty.head = .dyn) ∨
        rangeNorm start stop (o.shape.dims.getD 0 0) = none)) := by
  refine M.Post.bind (post_drainNew start stop h) ?_
  rintro d t ⟨⟨hr, hh⟩, d0, ds, a, b, hd, hn, hab, hbd, rfl, rfl⟩
  have hconf : ∀ n, o.shape.ty.Conforms (n :: ds) := by
    intro n
    have := h.1; unfold Shape.WF at this; rw [hd] at this
    exact ShapeTy.conforms_head_dyn hh this
  have hl : xs.length = d0 * size ds := by rw [h.2.1, hd, size_cons]
  obtain ⟨e0, l1, l2, l3⟩ := rows_split hab hbd hl
  obtain ⟨rest, hc⟩ := h.2.2
  have hlen : Shape.len ⟨o.shape.ty, (b - a) :: ds⟩ = (rowsOf (size ds) a b xs).length := by
    rw [Shape.len_eq, l2]; exact size_cons ..
  generalize hA : xs.take (a * size ds) = A at *
  generalize hB : rowsOf (size ds) a b xs = B at *
  generalize hC : xs.drop (b * size ds) = C at *
  have hc' : o.cells = A.map some ++ (B.take k).map some ++ ((B.drop k).map some ++ C.map some ++ rest) := by
    rw [← hc, e0, List.map_append, List.map_append, show B.map some = (B.take k).map some ++ (B.drop k).map some by
      rw [← List.map_append, List.take_append_drop]]
    simp only [List.append_assoc]
  have hk : min k (Shape.len ⟨o.shape.ty, (b - a) :: ds⟩) = (B.take k).length := by
    rw [hlen, List.length_take]
  simp only [hk]
  rw [show (a * size ds) = A.length from l1.symm]
  have e1 := takeItems_eq s A.length ((B.drop k).map some ++ C.map some ++ rest) (B.take k) 0
    { o with shape := ⟨o.shape.ty, a :: ds⟩ } (A.map some) hc' (by simp)
  refine M.Post.bind (M.post_of_eq (Q := fun ys t => ys = B.take k ∧ t = (s, ({ o with
    shape := ⟨o.shape.ty, a :: ds⟩
    cells := A.map some ++ List.replicate (B.take k).length none ++
      ((B.drop k).map some ++ C.map some ++ rest) } : Own T))) e1 ⟨rfl, rfl⟩) ?_
  rintro ys t ⟨rfl, rfl⟩
  cases leak with
  | true =>
    rw [if_pos rfl]
    refine ⟨⟨hr, hh⟩, d0, ds, a, b, hd, hn, hab, hbd, rfl, rfl, by rw [hB], .inl ⟨rfl, ?_, rfl, rfl⟩⟩
    rw [hA]
    refine ⟨hconf a, ?_, ?_⟩
    · rw [l1]; exact (size_cons ..).symm
    · simp only [List.append_assoc]; exact List.prefix_append _ _
  | false =>
    rw [if_neg (by simp)]
    have e2 := dropItems_eq (s := s) (o := { o with
      shape := ⟨o.shape.ty, a :: ds⟩
      cells := A.map some ++ List.replicate (B.take k).length none ++
        ((B.drop k).map some ++ C.map some ++ rest) }) (pre := A.map some ++ List.replicate (B.take k).length none)
      (rest := C.map some ++ rest) (ys := B.drop k) (pos := A.length)
      (len := Shape.len ⟨o.shape.ty, (b - a) :: ds⟩) (idx := (B.take k).length) (by simp) (by simp) (by
        rw [hlen, List.length_take, List.length_drop]; omega)
    refine M.Post.bind (M.post_of_eq (Q := fun _ t => t = (s, ({ o with
      shape := ⟨o.shape.ty, a :: ds⟩
      cells := A.map some ++ List.replicate B.length none ++ C.map some ++ rest
      log := o.log ++ B.drop k } : Own T))) e2 ?_) ?_
    · congr 2
      have : List.replicate B.length (none : Option T) = List.replicate (B.take k).length none ++
          List.replicate (B.drop k).length none := by
        rw [← List.replicate_add, ← List.length_append, List.take_append_drop]
      rw [this]
      simp
    rintro - t rfl
    have e3 := drainDrop_eq (s := s) (o := { o with
      shape := ⟨o.shape.ty, a :: ds⟩
      cells := A.map some ++ List.replicate B.length none ++ C.map some ++ rest
      log := o.log ++ B.drop k }) (pre := A.map some) (rest := rest) (ys := C)
      (d := ⟨A.length, ⟨o.shape.ty, (b - a) :: ds⟩, d0 - (b - a), (d0 - b) * size ds⟩)
      (s' := ⟨o.shape.ty, (d0 - (b - a)) :: ds⟩) (by
        rw [Shape.resizeDim_eq, if_pos]
        · rfl
        · exact ⟨by simp, by simpa using hconf _⟩) (by rw [hlen]) (by simp) l3.symm
    refine M.Post.bind (M.post_of_eq (Q := fun _ t => t = _) e3 rfl) ?_
    rintro - t rfl
    refine ⟨⟨hr, hh⟩, d0, ds, a, b, hd, hn, hab, hbd, rfl, rfl, by rw [hB], .inr ⟨rfl, ?_, rfl, by rw [hB]⟩⟩
    rw [hA, hC]
    refine ⟨hconf _, ?_, ?_⟩
    · rw [List.length_append, l1, l3, ← Nat.add_mul]
      show _ = size ((d0 - (b - a)) :: ds)
      rw [size_cons]
      congr 1
      omega
    · rw [List.map_append]
      simp only [List.append_assoc]
      rw [← List.append_assoc]
      exact List.prefix_append _ _

theorem post_intoItems {s : σ} {o : Own T} {xs : List T} (k : Nat) {R} (h : Holds o xs) :
    M.Post (intoItems k) (s, o)
      (fun ys t => t.1 = s ∧ ys = xs.take k ∧ t.2.log = o.log ++ xs.drop k ∧
        ∀ p : Nat, p < xs.length → t.2.cells[p]? = some none) R := by
  obtain ⟨rest, hc⟩ := h.2.2
  have hlen : Shape.len o.shape = xs.length := by rw [Shape.len_eq, h.2.1]
  have hk : min k o.shape.len = (xs.take k).length := by rw [hlen, List.length_take]
  show M.Post (M.bind (takeItems 0 0 (min k o.shape.len)) fun xs =>
      M.bind (dropItems 0 o.shape.len (min k o.shape.len)) fun _ => M.pure xs) (s, o) _ _
  rw [hk]
  have hc' : o.cells = [] ++ (xs.take k).map some ++ ((xs.drop k).map some ++ rest) := by
    rw [← hc, List.nil_append, ← List.append_assoc, ← List.map_append, List.take_append_drop]
  have e1 := takeItems_eq s 0 ((xs.drop k).map some ++ rest) (xs.take k) 0 o [] hc' rfl
  refine M.Post.bind (M.post_of_eq (Q := fun ys t => ys = xs.take k ∧ t = (s, ({ o with
    cells := [] ++ List.replicate (xs.take k).length none ++ ((xs.drop k).map some ++ rest) } : Own T)))
    e1 ⟨rfl, rfl⟩) ?_
  rintro ys t ⟨rfl, rfl⟩
  have e2 := dropItems_eq (s := s) (o := { o with
    cells := [] ++ List.replicate (xs.take k).length none ++ ((xs.drop k).map some ++ rest) })
    (pre := List.replicate (xs.take k).length none) (rest := rest) (ys := xs.drop k) (pos := 0)
    (len := o.shape.len) (idx := (xs.take k).length) (by simp) (by simp) (by
      rw [hlen, List.length_take, List.length_drop]; omega)
  refine M.Post.bind (M.post_of_eq (Q := fun _ t => t = _) e2 rfl) ?_
  rintro - t rfl
  refine ⟨rfl, rfl, rfl, ?_⟩
  intro p hp
  simp only
  rw [← List.replicate_add, ← List.length_append, List.take_append_drop,
    List.getElem?_append_left (by simpa using hp), List.getElem?_replicate, if_pos hp]

theorem _root_.Spec.Ran.unique {step : Nat → M σ α} {n : Nat} {s t t' : σ} {ys zs : List α}
    (h : Ran step n s ys t) (h' : Ran step n s zs t') : ys = zs ∧ t = t' := by
  unfold Ran at h h'
  rw [h] at h'
  injection h' with h1 h2
  exact ⟨h1, h2⟩

theorem itemStep_intoExpr {sh : Shape} {buf : List T} (hl : buf.length = size sh.dims) {n : Nat}
    (hn : n < buf.length) :
    itemStep (intoExpr sh buf 0 : Expr σ T) M.pure n = M.pure buf[n] := by
  show M.bind (item (intoExpr sh buf 0 : Expr σ T) n (unrank sh.dims n)) M.pure = _
  rw [item, rowMajor_unrank (by omega), List.getElem?_eq_getElem hn]
  rfl

theorem post_tensorAppend {s : σ} {o o2 : Own T} {xs ys : List T} (h : Holds o xs) (h2 : Holds o2 ys) :
    M.Post tensorAppend ((s, o2), o)
      (fun _ t => t.1.1 = s ∧ (0 < o.shape.rank ∧ o.shape.ty.head = .dyn) ∧
        Holds t.1.2 [] ∧ t.1.2.shape = ⟨o2.shape.ty, 0 :: o2.shape.dims.tail⟩ ∧ t.1.2.log = o2.log ∧
        t.1.2.limit = o2.limit ∧ Holds t.2 (xs ++ ys) ∧ t.2.log = o.log ∧ t.2.limit = o.limit ∧
        t.2.shape.ty = o.shape.ty ∧ ((size o2.shape.dims = 0 ∧ t.2.shape = o.shape) ∨
          (0 < size o2.shape.dims ∧ Fits o.shape o2.shape.dims ∧ t.2.shape.dims =
            if size o.shape.dims = 0 then o2.shape.dims else
              (o.shape.dims.getD 0 0 + o2.shape.dims.getD 0 0) :: o.shape.dims.tail)))
      (fun t => t.1.1 = s ∧ Same o t.2 xs ∧
        ((t.1.2 = o2 ∧ ¬ (0 < o2.shape.rank ∧ o2.shape.ty.head = .dyn)) ∨
        ((0 < o2.shape.rank ∧ o2.shape.ty.head = .dyn) ∧
          Holds t.1.2 [] ∧ t.1.2.shape = ⟨o2.shape.ty, 0 :: o2.shape.dims.tail⟩ ∧
          t.1.2.log = o2.log ++ ys ∧ t.1.2.limit = o2.limit ∧
          (¬ (0 < o.shape.rank ∧ o.shape.ty.head = .dyn) ∨
            (0 < size o2.shape.dims ∧ (¬ Fits o.shape o2.shape.dims ∨
              o.limit < xs.length + size o2.shape.dims)))))) := by
  unfold tensorAppend
  refine M.Post.bind (P := fun d t => (0 < o2.shape.rank ∧ o2.shape.ty.head = .dyn) ∧ ∃ d0 ds,
      o2.shape.dims = d0 :: ds ∧ t = ((s, { o2 with shape := ⟨o2.shape.ty, 0 :: ds⟩ }), o) ∧
        d = ⟨0, ⟨o2.shape.ty, d0 :: ds⟩, 0, 0⟩)
    (M.post_up ((post_drainNew .unbounded .unbounded h2).mono ?_ ?_)) ?_
  · rintro d t ⟨hh, d0, ds, a, b, hd, hn, -, -, rfl, rfl⟩
    have : rangeNorm .unbounded .unbounded d0 = some (0, d0) := by
      simp [rangeNorm, check]
    rw [this] at hn
    obtain ⟨rfl, rfl⟩ : 0 = a ∧ d0 = b := by
      injection hn with hn
      exact ⟨congrArg Prod.fst hn, congrArg Prod.snd hn⟩
    exact ⟨hh, d0, ds, hd, rfl, by simp⟩
  · rintro t ⟨rfl, hn⟩
    refine ⟨rfl, Same.refl h, .inl ⟨rfl, ?_⟩⟩
    rcases hn with hn | hn
    · exact hn
    · exfalso
      simp [rangeNorm, check] at hn
  rintro d t ⟨⟨hr, hh⟩, d0, ds, hd, rfl, rfl⟩
  refine M.Post.bind (M.post_get (Q := fun a t => a = ((s, { o2 with shape := ⟨o2.shape.ty, 0 :: ds⟩ }), o) ∧
    t = ((s, { o2 with shape := ⟨o2.shape.ty, 0 :: ds⟩ }), o)) ⟨rfl, rfl⟩) ?_
  rintro - - ⟨rfl, rfl⟩
  have hconf : ∀ n, o2.shape.ty.Conforms (n :: ds) := by
    intro n
    have := h2.1; unfold Shape.WF at this; rw [hd] at this
    exact ShapeTy.conforms_head_dyn hh this
  obtain ⟨rest, hc⟩ := h2.2.2
  have hlen : Shape.len ⟨o2.shape.ty, d0 :: ds⟩ = ys.length := by
    rw [Shape.len_eq, h2.2.1, hd]
  have hyl : ys.length = size (d0 :: ds) := by rw [h2.2.1, hd]
  have hbuf : ((o2.cells.drop 0).take (Shape.len ⟨o2.shape.ty, d0 :: ds⟩)).filterMap id = ys := by
    rw [hlen, List.drop_zero, ← hc, show ys.length = (ys.map some).length by simp, List.take_left]
    simp
  simp only [hbuf]
  have hdrop : ∀ (o3 : Own T), o3.shape = ⟨o2.shape.ty, 0 :: ds⟩ →
      o3.cells = List.replicate ys.length none ++ rest →
      drainDrop ⟨0, ⟨o2.shape.ty, d0 :: ds⟩, 0, 0⟩ (s, o3) = .ok () (s, { o3 with
        shape := ⟨o2.shape.ty, 0 :: ds⟩
        cells := List.replicate ys.length none ++ rest }) := by
    intro o3 h1 h2
    have := drainDrop_eq (s := s) (o := o3) (pre := []) (rest := rest) (ys := [])
      (d := ⟨0, ⟨o2.shape.ty, d0 :: ds⟩, 0, 0⟩) (s' := ⟨o2.shape.ty, 0 :: ds⟩) (by
        rw [h1, Shape.resizeDim_eq, if_pos]
        · rfl
        · exact ⟨by simp, by simpa using hconf 0⟩) (by rw [hlen, h2]; simp) rfl rfl
    rw [this, hlen]
    simp
  have hempty : ∀ o3 : Own T, o3.shape = ⟨o2.shape.ty, 0 :: ds⟩ → Holds o3 [] := by
    intro o3 h1
    refine ⟨by rw [h1]; exact hconf 0, by rw [h1]; simp [size_cons], by simp⟩
  refine M.Post.bind (P := fun _ t => t.1 = (s, { o2 with shape := ⟨o2.shape.ty, 0 :: ds⟩ }) ∧
      (0 < o.shape.rank ∧ o.shape.ty.head = .dyn) ∧ Holds t.2 (xs ++ ys) ∧ t.2.log = o.log ∧
      t.2.limit = o.limit ∧ t.2.shape.ty = o.shape.ty ∧
        ((size (d0 :: ds) = 0 ∧ t.2.shape = o.shape) ∨
          (0 < size (d0 :: ds) ∧ Fits o.shape (d0 :: ds) ∧ t.2.shape.dims =
            if size o.shape.dims = 0 then d0 :: ds else
              (o.shape.dims.getD 0 0 + (d0 :: ds).getD 0 0) :: o.shape.dims.tail)))
    (M.post_onPanic (M.Post.mono (post_expand (e := intoExpr ⟨o2.shape.ty, d0 :: ds⟩ ys 0)
      (.intoExpr (hconf d0) hyl) (by unfold Sound Regular; trivial) (tame_intoExpr hyl)
      (c := M.pure) (fun y => M.tame_pure y) h) ?_ ?_)) ?_
  · rintro - ⟨⟨t, o3⟩, o'⟩ ⟨h1, hcase⟩
    rcases hcase with ⟨h3, h4⟩ | ⟨h3, h4, zs, h5, h6, h7, h8, h9, h10⟩
    · replace h3 : size (d0 :: ds) = 0 := h3
      have hnil : ys = [] := List.eq_nil_of_length_eq_zero (by rw [hyl, h3])
      cases h4
      refine ⟨rfl, h1, ?_, rfl, rfl, rfl, .inl ⟨h3, rfl⟩⟩
      rw [hnil, List.append_nil]; exact h
    · have := ran_pure (s := ((s, { o2 with shape := ⟨o2.shape.ty, 0 :: ds⟩ }) : σ × Own T))
        (fun n hn => itemStep_intoExpr (σ := σ × Own T) (sh := ⟨o2.shape.ty, d0 :: ds⟩) hyl hn)
      rw [hyl] at this
      obtain ⟨rfl, ht⟩ := this.unique h5
      exact ⟨ht.symm, h1, h6, h9, h10, h7, .inr ⟨h3, h4, h8⟩⟩
  · rintro ⟨⟨t, o3⟩, o'⟩ hcase
    rcases hcase with ⟨h3, h4, h5⟩ | ⟨h3, h4, k, zs, ⟨hk, t', -, h6⟩, -⟩
    · cases h3
      have e1 := dropItems_eq (s := s) (o := { o2 with shape := ⟨o2.shape.ty, 0 :: ds⟩ })
        (pre := []) (rest := rest) (ys := ys) (pos := 0) (len := Shape.len ⟨o2.shape.ty, d0 :: ds⟩)
        (idx := 0) (by simp [hc]) rfl (by rw [hlen]; rfl)
      refine M.post_up (M.Post.bind (M.post_of_eq (Q := fun _ t => t = _) e1 rfl) ?_)
      rintro - - rfl
      refine M.post_of_eq (hdrop _ rfl (by simp)) ?_
      refine ⟨rfl, h4, .inr ⟨⟨hr, hh⟩, hempty _ rfl, by rw [hd]; rfl, rfl, rfl, ?_⟩⟩
      rw [hd]
      exact h5
    · exfalso
      have hk' : k < ys.length := by rw [hyl]; exact hk
      rw [itemStep_intoExpr hyl hk'] at h6
      cases h6
  · rintro - ⟨t1, o'⟩ ⟨h3, h4⟩
    simp only at h3
    subst h3
    have e1 := takeItems_eq s 0 rest ys 0 { o2 with shape := ⟨o2.shape.ty, 0 :: ds⟩ } []
      (by simp [hc]) rfl
    rw [← hlen] at e1
    refine M.Post.bind (P := fun _ t => t = ((s, ({ o2 with
      shape := ⟨o2.shape.ty, 0 :: ds⟩
      cells := [] ++ List.replicate (Shape.len ⟨o2.shape.ty, d0 :: ds⟩) none ++ rest } : Own T)), o'))
      (M.post_up (M.post_of_eq e1 rfl)) ?_
    rintro a - rfl
    have e2 := dropItems_eq (s := s) (o := { o2 with
      shape := ⟨o2.shape.ty, 0 :: ds⟩
      cells := [] ++ List.replicate (Shape.len ⟨o2.shape.ty, d0 :: ds⟩) none ++ rest })
        (pre := List.replicate ys.length none) (rest := rest) (ys := []) (pos := 0)
        (len := Shape.len ⟨o2.shape.ty, d0 :: ds⟩)
        (idx := Shape.len ⟨o2.shape.ty, d0 :: ds⟩) (by simp [hlen]) (by simp [hlen]) (by simp)
    refine M.post_up (M.Post.bind (M.post_of_eq (Q := fun _ t => t = _) e2 rfl) ?_)
    rintro - - rfl
    refine M.post_of_eq (hdrop _ rfl (by simp)) ?_
    refine ⟨rfl, h4.1, hempty _ rfl, by rw [hd]; rfl, by simp, rfl, ?_⟩
    rw [hd]
    exact h4.2

end Model
