import Verif.Spec.Matmul
import Verif.Props.Expr
import Verif.Props.Safety
import Verif.Lemmas.Reach

/-! Lemmas on `for` loops over expressions, and on loops over matrices. -/

namespace Model.Matmul
open Spec Model Model.Expr Model.Iter Props

variable {σ α β T : Type}

theorem forFuel_iterN {e : Expr σ α} (hw : e.Wf) (hR : Sound e) (hp : Plain e) (f : α → M σ Unit) :
    ∀ (k n fuel : Nat), n + k = size e.dims → k < fuel →
    forFuel f fuel (iterN e n) = (List.range' n k).foldlM (visit e fun _ x => f x) () := by
  intro k
  induction k with
  | zero =>
    intro n fuel hn hf
    obtain ⟨c, hc⟩ := next_iterN_end hw hp
    obtain ⟨fuel, rfl⟩ : ∃ m, fuel = m + 1 := ⟨fuel - 1, by omega⟩
    rw [Nat.add_zero] at hn
    subst hn
    simp only [forFuel, hc, M.pure_bind, List.range'_zero, List.foldlM_nil]
    rfl
  | succ k ih =>
    intro n fuel hn hf
    obtain ⟨fuel, rfl⟩ : ∃ m, fuel = m + 1 := ⟨fuel - 1, by omega⟩
    simp only [forFuel, next_iterN hw hR (show n < size e.dims by omega), M.bind_assoc, M.pure_bind,
      List.range'_succ, List.foldlM_cons, M.bind_eq, visit]
    congr 1
    funext x
    congr 1
    funext u
    exact ih (n + 1) fuel (by omega) (by omega)

theorem forLoop_eq {e : Expr σ α} (hb : Built e) (hR : Sound e) (hp : Plain e) (f : α → M σ Unit) :
    forLoop e f = foldItems e (fun _ x => f x) () := by
  have hw := wf_of_built hb
  have hle : size e.dims ≤ (Iter.new e).outerCount * (Iter.new e).innerLimit := by
    rw [new_eq hw hR]
    rcases Nat.eq_zero_or_pos (size e.dims) with h | h
    · omega
    · rw [outerCount_iterAt, size_split h]
      exact le_refl _
  rw [foldItems_eq]
  unfold forLoop
  simp only
  rw [List.range_eq_range']
  have := forFuel_iterN hw hR hp f (size e.dims) 0 ((Iter.new e).outerCount * (Iter.new e).innerLimit + 1)
    (by omega) (by omega)
  rw [← this]
  congr 1
  exact new_eq hw hR

/-- An expression of rank 1 with `n` items, the `i`-th one being `g i`. -/
structure Line (e : Expr σ α) (n : Nat) (g : Nat → α) : Prop where
  built : Built e
  dims : e.dims = [n]
  inner : e.innerRank = some 1
  regular : Regular e 1 0
  item : ∀ k i, i < n → Spec.item e k [i] = M.pure (g i)

theorem Line.outer {e : Expr σ α} {n : Nat} {g : Nat → α} (h : Line e n g) : e.outerRank = 0 := by
  have := h.dims
  unfold outerRank
  rw [h.inner]
  simp only [Expr.rank]
  rw [show e.shape.dims = [n] from this]
  rfl

theorem Line.loop {e : Expr σ α} {n : Nat} {g : Nat → α} (h : Line e n g) (f : α → M σ Unit) :
    forLoop e f = (List.range n).foldlM (fun _ i => f (g i)) () := by
  have ho := h.outer
  have hR : Sound e := by
    unfold Sound; rw [ho, h.dims]; exact h.regular
  rw [forLoop_eq h.built hR (plain_of_outer ho), foldItems_eq, h.dims]
  have hs : size [n] = n := by simp [size]
  rw [hs]
  have : ∀ (l : List Nat), (∀ i ∈ l, i < n) →
      l.foldlM (visit e fun _ x => f x) () = l.foldlM (fun _ i => f (g i)) () := by
    intro l
    induction l with
    | nil => intro _; rfl
    | cons i l ih =>
      intro hl
      have ih := ih fun j hj => hl j (List.mem_cons_of_mem _ hj)
      have hi := hl i List.mem_cons_self
      have : unrank e.dims i = [i] := by
        rw [h.dims]; simp [unrank]
      have hv : visit e (fun _ x => f x) () i = f (g i) := by
        unfold visit
        rw [this, h.item i i hi, M.pure_bind]
      rw [List.foldlM_cons, List.foldlM_cons, hv]
      congr 1
      funext u
      exact ih
  exact this _ fun i hi => List.mem_range.1 hi

theorem mapInnerRank_one {m : Mapping} (hm : m.WF) {n : Nat} (hd : m.dims = [n]) : mapInnerRank m = some 1 := by
  have hr : m.rank = 1 := by rw [show m.rank = m.dims.length from rfl, hd]; rfl
  unfold mapInnerRank
  rw [hr]
  split
  · rw [if_neg]
    intro h0
    have hw : m.shape.WF := hm.1
    unfold Shape.WF at hw
    rw [show m.shape.dims = [n] from hd] at hw
    cases hty : m.shape.ty with
    | dynRank => simp [hty, ShapeTy.rank?] at h0
    | static ds =>
      rw [hty] at hw
      simp only [hty, ShapeTy.rank?, Option.some.injEq, List.length_eq_zero_iff] at h0
      subst h0
      simp [ShapeTy.Conforms] at hw
  · rfl

theorem line_view {r : Bool} {v : View} (hv : v.map.WF) {n : Nat} (hd : v.dims = [n]) {g : Nat → Int}
    (hg : ∀ i, i < n → v.index [i] = some (g i)) : Line (Expr.view r v : Expr σ Int) n g where
  built := .view hv
  dims := hd
  inner := mapInnerRank_one hv hd
  regular := trivial
  item := by
    intro k i hi
    simp only [Spec.item, hg i hi, orUb]

/-- The rows of a matrix. -/
structure Row (v w : View) (n i : Nat) : Prop where
  lane : laneAt v .rows [i] = some w
  wf : w.map.WF
  dims : w.dims = [n]
  index : ∀ j, w.index [j] = v.index [i, j]

theorem rows_row {v : View} (hv : v.map.WF) {m n : Nat} (hd : v.dims = [m, n]) :
    ∃ g : Nat → View, ∀ i, i < m → Row v (g i) n i := by
  have : ∀ i, ∃ w, i < m → Row v w n i := by
    intro i
    by_cases hi : i < m
    · have hp : axisPos .rows v.dims.length = some 1 := by rw [hd]; rfl
      obtain ⟨w, h1, h2, h3⟩ := C28_lane v hv .rows 1 hp [i] (by rw [hd]; simpa using hi)
      refine ⟨w, fun _ => ⟨h1, ?_, by rw [h2, hd]; rfl, fun j => h3 j⟩⟩
      unfold laneAt at h1
      simp only [hp, Option.bind_eq_bind, Option.bind_some, Option.bind_eq_some_iff] at h1
      obtain ⟨it, h4, h5⟩ := h1
      have h6 : w.map = it := by
        split at h5
        · cases h5; rfl
        · obtain ⟨_, -, h5⟩ := Option.bind_eq_some_iff.1 h5
          cases h5; rfl
      subst h6
      obtain ⟨_, -, -, -, -, -, hw⟩ := axis_dims hv h4
      exact hw
    · exact ⟨v, fun h => absurd h hi⟩
  choose g hg using this
  exact ⟨g, fun i => hg i⟩

theorem line_rows {v : View} (hv : v.Inv) {m n : Nat} (hd : v.dims = [m, n]) {g : Nat → View}
    (hg : ∀ i, i < m → Row v (g i) n i) (r : Bool) :
    ∃ e : Expr σ View, lanesNew r v .rows = some e ∧ Line e m g ∧ e.repeatable = r := by
  have hp : axisPos .rows v.map.dims.length = some 1 := by
    rw [show v.map.dims = [m, n] from hd]; rfl
  obtain ⟨M, hM⟩ : ∃ M, Axis.removeMap .rows v.map = some M := by
    rw [Axis.removeMap_eq _ _ hv.wf, hp]; exact ⟨_, rfl⟩
  obtain ⟨p, h1, -, h2, -, h3⟩ := lanes_dims hv.wf hM
  have : p = 1 := by
    have := h1.symm.trans hp; exact Option.some.inj this
  subst this
  have hMd : M.dims = [m] := by rw [h2, hd]; rfl
  have hl : M.shape.checkedLen = some m := by
    rw [Shape.checkedLen_eq, show M.shape.dims = [m] from hMd, if_pos]
    · simp [size]
    · have : m ≤ usizeMax := hv.usize m (by rw [hd]; exact List.mem_cons_self)
      intro k hk
      rcases Nat.eq_zero_or_pos k with rfl | hk'
      · simp [size, usizeMax]
      · have : k = 1 := by simp at hk; omega
        subst this
        simpa [size] using this
  have he : (lanesNew r v .rows : Option (Expr σ View)) = some (.lanes r v .rows M 0) := by
    rw [lanesNew, hM, Option.bind_some, hl, Option.map_some]
  refine ⟨_, he, ⟨.lanes hv.wf he, hMd, mapInnerRank_one h3 hMd, ?_, ?_⟩, rfl⟩
  · exact Nat.zero_le _
  · intro k i hi
    simp only [Spec.item, (hg i hi).lane, orUb]

theorem line_zip {a : Expr σ α} {b : Expr σ β} {n n' : Nat} {g : Nat → α} {g' : Nat → β} (ha : Line a n g)
    (hb : Line b n' g') :
    if n = n' then ∃ e, zipNew a b = some e ∧ Line e n fun i => (g i, g' i) else zipNew a b = none := by
  have hC := C23 a b ha.built hb.built
  rw [ha.dims, hb.dims] at hC
  split
  · rename_i hn
    subst hn
    cases he : zipNew a b with
    | none =>
      rw [he] at hC
      exfalso
      rcases hC.1.1 rfl with ⟨k, -, -, h⟩ | ⟨-, h⟩ | ⟨-, h⟩
      · exact h rfl
      · simp at h
      · simp at h
    | some e =>
      have hd : e.dims = [n] := by rw [(hC.2 e he).1]; simp
      obtain ⟨s, hs, rfl⟩ := Option.map_eq_some_iff.1 he
      have hd' : s.dims = [n] := hd
      refine ⟨_, rfl, .zip ha.built hb.built he, hd, ?_, ⟨ha.regular, hb.regular⟩, ?_⟩
      · simp only [Expr.innerRank, ha.inner, hb.inner]; rfl
      · intro k i hi
        simp only [Spec.item]
        rw [ha.dims, hb.dims, hd']
        simp only [Nat.sub_self, List.drop_zero, ha.item k i hi, hb.item k i hi, M.pure_bind]
  · rename_i hn
    exact hC.1.2 (.inl ⟨0, by simp, by simp, by simpa using hn⟩)

/-- Loops that keep an invariant with a state. -/
theorem loop_rep {S : Type} {R : S → σ → Prop} {body : Nat → M σ Unit} {st : S → Nat → S} {xs : List Nat}
    (h : ∀ i ∈ xs, ∀ s w, R s w → ∃ w', body i w = .ok () w' ∧ R (st s i) w') :
    ∀ s w, R s w → ∃ w', (xs.foldlM (fun _ i => body i) () : M σ Unit) w = .ok () w' ∧ R (xs.foldl st s) w' := by
  induction xs with
  | nil => intro s w hw; exact ⟨w, rfl, hw⟩
  | cons i xs ih =>
    intro s w hw
    obtain ⟨w1, h1, h2⟩ := h i List.mem_cons_self s w hw
    obtain ⟨w2, h3, h4⟩ := ih (fun j hj => h j (List.mem_cons_of_mem _ hj)) _ _ h2
    refine ⟨w2, ?_, h4⟩
    rw [List.foldlM_cons, M.bind_eq]
    unfold M.bind
    rw [h1]
    exact h3

/-- Where a matrix has its elements. -/
structure Place (h : Heap T) (x : Mat) (m n : Nat) : Prop where
  inv : x.view.Inv
  dims : x.view.dims = [m, n]
  index : ∀ i j, i < m → j < n → ∃ p : Nat, x.view.index [i, j] = some (p : Int) ∧ p < (h x.alloc).length
  inj : ∀ i j i' j', i < m → j < n → i' < m → j' < n → x.view.index [i, j] = x.view.index [i', j'] → i = i' ∧ j = j'

theorem place {h : Heap T} {x : Mat} {m n : Nat} (hx : IsMat h x m n) : Place h x m n := by
  obtain ⟨hd, checks, s, hs, hu, hn, hr, hl⟩ := hx
  have hv : ∀ {i j}, i < m → j < n → Valid x.view.dims [i, j] := by
    intro i j hi hj; rw [hd]; simpa using ⟨hi, hj⟩
  refine ⟨(View.good_reach (View.inv_whole hs hu hn) hr).inv (View.inv_whole hs hu hn), hd, ?_, ?_⟩
  · intro i j hi hj
    obtain ⟨p, h1, h2⟩ := (C04 s hs hu hn checks x.view hr [i, j]).1 (hv hi hj)
    exact ⟨p, h2, by rw [hl]; exact h1⟩
  · intro i j i' j' hi hj hi' hj' e
    have := C05 s hs hu hn checks x.view hr _ _ (hv hi hj) (hv hi' hj') e
    simpa using this

theorem entries [Nonempty T] {h : Heap T} {x : Mat} {m n : Nat} (hx : Place h x m n) :
    ∃ A : Nat → Nat → T, ∀ i j, i < m → j < n → entry h x i j = some (A i j) := by
  have : ∀ i j, i < m → j < n → ∃ y, entry h x i j = some y := by
    intro i j hi hj
    obtain ⟨p, h1, h2⟩ := hx.index i j hi hj
    unfold entry
    rw [h1]
    exact ⟨_, List.getElem?_eq_getElem h2⟩
  refine ⟨fun i j => (entry h x i j).getD (Classical.arbitrary T), fun i j hi hj => ?_⟩
  obtain ⟨y, hy⟩ := this i j hi hj
  simp [hy]

/-- The memory `h`, if the matrix `c` has the elements `C` and everything else is as in `h₀`. -/
structure Rep (h₀ : Heap T) (c : Mat) (m n : Nat) (C : Nat → Nat → T) (h : Heap T) : Prop where
  len : ∀ a, (h a).length = (h₀ a).length
  ent : ∀ i j, i < m → j < n → entry h c i j = some (C i j)
  rest : ∀ a (q : Nat), ¬ InMat c a q → (h a)[q]? = (h₀ a)[q]?

/-- Change one element. -/
def upd (C : Nat → Nat → T) (i j : Nat) (x : T) : Nat → Nat → T := fun i' j' => if i' = i ∧ j' = j then x else C i' j'

theorem load_of {h : Heap T} {a p : Nat} {x : T} (hx : (h a)[p]? = some x) :
    (load a (p : Int) : M (Heap T) T) h = .ok x h := by
  unfold load
  rw [if_pos (by omega)]
  simp [hx]

theorem rep_other {h₀ h : Heap T} {c x : Mat} {m n : Nat} {C : Nat → Nat → T} (hr : Rep h₀ c m n C h)
    (hs : NoShared x c) {i j : Nat} {p : Nat}
    (hp : x.view.index [i, j] = some (p : Int)) : (h x.alloc)[p]? = entry h₀ x i j := by
  rw [hr.rest _ _ (hs _ _ ⟨rfl, _, hp⟩)]
  unfold entry
  rw [hp]
  rfl

theorem rep_store {h₀ h : Heap T} {c : Mat} {m n : Nat} {C : Nat → Nat → T} (hr : Rep h₀ c m n C h)
    (hc : Place h₀ c m n) {i j : Nat} (hi : i < m) (hj : j < n) {p : Nat}
    (hp : c.view.index [i, j] = some (p : Int)) (x : T) :
    ∃ h', (store c.alloc (p : Int) x : M (Heap T) Unit) h = .ok () h' ∧ Rep h₀ c m n (upd C i j x) h' := by
  have hl : p < (h c.alloc).length := by
    rw [hr.len]
    obtain ⟨q, h1, h2⟩ := hc.index i j hi hj
    rw [hp] at h1
    have : p = q := by simpa using h1
    omega
  refine ⟨Function.update h c.alloc ((h c.alloc).set p x), ?_, ⟨?_, ?_, ?_⟩⟩
  · unfold store
    rw [if_pos ⟨by omega, by simpa using hl⟩]
    simp
  · intro a
    by_cases ha : a = c.alloc
    · subst ha; simp [hr.len]
    · rw [Function.update_of_ne ha]; exact hr.len a
  · intro i' j' hi' hj'
    obtain ⟨q, h1, h2⟩ := hc.index i' j' hi' hj'
    have := hr.ent i' j' hi' hj'
    unfold entry at this ⊢
    rw [h1] at this ⊢
    simp only [Option.bind_some, Int.toNat_natCast, Function.update_self] at this ⊢
    rw [List.getElem?_set]
    by_cases hq : p = q
    · subst hq
      obtain ⟨e1, e2⟩ := hc.inj _ _ _ _ hi' hj' hi hj (h1.trans hp.symm)
      subst e1; subst e2
      rw [if_pos rfl, if_pos hl]; simp [upd]
    · rw [if_neg hq, this]
      unfold upd
      rw [if_neg]
      rintro ⟨rfl, rfl⟩
      rw [hp] at h1
      exact hq (by simpa using h1)
  · intro a q hq
    by_cases ha : a = c.alloc
    · subst ha
      rw [Function.update_self, List.getElem?_set]
      rw [if_neg, hr.rest _ _ hq]
      rintro rfl
      exact hq ⟨rfl, _, hp⟩
    · rw [Function.update_of_ne ha]; exact hr.rest a q hq

/-- The position of an element. -/
def pos (x : Mat) (i j : Nat) : Int := (x.view.index [i, j]).getD 0

theorem Place.pos {h : Heap T} {x : Mat} {m n : Nat} (hx : Place h x m n) {i j : Nat} (hi : i < m) (hj : j < n) :
    x.view.index [i, j] = some (pos x i j) ∧ ∃ p : Nat, pos x i j = (p : Int) := by
  obtain ⟨p, h1, -⟩ := hx.index i j hi hj
  unfold Matmul.pos
  rw [h1]
  exact ⟨rfl, p, rfl⟩

/-- The changes of one element, of one row by one element of `a`, of one row, and of the matrix. -/
def stepJ (mulAdd : T → T → T → T) (A B : Nat → Nat → T) (i l : Nat) (C : Nat → Nat → T) (j : Nat) : Nat → Nat → T :=
  upd C i j (mulAdd (A i l) (B l j) (C i j))

def stepL (mulAdd : T → T → T → T) (A B : Nat → Nat → T) (n i : Nat) (C : Nat → Nat → T) (l : Nat) : Nat → Nat → T :=
  (List.range n).foldl (stepJ mulAdd A B i l) C

def stepI (mulAdd : T → T → T → T) (A B : Nat → Nat → T) (n k : Nat) (C : Nat → Nat → T) (i : Nat) : Nat → Nat → T :=
  (List.range k).foldl (stepL mulAdd A B n i) C

section
variable {mulAdd : T → T → T → T} {h₀ : Heap T} {a b c : Mat} {m k k' n n' : Nat} {A B : Nat → Nat → T}

theorem cell_rep (hc : Place h₀ c m n) (ha : Place h₀ a m k) (hb : Place h₀ b k n)
    (sa : NoShared a c) (sb : NoShared b c) (hA : ∀ i l, i < m → l < k → entry h₀ a i l = some (A i l))
    (hB : ∀ l j, l < k → j < n → entry h₀ b l j = some (B l j)) {i l j : Nat} (hi : i < m) (hl : l < k) (hj : j < n)
    (C : Nat → Nat → T) (h : Heap T) (hr : Rep h₀ c m n C h) :
    ∃ h', (M.bind (load a.alloc (pos a i l)) fun x => M.bind (load b.alloc (pos b l j)) fun y =>
      M.bind (load c.alloc (pos c i j)) fun z => store c.alloc (pos c i j) (mulAdd x y z)) h = .ok () h' ∧
      Rep h₀ c m n (stepJ mulAdd A B i l C j) h' := by
  obtain ⟨a1, pa, a2⟩ := ha.pos hi hl
  obtain ⟨b1, pb, b2⟩ := hb.pos hl hj
  obtain ⟨c1, pc, c2⟩ := hc.pos hi hj
  rw [a2] at a1 ⊢; rw [b2] at b1 ⊢; rw [c2] at c1 ⊢
  have ea := (rep_other hr sa a1).trans (hA i l hi hl)
  have eb := (rep_other hr sb b1).trans (hB l j hl hj)
  have ec := hr.ent i j hi hj
  unfold entry at ec
  rw [c1] at ec
  simp only [Option.bind_some, Int.toNat_natCast] at ec
  obtain ⟨h', h1, h2⟩ := rep_store hr hc hi hj c1 (mulAdd (A i l) (B l j) (C i j))
  refine ⟨h', ?_, h2⟩
  unfold M.bind
  simp only [load_of ea, load_of eb, load_of ec]
  exact h1

/-- The loop over the elements of two rows. -/
theorem loopJ (hc : Place h₀ c m n) (ha : Place h₀ a m k) (hb : Place h₀ b k n)
    (sa : NoShared a c) (sb : NoShared b c) (hA : ∀ i l, i < m → l < k → entry h₀ a i l = some (A i l))
    (hB : ∀ l j, l < k → j < n → entry h₀ b l j = some (B l j)) {i l : Nat} (hi : i < m) (hl : l < k)
    {ci bk : View} (hci : Row c.view ci n i) (hbk : Row b.view bk n l)
    (C : Nat → Nat → T) (h : Heap T) (hr : Rep h₀ c m n C h) :
    ∃ h', (M.bind (M.lift (zipNew (Expr.view false ci) (Expr.view true bk))) fun e₃ =>
      forLoop e₃ fun cb => M.bind (load a.alloc (pos a i l)) fun x => M.bind (load b.alloc cb.2) fun y =>
      M.bind (load c.alloc cb.1) fun z => store c.alloc cb.1 (mulAdd x y z)) h = .ok () h' ∧
      Rep h₀ c m n (stepL mulAdd A B n i C l) h' := by
  have l1 : Line (Expr.view false ci : Expr (Heap T) Int) n (pos c i) :=
    line_view hci.wf hci.dims fun j hj => (hci.index j).trans (hc.pos hi hj).1
  have l2 : Line (Expr.view true bk : Expr (Heap T) Int) n (pos b l) :=
    line_view hbk.wf hbk.dims fun j hj => (hbk.index j).trans (hb.pos hl hj).1
  have lz := line_zip l1 l2
  rw [if_pos rfl] at lz
  obtain ⟨e, he, hL⟩ := lz
  rw [he, M.lift_some, M.pure_bind, hL.loop]
  exact loop_rep (R := fun C h => Rep h₀ c m n C h) (fun j hj C h hr =>
    cell_rep hc ha hb sa sb hA hB hi hl (List.mem_range.1 hj) C h hr) C h hr

/-- The loop over the elements of a row of `a` and the rows of `b`. -/
theorem loopL (hc : Place h₀ c m n) (ha : Place h₀ a m k) (hb : Place h₀ b k n)
    (sa : NoShared a c) (sb : NoShared b c) (hA : ∀ i l, i < m → l < k → entry h₀ a i l = some (A i l))
    (hB : ∀ l j, l < k → j < n → entry h₀ b l j = some (B l j)) {i : Nat} (hi : i < m)
    {ci ai : View} (hci : Row c.view ci n i) (hai : Row a.view ai k i)
    (C : Nat → Nat → T) (h : Heap T) (hr : Rep h₀ c m n C h) :
    ∃ h', (M.bind (M.lift (lanesNew true b.view .rows)) fun bs =>
      M.bind (M.lift (zipNew (Expr.view true ai) bs)) fun e₂ =>
      forLoop e₂ fun ab => M.bind (M.lift (zipNew (Expr.view false ci) (Expr.view true ab.2))) fun e₃ =>
      forLoop e₃ fun cb => M.bind (load a.alloc ab.1) fun x => M.bind (load b.alloc cb.2) fun y =>
      M.bind (load c.alloc cb.1) fun z => store c.alloc cb.1 (mulAdd x y z)) h = .ok () h' ∧
      Rep h₀ c m n (stepI mulAdd A B n k C i) h' := by
  obtain ⟨gb, hgb⟩ := rows_row hb.inv.wf hb.dims
  obtain ⟨eb, he, l2, -⟩ := line_rows (σ := Heap T) hb.inv hb.dims hgb true
  have l1 : Line (Expr.view true ai : Expr (Heap T) Int) k (pos a i) :=
    line_view hai.wf hai.dims fun l hl => (hai.index l).trans (ha.pos hi hl).1
  have lz := line_zip l1 l2
  rw [if_pos rfl] at lz
  obtain ⟨e, he', hL⟩ := lz
  rw [he, M.lift_some, M.pure_bind, he', M.lift_some, M.pure_bind, hL.loop]
  exact loop_rep (R := fun C h => Rep h₀ c m n C h) (fun l hl C h hr =>
    loopJ hc ha hb sa sb hA hB hi (List.mem_range.1 hl) hci (hgb l (List.mem_range.1 hl)) C h hr) C h hr

/-- The whole function, for matrices with suitable dimensions. -/
theorem loopI (hc : Place h₀ c m n) (ha : Place h₀ a m k) (hb : Place h₀ b k n)
    (sa : NoShared a c) (sb : NoShared b c) (hA : ∀ i l, i < m → l < k → entry h₀ a i l = some (A i l))
    (hB : ∀ l j, l < k → j < n → entry h₀ b l j = some (B l j))
    (C : Nat → Nat → T) (h : Heap T) (hr : Rep h₀ c m n C h) :
    ∃ h', matmul mulAdd a b c h = .ok () h' ∧
      Rep h₀ c m n ((List.range m).foldl (stepI mulAdd A B n k) C) h' := by
  obtain ⟨gc, hgc⟩ := rows_row hc.inv.wf hc.dims
  obtain ⟨ec, h1, l1, -⟩ := line_rows (σ := Heap T) hc.inv hc.dims hgc false
  obtain ⟨ga, hga⟩ := rows_row ha.inv.wf ha.dims
  obtain ⟨ea, h2, l2, -⟩ := line_rows (σ := Heap T) ha.inv ha.dims hga true
  have lz := line_zip l1 l2
  rw [if_pos rfl] at lz
  obtain ⟨e, he', hL⟩ := lz
  unfold matmul
  rw [h1, M.lift_some, M.pure_bind, h2, M.lift_some, M.pure_bind, he', M.lift_some, M.pure_bind, hL.loop]
  exact loop_rep (R := fun C h => Rep h₀ c m n C h) (fun i hi C h hr =>
    loopL hc ha hb sa sb hA hB (List.mem_range.1 hi) (hgc i (List.mem_range.1 hi)) (hga i (List.mem_range.1 hi)) C h
      hr) C h hr

theorem stepL_eq (C : Nat → Nat → T) (i l : Nat) : ∀ i' j',
    stepL mulAdd A B n i C l i' j' = if i' = i ∧ j' < n then mulAdd (A i l) (B l j') (C i j') else C i' j' := by
  unfold stepL
  induction n with
  | zero => simp
  | succ n ih =>
    intro i' j'
    rw [List.range_succ, List.foldl_append]
    simp only [List.foldl_cons, List.foldl_nil]
    have hn := ih i n
    rw [if_neg (by simp)] at hn
    rw [stepJ, upd, hn]
    by_cases h : i' = i ∧ j' = n
    · rw [if_pos h, if_pos ⟨h.1, by omega⟩, h.2]
    · rw [if_neg h, ih]
      by_cases h' : i' = i ∧ j' < n
      · rw [if_pos h', if_pos ⟨h'.1, by omega⟩]
      · rw [if_neg h', if_neg (by omega)]

theorem stepI_eq (C : Nat → Nat → T) (i : Nat) : ∀ i' j',
    stepI mulAdd A B n k C i i' j' = if i' = i ∧ j' < n then
      (List.range k).foldl (fun acc l => mulAdd (A i l) (B l j') acc) (C i j') else C i' j' := by
  unfold stepI
  induction k with
  | zero =>
    intro i' j'
    split
    · rename_i h; rw [h.1]; rfl
    · rfl
  | succ k ih =>
    intro i' j'
    rw [List.range_succ, List.foldl_append, List.foldl_append]
    simp only [List.foldl_cons, List.foldl_nil]
    rw [stepL_eq]
    by_cases h' : i' = i ∧ j' < n
    · rw [if_pos h', if_pos h', ih, if_pos ⟨rfl, h'.2⟩]
    · rw [if_neg h', if_neg h', ih, if_neg h']

theorem all_eq (C : Nat → Nat → T) : ∀ i' j',
    (List.range m).foldl (stepI mulAdd A B n k) C i' j' = if i' < m ∧ j' < n then
      (List.range k).foldl (fun acc l => mulAdd (A i' l) (B l j') acc) (C i' j') else C i' j' := by
  induction m with
  | zero => simp
  | succ m ih =>
    intro i' j'
    rw [List.range_succ, List.foldl_append]
    simp only [List.foldl_cons, List.foldl_nil]
    rw [stepI_eq]
    by_cases h : i' = m ∧ j' < n
    · rw [if_pos h, if_pos (by omega), ih, if_neg (by omega), h.1]
    · rw [if_neg h, ih]
      by_cases h' : i' < m ∧ j' < n
      · rw [if_pos h', if_pos ⟨by omega, h'.2⟩]
      · rw [if_neg h', if_neg (by omega)]

/-- The body of the innermost loop. -/
def cell (mulAdd : T → T → T → T) (a b c : Mat) (i l j : Nat) : M (Heap T) Unit :=
  M.bind (load a.alloc (pos a i l)) fun x => M.bind (load b.alloc (pos b l j)) fun y =>
    M.bind (load c.alloc (pos c i j)) fun z => store c.alloc (pos c i j) (mulAdd x y z)

theorem foldlM_congr {f g : Nat → M σ Unit} {xs : List Nat} (h : ∀ i ∈ xs, f i = g i) :
    (xs.foldlM (fun _ i => f i) () : M σ Unit) = xs.foldlM (fun _ i => g i) () := by
  induction xs with
  | nil => rfl
  | cons i xs ih =>
    rw [List.foldlM_cons, List.foldlM_cons, h i List.mem_cons_self]
    congr 1
    funext u
    exact ih fun j hj => h j (List.mem_cons_of_mem _ hj)

/-- The function for matrices of any dimensions. -/
theorem matmul_eq {m' : Nat} (hc : Place h₀ c m n) (ha : Place h₀ a m' k) (hb : Place h₀ b k' n') :
    matmul mulAdd a b c = if m = m' then (List.range m).foldlM (fun _ i =>
      if k = k' then (List.range k).foldlM (fun _ l =>
        if n = n' then (List.range n).foldlM (fun _ j => cell mulAdd a b c i l j) () else M.panic) ()
      else M.panic) () else M.panic := by
  obtain ⟨gc, hgc⟩ := rows_row hc.inv.wf hc.dims
  obtain ⟨ec, h1, l1, -⟩ := line_rows (σ := Heap T) hc.inv hc.dims hgc false
  obtain ⟨ga, hga⟩ := rows_row ha.inv.wf ha.dims
  obtain ⟨ea, h2, l2, -⟩ := line_rows (σ := Heap T) ha.inv ha.dims hga true
  obtain ⟨gb, hgb⟩ := rows_row hb.inv.wf hb.dims
  obtain ⟨eb, h3, l3, -⟩ := line_rows (σ := Heap T) hb.inv hb.dims hgb true
  have lz := line_zip l1 l2
  unfold matmul
  rw [h1, M.lift_some, M.pure_bind, h2, M.lift_some, M.pure_bind]
  by_cases hm : m = m'
  · subst hm
    rw [if_pos rfl] at lz ⊢
    obtain ⟨e, he, hL⟩ := lz
    rw [he, M.lift_some, M.pure_bind, hL.loop]
    refine foldlM_congr fun i hi => ?_
    have hi := List.mem_range.1 hi
    have la : Line (Expr.view true (ga i) : Expr (Heap T) Int) k (pos a i) :=
      line_view (hga i hi).wf (hga i hi).dims fun l hl => ((hga i hi).index l).trans (ha.pos hi hl).1
    have lz := line_zip la l3
    rw [h3, M.lift_some, M.pure_bind]
    by_cases hk : k = k'
    · subst hk
      rw [if_pos rfl] at lz ⊢
      obtain ⟨e, he, hL⟩ := lz
      simp only [he, M.lift_some, M.pure_bind, hL.loop]
      refine foldlM_congr fun l hl => ?_
      have hl := List.mem_range.1 hl
      have lc : Line (Expr.view false (gc i) : Expr (Heap T) Int) n (pos c i) :=
        line_view (hgc i hi).wf (hgc i hi).dims fun j hj => ((hgc i hi).index j).trans (hc.pos hi hj).1
      have lb : Line (Expr.view true (gb l) : Expr (Heap T) Int) n' (pos b l) :=
        line_view (hgb l hl).wf (hgb l hl).dims fun j hj => ((hgb l hl).index j).trans (hb.pos hl hj).1
      have lz := line_zip lc lb
      by_cases hn : n = n'
      · subst hn
        rw [if_pos rfl] at lz ⊢
        obtain ⟨e, he, hL⟩ := lz
        simp only [he, M.lift_some, M.pure_bind, hL.loop]
        rfl
      · rw [if_neg hn] at lz ⊢
        simp only [lz, M.lift_none]
        rfl
    · rw [if_neg hk] at lz ⊢
      simp only [lz, M.lift_none]
      rfl
  · rw [if_neg hm] at lz ⊢
    rw [lz, M.lift_none]
    rfl

end

theorem foldlM_panic {n : Nat} (hn : 0 < n) : ((List.range n).foldlM (fun _ _ => M.panic) () : M σ Unit) = M.panic := by
  obtain ⟨n, rfl⟩ : ∃ k, n = k + 1 := ⟨n - 1, by omega⟩
  rw [List.range_succ_eq_map, List.foldlM_cons]
  rfl

theorem foldlM_skip (xs : List Nat) : (xs.foldlM (fun _ _ => M.pure ()) () : M σ Unit) = M.pure () := by
  induction xs with
  | nil => rfl
  | cons i xs ih => rw [List.foldlM_cons]; exact ih

end Model.Matmul
