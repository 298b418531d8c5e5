import Verif.Lemmas.MachineSim
import Verif.Spec.MachineZero

/-! View calls with 64-bit integers on views without elements: they do what they do with unbounded integers, up to
strides that no element depends on, or they panic because of an overflow check. -/

namespace Model
open Spec
namespace Machine
namespace Zero

variable {checks : Bool}

/-- Same shape and layout; strides may differ. -/
inductive Alike : Mapping → Mapping → Prop
  | dense (s) : Alike (.dense s) (.dense s)
  | strided (s) {st st'} : st.length = st'.length → Alike (.strided s st) (.strided s st')

section
variable {m m' : Mapping}

theorem Alike.refl (m : Mapping) : Alike m m := by
  cases m
  · exact .dense _
  · exact .strided _ rfl

theorem Alike.shape (h : Alike m m') : m.shape = m'.shape := by cases h <;> rfl

theorem Alike.layout (h : Alike m m') : m.layout = m'.layout := by cases h <;> rfl

theorem Alike.isDense (h : Alike m m') : m.isDense = m'.isDense := by cases h <;> rfl

theorem sim_eq {A : Type} (x : Option A) : SimO checks Eq x x := SimO.of_eq (fun _ => rfl) rfl

/-- The same first step on both sides. -/
theorem sim_bind {A B C : Type} {R : B → C → Prop} (x : Option A) {k : A → Option B} {l : A → Option C}
    (h : ∀ a, x = some a → SimO checks R (k a) (l a)) : SimO checks R (x.bind k) (x.bind l) := by
  cases x with
  | none => exact Or.inr (Or.inl ⟨rfl, rfl⟩)
  | some a => exact h a rfl

theorem retI_sim (x y : Int) : SimO checks (fun _ _ => True) (retI checks x) (some y) :=
  SimO.total retI_none fun _ _ => trivial

/-- An operation that can only fail because of an overflow check, and whose result does not matter. -/
theorem skipI {A B : Type} {R : A → B → Prop} {x : Int} {k : Int → Option A} {y : Option B}
    (h : ∀ i, SimO checks R (k i) y) : SimO checks R ((retI checks x).bind k) y := by
  cases hx : retI checks x with
  | none => exact Or.inl ⟨retI_none hx, rfl⟩
  | some i => exact h i

theorem denseCalls_sim (l : List (Nat × Nat)) :
    SimO checks (fun r r' => r.1.map Prod.fst = r'.1.map Prod.fst)
      (l.foldr (fun x acc => do
        let (calls, stride) ← acc
        let stride' ← retU checks (stride * x.1)
        pure (calls ++ [(x.2, castI stride)], stride')) (some (([] : List (Nat × Int)), 1)))
      (some (l.foldr (fun (x : Nat × Nat) (acc : List (Nat × Int) × Nat) => (acc.1 ++ [(x.2, (acc.2 : Int))], acc.2 * x.1)) ([], 1))) := by
  induction l with
  | nil => exact SimO.some rfl
  | cons x l ih =>
    rw [List.foldr_cons, List.foldr_cons]
    rcases ih with ⟨hc, h⟩ | ⟨_, h⟩ | ⟨a, b, h1, h2, h3⟩
    · rw [h]; exact Or.inl ⟨hc, rfl⟩
    · cases h
    · obtain rfl := Option.some.inj h2
      rw [h1]
      simp only [Option.bind_eq_bind, Option.bind_some]
      cases hr : retU checks (a.2 * x.1) with
      | none => exact Or.inl ⟨retU_none hr, rfl⟩
      | some n => exact SimO.some (by simp [h3])

theorem calls_sim (h : Alike m m') :
    SimO checks (fun cs cs' => cs.map Prod.fst = cs'.map Prod.fst) (calls checks m) (some m'.forEachStride) := by
  cases h with
  | dense s =>
    exact SimO.map (Q := fun cs cs' => cs.map Prod.fst = cs'.map Prod.fst) (k := Prod.fst) (l := Prod.fst)
      (denseCalls_sim s.dims.zipIdx) fun _ _ h => h
  | @strided s st st' h =>
    refine SimO.some ?_
    simp only [Mapping.forEachStride, List.map_map]
    show List.map (fun x : Int × Nat => x.2) st.zipIdx = List.map (fun x : Int × Nat => x.2) st'.zipIdx
    have e : ∀ l : List Int, List.map (fun x : Int × Nat => x.2) l.zipIdx = List.range l.length := fun l => by
      rw [show (fun x : Int × Nat => x.2) = Prod.snd from rfl, List.zipIdx_map_snd, List.range_eq_range']
    rw [e, e, h]

theorem store_sim {cs cs' : List (Nat × Int)} (f : Nat → Option Nat) :
    ∀ {st st' : List Int}, cs.map Prod.fst = cs'.map Prod.fst → st.length = st'.length →
    SimO checks (fun a b => a.length = b.length) (Mapping.storeStrides cs f st) (Mapping.storeStrides cs' f st') := by
  unfold Mapping.storeStrides
  induction cs generalizing cs' with
  | nil =>
    intro st st' h hl
    have : cs' = [] := by simpa using h.symm
    subst this
    exact SimO.some hl
  | cons c cs ih =>
    intro st st' h hl
    cases cs' with
    | nil => simp at h
    | cons c' cs' =>
    simp only [List.map_cons, List.cons.injEq] at h
    rw [List.foldlM_cons, List.foldlM_cons, ← h.1]
    refine SimO.bind (R := fun a b => a.length = b.length) ?_ fun a b hab => ih h.2 hab
    cases f c.1 with
    | none => exact SimO.some hl
    | some j =>
      simp only [setM, hl]
      split
      · exact SimO.some (by simp [hl])
      · exact Or.inr (Or.inl ⟨rfl, rfl⟩)

/-- Storing all strides of alike mappings. -/
theorem stored {A B : Type} {R : A → B → Prop} (h : Alike m m') (f : Nat → Option Nat) {st st' : List Int}
    (hl : st.length = st'.length) {k : List Int → Option A} {l : List Int → Option B}
    (hk : ∀ a b : List Int, a.length = b.length → SimO checks R (k a) (l b)) :
    SimO checks R ((calls checks m).bind fun cs => (Mapping.storeStrides cs f st).bind k)
      ((Mapping.storeStrides m'.forEachStride f st').bind l) :=
  SimO.bind (x := calls checks m) (y := some m'.forEachStride) (l := fun cs => (Mapping.storeStrides cs f st').bind l)
    (calls_sim h) fun _ _ hab => SimO.bind (store_sim f hab hl) hk

theorem alike_shape (x : Option Shape) : SimO checks Alike (x.bind fun s => some (.dense s)) (x.bind fun s => some (.dense s)) :=
  SimO.bind (sim_eq x) fun a _ e => e ▸ SimO.some (.dense a)

theorem alike_strided {st st' : List Int} (hl : st.length = st'.length) (x : Option Shape) :
    SimO checks Alike (x.bind fun s => some (.strided s st)) (x.bind fun s => some (.strided s st')) :=
  SimO.bind (sim_eq x) fun a _ e => e ▸ SimO.some (.strided a hl)

theorem remap_sim (h : Alike m m') (ty : ShapeTy) {L : Layout} (hL : L = .dense → m.layout = .dense) :
    SimO checks Alike (remap checks m ty L) (m'.remap ty L) := by
  cases L with
  | dense =>
    cases h with
    | dense s =>
      simp only [remap, isContiguous, Mapping.remap, Mapping.isContiguous, Option.bind_eq_bind, Option.bind_some]
      exact SimO.bind (sim_eq _) fun _ _ _ => alike_shape _
    | strided s h => cases hL rfl
  | strided =>
    simp only [remap, Mapping.remap, Option.bind_eq_bind, Mapping.rank, Mapping.dims, h.shape]
    exact SimO.bind (sim_eq _) fun a _ e => e ▸ stored h some rfl fun _ _ hl => alike_strided hl _

theorem permute_sim (m : Mapping) (perm : List Nat) (ty : ShapeTy) {L : Layout} (hL : L = .dense → m.layout = .dense) :
    SimO checks Alike (permute checks m perm ty L) (m.permute checks perm ty L) := by
  cases L with
  | dense =>
    simp only [permute, Mapping.permute, Option.bind_eq_bind]
    exact SimO.bind (sim_eq _) fun _ _ _ => SimO.bind (sim_eq _) fun _ _ _ => remap_sim (.refl m) ty hL
  | strided =>
    simp only [permute, Mapping.permute, Option.bind_eq_bind]
    refine SimO.bind (sim_eq _) fun _ _ _ => SimO.bind (sim_eq _) fun _ _ _ => SimO.bind (sim_eq _) fun _ _ _ => ?_
    refine SimO.bind (sim_eq _) fun sh _ e => e ▸ SimO.bind (sim_eq _) fun st _ e => e ▸ ?_
    refine SimO.bind (sim_eq _) fun inv _ e => e ▸ stored (.refl m) _ rfl fun _ _ hl => ?_
    exact SimO.bind (sim_eq _) fun ds _ e => e ▸ alike_strided hl _

theorem removeDim_sim (m : Mapping) (i : Nat) (ty : ShapeTy) (L : Layout) :
    SimO checks Alike (removeDim checks m i ty L) (m.removeDim i ty L) := by
  cases L with
  | dense =>
    simp only [removeDim, Mapping.removeDim, Option.bind_eq_bind]
    exact SimO.bind (sim_eq _) fun _ _ _ => SimO.bind (sim_eq _) fun _ _ _ => alike_shape _
  | strided =>
    simp only [removeDim, Mapping.removeDim, Option.bind_eq_bind]
    refine SimO.bind (sim_eq _) fun _ _ _ => SimO.bind (sim_eq _) fun st _ e => e ▸ ?_
    exact stored (.refl m) _ rfl fun _ _ hl => alike_strided hl _

theorem resizeDim_sim (m : Mapping) (i n : Nat) (ty : ShapeTy) (L : Layout) :
    SimO checks Alike (resizeDim checks m i n ty L) (m.resizeDim i n ty L) := by
  cases L with
  | dense =>
    simp only [resizeDim, Mapping.resizeDim, Option.bind_eq_bind]
    exact SimO.bind (sim_eq _) fun _ _ _ => SimO.bind (sim_eq _) fun _ _ _ => alike_shape _
  | strided =>
    simp only [resizeDim, Mapping.resizeDim, Option.bind_eq_bind]
    exact SimO.bind (sim_eq _) fun st _ e => e ▸ stored (.refl m) _ rfl fun _ _ hl => alike_strided hl _

theorem reorder_sim (m : Mapping) (L : Layout) : SimO checks Alike (reorder checks m L) (m.reorder L) := by
  cases L with
  | dense =>
    simp only [reorder, Mapping.reorder, Option.bind_eq_bind]
    exact SimO.bind (sim_eq _) fun _ _ _ => alike_shape _
  | strided =>
    simp only [reorder, Mapping.reorder, Option.bind_eq_bind]
    exact SimO.bind (sim_eq _) fun st _ e => e ▸ stored (.refl m) _ rfl fun _ _ hl => alike_strided hl _

theorem prependDim_strided (h : Alike m m') (n : Nat) (s s' : Int) (ty : ShapeTy) :
    SimO checks Alike (prependDim checks m n s ty .strided) (m'.prependDim n s' ty .strided) := by
  simp only [prependDim, Mapping.prependDim, Option.bind_eq_bind, Mapping.rank, h.shape]
  refine SimO.bind (sim_eq _) fun st _ e => e ▸ ?_
  refine SimO.bind (R := fun a b => a.length = b.length) ?_ fun _ _ hl => stored h _ hl fun _ _ hl => alike_strided hl _
  simp only [setM]
  split
  · exact SimO.some (by simp)
  · exact Or.inr (Or.inl ⟨rfl, rfl⟩)

theorem stride_sim (h : Alike m m') (i : Nat) :
    SimO checks (fun a b => m.layout = .dense → ∃ n, product checks (m.dims.drop (i + 1)) = some n ∧ a = castI n ∧
      b = (((m.dims.drop (i + 1)).foldl (· * ·) 1 : Nat) : Int)) (stride checks m i) (m'.stride i) := by
  simp only [stride, Mapping.stride, Option.bind_eq_bind, Mapping.rank, h.shape]
  refine SimO.bind (sim_eq _) fun _ _ _ => ?_
  cases h with
  | dense s =>
    refine SimO.total (fun hn => product_none (Option.map_eq_none_iff.1 hn)) fun a ha _ => ?_
    obtain ⟨n, hn, rfl⟩ := Option.map_eq_some_iff.1 ha
    exact ⟨n, hn, rfl, rfl⟩
  | @strided s st st' hl =>
    dsimp only
    by_cases hi : i < st.length
    · rw [List.getElem?_eq_getElem hi, List.getElem?_eq_getElem (hl ▸ hi)]
      exact SimO.some (by intro h; cases h)
    · rw [List.getElem?_eq_none (by omega), List.getElem?_eq_none (by omega)]
      exact Or.inr (Or.inl ⟨rfl, rfl⟩)

theorem isEmpty_skip {A B : Type} {R : A → B → Prop} (h0 : size m.dims = 0) {k : Bool → Option A} {y : Option B}
    (h : SimO checks R (k true) y) : SimO checks R ((isEmpty checks m.shape).bind k) y := by
  unfold isEmpty
  cases hn : len checks m.shape with
  | none => exact Or.inl ⟨product_none hn, rfl⟩
  | some n =>
    obtain rfl : n = 0 := product_zero h0 hn
    exact h

theorem empty_of (h : Alike m m') (h0 : size m.dims = 0) : m'.isEmpty = true := by
  show m'.shape.isEmpty = true
  rw [← h.shape]
  have e : m.shape.len = 0 := by rw [Shape.len_eq]; exact h0
  simp [Shape.isEmpty, e]

end

/-! ### View indices -/

open ViewIdx in
theorem outer_dense {L : Layout} {xs : List DimIdx} (h : outer L xs = .dense) : layout L xs = .dense ∧ L = .dense := by
  induction xs with
  | nil => exact ⟨h, h⟩
  | cons x xs ih => cases x <;> (simp only [outer, layout, reduceCtorEq] at h ⊢; try exact ⟨h, (ih h).2⟩)

/-- What is known about both results of `view_index`: same shape and layout, and the result is dense with the
dimensions `ds` if all indices are `..`. -/
structure Both (L : Layout) (xs : List DimIdx) (ds : List Nat) (r r' : Int × Mapping) : Prop where
  alike : Alike r.2 r'.2
  layout : r.2.layout = ViewIdx.layout L xs
  full : ViewIdx.outer L xs = .dense → r.2.dims = ds
  zero : 0 ∈ ds → 0 ∈ r.2.dims

theorem prependDim_sim {m m' : Mapping} (h : Alike m m') (n : Nat) {s s' : Int} (ty : ShapeTy) {L : Layout} {k : Nat}
    (hd : L = .dense → m.layout = .dense ∧ product checks m.dims = some k ∧ s = castI k ∧
      s' = ((m.dims.foldl (· * ·) 1 : Nat) : Int)) :
    SimO checks Alike (prependDim checks m n s ty L) (m'.prependDim n s' ty L) := by
  cases L with
  | strided => exact prependDim_strided h n s s' ty
  | dense =>
    obtain ⟨h1, h2, hs, hs'⟩ := hd rfl
    cases h with
    | strided s _ => cases h1
    | dense sh =>
      have e1 : product checks sh.dims = some k := h2
      have e2 : check (s = castI k) = some () := if_pos hs
      have e3 : check (s' = ((Mapping.dense sh).len : Int)) = some () := if_pos hs'
      simp only [prependDim, Mapping.prependDim, Option.bind_eq_bind, len, e1, e2, e3, Option.bind_some]
      exact SimO.bind (sim_eq _) fun _ _ _ => alike_shape _

theorem SimO.and {A B : Type} {R : A → B → Prop} {P : A → Prop} {x : Option A} {y : Option B}
    (h : SimO checks R x y) (hP : ∀ a, x = some a → P a) : SimO checks (fun a b => R a b ∧ P a) x y := by
  rcases h with h | h | ⟨a, b, h1, h2, h3⟩
  · exact Or.inl h
  · exact Or.inr (Or.inl h)
  · exact Or.inr (Or.inr ⟨a, b, h1, h2, h3, hP a h1⟩)

theorem prependDim_parts {m q : Mapping} {n : Nat} {s : Int} {ty : ShapeTy} {L : Layout}
    (h : prependDim checks m n s ty L = some q) : q.layout = L ∧ q.dims = n :: m.dims := by
  cases L with
  | dense =>
    simp only [prependDim, Option.bind_eq_bind, Option.bind_eq_some_iff, Shape.prependDim_eq] at h
    obtain ⟨_, _, _, _, _, _, s', hs', h⟩ := h
    simp at h; subst h
    split at hs'
    · simp at hs'; subst hs'; exact ⟨rfl, rfl⟩
    · simp at hs'
  | strided =>
    simp only [prependDim, Option.bind_eq_bind, Option.bind_eq_some_iff, Shape.prependDim_eq] at h
    obtain ⟨st, hd, st1, h1, cs, hc, st2, hst, s', hs', h⟩ := h
    simp at h; subst h
    split at hs'
    · simp at hs'; subst hs'; exact ⟨rfl, rfl⟩
    · simp at hs'

theorem remap_parts {m q : Mapping} {ty : ShapeTy} {L : Layout} (h : remap checks m ty L = some q) :
    q.layout = L ∧ q.dims = m.dims := by
  cases L with
  | dense =>
    simp only [remap, Option.bind_eq_bind, Option.bind_eq_some_iff] at h
    obtain ⟨_, _, _, _, s, hs, h⟩ := h
    simp at h; subst h; exact ⟨rfl, (fromDims_any hs).2.1⟩
  | strided =>
    simp only [remap, Option.bind_eq_bind, Option.bind_eq_some_iff] at h
    obtain ⟨st, hd, cs, hc, st', hst, s, hs, h⟩ := h
    simp at h; subst h; exact ⟨rfl, (fromDims_any hs).2.1⟩

open ViewIdx in
theorem viewIndex_sim {m m' : Mapping} (h : Alike m m') (xs : List DimIdx) :
    ∀ (sty : ShapeTy) (pd ds : List Nat), m.dims = pd ++ ds → ds.length = xs.length →
      SimO checks (Both m.layout xs ds) (Machine.viewIndex checks m xs sty) (ViewIdx.viewIndex m' xs sty) := by
  induction xs with
  | nil =>
    intro sty pd ds hd hl
    have hds : ds = [] := by simpa using hl
    subst hds
    simp only [Machine.viewIndex, ViewIdx.viewIndex, ← h.layout]
    refine SimO.some ⟨.refl _, ?_, fun _ => ?_, by simp⟩ <;> cases m.layout <;> rfl
  | cons x xs ih =>
    intro sty pd ds hd hl
    cases ds with
    | nil => simp at hl
    | cons d ds =>
    simp at hl
    have hpos : m.rank - 1 - xs.length = pd.length := by
      show m.dims.length - 1 - xs.length = _
      rw [hd]; simp; omega
    have hdim : m.dim pd.length = some d := dim_append hd
    have hpos' : m'.rank - 1 - xs.length = pd.length := by rw [← hpos, Mapping.rank, Mapping.rank, h.shape]
    have hdim' : m'.dim pd.length = some d := by rw [← hdim, Mapping.dim, Mapping.dim, h.shape]
    have hdrop : m.dims.drop (pd.length + 1) = ds := by rw [hd]; simp
    have hst := stride_sim (checks := checks) h pd.length
    rw [hdrop] at hst
    simp only [Machine.viewIndex, ViewIdx.viewIndex, hpos, hdim, hpos', hdim', ← h.layout, Option.bind_eq_bind,
      Option.bind_some]
    refine SimO.bind (ih sty.tail (pd ++ [d]) ds (by simp [hd]) hl) fun r r' hr => SimO.bind hst fun s s' hs => ?_
    have zero : ∀ (n : Nat) (q : Mapping), q.dims = n :: r.2.dims → (d = 0 → n = 0) → 0 ∈ d :: ds → 0 ∈ q.dims := by
      intro n q hq h0 hz
      rw [hq]
      rcases List.mem_cons.1 hz with hz | hz
      · simp [h0 hz.symm]
      · simp [hr.zero hz]
    have hsel : ∀ {x : DimIdx} {delta len mult}, apSel x d = some (delta, some (len, mult)) → d = 0 → len = 0 := by
      intro x delta len mult ha hd0
      have := ((apSel_bounds (x := x) (by rw [hd0]; exact Nat.zero_le _)).2 delta len mult ha).1
      omega
    have fin : ∀ (n : Nat) (t t' o o' : Int), (outer m.layout xs = .dense → t = s ∧ t' = s') →
        ∀ (ty : ShapeTy) (x : DimIdx), layout m.layout (x :: xs) = outer m.layout xs →
        (outer m.layout (x :: xs) = .dense → n = d) → (d = 0 → n = 0) →
        SimO checks (Both m.layout (x :: xs) (d :: ds))
          ((prependDim checks r.2 n t ty (outer m.layout xs)).bind fun q => some (o, q))
          ((r'.2.prependDim n t' ty (outer m.layout xs)).bind fun q => some (o', q)) := by
      intro n t t' o o' ht ty x hx hn h0
      have key : SimO checks Alike (prependDim checks r.2 n t ty (outer m.layout xs))
          (r'.2.prependDim n t' ty (outer m.layout xs)) := by
        cases hL : outer m.layout xs with
        | strided => exact prependDim_strided hr.alike n t t' ty
        | dense =>
          obtain ⟨h1, h2⟩ := outer_dense hL
          obtain ⟨k, hk, e, e'⟩ := hs h2
          obtain ⟨g, g'⟩ := ht hL
          refine prependDim_sim hr.alike n (k := k) ty fun _ => ⟨hr.layout.trans h1, ?_, ?_, ?_⟩
          · rw [hr.full hL]; exact hk
          · rw [g, e]
          · rw [g', e', hr.full hL]
      refine SimO.bind (SimO.and key fun q hq => prependDim_parts hq) fun q q' hq => SimO.some ?_
      refine ⟨hq.1, hq.2.1.trans hx.symm, fun hL => ?_, zero n q hq.2.2 h0⟩
      have hx' : outer m.layout xs = .dense := by
        cases x <;> simp only [outer, reduceCtorEq] at hL
        exact hL
      show q.dims = _
      rw [hq.2.2, hn hL, hr.full hx']
    cases x with
    | int i =>
      refine sim_bind _ fun _ hc => skipI fun p => skipI fun o => ?_
      have hc := check_some hc
      refine SimO.bind (SimO.and (remap_sim hr.alike _ fun hL => ?_) fun q hq => remap_parts hq)
        fun q q' hq => SimO.some ⟨hq.1, hq.2.1, ?_, fun hz => ?_⟩
      · rw [hr.layout]; exact hL
      · intro hL; simp [outer] at hL
      · show 0 ∈ q.dims
        rw [hq.2.2]
        rcases List.mem_cons.1 hz with hz | hz
        · omega
        · exact hr.zero hz
    | full => exact fin d s s' _ _ (fun _ => ⟨rfl, rfl⟩) _ _ rfl (fun _ => rfl) id
    | range a b =>
      refine sim_bind _ fun ab hab => skipI fun p => skipI fun o => ?_
      exact fin _ s s' _ _ (fun _ => ⟨rfl, rfl⟩) _ _ rfl (by intro hL; simp [outer] at hL)
        (hsel (x := .range a b) (delta := ab.1) (mult := 1) (by simp [apSel, hab]))
    | step a b k =>
      refine sim_bind _ fun ab hab => sim_bind _ fun _ hc => skipI fun p => skipI fun o => skipI fun t => ?_
      refine SimO.bind (SimO.and (prependDim_strided hr.alike _ _ _ _) fun q hq => prependDim_parts hq)
        fun q q' hq => SimO.some ⟨hq.1, hq.2.1, ?_, zero _ q hq.2.2 (hsel (x := .step a b k)
          (delta := if k < 0 ∧ ab.1 < ab.2 then ab.2 - 1 else ab.1) (mult := k) ?_)⟩
      · intro hL; simp [outer] at hL
      · simp only [apSel, hab, Option.bind_eq_bind, Option.bind_some]
        rw [hc]; rfl

/-! ### Views -/

/-- Empty views that differ at most in their strides. -/
structure Nothing (w w' : View) : Prop where
  ptr : w.ptr = w'.ptr
  alike : Alike w.map w'.map
  zero : size w.dims = 0

theorem Nothing.same {w w' : View} (h : Nothing w w') : SameView w w' := by
  have hd : w.dims = w'.dims := by rw [View.dims, View.dims, Mapping.dims, Mapping.dims, h.alike.shape]
  refine ⟨h.ptr, ?_, h.alike.layout, hd, fun j => ?_⟩
  · rw [View.ty, View.ty, h.alike.shape]
  · have nv : ∀ u : View, size u.dims = 0 → u.index j = none := by
      intro u hu
      unfold View.index
      by_cases hl : j.length = u.map.rank
      swap
      · rw [check_neg hl]
      rw [check_pos hl]
      have : View.boundsLoop u.map j = none := by
        rw [← Option.not_isSome_iff_eq_none]
        intro hh
        have hv := ((View.boundsLoop_isSome u.map j hl).1 hh).size_pos
        have : size u.map.dims = 0 := hu
        omega
      rw [this]; rfl
    rw [nv w h.zero, nv w' (by rw [← hd]; exact h.zero)]

theorem Nothing.refl {v : View} (h : size v.dims = 0) : Nothing v v := ⟨rfl, .refl _, h⟩

theorem view_sim {v v' : View} (h : Nothing v v') {xs : List DimIdx} (hx : v.dims.length = xs.length) :
    SimO checks Nothing (Machine.view checks v xs) (v'.view xs) := by
  simp only [Machine.view, View.view, Option.bind_eq_bind]
  have ht : v'.ty = v.ty := by rw [View.ty, View.ty, h.alike.shape]
  rw [ht]
  refine SimO.bind (viewIndex_sim h.alike xs v.ty [] v.dims rfl hx) fun r r' hr => ?_
  have h0 : size r.2.dims = 0 := size_eq_zero_iff.2 (hr.zero (size_eq_zero_iff.1 h.zero))
  refine isEmpty_skip h0 ?_
  have e : r'.2.isEmpty = true := empty_of hr.alike h0
  rw [e]
  exact SimO.some ⟨by simp [h.ptr], hr.alike, h0⟩

section
variable {v : View}

theorem alike_view {x y : Option Mapping} (p : Int) (h : SimO checks Alike x y)
    (hz : ∀ m, x = some m → size m.dims = 0) :
    SimO checks Nothing (x.bind fun m => some ⟨p, m⟩) (y.bind fun m => some ⟨p, m⟩) :=
  SimO.bind (SimO.and h hz) fun _ _ hab => SimO.some ⟨rfl, hab.1, hab.2⟩

theorem axisAt_sim (h0 : size v.dims = 0) (hm : FitM v.map) (a : Axis) (i : Nat) :
    SimO checks Nothing (axisAt checks v a i) (v.axisAt a i) := by
  simp only [axisAt, View.axisAt, removeMap, Axis.removeMap, Option.bind_eq_bind]
  refine sim_bind _ fun p hp => sim_bind _ fun d hd => sim_bind _ fun _ hc => ?_
  have hc := check_some hc
  rw [hp]
  simp only [Option.bind_some]
  refine SimO.bind (SimO.and (removeDim_sim v.map p _ _) fun q hq => removeDim_any hm hq) fun m m' hm' => ?_
  refine SimO.bind (stride_sim (.refl _) p) fun s s' _ => skipI fun o => ?_
  obtain ⟨ha, _, e2, e3, _⟩ := hm'
  have hz : size m.dims = 0 := by
    rw [e3]
    rw [size_eq_zero_iff] at h0 ⊢
    obtain ⟨q, hq, e⟩ := List.getElem_of_mem h0
    rw [Mapping.dim_eq, List.getElem?_eq_getElem e2] at hd
    have hd := Option.some.inj hd
    have hne : q ≠ p := by
      rintro rfl
      have : v.map.dims[q] = 0 := e
      omega
    rw [List.mem_eraseIdx_iff_getElem]
    exact ⟨q, hq, hne, e⟩
  refine isEmpty_skip hz ?_
  rw [empty_of ha hz]
  exact SimO.some ⟨by simp, ha, hz⟩

theorem splitAxisAt_sim (h0 : size v.dims = 0) (hm : FitM v.map) (hu : Usize v.dims) (a : Axis) (mid : Nat) :
    SimO checks (fun w w' => Nothing w.1 w'.1 ∧ Nothing w.2 w'.2) (splitAxisAt checks v a mid) (v.splitAxisAt a mid) := by
  simp only [splitAxisAt, View.splitAxisAt, Option.bind_eq_bind]
  refine sim_bind _ fun p hp => sim_bind _ fun d hd => sim_bind _ fun _ hc => ?_
  have hc := check_some hc
  have key : ∀ n, n ≤ d → SimO checks (fun m m' => Alike m m' ∧ size m.dims = 0)
      (resizeMap checks a v.map n) (a.resizeMap v.map n) := by
    intro n hn
    refine SimO.and ?_ fun q hq => ((resize_any hm hu hp hd hn hq 0).2 h0).2.2
    simp only [resizeMap, Axis.resizeMap, hp, Option.bind_eq_bind, Option.bind_some]
    exact resizeDim_sim v.map p n _ _
  refine SimO.bind (key mid hc) fun m m' h1 => SimO.bind (key _ (Nat.sub_le _ _)) fun q q' h2 => ?_
  refine SimO.bind (stride_sim (.refl _) p) fun s s' _ => skipI fun o => ?_
  refine isEmpty_skip h2.2 ?_
  rw [empty_of h2.1 h2.2]
  exact SimO.some ⟨⟨rfl, h1.1, h1.2⟩, ⟨by simp, h2.1, h2.2⟩⟩

theorem viewRemap_sim (h0 : size v.dims = 0) (ty : ShapeTy) {L : Layout} (hL : L = .dense → v.layout = .dense) :
    SimO checks Nothing (viewRemap checks v ty L) (v.remap ty L) :=
  alike_view v.ptr (remap_sim (.refl v.map) ty hL) fun m hq => by rw [(remap_parts hq).2]; exact h0

theorem perm_layout {ty : ShapeTy} {L : Layout} (h : Perm.layout ty L = .dense) : L = .dense := by
  unfold Perm.layout at h
  split at h
  · exact h
  · exact (ShapeTy.layout_dense h).2
  · cases h

theorem viewPermute_sim (h0 : size v.dims = 0) (hm : FitM v.map) (hu : Usize v.dims)
    (hr : checks = true ∨ v.dims.length < 64) (perm : Shape) :
    SimO checks Nothing (viewPermute checks v perm) (v.permute checks perm) :=
  alike_view v.ptr (permute_sim v.map perm.dims _ perm_layout) fun m hq => by
    have h : viewPermute checks v perm = some ⟨v.ptr, m⟩ := by
      simp only [viewPermute, Option.bind_eq_bind]; rw [hq]; rfl
    exact ((permuteV_any hm hu hr h).2 h0).2.2

theorem viewReorder_sim (h0 : size v.dims = 0) (hm : FitM v.map) (hu : Usize v.dims) :
    SimO checks Nothing (viewReorder checks v) v.reorder :=
  alike_view v.ptr (reorder_sim v.map _) fun m hq => by
    have h : viewReorder checks v = some ⟨v.ptr, m⟩ := by
      simp only [viewReorder, Option.bind_eq_bind]; rw [hq]; rfl
    exact ((reorderV_any hm hu h).2 h0).2.2

/-! Reshape. -/

theorem addRegion_zero {oldLen : Nat} (rem : List Nat) : ∀ (nl : Nat) (ns : Int) (acc : List Int), nl = 0 ∨ 0 ∈ rem →
    (addRegion checks oldLen rem nl ns acc = none → checks = true) ∧
    ∀ r, addRegion checks oldLen rem nl ns acc = some r → r.2.1 = 0 ∨ 0 ∈ r.1 := by
  induction rem with
  | nil =>
    intro nl ns acc h
    refine ⟨nofun, fun r hr => ?_⟩
    obtain rfl := Option.some.inj hr
    exact h
  | cons d rem ih =>
    intro nl ns acc h
    simp only [addRegion, Option.bind_eq_bind]
    cases hp : retU checks (nl * d) with
    | none => exact ⟨fun _ => retU_none hp, nofun⟩
    | some p =>
      simp only [Option.bind_some]
      split
      · refine ⟨nofun, fun r hr => ?_⟩
        obtain rfl := Option.some.inj hr
        exact h
      · cases hq : retI checks (ns * castI d) with
        | none => exact ⟨fun _ => retI_none hq, nofun⟩
        | some q =>
          simp only [Option.bind_some]
          refine ih p q _ ?_
          have z : nl * d = 0 → p = 0 := fun e => by
            rw [e, retU_fit (Nat.zero_le _)] at hp
            exact (Option.some.inj hp).symm
          rcases h with rfl | h
          · exact Or.inl (z (Nat.zero_mul d))
          · rcases List.mem_cons.1 h with rfl | h
            · exact Or.inl (z (Nat.mul_zero nl))
            · exact Or.inr h

theorem addRemaining_zero (rem : List Nat) : ∀ (nl : Nat) (ns : Int) (acc : List Int), nl = 0 ∨ 0 ∈ rem →
    (addRemaining checks rem nl ns acc = none → checks = true) ∧
    ∀ r, addRemaining checks rem nl ns acc = some r → r.1 = 0 ∧ r.2.length = rem.length + acc.length := by
  induction rem with
  | nil =>
    intro nl ns acc h
    refine ⟨nofun, fun r hr => ?_⟩
    obtain rfl := Option.some.inj hr
    rcases h with h | h
    · exact ⟨h, by simp⟩
    · cases h
  | cons d rem ih =>
    intro nl ns acc h
    simp only [addRemaining, Option.bind_eq_bind]
    cases hp : retU checks (nl * d) with
    | none => exact ⟨fun _ => retU_none hp, nofun⟩
    | some p =>
      simp only [Option.bind_some]
      cases hq : retI checks (ns * castI d) with
      | none => exact ⟨fun _ => retI_none hq, nofun⟩
      | some q =>
        simp only [Option.bind_some]
        have z : nl * d = 0 → p = 0 := fun e => by
          rw [e, retU_fit (Nat.zero_le _)] at hp
          exact (Option.some.inj hp).symm
        obtain ⟨g1, g2⟩ := ih p q (ns :: acc) (by
          rcases h with rfl | h
          · exact Or.inl (z (Nat.zero_mul d))
          · rcases List.mem_cons.1 h with rfl | h
            · exact Or.inl (z (Nat.mul_zero nl))
            · exact Or.inr h)
        refine ⟨g1, fun r hr => ⟨(g2 r hr).1, ?_⟩⟩
        rw [(g2 r hr).2]; simp; omega

theorem addRegion_len {oldLen : Nat} (rem : List Nat) : ∀ (nl : Nat) (ns : Int) (acc : List Int) r,
    addRegion checks oldLen rem nl ns acc = some r → r.1.length + r.2.2.2.length = rem.length + acc.length := by
  induction rem with
  | nil => intro nl ns acc r h; simp [addRegion] at h; subst h; rfl
  | cons d rem ih =>
    intro nl ns acc r h
    simp only [addRegion, Option.bind_eq_bind, Option.bind_eq_some_iff] at h
    obtain ⟨p, hp, h⟩ := h
    split at h
    · simp at h; subst h; rfl
    · rw [Option.bind_eq_some_iff] at h
      obtain ⟨q, hq, h⟩ := h
      rw [ih p q (ns :: acc) r h]; simp; omega

theorem reshapeLoop_zero {nd : List Nat} (h0 : 0 ∈ nd) (l : List (Nat × Int)) :
    (l.foldr (fun x st => st.bind fun st => reshapeStep checks st x.1 x.2) (some (Mapping.reshapeInit nd)) = none →
      checks = true) ∧
    ∀ st, l.foldr (fun x st => st.bind fun st => reshapeStep checks st x.1 x.2)
      (some (Mapping.reshapeInit nd)) = some st →
      (st.newLen = 0 ∨ 0 ∈ st.rem) ∧ st.rem.length + st.acc.length = nd.length := by
  induction l with
  | nil =>
    refine ⟨nofun, fun st h => ?_⟩
    simp at h; subst h
    exact ⟨Or.inr (by simpa [Mapping.reshapeInit] using h0), by simp [Mapping.reshapeInit]⟩
  | cons x l ih =>
    rw [List.foldr_cons]
    cases hl : l.foldr (fun x st => st.bind fun st => reshapeStep checks st x.1 x.2)
      (some (Mapping.reshapeInit nd)) with
    | none => exact ⟨fun _ => ih.1 hl, nofun⟩
    | some st0 =>
      obtain ⟨g1, g2⟩ := ih.2 st0 hl
      simp only [Option.bind_some, reshapeStep, Option.bind_eq_bind]
      cases hu : retU checks (st0.oldLen * x.1) with
      | none => exact ⟨fun _ => retU_none hu, nofun⟩
      | some ol =>
      cases hi : retI checks ((regionStart st0 x.2).1 * castI x.1) with
      | none => exact ⟨fun _ => retI_none hi, nofun⟩
      | some os =>
      simp only [Option.bind_some]
      obtain ⟨a1, a2⟩ := addRegion_zero (checks := checks) (oldLen := ol) st0.rem st0.newLen (regionStart st0 x.2).2.1
        st0.acc g1
      cases hr : addRegion checks ol st0.rem st0.newLen (regionStart st0 x.2).2.1 st0.acc with
      | none => exact ⟨fun _ => a1 hr, nofun⟩
      | some r =>
        refine ⟨nofun, fun st h => ?_⟩
        simp at h; subst h
        exact ⟨a2 r hr, (addRegion_len _ _ _ _ _ hr).trans g2⟩

theorem reshapeStrides_sim {ds nd : List Nat} (st st' : List Int) (h0 : size nd = 0) :
    SimO checks (fun a b => a.length = b.length) (reshapeStrides checks ds st nd)
      (Mapping.reshapeStrides ds st' nd) := by
  have hz := size_eq_zero_iff.1 h0
  have ex : ∃ b, Mapping.reshapeStrides ds st' nd = some b := by
    have := Mapping.reshape_finalLen ds st' nd
    simp only [Mapping.reshapeStrides]
    rw [check_pos (Or.inl (this.trans h0))]
    exact ⟨_, rfl⟩
  obtain ⟨b, hb⟩ := ex
  rw [hb]
  have hbl := Mapping.reshapeStrides_length hb
  obtain ⟨g1, g2⟩ := reshapeLoop_zero (checks := checks) hz (ds.zip st)
  simp only [reshapeStrides, reshapeLoop, Option.bind_eq_bind]
  cases hl : (ds.zip st).foldr (fun x st => st.bind fun st => reshapeStep checks st x.1 x.2)
      (some (Mapping.reshapeInit nd)) with
  | none => exact Or.inl ⟨g1 hl, rfl⟩
  | some r =>
    obtain ⟨e1, e2⟩ := g2 r hl
    obtain ⟨a1, a2⟩ := addRemaining_zero (checks := checks) r.rem r.newLen r.newStride r.acc e1
    simp only [Option.bind_some]
    cases ha : addRemaining checks r.rem r.newLen r.newStride r.acc with
    | none => exact Or.inl ⟨a1 ha, rfl⟩
    | some q =>
      obtain ⟨k1, k2⟩ := a2 q ha
      simp only [Option.bind_some]
      have : check (q.1 = 0 ∨ r.valid = true) = some () := if_pos (Or.inl k1)
      rw [this]
      exact SimO.some (by rw [k2, e2, hbl])

theorem shapeReshape_sim {s : Shape} (h0 : size s.dims = 0) (ns : Shape) :
    SimO checks Eq (shapeReshape checks s ns) (s.reshape ns) := by
  simp only [shapeReshape, Shape.reshape, Option.bind_eq_bind]
  refine sim_bind _ fun r _ => sim_bind _ fun ns' _ => ?_
  have e : s.len = 0 := by rw [Shape.len_eq]; exact h0
  rw [e]
  cases hn : len checks s with
  | none => exact Or.inl ⟨product_none hn, rfl⟩
  | some n =>
    obtain rfl : n = 0 := product_zero h0 hn
    exact sim_eq _

theorem reshape_sim {m : Mapping} (h0 : size m.dims = 0) {ns : Shape} (hw : ns.WF) :
    SimO checks (fun q q' => Alike q q' ∧ size q.dims = 0) (reshape checks m ns) (m.reshape ns) := by
  simp only [reshape, Mapping.reshape, Option.bind_eq_bind]
  refine SimO.bind (SimO.and (shapeReshape_sim h0 ns) (P := fun s' => size s'.dims = 0) fun s' hs' => ?_)
    fun s' _ he => ?_
  · obtain ⟨_, r1, r2, _, r3⟩ := Shape.reshape_result hw (shapeReshape_empty h0 hs')
    rw [r2]; exact h0
  obtain ⟨rfl, hz⟩ := he
  cases m with
  | dense s => exact SimO.some ⟨.dense _, hz⟩
  | strided s st =>
    exact SimO.bind (reshapeStrides_sim st st hz) fun a b hl => SimO.some ⟨.strided _ hl, hz⟩

theorem viewReshape_sim (h0 : size v.dims = 0) {ns : Shape} (hw : ns.WF) :
    SimO checks Nothing (viewReshape checks v ns) (v.reshape ns) := by
  simp only [viewReshape, View.reshape, Option.bind_eq_bind]
  exact SimO.bind (reshape_sim h0 hw) fun a b h => SimO.some ⟨rfl, h.1, h.2⟩

theorem flatten_sim (h0 : size v.dims = 0) : SimO checks Nothing (flatten checks v) v.flatten := by
  simp only [flatten, View.flatten, Option.bind_eq_bind]
  have e : v.map.len = 0 := by show v.map.shape.len = 0; rw [Shape.len_eq]; exact h0
  rw [e]
  cases hn : len checks v.map.shape with
  | none => exact Or.inl ⟨product_none hn, rfl⟩
  | some n =>
    obtain rfl : n = 0 := product_zero h0 hn
    exact viewReshape_sim h0 (show (ShapeTy.static [.dyn]).Conforms [0] by simp)

theorem line_sim (h0 : size v.dims = 0) {xs : List DimIdx} (hx : xs.length = 2) :
    SimO checks Nothing (line checks v xs) (lineExact v xs) := by
  simp only [line, lineExact, Option.bind_eq_bind]
  refine sim_bind _ fun ns hns => ?_
  obtain ⟨hw, hd, ht⟩ := fromDims_any hns
  refine SimO.bind (SimO.and (viewReshape_sim h0 hw) (P := fun u => u.dims.length = 2) fun u hu => ?_)
    fun u u' h => view_sim h.1 (by rw [h.2, hx])
  simp only [viewReshape, reshape, Option.bind_eq_bind, Option.bind_eq_some_iff] at hu
  obtain ⟨m, ⟨s', hs', hm⟩, hu⟩ := hu
  simp at hu; subst hu
  obtain ⟨r0, r1, _⟩ := Shape.reshape_result hw (shapeReshape_empty h0 hs')
  have e : m.shape = s' := by
    cases hv : v.map with
    | dense s => rw [hv] at hm; simp at hm; subst hm; rfl
    | strided s st =>
      rw [hv] at hm
      simp only [Option.bind_eq_some_iff] at hm
      obtain ⟨_, _, hm⟩ := hm
      simp at hm; subst hm; rfl
  show m.shape.dims.length = 2
  rw [e]
  have hc : s'.ty.Conforms s'.dims := r1
  rw [r0, ht] at hc
  rw [← ShapeTy.conforms_static_length hc]; rfl

theorem diagPart_sim {k : Int} (hk : FitsI k) (d0 d1 : Nat) (s0 s1 t0 t1 : Int) :
    SimO checks (fun a b => a.2 = b.2 ∧ a.2 ≤ d0 ∧ a.2 ≤ d1) (diagPart checks k d0 d1 s0 s1)
      (diagExact k d0 d1 t0 t1) := by
  unfold diagPart diagExact
  by_cases h : 0 ≤ k
  · rw [if_pos h, if_pos h, castU_ok h hk]
    simp only [Option.bind_eq_bind]
    exact sim_bind _ fun _ _ => skipI fun _ => SimO.some ⟨rfl, by dsimp only; omega, by dsimp only; omega⟩
  · rw [if_neg h, if_neg h]
    simp only [Option.bind_eq_bind]
    cases hn : retI checks (-k) with
    | none => exact Or.inl ⟨retI_none hn, rfl⟩
    | some n =>
      have e : castU n = (-k).toNat := by
        by_cases hm : k = -9223372036854775808
        · subst hm
          cases checks
          · have e : retI false (-(-9223372036854775808)) = some (-9223372036854775808) := by decide
            rw [e] at hn
            obtain rfl := Option.some.inj hn
            decide
          · have e : retI true (-(-9223372036854775808)) = none := by decide
            rw [e] at hn; cases hn
        · have hf : FitsI (-k) := by obtain ⟨a, b⟩ := hk; exact ⟨by omega, by omega⟩
          rw [retI_fit hf] at hn
          obtain rfl := Option.some.inj hn
          exact castU_ok (by omega) hf
      simp only [Option.bind_some, e]
      exact sim_bind _ fun _ _ => skipI fun _ => SimO.some ⟨rfl, by dsimp only; omega, by dsimp only; omega⟩

theorem diag_sim (h0 : size v.dims = 0) {k : Int} (hk : FitsI k) :
    SimO checks Nothing (diag checks v k) (v.diag k) := by
  rw [diag_form]
  simp only [diag, Option.bind_eq_bind]
  refine sim_bind _ fun _ hr => sim_bind _ fun d0 hd0 => sim_bind _ fun d1 hd1 => ?_
  refine SimO.bind (stride_sim (.refl _) 0) fun s0 s0' _ => SimO.bind (stride_sim (.refl _) 1) fun s1 s1' _ => ?_
  refine SimO.bind (diagPart_sim hk d0 d1 s0 s1 s0' s1') fun a b hab => ?_
  obtain ⟨o, n⟩ := a
  obtain ⟨o', n'⟩ := b
  obtain ⟨h1, h2, h3⟩ := hab
  obtain rfl : n = n' := h1
  dsimp only at h2 h3
  have hr := check_some hr
  have hz : d0 = 0 ∨ d1 = 0 := by
    rw [size_eq_zero_iff] at h0
    obtain ⟨q, hq, e⟩ := List.getElem_of_mem h0
    rw [Mapping.dim_eq] at hd0 hd1
    have hl : v.map.dims.length = 2 := hr
    have hq' : q < v.map.dims.length := hq
    have e' : v.map.dims[q] = 0 := e
    rcases (by omega : q = 0 ∨ q = 1) with rfl | rfl
    · rw [List.getElem?_eq_getElem hq'] at hd0
      left; have := Option.some.inj hd0; omega
    · rw [List.getElem?_eq_getElem hq'] at hd1
      right; have := Option.some.inj hd1; omega
  obtain rfl : n = 0 := by omega
  refine skipI fun s => SimO.some ⟨rfl, .strided _ rfl, ?_⟩
  show size [0] = 0
  simp

end

/-! ### Contiguity -/

theorem bmod_retI {x y : Int} (h : retI checks x = some y) : y = Int.bmod x (2 ^ 64) := by
  unfold retI at h
  split at h
  · rename_i hf
    rw [← Option.some.inj h, bmod_fit hf]
  · split at h
    · cases h
    · exact (Option.some.inj h).symm

theorem bmod_mul (x y : Int) : Int.bmod (x * Int.bmod y (2 ^ 64)) (2 ^ 64) = Int.bmod (x * y) (2 ^ 64) := by
  generalize 2 ^ 64 = n
  exact Int.mul_bmod_bmod

theorem contigLoop_complete (l : List (Nat × Int)) : ∀ (k k' : Int), (∀ x ∈ l, FitsI x.2) → k' = Int.bmod k (2 ^ 64) →
    Mapping.contigLoop l k = true → contigLoop checks l k' = some true ∨ (checks = true ∧ contigLoop checks l k' = none) := by
  induction l with
  | nil => intro k k' _ _ _; exact Or.inl rfl
  | cons x l ih =>
    obtain ⟨d, s⟩ := x
    intro k k' hf hk h
    simp only [Mapping.contigLoop] at h
    split at h
    · cases h
    rename_i hs
    have hs : s = k := Classical.not_not.1 hs
    subst hs
    rw [bmod_fit (hf _ (List.mem_cons_self ..))] at hk
    subst hk
    simp only [contigLoop, ne_eq, not_true_eq_false, if_false]
    cases hr : retI checks (k' * castI d) with
    | none => exact Or.inr ⟨retI_none hr, rfl⟩
    | some q =>
      refine ih (k' * d) q (fun y hy => hf y (List.mem_cons_of_mem _ hy)) ?_ h
      rw [bmod_retI hr]
      unfold castI
      exact bmod_mul k' d

/-- Conversion to the dense layout: a view that is contiguous stays so. -/
theorem viewRemap_complete {v w : View} (h0 : size v.dims = 0) (hm : FitM v.map) (ty : ShapeTy) (L : Layout)
    (h : v.remap ty L = some w) : SimO checks Nothing (viewRemap checks v ty L) (some w) := by
  cases hl : v.map with
  | dense s =>
    rw [← h]
    exact viewRemap_sim h0 ty fun _ => by rw [View.layout, hl]; rfl
  | strided s st =>
  cases L with
  | strided => rw [← h]; exact viewRemap_sim h0 ty nofun
  | dense =>
    simp only [View.remap, Mapping.remap, Option.bind_eq_bind, Option.bind_eq_some_iff] at h
    obtain ⟨m, ⟨_, hc, sh, hs, hm'⟩, hw⟩ := h
    have hc := check_some hc
    simp at hm' hw
    subst hm' hw
    simp only [viewRemap, remap, Option.bind_eq_bind, hs, Option.bind_some]
    rw [hl] at hc hm
    have hf : ∀ x ∈ (s.dims.zip st).reverse, FitsI x.2 := fun x hx =>
      hm _ (List.of_mem_zip (List.mem_reverse.1 hx)).2
    have hx : isContiguous checks v.map = some true ∨ (checks = true ∧ isContiguous checks v.map = none) := by
      rw [hl]
      exact contigLoop_complete _ 1 1 hf (by decide) hc
    rcases hx with hx | ⟨hx, hn⟩
    · rw [hx]
      have : size sh.dims = 0 := by rw [(fromDims_any hs).2.1]; exact h0
      exact SimO.some ⟨rfl, .dense _, this⟩
    · rw [hn]; exact Or.inl ⟨hx, rfl⟩

theorem outcome {x y : Option View} (h : SimO checks Nothing x y) : SameOrOverflow checks x y := by
  rcases h with h | h | ⟨a, b, h1, h2, h3⟩
  · exact Or.inr h
  · exact Or.inl (Or.inl h)
  · exact Or.inl (Or.inr ⟨a, b, h1, h2, h3.same⟩)

end Zero
end Machine
end Model
