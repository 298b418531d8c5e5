import Verif.Lemmas.Ops
import Verif.Props.Tensor
import Verif.Lemmas.Compare

/-! Element-wise operators (C30). -/

namespace Props
open Spec Model Model.Expr

variable {σ T α β γ : Type}

theorem map_zip_item {p : Expr σ α} {q : Expr σ β} {z} (hp : Built p) (hq : Built q)
    (hz : zipNew p q = some z) (g : α × β → M σ γ) (n : Nat) :
    item (map z g) n (unrank (map z g).dims n) =
      M.bind (castItem z.dims p n) fun x => M.bind (castItem z.dims q n) fun y => g (x, y) := by
  show M.bind (item z n (unrank z.dims n)) g = _
  rw [(zip_items hp hq hz).2, M.bind_assoc]
  congr 1
  funext x
  rw [M.bind_assoc]
  rfl

theorem owned_item {s : Shape} {buf : List T} {dims : List Nat} (h : s.dims = dims)
    (hl : buf.length = size s.dims) {n : Nat} (hn : n < size dims) :
    ∃ x, castItem dims (intoExpr s buf 0 : Expr σ T) n = M.pure x := by
  subst h
  rw [castItem_intoExpr hn, List.getElem?_eq_getElem (by rw [hl]; exact hn)]
  exact ⟨_, rfl⟩

theorem zipItem_eq {s : Shape} {buf : List T} {e : Expr σ β} (f : T → β → M σ T) {n : Nat} 
    (hn : n < size s.dims) : zipItem s.dims buf e f n =
      M.bind (castItem s.dims e n) fun y => M.bind (castItem s.dims (intoExpr s buf 0 : Expr σ T) n)
        fun x => f x y := by
  rw [castItem_intoExpr hn]

theorem stopped_of_zip {dims : List Nat} {xs : List T} {e : Expr σ β} {f : T → β → M σ T} {s s' : σ}
    {k : Nat} {ys : List T} {b : Bool} (h : ZipStopped dims xs e f s k ys s' b) :
    Stopped (zipItem dims xs e f) (size dims) s k ys s' := by
  obtain ⟨hk, t, h1, h2⟩ := h
  refine ⟨hk, t, h1, ?_⟩
  unfold zipItem
  rcases h2 with ⟨-, h2⟩ | ⟨-, y, t', h2, x, h3, h4⟩
  · simp only [M.bind, h2]
  · simp only [M.bind, h2, h3, orUb, M.pure]
    exact h4

/-- Change of the description of an element-wise operation. -/
theorem elementwise_conv {P P' lim lim' : Prop} {dims dims' : List Nat} {step step' : Nat → M σ T} {s : σ}
    {x : M σ (Own T)} (hP : P ↔ P') (hd : P → dims = dims')
    (hc : P → ∀ n, n < size dims → step n = step' n) (hl : P → lim → lim')
    (h : M.Post x s (fun r t => P ∧ ∃ ys, Ran step (size dims) s ys t ∧ Holds r ys ∧
        r.shape.dims = dims ∧ r.log = [])
      fun t => (¬ P ∧ t = s) ∨ (P ∧ ((lim ∧ t = s) ∨ ∃ k ys, Stopped step (size dims) s k ys t))) :
    M.Post x s (fun r t => P' ∧ ∃ ys, Ran step' (size dims') s ys t ∧ Holds r ys ∧
        r.shape.dims = dims' ∧ r.log = [])
      fun t => (¬ P' ∧ t = s) ∨ (P' ∧ ((lim' ∧ t = s) ∨ ∃ k ys, Stopped step' (size dims') s k ys t)) := by
  refine h.mono ?_ ?_
  · rintro r t ⟨hp, ys, h1, h2, h3, h4⟩
    rw [← hd hp]
    exact ⟨hP.1 hp, ys, h1.congr (hc hp), h2, h3, h4⟩
  · rintro t (⟨h1, h2⟩ | ⟨hp, h⟩)
    · exact Or.inl ⟨fun h => h1 (hP.2 h), h2⟩
    · rw [← hd hp]
      refine Or.inr ⟨hP.1 hp, h.imp (fun h => ⟨hl hp h.1, h.2⟩) ?_⟩
      rintro ⟨k, ys, h⟩
      exact ⟨k, ys, h.congr (hc hp)⟩

/-- Evaluating `z.map(g)` into a tensor. -/
theorem post_lazy {p : Expr σ T} {q : Expr σ T} (hp : Built p ∧ TameItems p) (hq : Built q ∧ TameItems q)
    (hc : ZipClean p q) (g : T × T → M σ T) (hg : ∀ x, (g x).Tame) (limit : Nat) (s : σ) :
    M.Post (M.bind (M.lift (zipNew p q)) fun z =>
        runOwn (ownOf limit z.shape []) (tensorFromExpr (.map z g))) s
      (fun r t => (CanCast p (longer p.dims q.dims) ∧ CanCast q (longer p.dims q.dims)) ∧ ∃ ys,
        Ran (fun n => M.bind (castItem (longer p.dims q.dims) p n) fun x =>
          M.bind (castItem (longer p.dims q.dims) q n) fun y => g (x, y)) (size (longer p.dims q.dims)) s ys t
          ∧ Holds r ys ∧ r.shape.dims = longer p.dims q.dims ∧ r.log = [])
      fun t => (¬ (CanCast p (longer p.dims q.dims) ∧ CanCast q (longer p.dims q.dims)) ∧ t = s) ∨
        ((CanCast p (longer p.dims q.dims) ∧ CanCast q (longer p.dims q.dims)) ∧
          ((limit < size (longer p.dims q.dims) ∧ t = s) ∨ ∃ k ys,
          Stopped (fun n => M.bind (castItem (longer p.dims q.dims) p n) fun x =>
          M.bind (castItem (longer p.dims q.dims) q n) fun y => g (x, y)) (size (longer p.dims q.dims))
            s k ys t)) := by
  have hsome := zipNew_isSome hp.1 hq.1
  cases hz : zipNew p q with
  | none =>
    rw [hz] at hsome
    exact Or.inl ⟨fun h => by simpa using hsome.2 h, rfl⟩
  | some z =>
    rw [hz] at hsome
    have hcc := hsome.1 rfl
    have hd := (zip_items hp.1 hq.1 hz).1
    have hi := fun n => map_zip_item hp.1 hq.1 hz g n
    simp only [← hd] at hcc ⊢
    have hb : Built (map z g) := .map (.zip hp.1 hq.1 hz)
    refine post_runOwn (M.Post.mono (post_tensorFromExpr hb (hc z hz).1
      (tame_map (tame_zip hz hp.2 hq.2) hg) (shape_wf (wf_of_built hb)) (hc z hz).2 s _) ?_ ?_)
    · rintro _ t ⟨ys, h1, h2, h3, h4⟩
      exact ⟨hcc, ys, h1.congr fun n _ => hi n, h2, congrArg Shape.dims h3, h4⟩
    · rintro t (⟨h1, h2, -⟩ | ⟨k, ys, h1, -⟩)
      · exact Or.inr ⟨hcc, Or.inl ⟨h1, h2⟩⟩
      · exact Or.inr ⟨hcc, Or.inr ⟨k, ys, h1.congr fun n _ => hi n⟩⟩

/-- Evaluating `z.map(g)` into an array, where the first operand is an owned array. -/
theorem post_array {sh : Shape} {buf : List T} {q : Expr σ T} (hw : sh.WF) (hl : buf.length = size sh.dims)
    (hq : Built q ∧ TameItems q)
    (hc : ZipClean (intoExpr sh buf 0) q) (g : T × T → M σ T) (hg : ∀ x, (g x).Tame) (limit : Nat) (s : σ) :
    M.Post (M.bind (M.lift (zipNew (intoExpr sh buf 0) q)) fun z =>
        runOwn (ownOf limit sh []) (arrayFromExpr sh.ty (.map z g))) s
      (fun r t => CanCast q sh.dims ∧ ∃ ys,
        Ran (fun n => M.bind (castItem sh.dims (intoExpr sh buf 0 : Expr σ T) n) fun x =>
          M.bind (castItem sh.dims q n) fun y => g (x, y)) (size sh.dims) s ys t
          ∧ Holds r ys ∧ r.shape.dims = sh.dims ∧ r.log = [])
      fun t => (¬ CanCast q sh.dims ∧ t = s) ∨ (CanCast q sh.dims ∧ ((False ∧ t = s) ∨ ∃ k ys,
          Stopped (fun n => M.bind (castItem sh.dims (intoExpr sh buf 0 : Expr σ T) n) fun x =>
          M.bind (castItem sh.dims q n) fun y => g (x, y)) (size sh.dims) s k ys t)) := by
  have hp : Built (intoExpr sh buf 0 : Expr σ T) := .intoExpr hw hl
  have hpt := (built_operand (σ := σ) (a := .array sh buf) ⟨hw, hl⟩).2
  have hsome := zipNew_isSome hp hq.1
  have hsd : CanCast q sh.dims ↔ (CanCast (intoExpr sh buf 0 : Expr σ T) (longer sh.dims q.dims) ∧
      CanCast q (longer sh.dims q.dims)) := by
    constructor
    · intro h
      have : longer sh.dims q.dims = sh.dims := by
        have := h.1.length_le
        unfold longer
        rw [if_neg (by omega)]
      rw [this]
      exact ⟨canCast_intoExpr.2 rfl, h⟩
    · rintro ⟨h1, h2⟩
      rw [← canCast_intoExpr.1 h1] at h2
      exact h2
  cases hz : zipNew (intoExpr sh buf 0) q with
  | none =>
    rw [hz] at hsome
    exact Or.inl ⟨fun h => by simpa using hsome.2 (hsd.1 h), rfl⟩
  | some z =>
    rw [hz] at hsome
    have hcc := hsome.1 rfl
    have hcq := hsd.2 hcc
    have hd := (zip_items hp hq.1 hz).1
    rw [show longer (intoExpr sh buf 0 : Expr σ T).dims q.dims = sh.dims from
      (canCast_intoExpr.1 hcc.1).symm] at hd
    have hi := fun n => map_zip_item hp hq.1 hz g n
    have hb : Built (map z g) := .map (.zip hp hq.1 hz)
    have hd' : (map z g).dims = sh.dims := hd
    simp only [hd, hd'] at hi
    have hconf : sh.ty.Conforms sh.dims := hw
    have key := post_arrayFromExpr (ty := sh.ty) hb (hc z hz).1
      (tame_map (tame_zip hz hpt hq.2) hg) (hc z hz).2 s (ownOf limit sh [])
    simp only [hd'] at key
    refine post_runOwn (M.Post.mono key ?_ ?_)
    · rintro _ t ⟨-, ys, h1, h2, h3, h4, -⟩
      exact ⟨hcq, ys, h1.congr fun n _ => hi n, h2, congrArg Shape.dims h3, h4⟩
    · rintro t (⟨h1, -⟩ | ⟨-, k, ys, h1, -⟩)
      · exact absurd hconf h1
      · exact Or.inr ⟨hcq, Or.inr ⟨k, ys, h1.congr fun n _ => hi n⟩⟩

/-- Reusing an owned tensor. -/
theorem post_inPlace {sh : Shape} {buf : List T} {q : Expr σ T} (hw : sh.WF)
    (hl : buf.length = size sh.dims) (hq : Built q ∧ TameItems q)
    (hc : ZipClean (intoExpr sh buf 0) q) (f : T → T → M σ T) (hf : ∀ x y, (f x y).Tame) (limit : Nat)
    (s : σ) :
    M.Post (runOwn (ownOf limit sh buf) (zipWith q f)) s
      (fun r t => CanCast q sh.dims ∧ ∃ ys,
        Ran (fun n => M.bind (castItem sh.dims q n) fun y =>
          M.bind (castItem sh.dims (intoExpr sh buf 0 : Expr σ T) n) fun x => f x y) (size sh.dims) s ys t
          ∧ Holds r ys ∧ r.shape.dims = sh.dims ∧ r.log = [])
      fun t => (¬ CanCast q sh.dims ∧ t = s) ∨ (CanCast q sh.dims ∧ ((False ∧ t = s) ∨ ∃ k ys,
          Stopped (fun n => M.bind (castItem sh.dims q n) fun y =>
          M.bind (castItem sh.dims (intoExpr sh buf 0 : Expr σ T) n) fun x => f x y) (size sh.dims)
            s k ys t)) := by
  have hh : Holds (ownOf limit sh buf) buf := ⟨hw, hl, List.prefix_refl _⟩
  refine post_runOwn (M.Post.mono (post_zipWith (s := s) hh hq.1 hq.2 hf (hc.whole hw hl hq.1)) ?_ ?_)
  · rintro _ t ⟨h0, ys, h1, h2, h3, h4, -⟩
    exact ⟨h0, ys, h1.congr fun n hn => zipItem_eq f hn, h2, congrArg Shape.dims h3, h4⟩
  · rintro t (⟨h1, h2, -⟩ | ⟨h1, k, ys, h2⟩)
    · exact Or.inl ⟨h1, h2⟩
    · refine Or.inr ⟨h1, Or.inr ⟨k, ys, ?_⟩⟩
      rcases h2 with h2 | h2
      · exact (stopped_of_zip h2.1).congr fun n hn => zipItem_eq f hn
      · exact (stopped_of_zip h2.1).congr fun n hn => zipItem_eq f hn

/-- For all kinds of operands, `a op b` succeeds only if both fit the common dimensions, and then has
these dimensions and the elements `(a at j) op (b at j)` in the written order; each element is computed
once, in row-major order, and nothing is dropped. It panics if the operands do not fit, when the result
cannot be allocated (only without an owned operand), or in a step. Missing: operands whose combination
has a known defect (`Clean`). -/
theorem C30_binary_partial (limit : Nat) (op : T → T → M σ T) (hop : ∀ x y, (op x y).Tame)
    (a b : Operand σ T) (ha : OperandOk a) (hb : OperandOk b) (hc : Clean a b) (s : σ) :
    let dims := resultDims a b
    let fits := operandFits a dims ∧ operandFits b dims
    M.Post (binOp limit op a b) s
      (fun r t => fits ∧ ∃ ys, Ran (binStep op a b) (size dims) s ys t ∧ Holds r ys ∧
        r.shape.dims = dims ∧ r.log = [])
      fun t => (¬ fits ∧ t = s) ∨ (fits ∧ (((∃ x y, a = .expr x ∧ b = .expr y ∧ limit < size dims) ∧
        t = s) ∨ ∃ k ys, Stopped (binStep op a b) (size dims) s k ys t)) := by
  intro dims fits
  obtain ⟨hab, hat⟩ := built_operand ha
  obtain ⟨hbb, hbt⟩ := built_operand hb
  have hdims : dims = longer a.toExpr.dims b.toExpr.dims := by
    rw [← operandDims_eq, ← operandDims_eq]; rfl
  have hfits : fits ↔ CanCast a.toExpr dims ∧ CanCast b.toExpr dims :=
    and_congr operandFits_iff operandFits_iff
  have hcl : ZipClean a.toExpr b.toExpr := hc
  have hcr : ZipClean b.toExpr a.toExpr := hcl.swap hab hbb
  -- an owned left operand
  have left : ∀ sh : Shape, ∀ buf : List T, a.toExpr = intoExpr sh buf 0 →
      (CanCast b.toExpr sh.dims ↔ fits) ∧ (CanCast b.toExpr sh.dims → sh.dims = dims) := by
    intro sh buf h
    have h2 : CanCast b.toExpr sh.dims → sh.dims = dims := by
      intro hcb
      have := hcb.1.length_le
      rw [hdims, h]
      exact (if_neg (by show ¬ sh.dims.length < _; omega)).symm
    refine ⟨⟨fun hcb => ?_, fun hf => ?_⟩, h2⟩
    · rw [hfits, h, ← h2 hcb]
      exact ⟨canCast_intoExpr.2 rfl, hcb⟩
    · rw [hfits, h] at hf
      rw [canCast_intoExpr.1 hf.1]
      exact hf.2
  -- an owned right operand
  have right : ∀ sh : Shape, ∀ buf : List T, b.toExpr = intoExpr sh buf 0 →
      (CanCast a.toExpr sh.dims ↔ fits) ∧ (CanCast a.toExpr sh.dims → sh.dims = dims) := by
    intro sh buf h
    have h2 : CanCast a.toExpr sh.dims → sh.dims = dims := by
      intro hca
      have := hca.1.length_le
      rw [hdims, h]
      show _ = if a.toExpr.dims.length < sh.dims.length then sh.dims else a.toExpr.dims
      split
      · rfl
      · exact (hca.1.eq_of_length (by omega)).symm
    refine ⟨⟨fun hca => ?_, fun hf => ?_⟩, h2⟩
    · rw [hfits, h, ← h2 hca]
      exact ⟨hca, canCast_intoExpr.2 rfl⟩
    · rw [hfits, h] at hf
      rw [canCast_intoExpr.1 hf.2]
      exact hf.1
  -- the steps
  have hstep : fits → ∀ n, n < size dims → (M.bind (castItem dims b.toExpr n) fun y =>
      M.bind (castItem dims a.toExpr n) fun x => op x y) = binStep op a b n := by
    intro hf n hn
    rw [operandItem_eq hf.1 hn, operandItem_eq hf.2 hn]
    rfl
  match a, b, ha, hb with
  | .tensor sh buf, b, ha, hb =>
    obtain ⟨h1, h2⟩ := left sh buf rfl
    refine elementwise_conv h1 h2 ?_ (fun _ h => h.elim)
      (post_inPlace ha.1 ha.2 ⟨hbb, hbt⟩ hcl op hop limit s)
    intro hP n hn
    have := hstep (h1.1 hP) n (by rw [← h2 hP]; exact hn)
    rw [← h2 hP] at this
    exact this
  | .array sh buf, b, ha, hb =>
    obtain ⟨h1, h2⟩ := left sh buf rfl
    refine elementwise_conv h1 h2 ?_ (fun _ h => h.elim)
      (post_array ha.1 ha.2 ⟨hbb, hbt⟩ hcl (fun p => op p.1 p.2) (fun p => hop _ _) limit s)
    intro hP n hn
    have := hstep (h1.1 hP) n (by rw [← h2 hP]; exact hn)
    rw [← h2 hP] at this
    rw [← this]
    obtain ⟨x, hx⟩ := owned_item (σ := σ) (buf := buf) rfl ha.2 hn
    show M.bind (castItem sh.dims (intoExpr sh buf 0 : Expr σ T) n) _ = M.bind _ fun y =>
      M.bind (castItem sh.dims (intoExpr sh buf 0 : Expr σ T) n) _
    rw [hx]
    rfl
  | .expr e, .tensor sh buf, ha, hb =>
    obtain ⟨h1, h2⟩ := right sh buf rfl
    refine elementwise_conv h1 h2 ?_ (fun _ h => h.elim)
      (post_inPlace hb.1 hb.2 ⟨hab, hat⟩ hcr (fun x y => op y x) (fun _ _ => hop _ _) limit s)
    intro hP n hn
    have := hstep (h1.1 hP) n (by rw [← h2 hP]; exact hn)
    rw [← h2 hP] at this
    rw [← this]
    obtain ⟨x, hx⟩ := owned_item (σ := σ) (buf := buf) rfl hb.2 hn
    show M.bind _ (fun y => M.bind (castItem sh.dims (intoExpr sh buf 0 : Expr σ T) n) _) =
      M.bind (castItem sh.dims (intoExpr sh buf 0 : Expr σ T) n) _
    rw [hx]
    rfl
  | .expr e, .array sh buf, ha, hb =>
    obtain ⟨h1, h2⟩ := right sh buf rfl
    refine elementwise_conv h1 h2 ?_ (fun _ h => h.elim)
      (post_array hb.1 hb.2 ⟨hab, hat⟩ hcr (fun p => op p.2 p.1) (fun p => hop _ _) limit s)
    intro hP n hn
    have := hstep (h1.1 hP) n (by rw [← h2 hP]; exact hn)
    rw [← h2 hP] at this
    exact this
  | .expr e, .expr r, ha, hb =>
    have hP : (CanCast r (longer r.dims e.dims) ∧ CanCast e (longer r.dims e.dims)) ↔ fits := by
      rw [hfits, hdims]
      constructor
      · rintro ⟨h1, h2⟩
        have := longer_comm rfl h1 h2
        rw [this] at h1 h2
        exact ⟨h2, h1⟩
      · rintro ⟨h1, h2⟩
        have := longer_comm rfl h1 h2
        rw [this] at h1 h2
        exact ⟨h2, h1⟩
    have hd : (CanCast r (longer r.dims e.dims) ∧ CanCast e (longer r.dims e.dims)) →
        longer r.dims e.dims = dims := by
      rintro ⟨h1, h2⟩
      rw [hdims]
      exact longer_comm rfl h1 h2
    refine elementwise_conv hP hd ?_ ?_
      (post_lazy ⟨hbb, hbt⟩ ⟨hab, hat⟩ hcr (fun p => op p.2 p.1) (fun p => hop _ _) limit s)
    · intro hp n hn
      have := hstep (hP.1 hp) n (by rw [← hd hp]; exact hn)
      rw [← hd hp] at this
      exact this
    · intro hp hl
      refine ⟨e, r, rfl, rfl, ?_⟩
      rw [← hd hp]; exact hl

/-- Which kind of operand is used does not change the result: operands with the same dimensions and the
same elements give the same elements, evaluated with the same effects. -/
theorem C30_kinds_partial (limit limit' : Nat) (op : T → T → M σ T) (hop : ∀ x y, (op x y).Tame)
    (a b a' b' : Operand σ T) (ha : OperandOk a) (hb : OperandOk b) (ha' : OperandOk a')
    (hb' : OperandOk b') (hc : Clean a b) (hc' : Clean a' b')
    (hda : operandDims a = operandDims a') (hdb : operandDims b = operandDims b')
    (hia : ∀ n, n < size (resultDims a b) →
      operandItem (resultDims a b) a n = operandItem (resultDims a b) a' n)
    (hib : ∀ n, n < size (resultDims a b) →
      operandItem (resultDims a b) b n = operandItem (resultDims a b) b' n)
    (s t t' : σ) (r r' : Own T) (h : binOp limit op a b s = .ok r t)
    (h' : binOp limit' op a' b' s = .ok r' t') :
    t = t' ∧ r.shape.dims = r'.shape.dims ∧ ∃ ys, Holds r ys ∧ Holds r' ys := by
  have hd : resultDims a b = resultDims a' b' := by unfold resultDims; rw [hda, hdb]
  have k := C30_binary_partial limit op hop a b ha hb hc s
  have k' := C30_binary_partial limit' op hop a' b' ha' hb' hc' s
  unfold M.Post at k k'
  simp only [h, h'] at k k'
  obtain ⟨-, ys, h1, h2, h3, -⟩ := k
  obtain ⟨-, ys', h1', h2', h3', -⟩ := k'
  rw [← hd] at h1' h3'
  have hr := h1.congr (step' := binStep op a' b') fun n hn => by
    unfold binStep
    rw [hia n hn, hib n hn, hd]
  unfold Ran at hr h1'
  rw [hr] at h1'
  injection h1' with e1 e2
  subst e1 e2
  exact ⟨rfl, h3.trans h3'.symm, ys, h2, h2'⟩

/-- A unary operator has the dimensions of its operand, and the elements `op (a at j)`, computed once
each in row-major order, for all kinds of operands. Missing: operands with a known defect. -/
theorem C30_unary_partial (limit : Nat) (op : T → M σ T) (hop : ∀ x, (op x).Tame)
    (a : Operand σ T) (ha : OperandOk a) (hs : Sound a.toExpr)
    (hp : size a.toExpr.dims = 0 → size (a.toExpr.dims.drop a.toExpr.outerRank) = 0) (s : σ) :
    let dims := operandDims a
    let step := fun n => M.bind (operandItem dims a n) op
    M.Post (unOp limit op a) s
      (fun r t => ∃ ys, Ran step (size dims) s ys t ∧ Holds r ys ∧ r.shape.dims = dims ∧ r.log = [])
      fun t => ((∃ e, a = .expr e ∧ limit < size dims) ∧ t = s) ∨ ∃ k ys,
        Stopped step (size dims) s k ys t := by
  obtain ⟨hab, hat⟩ := built_operand ha
  cases a with
  | expr e =>
    intro dims step
    have hst : ∀ n, item (map e op) n (unrank (map e op).dims n) = step n := by
      intro n
      show _ = M.bind (item e n ((unrank e.dims n).drop (e.dims.length - e.dims.length))) op
      rw [Nat.sub_self, List.drop_zero]
      rfl
    have hb : Built (map e op) := .map hab
    refine post_runOwn (M.Post.mono (post_tensorFromExpr hb hs (tame_map hat hop)
      (shape_wf (wf_of_built hb)) hp s _) ?_ ?_)
    · rintro _ t ⟨ys, h1, h2, h3, h4⟩
      exact ⟨ys, h1.congr fun n _ => hst n, h2, congrArg Shape.dims h3, h4⟩
    · rintro t (⟨h1, h2, -⟩ | ⟨k, ys, h1, -⟩)
      · exact Or.inl ⟨⟨e, rfl, h1⟩, h2⟩
      · exact Or.inr ⟨k, ys, h1.congr fun n _ => hst n⟩
  | array sh buf =>
    intro dims step
    have hst : ∀ n, n < size sh.dims → item (map (intoExpr sh buf 0) op : Expr σ T) n
        (unrank (map (intoExpr sh buf 0) op : Expr σ T).dims n) = step n := by
      intro n hn
      show M.bind (orUb buf[rowMajor sh.dims (unrank sh.dims n)]?) op = M.bind (orUb buf[n]?) op
      rw [rowMajor_unrank hn]
    have hb : Built (map (intoExpr sh buf 0) op : Expr σ T) := .map hab
    refine post_runOwn (M.Post.mono (post_arrayFromExpr (ty := sh.ty) hb hs (tame_map hat hop) hp s _)
      ?_ ?_)
    · rintro _ t ⟨-, ys, h1, h2, h3, h4, -⟩
      exact ⟨ys, h1.congr hst, h2, congrArg Shape.dims h3, h4⟩
    · rintro t (⟨h1, -⟩ | ⟨-, k, ys, h1, -⟩)
      · exact absurd (show sh.ty.Conforms sh.dims from ha.1) h1
      · exact Or.inr ⟨k, ys, h1.congr hst⟩
  | tensor sh buf =>
    intro dims step
    have hh : Holds (ownOf limit sh buf) buf := ⟨ha.1, ha.2, List.prefix_refl _⟩
    have hcc : CanCast (fill (M.pure ()) : Expr σ Unit) sh.dims :=
      ⟨List.nil_suffix, fun h => by cases h⟩
    have hcl : ZipClean (intoExpr sh buf 0 : Expr σ T) (fill (M.pure ()) : Expr σ Unit) := by
      intro z hz
      obtain ⟨t, rfl, -⟩ := zip_trailing hz
      refine ⟨⟨trivial, trivial⟩, fun h => ?_⟩
      exact h
    have hst : ∀ n, n < size sh.dims →
        zipItem sh.dims buf (fill (M.pure ()) : Expr σ Unit) (fun x _ => op x) n = step n := fun n _ => rfl
    refine post_runOwn (M.Post.mono (post_zipWith (s := s) hh (e := (fill (M.pure ()) : Expr σ Unit))
      .fill (fun _ _ _ => M.tame_pure _) (fun x _ => hop x) (hcl.whole ha.1 ha.2 .fill)) ?_ ?_)
    · rintro _ t ⟨-, ys, h1, h2, h3, h4, -⟩
      exact ⟨ys, h1.congr hst, h2, congrArg Shape.dims h3, h4⟩
    · rintro t (⟨h1, -⟩ | ⟨-, k, ys, h2⟩)
      · exact absurd hcc h1
      · refine Or.inr ⟨k, ys, ?_⟩
        rcases h2 with h2 | h2
        · exact (stopped_of_zip h2.1).congr hst
        · exact (stopped_of_zip h2.1).congr hst

/-- A matrix of the given elements, as a borrowed operand. -/
def borrowed (s : Shape) (buf : List Nat) : Operand Unit Nat :=
  .expr (.map (.view true (whole s)) fun p => orUb buf[p.toNat]?)

/-- Elements of the result, or `none` for a panic. -/
def elems : Res Unit (Own Nat) → Option (List (Option Nat))
  | .ok r _ => some r.cells
  | _ => none

/-- Subtraction of a row from a matrix, and in the other order, for all kinds of operands. -/
example :
    let m : Shape := ⟨.static [.const 2, .const 2], [2, 2]⟩
    let r : Shape := ⟨.static [.const 2], [2]⟩
    let sub : Nat → Nat → M Unit Nat := fun x y => if y ≤ x then M.pure (x - y) else M.panic
    let xs := [10, 20, 30, 40]
    let ys := [1, 2]
    let ok := some [some 9, some 18, some 29, some 38]
    elems (binOp 100 sub (.tensor m xs) (borrowed r ys) ()) = ok ∧
    elems (binOp 100 sub (.array m xs) (borrowed r ys) ()) = ok ∧
    elems (binOp 100 sub (borrowed m xs) (borrowed r ys) ()) = ok ∧
    elems (binOp 100 sub (borrowed m xs) (.tensor m [1, 2, 1, 2]) ()) = ok ∧
    elems (binOp 100 sub (borrowed m xs) (.array m [1, 2, 1, 2]) ()) = ok ∧
    elems (binOp 100 sub (.tensor m xs) (.array m [1, 2, 1, 2]) ()) = ok ∧
    elems (binOp 100 sub (.tensor m xs) (.tensor r ys) ()) = none ∧
    elems (binOp 100 sub (borrowed r ys) (borrowed m xs) ()) = none ∧
    elems (unOp 100 (fun x => M.pure (x + 1)) (.tensor m xs) ()) =
      some [some 11, some 21, some 31, some 41] := by
  refine ⟨?_, ?_, ?_, ?_, ?_, ?_, ?_, ?_, ?_⟩ <;> decide +kernel

theorem borrowed_ok {s : Shape} (hw : s.WF) {buf : List Nat} (hl : buf.length = size s.dims) :
    OperandOk (borrowed s buf) := by
  refine ⟨.map (.view (Mapping.wf_dense.2 hw)), fun n j hj => ?_⟩
  show M.Tame (M.bind (orUb ((whole s).index j)) _)
  rw [index_dense (Mapping.wf_dense.2 hw) rfl hj]
  show M.Tame (orUb buf[((0 : Int) + (rowMajor s.dims j : Nat)).toNat]?)
  rw [Int.zero_add, Int.toNat_natCast, List.getElem?_eq_getElem (by rw [hl]; exact rowMajor_lt hj)]
  exact M.tame_pure _

/-- The hypotheses of the theorems hold for such operands. -/
example : OperandOk (borrowed ⟨.static [.const 2, .const 2], [2, 2]⟩ [1, 2, 3, 4]) ∧
    OperandOk (.tensor ⟨.static [.const 2], [2]⟩ [5, 6] : Operand Unit Nat) ∧
    Clean (borrowed ⟨.static [.const 2, .const 2], [2, 2]⟩ [1, 2, 3, 4])
      (borrowed ⟨.static [.const 2], [2]⟩ [5, 6]) := by
  refine ⟨borrowed_ok (by decide) rfl, ⟨by decide, rfl⟩, ?_⟩
  intro z hz
  obtain ⟨t, rfl, -⟩ := zip_trailing hz
  refine ⟨⟨trivial, trivial⟩, fun h => ?_⟩
  have := (zip_items (borrowed_ok (by decide) rfl).1 (borrowed_ok (by decide) rfl).1 hz).1
  rw [this] at h
  exact absurd h (by decide)

end Props
