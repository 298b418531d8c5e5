import Verif.Lemmas.MachineIter
import Verif.Lemmas.Resume

/-! Iteration with 64-bit integers does what it does with unbounded integers, or it panics because of an overflow
check. Offsets of axes and lanes of views without elements may differ, as no item depends on them. -/

namespace Model
open Spec
namespace Machine
universe u v w x
variable {σ : Type}

/-! ### Simulation -/

section
variable {A : Type u} {B : Type v} {C : Type w} {D : Type x} {checks : Bool}

/-- Both are `none`, or both are related values, or the first one is `none` because of an overflow check. -/
def SimO (checks : Bool) (R : A → B → Prop) (x : Option A) (y : Option B) : Prop :=
  (checks = true ∧ x = none) ∨ (x = none ∧ y = none) ∨ ∃ a b, x = some a ∧ y = some b ∧ R a b

/-- Both computations have the same outcome, with related values, or the first one panics because of an overflow
check. -/
def SimM (checks : Bool) (R : A → B → Prop) (x : M σ A) (y : M σ B) : Prop :=
  ∀ s, (checks = true ∧ ∃ t, x s = .panic t) ∨ (∃ a b t, x s = .ok a t ∧ y s = .ok b t ∧ R a b) ∨
    (∃ t, x s = .panic t ∧ y s = .panic t) ∨ (x s = .ub ∧ y s = .ub) ∨ (x s = .abort ∧ y s = .abort)

theorem SimO.of_eq {R : A → A → Prop} (hR : ∀ a, R a a) {x y : Option A} (h : x = y) : SimO checks R x y := by
  subst h
  cases x with
  | none => exact Or.inr (Or.inl ⟨rfl, rfl⟩)
  | some a => exact Or.inr (Or.inr ⟨a, a, rfl, rfl, hR a⟩)

theorem SimO.some {R : A → B → Prop} {a : A} {b : B} (h : R a b) : SimO checks R (.some a) (.some b) :=
  Or.inr (Or.inr ⟨a, b, rfl, rfl, h⟩)

theorem SimO.bind {R : A → B → Prop} {Q : C → D → Prop} {x : Option A} {y : Option B} {k : A → Option C}
    {l : B → Option D} (h : SimO checks R x y) (hk : ∀ a b, R a b → SimO checks Q (k a) (l b)) :
    SimO checks Q (x.bind k) (y.bind l) := by
  rcases h with ⟨hc, rfl⟩ | ⟨rfl, rfl⟩ | ⟨a, b, rfl, rfl, hR⟩
  · exact Or.inl ⟨hc, rfl⟩
  · exact Or.inr (Or.inl ⟨rfl, rfl⟩)
  · exact hk a b hR

theorem SimO.map {R : A → B → Prop} {Q : C → D → Prop} {x : Option A} {y : Option B} {k : A → C} {l : B → D}
    (h : SimO checks R x y) (hk : ∀ a b, R a b → Q (k a) (l b)) : SimO checks Q (x.map k) (y.map l) := by
  rcases h with ⟨hc, rfl⟩ | ⟨rfl, rfl⟩ | ⟨a, b, rfl, rfl, hR⟩
  · exact Or.inl ⟨hc, rfl⟩
  · exact Or.inr (Or.inl ⟨rfl, rfl⟩)
  · exact Or.inr (Or.inr ⟨_, _, rfl, rfl, hk a b hR⟩)

/-- A computation that fails only because of an overflow check. -/
theorem SimO.total {R : A → B → Prop} {x : Option A} {b : B} (h : x = none → checks = true)
    (hR : ∀ a, x = .some a → R a b) : SimO checks R x (.some b) := by
  cases x with
  | none => exact Or.inl ⟨h rfl, rfl⟩
  | some a => exact Or.inr (Or.inr ⟨a, b, rfl, rfl, hR a rfl⟩)

theorem SimM.lift {R : A → B → Prop} {x : Option A} {y : Option B} (h : SimO checks R x y) :
    SimM checks R (M.lift x : M σ A) (M.lift y) := by
  intro s
  rcases h with ⟨hc, rfl⟩ | ⟨rfl, rfl⟩ | ⟨a, b, rfl, rfl, hR⟩
  · exact Or.inl ⟨hc, s, rfl⟩
  · exact Or.inr (Or.inr (Or.inl ⟨s, rfl, rfl⟩))
  · exact Or.inr (Or.inl ⟨a, b, s, rfl, rfl, hR⟩)

theorem SimM.pure {R : A → B → Prop} {a : A} {b : B} (h : R a b) :
    SimM checks R (M.pure a : M σ A) (M.pure b) :=
  fun s => Or.inr (Or.inl ⟨a, b, s, rfl, rfl, h⟩)

theorem SimM.bind {R : A → B → Prop} {Q : C → D → Prop} {x : M σ A} {y : M σ B} {k : A → M σ C} {l : B → M σ D}
    (h : SimM checks R x y) (hk : ∀ a b, R a b → SimM checks Q (k a) (l b)) :
    SimM checks Q (M.bind x k) (M.bind y l) := by
  intro s
  unfold M.bind
  rcases h s with ⟨hc, t, h1⟩ | ⟨a, b, t, h1, h2, hR⟩ | ⟨t, h1, h2⟩ | ⟨h1, h2⟩ | ⟨h1, h2⟩
  · rw [h1]; exact Or.inl ⟨hc, t, rfl⟩
  · rw [h1, h2]; exact hk a b hR t
  · rw [h1, h2]; exact Or.inr (Or.inr (Or.inl ⟨t, rfl, rfl⟩))
  · rw [h1, h2]; exact Or.inr (Or.inr (Or.inr (Or.inl ⟨rfl, rfl⟩)))
  · rw [h1, h2]; exact Or.inr (Or.inr (Or.inr (Or.inr ⟨rfl, rfl⟩)))

theorem SimM.refl (x : M σ A) : SimM checks Eq x x := by
  intro s
  cases h : x s with
  | ok a t => exact Or.inr (Or.inl ⟨a, a, t, rfl, rfl, rfl⟩)
  | panic t => exact Or.inr (Or.inr (Or.inl ⟨t, rfl, rfl⟩))
  | ub => exact Or.inr (Or.inr (Or.inr (Or.inl ⟨rfl, rfl⟩)))
  | abort => exact Or.inr (Or.inr (Or.inr (Or.inr ⟨rfl, rfl⟩)))

theorem SimM.of_eq {x y : M σ A} (h : x = y) : SimM checks Eq x y := h ▸ SimM.refl x

theorem SimM.mono {R Q : A → B → Prop} {x : M σ A} {y : M σ B} (h : SimM checks R x y)
    (hR : ∀ a b, R a b → Q a b) : SimM checks Q x y := by
  intro s
  rcases h s with h | ⟨a, b, t, h1, h2, h3⟩ | h
  · exact Or.inl h
  · exact Or.inr (Or.inl ⟨a, b, t, h1, h2, hR _ _ h3⟩)
  · exact Or.inr (Or.inr h)

/-- The second computation does more after it has a value. -/
theorem SimM.unpure {R : A → C → Prop} {x : M σ A} {y : M σ B} {g : B → C}
    (h : SimM checks R x (M.bind y fun b => M.pure (g b))) : SimM checks (fun a b => R a (g b)) x y := by
  intro s
  have := h s
  unfold M.bind M.pure at this
  cases hy : y s with
  | ok b t =>
    rw [hy] at this
    simpa using this
  | panic t => rw [hy] at this; simpa using this
  | ub => rw [hy] at this; simpa using this
  | abort => rw [hy] at this; simpa using this

/-- Related by equality: the same outcome, or a panic because of an overflow check. -/
theorem SimM.eq {x y : M σ A} (h : SimM checks Eq x y) (s : σ) :
    x s = y s ∨ (checks = true ∧ ∃ t, x s = .panic t) := by
  rcases h s with h | ⟨a, b, t, h1, h2, rfl⟩ | ⟨t, h1, h2⟩ | ⟨h1, h2⟩ | ⟨h1, h2⟩
  · exact Or.inr h
  all_goals exact Or.inl (h1.trans h2.symm)

end

theorem bind_none {A : Type u} {B : Type v} {x : Option A} {k : A → Option B} (h : x.bind k = none) :
    x = none ∨ ∃ a, x = some a ∧ k a = none := by
  cases x with
  | none => exact Or.inl rfl
  | some a => exact Or.inr ⟨a, rfl, h⟩

theorem retI_none {checks x} (h : retI checks x = none) : checks = true := by
  unfold retI at h
  split at h
  · simp at h
  · cases checks
    · simp at h
    · rfl

theorem retU_none {checks x} (h : retU checks x = none) : checks = true := by
  unfold retU at h
  split at h
  · simp at h
  · cases checks
    · simp at h
    · rfl

theorem product_none {checks l} (h : product checks l = none) : checks = true := by
  cases checks with
  | true => rfl
  | false =>
    exfalso
    have : ∀ (l : List Nat) (a : Nat), l.foldlM (fun acc x => retU false (acc * x)) a ≠ none := by
      intro l
      induction l with
      | nil => intro a; simp
      | cons d l ih =>
        intro a
        rw [List.foldlM_cons]
        cases hr : retU false (a * d) with
        | none => exact absurd (retU_none hr) (by simp)
        | some b => exact ih b
    exact this l 1 h

theorem stride_none {checks} {m : Mapping} (hw : m.WF) {i : Nat} (hi : i < m.dims.length)
    (h : stride checks m i = none) : checks = true := by
  unfold stride at h
  rw [Option.bind_eq_bind, show check (i < m.rank) = some () from if_pos hi, Option.bind_some] at h
  cases m with
  | dense s =>
    simp only [Option.map_eq_none_iff] at h
    exact product_none h
  | strided s st =>
    have hl : st.length = (Mapping.strided s st).dims.length := hw.len
    simp only at h
    rw [List.getElem?_eq_getElem (by omega)] at h
    simp at h

/-! ### Expressions -/

/-- The second expression is the first one, but for offsets of axes and lanes of views without elements. -/
def Same : {α : Type} → Expr σ α → Expr σ α → Prop
  | _, .axis r v a m off, e => ∃ o, e = .axis r v a m o ∧ (0 < size v.dims → o = off)
  | _, .lanes r v a m off, e => ∃ o, e = .lanes r v a m o ∧ (0 < size v.dims → o = off)
  | _, .map e f, e' => ∃ e₁, e' = .map e₁ f ∧ Same e e₁
  | _, .enumerate e k, e' => ∃ e₁, e' = .enumerate e₁ k ∧ Same e e₁
  | _, .zip a b s, e' => ∃ a₁ b₁, e' = .zip a₁ b₁ s ∧ Same a a₁ ∧ Same b b₁
  | _, e, e' => e' = e

theorem Same.refl {α : Type} (e : Expr σ α) : Same e e := by
  induction e with
  | axis r v a m off => exact ⟨off, rfl, fun _ => rfl⟩
  | lanes r v a m off => exact ⟨off, rfl, fun _ => rfl⟩
  | map e f ih => exact ⟨e, rfl, ih⟩
  | enumerate e k ih => exact ⟨e, rfl, ih⟩
  | zip a b s iha ihb => exact ⟨a, b, rfl, iha, ihb⟩
  | _ => exact rfl

theorem SimO.same {α : Type} {checks : Bool} {x y : Option (Expr σ α)} (h : x = y) :
    SimO checks (fun a b => Same b a) x y := SimO.of_eq (R := fun a b => Same b a) Same.refl h

theorem Same.later {α : Type} {e e' : Expr σ α} (h : Same e e') : e'.shape = e.shape ∧ e'.innerRank = e.innerRank := by
  induction e with
  | axis r v a m off => obtain ⟨o, rfl, -⟩ := h; exact ⟨rfl, rfl⟩
  | lanes r v a m off => obtain ⟨o, rfl, -⟩ := h; exact ⟨rfl, rfl⟩
  | map e f ih => obtain ⟨e₁, rfl, h⟩ := h; exact ih h
  | enumerate e k ih => obtain ⟨e₁, rfl, h⟩ := h; exact ih h
  | zip a b s iha ihb =>
    obtain ⟨a₁, b₁, rfl, ha, hb⟩ := h
    refine ⟨rfl, ?_⟩
    simp only [Expr.innerRank, (iha ha).2, (ihb hb).2]
  | _ => cases h; exact ⟨rfl, rfl⟩

theorem Same.rank {α : Type} {e e' : Expr σ α} (h : Same e e') : e'.rank = e.rank := by
  unfold Expr.rank; rw [h.later.1]

theorem Same.outerRank {α : Type} {e e' : Expr σ α} (h : Same e e') : e'.outerRank = e.outerRank := by
  unfold Expr.outerRank Expr.rank; rw [h.later.1, h.later.2]

/-- Views that are iterated by element fit in memory. For other views, products of dimensions can be computed. -/
def OkSim : {α : Type} → Expr σ α → Prop
  | _, .view _ v => ∃ N, VFits N v
  | _, .axis _ v _ _ _ => bsize v.dims < 9223372036854775808 ∧ (0 < size v.dims → ∃ N, VFits N v)
  | _, .lanes _ v _ _ _ => bsize v.dims < 9223372036854775808 ∧ (0 < size v.dims → ∃ N, VFits N v)
  | _, .map e _ => OkSim e
  | _, .enumerate e _ => OkSim e
  | _, .zip a b _ => OkSim a ∧ OkSim b
  | _, _ => True

variable {α : Type}

section
variable {checks : Bool} {D pos : List Nat} {O c n i : Nat}

theorem stepDim_sim {e : Expr σ α} (hw : e.Wf) (h64 : OkSim e) (hf : Expr.Fit e D O) (hO : O ≤ D.length)
    (hp : Valid (D.take O) pos) (hD : 0 < size D) (hu : size D ≤ usizeMax) (hi : i < O)
    (hx : pos.getD i 0 + 1 < D.getD i 0) (h : D.length - e.dims.length ≤ i)
    {e' : Expr σ α} (hs : Same (Expr.adv D.length pos c n e) e') :
    SimO checks (fun a b => Same b a) (stepDim checks e' (i - (D.length - e.dims.length)))
      ((Expr.adv D.length pos c n e).stepDim (i - (D.length - e.dims.length))) := by
  have hpl : pos.length = O := by rw [hp.length, List.length_take]; omega
  induction e with
  | view r v =>
    obtain rfl : e' = _ := hs
    obtain ⟨N, hv⟩ := h64
    refine SimO.same ?_
    simp only [Expr.adv, stepDim, Expr.stepDim]
    rw [stride_eq hv.2.bsize]
  | axis r v a m off =>
    obtain ⟨o, rfl, ho⟩ := hs
    by_cases hv : 0 < size v.dims
    · rw [ho hv]
      exact SimO.same (stepDim_eq hw (h64.2 hv) hf hO hp hD hu hi hx h)
    · simp only [Expr.adv, stepDim, Expr.stepDim]
      refine SimO.total (fun hn => retI_none (Option.map_eq_none_iff.1 hn)) fun a ha => ?_
      obtain ⟨o', -, rfl⟩ := Option.map_eq_some_iff.1 ha
      exact ⟨o', rfl, fun h => absurd h hv⟩
  | lanes r v a m off =>
    obtain ⟨o, rfl, ho⟩ := hs
    by_cases hv : 0 < size v.dims
    · rw [ho hv]
      exact SimO.same (stepDim_eq hw (h64.2 hv) hf hO hp hD hu hi hx h)
    · obtain ⟨p, hp1, hp2, hmd, hms, hmw⟩ := Expr.lanes_dims hw.1 hw.2.1
      have hle : m.dims.length ≤ D.length := hf.le
      change D.length - m.dims.length ≤ i at h
      have hi' : i - (D.length - m.dims.length) < m.dims.length := by omega
      obtain ⟨s, hs⟩ := Expr.stride_some hmw hi'
      simp only [Expr.adv, stepDim, Expr.stepDim]
      change SimO checks _ ((stride checks m (i - (D.length - m.dims.length))).bind _)
        ((m.stride (i - (D.length - m.dims.length))).map _)
      rw [hs, Option.map_some]
      refine SimO.total (fun hn => ?_) fun a ha => ?_
      · rcases bind_none hn with h1 | ⟨s', h1, h2⟩
        · exact stride_none hmw hi' h1
        · exact retI_none (Option.map_eq_none_iff.1 h2)
      · obtain ⟨s', -, h2⟩ := Option.bind_eq_some_iff.1 ha
        obtain ⟨o', -, rfl⟩ := Option.map_eq_some_iff.1 h2
        exact ⟨o', rfl, fun h => absurd h hv⟩
  | fill f => obtain rfl : e' = _ := hs; exact SimO.same rfl
  | fromElem s f => obtain rfl : e' = _ := hs; exact SimO.same rfl
  | fromFn s idx f =>
    obtain rfl : e' = _ := hs
    exact SimO.same (stepDim_eq hw trivial hf hO hp hD hu hi hx h)
  | intoExpr s buf idx => obtain rfl : e' = _ := hs; exact SimO.same rfl
  | map e f ih =>
    obtain ⟨e₁, rfl, hs⟩ := hs
    simp only [Expr.adv, stepDim, Expr.stepDim]
    exact SimO.map (ih hw h64 ⟨hf.suffix, hf.inner, hf.rep⟩ h hs) fun a b hab => ⟨a, rfl, hab⟩
  | enumerate e k ih =>
    obtain ⟨e₁, rfl, hs⟩ := hs
    simp only [Expr.adv, stepDim, Expr.stepDim]
    exact SimO.map (ih hw.1 h64 ⟨hf.suffix, hf.inner, hf.rep⟩ h hs) fun a b hab => ⟨a, rfl, hab⟩
  | zip a b s iha ihb =>
    obtain ⟨a₁, b₁, rfl, hsa, hsb⟩ := hs
    obtain ⟨ha, hb, hz⟩ := hw
    obtain ⟨fa, fb⟩ := hf.zip hz
    have ea := fun h => iha ha h64.1 fa h hsa
    have eb := fun h => ihb hb h64.2 fb h hsb
    have la := fa.le
    have lb := fb.le
    have hle : s.dims.length ≤ D.length := hf.le
    change D.length - s.dims.length ≤ i at h
    have hda : (Expr.adv D.length pos c n a).rank = a.dims.length := by simp [Expr.rank]
    have hdb : (Expr.adv D.length pos c n b).rank = b.dims.length := by simp [Expr.rank]
    simp only [Expr.adv, stepDim, Expr.stepDim]
    rw [hsa.rank, hsb.rank, hda, hdb, show (Expr.zip a b s).dims.length = s.dims.length from rfl]
    have key : ∀ {γ : Type} (x x' : Expr σ γ), Same (Expr.adv D.length pos c n x) x' → (D.length - x.dims.length ≤ i →
        SimO checks (fun a b => Same b a) (stepDim checks x' (i - (D.length - x.dims.length)))
          ((Expr.adv D.length pos c n x).stepDim (i - (D.length - x.dims.length)))) →
        x.dims.length ≤ D.length →
        SimO checks (fun a b => Same b a) (if s.dims.length - (i - (D.length - s.dims.length)) ≤ x.dims.length then
          stepDim checks x' (x.dims.length - (s.dims.length - (i - (D.length - s.dims.length))))
          else some x')
        (if s.dims.length - (i - (D.length - s.dims.length)) ≤ x.dims.length then
          (Expr.adv D.length pos c n x).stepDim
            (x.dims.length - (s.dims.length - (i - (D.length - s.dims.length))))
          else some (Expr.adv D.length pos c n x)) := by
      intro γ x x' hxx hx hl
      by_cases hh : s.dims.length - (i - (D.length - s.dims.length)) ≤ x.dims.length
      · rw [if_pos hh, if_pos hh,
          show x.dims.length - (s.dims.length - (i - (D.length - s.dims.length))) =
            i - (D.length - x.dims.length) by omega]
        exact hx (by omega)
      · rw [if_neg hh, if_neg hh]
        exact SimO.some hxx
    refine SimO.bind (key a a₁ hsa ea la) fun x y hxy => ?_
    exact SimO.map (key b b₁ hsb eb lb) fun x' y' hxy' => ⟨x, x', rfl, hxy, hxy'⟩

theorem resetDim_sim {e : Expr σ α} (hw : e.Wf) (h64 : OkSim e) (hf : Expr.Fit e D O) (hO : O ≤ D.length)
    (hp : Valid (D.take O) pos) (hD : 0 < size D)
    (hi : i < D.length) (h : D.length - e.dims.length ≤ i)
    {e' : Expr σ α} (hs : Same (Expr.adv D.length pos c n e) e') :
    SimO checks (fun a b => Same b a) (resetDim checks e' (i - (D.length - e.dims.length)) (pos.getD i 0))
      ((Expr.adv D.length pos c n e).resetDim (i - (D.length - e.dims.length)) (pos.getD i 0)) := by
  induction e with
  | view r v =>
    obtain rfl : e' = _ := hs
    cases checks with
    | false =>
      obtain ⟨N, hv⟩ := h64
      exact SimO.same (resetDim_eq (checks := false) hw ⟨N, hv, nofun⟩ hf hO hp hD hi h)
    | true =>
      by_cases hst : ∀ s ∈ v.map.strides, FitsI (-s)
      · obtain ⟨N, hv⟩ := h64
        exact SimO.same (resetDim_eq (checks := true) hw ⟨N, hv, fun _ => hst⟩ hf hO hp hD hi h)
      · have hr := resetDim_eq (checks := false) (c := c) (n := n) hw (h64.imp fun N hv => ⟨hv, nofun⟩) hf hO hp hD hi h
        obtain ⟨N, hv⟩ := h64
        refine Or.elim (Classical.em (resetDim true (Expr.adv D.length pos c n (.view r v : Expr σ Int))
          (i - (D.length - (.view r v : Expr σ Int).dims.length)) (pos.getD i 0) = none))
          (fun hn => Or.inl ⟨rfl, hn⟩) fun hn => SimO.same ?_
        rw [← hr]
        obtain ⟨e', he⟩ := Option.ne_none_iff_exists'.1 hn
        rw [he]
        simp only [Expr.adv, resetDim, viewReset] at he ⊢
        rw [stride_eq hv.2.bsize] at he ⊢
        obtain ⟨w, hw', rfl⟩ := Option.map_eq_some_iff.1 he
        simp only [Option.bind_eq_bind, Option.bind_eq_some_iff] at hw'
        obtain ⟨s, h1, t, h2, q, h3, h4⟩ := hw'
        have aux : ∀ {x y}, retI true x = some y → retI false x = some y := by
          intro x y hxy
          unfold retI at hxy ⊢
          split at hxy
          · rename_i hfit; rw [if_pos hfit]; exact hxy
          · simp at hxy
        change some _ = Option.map _ (Option.bind (v.map.stride (i - (D.length - (Expr.view r v : Expr σ Int).dims.length))) _)
        rw [show v.map.stride (i - (D.length - (Expr.view r v : Expr σ Int).dims.length)) = some s from h1]
        simp only [Option.bind_eq_bind, Option.bind_some, aux h2, aux h3]
        rw [h4]
        rfl
  | axis r v a m off =>
    obtain ⟨o, rfl, ho⟩ := hs
    exact SimO.same rfl
  | lanes r v a m off =>
    obtain ⟨o, rfl, ho⟩ := hs
    by_cases hv : 0 < size v.dims
    · rw [ho hv]
      exact SimO.same (resetDim_eq hw (h64.2 hv) hf hO hp hD hi h)
    · obtain ⟨p, hp1, hp2, hmd, hms, hmw⟩ := Expr.lanes_dims hw.1 hw.2.1
      have hle : m.dims.length ≤ D.length := hf.le
      change D.length - m.dims.length ≤ i at h
      have hi' : i - (D.length - m.dims.length) < m.dims.length := by omega
      obtain ⟨s, hs⟩ := Expr.stride_some hmw hi'
      simp only [Expr.adv, resetDim, Expr.resetDim, lanesReset]
      change SimO checks _ (Option.map _ (Option.bind (stride checks m (i - (D.length - m.dims.length))) _))
        (Option.map _ (m.stride (i - (D.length - m.dims.length))))
      rw [hs, Option.map_some]
      refine SimO.total (fun hn => ?_) fun a ha => ?_
      · rcases bind_none (Option.map_eq_none_iff.1 hn) with h1 | ⟨s', h1, h2⟩
        · exact stride_none hmw hi' h1
        · rcases bind_none h2 with h3 | ⟨s'', h3, h4⟩
          · exact retI_none h3
          · exact retI_none h4
      · obtain ⟨o', -, rfl⟩ := Option.map_eq_some_iff.1 ha
        exact ⟨o', rfl, fun h => absurd h hv⟩
  | fill f => obtain rfl : e' = _ := hs; exact SimO.same rfl
  | fromElem s f => obtain rfl : e' = _ := hs; exact SimO.same rfl
  | fromFn s idx f => obtain rfl : e' = _ := hs; exact SimO.same rfl
  | intoExpr s buf idx => obtain rfl : e' = _ := hs; exact SimO.same rfl
  | map e f ih =>
    obtain ⟨e₁, rfl, hs⟩ := hs
    simp only [Expr.adv, resetDim, Expr.resetDim]
    exact SimO.map (ih hw h64 ⟨hf.suffix, hf.inner, hf.rep⟩ h hs) fun a b hab => ⟨a, rfl, hab⟩
  | enumerate e k ih =>
    obtain ⟨e₁, rfl, hs⟩ := hs
    simp only [Expr.adv, resetDim, Expr.resetDim]
    exact SimO.map (ih hw.1 h64 ⟨hf.suffix, hf.inner, hf.rep⟩ h hs) fun a b hab => ⟨a, rfl, hab⟩
  | zip a b s iha ihb =>
    obtain ⟨a₁, b₁, rfl, hsa, hsb⟩ := hs
    obtain ⟨ha, hb, hz⟩ := hw
    obtain ⟨fa, fb⟩ := hf.zip hz
    have ea := fun h => iha ha h64.1 fa h hsa
    have eb := fun h => ihb hb h64.2 fb h hsb
    have la := fa.le
    have lb := fb.le
    have hle : s.dims.length ≤ D.length := hf.le
    change D.length - s.dims.length ≤ i at h
    have hda : (Expr.adv D.length pos c n a).rank = a.dims.length := by simp [Expr.rank]
    have hdb : (Expr.adv D.length pos c n b).rank = b.dims.length := by simp [Expr.rank]
    simp only [Expr.adv, resetDim, Expr.resetDim]
    rw [hsa.rank, hsb.rank, hda, hdb, show (Expr.zip a b s).dims.length = s.dims.length from rfl]
    have key : ∀ {γ : Type} (x x' : Expr σ γ), Same (Expr.adv D.length pos c n x) x' → (D.length - x.dims.length ≤ i →
        SimO checks (fun a b => Same b a) (resetDim checks x' (i - (D.length - x.dims.length)) (pos.getD i 0))
          ((Expr.adv D.length pos c n x).resetDim (i - (D.length - x.dims.length)) (pos.getD i 0))) →
        x.dims.length ≤ D.length →
        SimO checks (fun a b => Same b a) (if s.dims.length - (i - (D.length - s.dims.length)) ≤ x.dims.length then
          resetDim checks x' (x.dims.length - (s.dims.length - (i - (D.length - s.dims.length)))) (pos.getD i 0)
          else some x')
        (if s.dims.length - (i - (D.length - s.dims.length)) ≤ x.dims.length then
          (Expr.adv D.length pos c n x).resetDim
            (x.dims.length - (s.dims.length - (i - (D.length - s.dims.length)))) (pos.getD i 0)
          else some (Expr.adv D.length pos c n x)) := by
      intro γ x x' hxx hx hl
      by_cases hh : s.dims.length - (i - (D.length - s.dims.length)) ≤ x.dims.length
      · rw [if_pos hh, if_pos hh,
          show x.dims.length - (s.dims.length - (i - (D.length - s.dims.length))) =
            i - (D.length - x.dims.length) by omega]
        exact hx (by omega)
      · rw [if_neg hh, if_neg hh]
        exact SimO.some hxx
    refine SimO.bind (key a a₁ hsa ea la) fun x y hxy => ?_
    exact SimO.map (key b b₁ hsb eb lb) fun x' y' hxy' => ⟨x, x', rfl, hxy, hxy'⟩

end
end Machine
end Model
