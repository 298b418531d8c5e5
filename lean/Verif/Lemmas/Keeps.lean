import Verif.Lemmas.Tensor

/-! Computations that do not change a part of the world. -/

namespace Model

/-- The computation does not change `v`. -/
def Keeps {ρ ν α : Type} (v : ρ → ν) (x : M ρ α) : Prop :=
  ∀ s, match x s with
    | .ok _ t => v t = v s
    | .panic t => v t = v s
    | _ => True

/-- As `Keeps`, but also for results that are not in `Type`. -/
def KeepsQ {ρ ν : Type} {α : Type 1} (v : ρ → ν) (P : α → Prop) (x : M ρ α) : Prop :=
  ∀ s, match x s with
    | .ok a t => v t = v s ∧ P a
    | .panic t => v t = v s
    | _ => True

section
variable {ρ ν α β σ : Type} {v : ρ → ν}

theorem keeps_pure (a : α) : Keeps v (M.pure a) := fun _ => rfl
theorem keeps_panic : Keeps v (M.panic : M ρ α) := fun _ => rfl
theorem keeps_ub : Keeps v (M.ub : M ρ α) := fun _ => trivial

theorem keeps_lift (o : Option α) : Keeps v (M.lift o) := by
  cases o
  · exact keeps_panic
  · exact keeps_pure _

theorem Keeps.bind {x : M ρ α} {f : α → M ρ β} (h : Keeps v x) (hf : ∀ a, Keeps v (f a)) :
    Keeps v (M.bind x f) := by
  intro s
  have h1 := h s
  unfold M.bind
  cases hx : x s with
  | ok a t =>
    rw [hx] at h1
    have h2 := hf a t
    simp only at h1 ⊢
    cases hy : f a t <;> simp only [hy] at h2 ⊢
    · exact h2.trans h1
    · exact h2.trans h1
  | panic t => rw [hx] at h1; exact h1
  | ub => trivial
  | abort => trivial

theorem keeps_up {x : M ρ α} (h : Keeps v x) {w : ρ × σ → ν} (hw : ∀ a b c, v a = v b → w (a, c) = w (b, c)) :
    Keeps w (M.up x) := by
  rintro ⟨s, c⟩
  have h1 := h s
  unfold M.up
  cases hx : x s <;> simp only [hx] at h1 ⊢
  · exact hw _ _ _ h1
  · exact hw _ _ _ h1

end

section
variable {ρ ν : Type} {α β : Type 1} {γ : Type} {v : ρ → ν} {P : α → Prop}

theorem KeepsQ.bind {x : M ρ α} {f : α → M ρ β} {Q : β → Prop} (h : KeepsQ v P x)
    (hf : ∀ a, P a → KeepsQ v Q (f a)) : KeepsQ v Q (M.bind x f) := by
  intro s
  have h1 := h s
  unfold M.bind
  cases hx : x s with
  | ok a t =>
    rw [hx] at h1
    have h2 := hf a h1.2 t
    simp only at h1 ⊢
    cases hy : f a t <;> simp only [hy] at h2 ⊢
    · exact ⟨h2.1.trans h1.1, h2.2⟩
    · exact h2.trans h1.1
  | panic t => rw [hx] at h1; exact h1
  | ub => trivial
  | abort => trivial

theorem Keeps.bindQ {x : M ρ γ} {f : γ → M ρ β} {Q : β → Prop} (h : Keeps v x)
    (hf : ∀ a, KeepsQ v Q (f a)) : KeepsQ v Q (M.bind x f) := by
  intro s
  have h1 := h s
  unfold M.bind
  cases hx : x s with
  | ok a t =>
    rw [hx] at h1
    have h2 := hf a t
    simp only at h1 ⊢
    cases hy : f a t <;> simp only [hy] at h2 ⊢
    · exact ⟨h2.1.trans h1, h2.2⟩
    · exact h2.trans h1
  | panic t => rw [hx] at h1; exact h1
  | ub => trivial
  | abort => trivial

theorem KeepsQ.bindK {x : M ρ α} {f : α → M ρ γ} (h : KeepsQ v P x) (hf : ∀ a, P a → Keeps v (f a)) :
    Keeps v (M.bind x f) := by
  intro s
  have h1 := h s
  unfold M.bind
  cases hx : x s with
  | ok a t =>
    rw [hx] at h1
    have h2 := hf a h1.2 t
    simp only at h1 ⊢
    cases hy : f a t <;> simp only [hy] at h2 ⊢
    · exact h2.trans h1.1
    · exact h2.trans h1.1
  | panic t => rw [hx] at h1; exact h1
  | ub => trivial
  | abort => trivial

theorem keepsQ_pure {a : α} (h : P a) : KeepsQ v P (M.pure a) := fun _ => ⟨rfl, h⟩

theorem keepsQ_lift {o : Option α} (h : ∀ a, o = some a → P a) : KeepsQ v P (M.lift o) := by
  cases o with
  | none => exact fun _ => rfl
  | some a => exact keepsQ_pure (h a rfl)

end

namespace Expr
variable {σ ρ ν : Type} {α : Type}

/-- The closures of the expression do not change `v`. -/
def Keep (v : σ → ν) : {α : Type} → Expr σ α → Prop
  | _, fill f => Keeps v f
  | _, fromElem _ f => Keeps v f
  | _, fromFn _ _ f => ∀ j, Keeps v (f j)
  | _, map e f => e.Keep v ∧ ∀ x, Keeps v (f x)
  | _, enumerate e _ => e.Keep v
  | _, zip a b _ => a.Keep v ∧ b.Keep v
  | _, _ => True

variable {v : σ → ν}

theorem keep_resetDim {e e' : Expr σ α} {i n : Nat} (h : e.Keep v) (he : e.resetDim i n = some e') :
    e'.Keep v := by
  induction e generalizing i n with
  | view r w =>
    simp only [resetDim, Option.map_eq_some_iff] at he
    obtain ⟨_, _, rfl⟩ := he; trivial
  | axis => simp only [resetDim, Option.some.injEq] at he; subst he; trivial
  | lanes =>
    simp only [resetDim, Option.map_eq_some_iff] at he
    obtain ⟨_, _, rfl⟩ := he; trivial
  | fill => simp only [resetDim, Option.some.injEq] at he; subst he; exact h
  | fromElem => simp only [resetDim, Option.some.injEq] at he; subst he; exact h
  | fromFn s idx f =>
    simp only [resetDim] at he
    split at he
    · injection he with he; subst he; exact h
    · cases he
  | intoExpr => simp only [resetDim, Option.some.injEq] at he; subst he; trivial
  | map e f ih =>
    simp only [resetDim, Option.map_eq_some_iff] at he
    obtain ⟨e1, h1, rfl⟩ := he
    exact ⟨ih h.1 h1, h.2⟩
  | enumerate e k ih =>
    simp only [resetDim, Option.map_eq_some_iff] at he
    obtain ⟨e1, h1, rfl⟩ := he
    exact ih h h1
  | zip a b s iha ihb =>
    simp only [resetDim, Option.bind_eq_some_iff, Option.map_eq_some_iff] at he
    obtain ⟨a', h1, b', h2, rfl⟩ := he
    constructor
    · split at h1
      · exact iha h.1 h1
      · injection h1 with h1; subst h1; exact h.1
    · split at h2
      · exact ihb h.2 h2
      · injection h2 with h2; subst h2; exact h.2

theorem keep_stepDim {e e' : Expr σ α} {i : Nat} (h : e.Keep v) (he : e.stepDim i = some e') :
    e'.Keep v := by
  induction e generalizing i with
  | view r w =>
    simp only [stepDim, Option.map_eq_some_iff] at he
    obtain ⟨_, _, rfl⟩ := he; trivial
  | axis => simp only [stepDim, Option.some.injEq] at he; subst he; trivial
  | lanes =>
    simp only [stepDim, Option.map_eq_some_iff] at he
    obtain ⟨_, _, rfl⟩ := he; trivial
  | fill => simp only [stepDim, Option.some.injEq] at he; subst he; exact h
  | fromElem => simp only [stepDim, Option.some.injEq] at he; subst he; exact h
  | fromFn s idx f =>
    simp only [stepDim] at he
    split at he
    · split at he
      · injection he with he; subst he; exact h
      · cases he
    · injection he with he; subst he; exact h
  | intoExpr => simp only [stepDim, Option.some.injEq] at he; subst he; trivial
  | map e f ih =>
    simp only [stepDim, Option.map_eq_some_iff] at he
    obtain ⟨e1, h1, rfl⟩ := he
    exact ⟨ih h.1 h1, h.2⟩
  | enumerate e k ih =>
    simp only [stepDim, Option.map_eq_some_iff] at he
    obtain ⟨e1, h1, rfl⟩ := he
    exact ih h h1
  | zip a b s iha ihb =>
    simp only [stepDim, Option.bind_eq_some_iff, Option.map_eq_some_iff] at he
    obtain ⟨a', h1, b', h2, rfl⟩ := he
    constructor
    · split at h1
      · exact iha h.1 h1
      · injection h1 with h1; subst h1; exact h.1
    · split at h2
      · exact ihb h.2 h2
      · injection h2 with h2; subst h2; exact h.2

theorem keep_get {e : Expr σ α} (h : e.Keep v) (i : Nat) :
    KeepsQ v (fun p => p.2.Keep v) (e.get i) := by
  induction e with
  | view r w => exact keepsQ_pure trivial
  | axis r w a m off => exact (keeps_lift _).bindQ fun _ => keepsQ_pure trivial
  | lanes r w a m off => exact (keeps_lift _).bindQ fun _ => keepsQ_pure trivial
  | fill f => exact Keeps.bindQ (v := v) h fun _ => keepsQ_pure h
  | fromElem s f => exact Keeps.bindQ (v := v) h fun _ => keepsQ_pure h
  | fromFn s idx f =>
    refine Keeps.bindQ (v := v) (h idx) fun x => ?_
    split
    · split
      · exact keepsQ_pure h
      · exact fun _ => rfl
    · exact keepsQ_pure h
  | intoExpr s buf idx =>
    simp only [get]
    split
    · exact keepsQ_pure trivial
    · exact fun _ => trivial
  | map e f ih =>
    refine (ih h.1).bind fun p hp => (Keeps.bindQ (v := v) (h.2 p.1)) fun y => keepsQ_pure ⟨hp, h.2⟩
  | enumerate e k ih => exact (ih h).bind fun p hp => keepsQ_pure hp
  | zip a b s iha ihb =>
    exact (iha h.1).bind fun p hp => (ihb h.2).bind fun q hq => keepsQ_pure ⟨hp, hq⟩

theorem keep_up {e : Expr σ α} (h : e.Keep v) {w : σ × ρ → ν}
    (hw : ∀ a b c, v a = v b → w (a, c) = w (b, c)) : (e.up : Expr (σ × ρ) α).Keep w := by
  induction e with
  | fill f => exact keeps_up h hw
  | fromElem s f => exact keeps_up h hw
  | fromFn s idx f => exact fun j => keeps_up (h j) hw
  | map e f ih => exact ⟨ih h.1, fun x => keeps_up (h.2 x) hw⟩
  | enumerate e k ih => exact ih h
  | zip a b s iha ihb => exact ⟨iha h.1, ihb h.2⟩
  | _ => trivial

end Expr

namespace Iter
variable {σ ν : Type} {α τ : Type} {v : σ → ν}

theorem keep_stepLoop {limit : List Nat} {n : Nat} {e : Expr σ α} {oi : List Nat} {r}
    (h : e.Keep v) (hr : stepLoop limit n e oi = some r) : r.2.1.Keep v := by
  induction n generalizing e oi with
  | zero => simp only [stepLoop, Option.some.injEq] at hr; subst hr; exact h
  | succ i ih =>
    simp only [stepLoop, Option.bind_eq_some_iff] at hr
    obtain ⟨x, -, l, -, hr⟩ := hr
    split at hr
    · simp only [Option.map_eq_some_iff] at hr
      obtain ⟨e', h1, rfl⟩ := hr
      exact Expr.keep_stepDim h h1
    · simp only [Option.bind_eq_some_iff] at hr
      obtain ⟨e', h1, h2⟩ := hr
      exact ih (Expr.keep_resetDim h h1) h2

theorem keep_stepOuter {it : Iter σ α} {r} (h : it.expr.Keep v) (hr : it.stepOuter = some r) :
    r.2.expr.Keep v := by
  simp only [stepOuter, Option.bind_eq_some_iff, Option.map_eq_some_iff] at hr
  obtain ⟨e, h1, q, h2, rfl⟩ := hr
  refine keep_stepLoop ?_ h2
  split at h1
  · exact Expr.keep_resetDim h h1
  · injection h1 with h1; subst h1; exact h

theorem keep_innerLoop {f : τ → α → M σ τ} (hf : ∀ acc x, Keeps v (f acc x)) {is : List Nat}
    {e : Expr σ α} (h : e.Keep v) (acc : τ) :
    KeepsQ v (fun p => p.2.Keep v) (innerLoop f is e acc) := by
  induction is generalizing e acc with
  | nil => exact keepsQ_pure h
  | cons i is ih =>
    exact (Expr.keep_get h i).bind fun p hp => (Keeps.bindQ (v := v) (hf acc p.1)) fun acc' => ih hp acc'

theorem keep_foldLoop {f : τ → α → M σ τ} (hf : ∀ acc x, Keeps v (f acc x)) {fuel : Nat}
    {it : Iter σ α} (h : it.expr.Keep v) (acc : τ) : Keeps v (foldLoop f fuel it acc) := by
  induction fuel generalizing it acc with
  | zero => exact keeps_ub
  | succ n ih =>
    refine (keep_innerLoop hf h acc).bindK fun p hp => ?_
    refine (keepsQ_lift (P := fun q => q.2.expr.Keep v) fun q hq => keep_stepOuter hp hq).bindK
      fun q hq => ?_
    split
    · exact ih (it := { q.2 with innerIndex := 0 }) hq _
    · exact keeps_pure _

end Iter

theorem Expr.keep_forEach {σ ν α : Type} {v : σ → ν} {e : Expr σ α} (h : e.Keep v) {f : α → M σ Unit}
    (hf : ∀ x, Keeps v (f x)) : Keeps v (e.forEach f) :=
  Iter.keep_foldLoop (fun _ x => hf x) h ()

end Model
