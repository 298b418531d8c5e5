import Verif.Lemmas.Variance
import Mathlib.Order.Basic
import Mathlib.Order.Nat

/-!
# C89: elements with lifetimes
-/

namespace Props
open Model Spec

variable {P : Type} [Preorder P]

/-- Whatever a program gets to from a value, by any sequence of steps of the interface and of uses as supertypes that the
compiler allows: what it reads is of the type that it takes it to have, and what it can put in a place is of the type that the
place has for others. -/
theorem C89_sound (x : Hold × Ty) (τ₀ : Nat → P) (y : Hold × Ty) (τ : Nat → P) (h : Uses x τ₀ y τ) :
    ReadsFine τ₀ y τ ∧ WritesFine τ₀ y τ :=
  coerces_fine (coerces_uses h)

/-- Nothing is refused without need: the compiler allows a use as a supertype exactly if it is fine for all that is obtained,
apart from the types listed in `Stiff`. -/
theorem C89_exact (x : Hold × Ty) (τ τ' : Nat → P) (hs : ∀ y, Uses x τ y τ → ¬ Stiff y) :
    Coerces x τ τ' ↔ ∀ y, Uses x τ y τ → ReadsFine τ y τ' ∧ WritesFine τ y τ' :=
  ⟨fun hc y hy => C89_sound x τ y τ' (by
      have : Coerces y τ τ' := by
        have hr := reaches_of_uses hy
        clear hy hs
        induction hr with
        | refl => exact hc
        | tail _ hl ih => exact coerces_leads hl ih
      exact .coerce hy this),
    fun hf => coerces_of_fine (fun y hy => hs y (uses_of_reaches hy)) fun y hy => hf y (uses_of_reaches hy)⟩

/-- The element type of handles that only read, and of owners, can be replaced by a supertype; that of handles that change
elements cannot, and a closure or an element in an expression can be replaced together with it. -/
theorem C89_handles (τ τ' : Nat → P) :
    (∀ t ∈ [Ty.view (.param 0), .axisExpr (.param 0), .lanes (.param 0), .ref (.slice (.param 0)), .fill (.param 0),
        .intoExpr (.tensor (.manuallyDrop (.param 0)) (.param 0)), .cloned (.view (.param 0)), .map (.lanes (.param 0)) (.param 0)],
      Coerces (.own, t) τ τ' ↔ τ 0 ≤ τ' 0) ∧
    (∀ t ∈ [Ty.viewMut (.param 0), .axisExprMut (.param 0), .lanesMut (.param 0), .refMut (.slice (.param 0)),
        .intoExpr (.drain (.param 0) (.param 0)), .cloned (.viewMut (.param 0)), .map (.viewMut (.param 0)) (.param 0)],
      Coerces (.own, t) τ τ' ↔ τ 0 ≤ τ' 0 ∧ τ' 0 ≤ τ 0) ∧
    (Coerces (.own, .tensor (.param 0) (.param 1)) τ τ' ↔ τ 0 ≤ τ' 0 ∧ τ 1 ≤ τ' 1) := by
  have key : ∀ t : Ty, (∀ n, n ≠ 0 → variance n t = ⟨false, false⟩) → (Coerces (.own, t) τ τ' ↔
      ((variance 0 t).up = true → τ 0 ≤ τ' 0) ∧ ((variance 0 t).down = true → τ' 0 ≤ τ 0)) := by
    intro t ht
    refine ⟨fun h => h 0, fun h n => ?_⟩
    by_cases hn : n = 0
    · subst hn; exact h
    · simp [ht n hn]
  have h0 : ∀ n, n ≠ 0 → ¬ (0 = n) := fun n hn e => hn e.symm
  refine ⟨?_, ?_, ?_⟩
  · intro t ht
    simp only [List.mem_cons, List.not_mem_nil, or_false] at ht
    rcases ht with rfl | rfl | rfl | rfl | rfl | rfl | rfl | rfl <;> rw [key _ (by
      intro n hn
      simp [variance, Var.co, Var.slice, Var.view, Var.rawSlice, Var.rawTensor, Var.tensor, Var.all,
        Var.none, h0 n hn])] <;>
    simp [variance, Var.co, Var.slice, Var.view, Var.rawSlice, Var.rawTensor, Var.tensor, Var.all]
  · intro t ht
    simp only [List.mem_cons, List.not_mem_nil, or_false] at ht
    rcases ht with rfl | rfl | rfl | rfl | rfl | rfl | rfl <;> rw [key _ (by
      intro n hn
      simp [variance, Var.co, Var.inv, Var.slice, Var.viewMut, Var.rawSlice, Var.rawTensor, Var.tensor, Var.all,
        Var.none, h0 n hn])] <;>
    simp [variance, Var.co, Var.inv, Var.slice, Var.viewMut, Var.rawSlice, Var.rawTensor, Var.tensor, Var.all]
  · refine ⟨fun h => ⟨(h 0).1 rfl, (h 1).1 rfl⟩, fun h n => ⟨fun hu => ?_, fun hd => ?_⟩⟩
    · have : 0 = n ∨ 1 = n := (up_iff n _).1 hu
      rcases this with rfl | rfl
      · exact h.1
      · exact h.2
    · simp only [variance, Var.tensor, Var.rawTensor, Var.rawSlice, Var.co, Var.all, List.any_cons, List.any_nil,
        Bool.or_false, Bool.or_eq_true] at hd
      rcases hd with hd | hd <;> split at hd <;> simp [Var.none] at hd

/-- The exceptions are refused without need: an array, and an iterator or a zip expression over views or lanes, cannot be used
with a supertype of the element type, though all that is obtained from them would be fine. -/
theorem C89_stiff (τ τ' : Nat → P) (hle : τ 0 ≤ τ' 0) :
    ∀ t ∈ [Ty.array (.param 0), .iter (.view (.param 0)), .iter (.cloned (.lanes (.param 0))),
        .zip (.view (.param 0)) (.fill (.param 0))],
      (Coerces (.own, t) τ τ' → τ' 0 ≤ τ 0) ∧
      ∀ y, Uses (.own, t) τ y τ → ReadsFine τ y τ' ∧ WritesFine τ y τ' := by
  intro t ht
  refine ⟨fun h => (h 0).2 ?_, fun y hy => noMut_fine (x := (.own, t)) ⟨nofun, ?_⟩ (fun n hn => ?_) (reaches_of_uses hy)⟩
  all_goals
    simp only [List.mem_cons, List.not_mem_nil, or_false] at ht
    rcases ht with rfl | rfl | rfl | rfl
  all_goals first
    | rfl
    | simp [NoMut]
    | (simp [Mentions] at hn; rw [← hn]; exact hle)

/-- Elements `&'static str` (0) and `&'a str` (1), where the former is a subtype: a view of a tensor is used with elements of
the shorter lifetime, its items are read as such; a mutable view cannot be used so, since an element of the shorter lifetime
could be put in the tensor then; while the owner of a tensor can do this. -/
example : let st : Nat → Nat := fun _ => 0
    let sh : Nat → Nat := fun _ => 1
    Uses (.own, .view (.param 0)) st (.shared, .param 0) sh ∧
    ¬ Coerces (.own, .viewMut (.param 0)) st sh ∧
    Uses (.own, .viewMut (.param 0)) st (.excl, .param 0) st ∧ ¬ WritesFine st (.excl, .param 0) sh ∧
    Coerces (.own, .tensor (.param 0) (.param 1)) st sh ∧ ¬ Coerces (.excl, .tensor (.param 0) (.param 1)) st sh := by
  refine ⟨.step (.step (.coerce .start fun n => ⟨fun _ => Nat.zero_le _, fun h => ?_⟩) (.of .view)) (.of .index),
    fun h => absurd ((h 0).2 rfl) (by decide), .step (.step .start (.of .viewMut)) (.of .indexMut),
    fun h => absurd (h rfl 0 rfl) (by decide), fun n => ⟨fun _ => Nat.zero_le _, fun h => ?_⟩,
    fun h => absurd ((h 0).2 rfl) (by decide)⟩
  · simp only [variance, Var.view, Var.rawSlice, Var.co, Var.all, List.any_cons, List.any_nil] at h
    split at h <;> simp [Var.none] at h
  · simp only [variance, Var.tensor, Var.rawTensor, Var.rawSlice, Var.co, Var.all, List.any_cons, List.any_nil,
        Bool.or_false, Bool.or_eq_true] at h
    rcases h with h | h <;> split at h <;> simp [Var.none] at h

/-- A lane expression with a closure meets the hypothesis of `C89_exact`. -/
example (τ : Nat → P) (y : Hold × Ty) (h : Uses (.own, .map (.lanes (.param 0)) (.param 1)) τ y τ) : ¬ Stiff y := by
  have key : ∀ y, Reaches (.own, .map (.lanes (.param 0)) (.param 1)) y →
      y.1 ≠ .excl ∧ (y.2 = .map (.lanes (.param 0)) (.param 1) ∨ y.2 = .lanes (.param 0) ∨ y.2 = .param 1 ∨
        y.2 = .view (.param 0) ∨ y = (.shared, .slice (.param 0)) ∨ y.2 = .param 0) := by
    intro y hy
    induction hy with
    | refl => simp
    | tail _ hs ih =>
      rename_i b c _
      obtain ⟨i, b⟩ := b
      obtain ⟨hs, hn⟩ := hs
      obtain ⟨hi, rfl | rfl | rfl | rfl | e | rfl⟩ := ih
      all_goals cases hs <;> simp_all
  obtain ⟨i, y⟩ := y
  intro hst
  have := key _ (reaches_of_uses h)
  cases hst <;> simp_all

end Props
