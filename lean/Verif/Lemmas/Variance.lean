import Verif.Spec.Variance

/-!
Variance.
-/

namespace Spec
open Model

/-- The variance of a value that is held in some way. -/
def varOf (n : Nat) (x : Hold × Ty) : Var :=
  match x.1 with
  | .own => variance n x.2
  | .excl => Var.inv (variance n x.2)
  | .shared => Var.co (variance n x.2)

/-- More demands. -/
def VarLe (v w : Var) : Prop := (v.up = true → w.up = true) ∧ (v.down = true → w.down = true)

theorem down_up (n : Nat) (t : Ty) : (variance n t).down = true → (variance n t).up = true := by
  induction t with
  | param m => simp only [variance]; split <;> simp [Var.none]
  | _ =>
    simp_all only [variance, Var.co, Var.inv, Var.slice, Var.view, Var.viewMut, Var.rawSlice, Var.rawTensor, Var.tensor,
      Var.all, List.any_cons, List.any_nil, Bool.or_false, Bool.or_eq_true]
    try grind

theorem up_iff (n : Nat) (t : Ty) : (variance n t).up = true ↔ Mentions n t := by
  induction t with
  | param m => simp only [variance, Mentions]; split <;> simp_all [Var.none]
  | _ =>
    have hd := @down_up n
    simp_all only [variance, Mentions, Var.co, Var.inv, Var.slice, Var.view, Var.viewMut, Var.rawSlice, Var.rawTensor, Var.tensor,
      Var.all, List.any_cons, List.any_nil, Bool.or_false, Bool.or_eq_true]
    try grind

theorem varOf_leads {n : Nat} {x y : Hold × Ty} (h : Leads x y) : VarLe (varOf n y) (varOf n x) := by
  have hd := @down_up n
  obtain ⟨h, hb⟩ := h
  cases h with
  | borrowMut => simp at hb
  | intoExprNext hh hbuf =>
    clear hb
    cases hbuf <;> rename Hold => i <;> cases i <;>
      simp_all only [VarLe, varOf, variance, Var.co, Var.inv, Var.viewMut, Var.rawSlice, Var.rawTensor,
        Var.tensor, Var.all, List.any_cons, List.any_nil, Bool.or_false, Bool.or_eq_true] <;> grind
  | _ =>
    clear hb
    simp only [VarLe, varOf, variance, Var.co, Var.inv, Var.slice, Var.view, Var.viewMut, Var.rawSlice, Var.rawTensor,
      Var.tensor, Var.all, List.any_cons, List.any_nil, Bool.or_false, Bool.or_eq_true]
    grind

variable {P : Type} [Preorder P]

theorem coerces_iff {x : Hold × Ty} {τ τ' : Nat → P} :
    Coerces x τ τ' ↔ ∀ n, ((varOf n x).up = true → τ n ≤ τ' n) ∧ ((varOf n x).down = true → τ' n ≤ τ n) := Iff.rfl

theorem coerces_refl {x : Hold × Ty} {τ : Nat → P} : Coerces x τ τ :=
  coerces_iff.2 fun _ => ⟨fun _ => le_refl _, fun _ => le_refl _⟩

theorem coerces_trans {x : Hold × Ty} {τ τ' τ'' : Nat → P} (h : Coerces x τ τ') (h' : Coerces x τ' τ'') : Coerces x τ τ'' :=
  coerces_iff.2 fun n => ⟨fun e => le_trans ((coerces_iff.1 h n).1 e) ((coerces_iff.1 h' n).1 e),
    fun e => le_trans ((coerces_iff.1 h' n).2 e) ((coerces_iff.1 h n).2 e)⟩

theorem coerces_leads {x y : Hold × Ty} {τ τ' : Nat → P} (hl : Leads x y) (h : Coerces x τ τ') : Coerces y τ τ' :=
  coerces_iff.2 fun n => ⟨fun e => (coerces_iff.1 h n).1 ((varOf_leads hl).1 e),
    fun e => (coerces_iff.1 h n).2 ((varOf_leads hl).2 e)⟩

theorem coerces_uses {x y : Hold × Ty} {τ₀ τ : Nat → P} (h : Uses x τ₀ y τ) : Coerces y τ₀ τ := by
  induction h with
  | start => exact coerces_refl
  | coerce _ hc ih => exact coerces_trans ih hc
  | step _ hl ih => exact coerces_leads hl ih

theorem coerces_fine {y : Hold × Ty} {τ₀ τ : Nat → P} (h : Coerces y τ₀ τ) : ReadsFine τ₀ y τ ∧ WritesFine τ₀ y τ := by
  obtain ⟨i, t⟩ := y
  refine ⟨fun n hn => ?_, fun hi n hn => ?_⟩
  · subst hn
    refine (coerces_iff.1 h n).1 ?_
    cases i <;> simp [varOf, variance, Var.co, Var.inv]
  · obtain rfl : i = .excl := hi
    refine (coerces_iff.1 h n).2 ?_
    have := (up_iff n t).2 hn
    simp [varOf, Var.inv, this]

/-- By steps of the interface only. -/
def Reaches : Hold × Ty → Hold × Ty → Prop := Relation.ReflTransGen Leads

/-- Not stiff, with all that is reached. -/
def Loose (x : Hold × Ty) : Prop := ∀ y, Reaches x y → ¬ Stiff y

theorem Loose.step {x y : Hold × Ty} (hx : Loose x) (h : Leads x y) : Loose y := fun _ hz => hx _ (.head h hz)

/-- Some use of the parameter is reached. -/
def Reads (n : Nat) (x : Hold × Ty) : Prop := ∃ h, Reaches x (h, .param n)

/-- A place whose type has the parameter is reached. -/
def Writes (n : Nat) (x : Hold × Ty) : Prop := ∃ t, Reaches x (.excl, t) ∧ Mentions n t

theorem Reads.head {n : Nat} {x y : Hold × Ty} (h : Leads x y) : Reads n y → Reads n x := fun ⟨i, hr⟩ => ⟨i, .head h hr⟩

theorem Writes.head {n : Nat} {x y : Hold × Ty} (h : Leads x y) : Writes n y → Writes n x :=
  fun ⟨t, hr, ho⟩ => ⟨t, .head h hr, ho⟩

theorem Leads.of {x y : Hold × Ty} (h : Gives x y) (hn : ¬ (x.1 = .own ∧ y = (.excl, x.2)) := by
    first
    | (rintro ⟨⟨⟩, ⟨⟩⟩; done)
    | (rintro ⟨h, e⟩; cases h; cases e)) : Leads x y := ⟨h, hn⟩

theorem reads_of_mentions (n : Nat) (t : Ty) : ∀ h, Loose (h, t) → Mentions n t → Reads n (h, t) := by
  induction t with
  | param m => intro h _ ho; obtain rfl : m = n := ho; exact ⟨h, .refl⟩
  | ref t ih => intro h hl ho; exact (ih _ (hl.step (.of .ref)) ho).head (.of .ref)
  | refMut t ih =>
    intro h hl ho
    cases h with
    | own => exact (ih _ (hl.step (.of .refMut)) ho).head (.of .refMut)
    | excl => exact (ih _ (hl.step (.of .reborrow)) ho).head (.of .reborrow)
    | shared => exact (ih _ (hl.step (.of .refShared)) ho).head (.of .refShared)
  | manuallyDrop t ih => intro h hl ho; exact (ih _ (hl.step (.of .manuallyDrop)) ho).head (.of .manuallyDrop)
  | slice t ih =>
    intro h hl ho
    cases h with
    | own => exact absurd .slice (hl _ .refl)
    | excl => exact (ih _ (hl.step (.of .indexMut)) ho).head (.of .indexMut)
    | shared => exact (ih _ (hl.step (.of .index)) ho).head (.of .index)
  | view t ih =>
    intro h hl ho
    exact ((ih _ ((hl.step (.of .view)).step (.of .index)) ho).head (.of .index)).head (.of .view)
  | viewMut t ih =>
    intro h hl ho
    cases h with
    | own => exact ((ih _ ((hl.step (.of .viewMut)).step (.of .indexMut)) ho).head (.of .indexMut)).head (.of .viewMut)
    | excl =>
      exact ((ih _ ((hl.step (.of .viewMutDeref)).step (.of .indexMut)) ho).head (.of .indexMut)).head (.of .viewMutDeref)
    | shared =>
      exact ((ih _ ((hl.step (.of .viewMutShared)).step (.of .index)) ho).head (.of .index)).head (.of .viewMutShared)
  | array t ih => intro h hl ho; exact (ih _ (hl.step (.of .array)) ho).head (.of .array)
  | tensor t a ih iha =>
    intro h hl ho
    rcases ho with ho | ho
    · exact (ih _ (hl.step (.of .tensor)) ho).head (.of .tensor)
    · exact (iha _ (hl.step (.of .allocator)) ho).head (.of .allocator)
  | drain t a ih iha =>
    have own : Loose (.own, .drain t a) → Mentions n (.drain t a) → Reads n (.own, .drain t a) := by
      intro hl ho
      have hl' := hl.step (.of .drainDrop)
      rcases ho with ho | ho
      · exact ((ih _ (hl'.step (.of .tensor)) ho).head (.of .tensor)).head (.of .drainDrop)
      · exact ((iha _ (hl'.step (.of .allocator)) ho).head (.of .allocator)).head (.of .drainDrop)
    intro h hl ho
    cases h with
    | own => exact own hl ho
    | excl => exact (own (hl.step (.of .replace)) ho).head (.of .replace)
    | shared => exact absurd .drain (hl _ .refl)
  | intoExpr b ih => intro h hl ho; exact (ih _ (hl.step (.of .intoExpr)) ho).head (.of .intoExpr)
  | axisExpr t ih =>
    intro h hl ho
    exact (((ih _ (((hl.step (.of .axisExpr)).step (.of .view)).step (.of .index)) ho).head (.of .index)).head
      (.of .view)).head (.of .axisExpr)
  | axisExprMut t ih =>
    intro h hl ho
    by_cases hh : h = .shared
    · subst hh; exact absurd .axisExprMut (hl _ .refl)
    · exact (((ih _ (((hl.step (.of (.axisExprMut hh))).step (.of .viewMut)).step (.of .indexMut)) ho).head
        (.of .indexMut)).head (.of .viewMut)).head (.of (.axisExprMut hh))
  | lanes t ih =>
    intro h hl ho
    exact (((ih _ (((hl.step (.of .lanes)).step (.of .view)).step (.of .index)) ho).head (.of .index)).head
      (.of .view)).head (.of .lanes)
  | lanesMut t ih =>
    intro h hl ho
    by_cases hh : h = .shared
    · subst hh; exact absurd .lanesMut (hl _ .refl)
    · exact (((ih _ (((hl.step (.of (.lanesMut hh))).step (.of .viewMut)).step (.of .indexMut)) ho).head
        (.of .indexMut)).head (.of .viewMut)).head (.of (.lanesMut hh))
  | fill t ih => intro h hl ho; exact (ih _ (hl.step (.of .fill)) ho).head (.of .fill)
  | fillWith t ih => intro h hl ho; exact (ih _ (hl.step (.of .fillWith)) ho).head (.of .fillWith)
  | fromElem t ih => intro h hl ho; exact (ih _ (hl.step (.of .fromElem)) ho).head (.of .fromElem)
  | fromFn t ih => intro h hl ho; exact (ih _ (hl.step (.of .fromFn)) ho).head (.of .fromFn)
  | cloned t ih => intro h hl ho; exact (ih _ (hl.step (.of .cloned)) ho).head (.of .cloned)
  | copied t ih => intro h hl ho; exact (ih _ (hl.step (.of .copied)) ho).head (.of .copied)
  | enumerate t ih => intro h hl ho; exact (ih _ (hl.step (.of .enumerate)) ho).head (.of .enumerate)
  | map e f ihe ihf =>
    intro h hl ho
    rcases ho with ho | ho
    · exact (ihe _ (hl.step (.of .mapExpr)) ho).head (.of .mapExpr)
    · exact (ihf _ (hl.step (.of .mapFn)) ho).head (.of .mapFn)
  | zip a b iha ihb =>
    intro h hl ho
    rcases ho with ho | ho
    · exact (iha _ (hl.step (.of .zipLeft)) ho).head (.of .zipLeft)
    · exact (ihb _ (hl.step (.of .zipRight)) ho).head (.of .zipRight)
  | iter t ih => intro h hl ho; exact (ih _ (hl.step (.of .iter)) ho).head (.of .iter)

theorem writes_of_down (n : Nat) (t : Ty) :
    ∀ h, h ≠ .excl → Loose (h, t) → (variance n t).down = true → Writes n (h, t) := by
  have occurs : ∀ u, (variance n u).up = true ∨ (variance n u).down = true → Mentions n u :=
    fun u hu => (up_iff n u).1 (hu.elim id (down_up n u))
  induction t with
  | param m => intro h _ _ hd; simp only [variance] at hd; split at hd <;> simp [Var.none] at hd
  | ref t ih => intro h _ hl hd; exact (ih .shared nofun (hl.step (.of .ref)) hd).head (.of .ref)
  | refMut t ih =>
    intro h hh hl hd
    have ho : Mentions n t := occurs t (by simpa [variance, Var.inv] using hd)
    cases h with
    | own => exact ⟨t, .single (.of .refMut), ho⟩
    | excl => exact absurd rfl hh
    | shared => exact absurd .refMut (hl _ .refl)
  | manuallyDrop t ih => intro h hh hl hd; exact (ih _ hh (hl.step (.of .manuallyDrop)) hd).head (.of .manuallyDrop)
  | slice t ih =>
    intro h hh hl hd
    have hd' : (variance n t).down = true := by simpa [variance, Var.slice, Var.all, Var.co] using hd
    cases h with
    | own => exact absurd .slice (hl _ .refl)
    | excl => exact absurd rfl hh
    | shared => exact (ih .shared nofun (hl.step (.of .index)) hd').head (.of .index)
  | view t ih =>
    intro h hh hl hd
    have hd' : (variance n t).down = true := by simpa [variance, Var.view, Var.rawSlice, Var.all, Var.co] using hd
    exact ((ih .shared nofun ((hl.step (.of .view)).step (.of .index)) hd').head (.of .index)).head (.of .view)
  | viewMut t ih =>
    intro h hh hl hd
    have ho : Mentions n t := occurs t (by
      simp [variance, Var.viewMut, Var.rawSlice, Var.all, Var.co, Var.inv] at hd; grind)
    cases h with
    | own => exact ⟨_, .single (.of .viewMut), ho⟩
    | excl => exact absurd rfl hh
    | shared => exact absurd .viewMut (hl _ .refl)
  | array t ih => intro h hh hl _; exact absurd (.array hh) (hl _ .refl)
  | tensor t a ih iha =>
    intro h hh hl hd
    have hd' : (variance n t).down = true ∨ (variance n a).down = true := by
      simpa [variance, Var.tensor, Var.rawTensor, Var.rawSlice, Var.all, Var.co] using hd
    rcases hd' with hd' | hd'
    · exact (ih _ hh (hl.step (.of .tensor)) hd').head (.of .tensor)
    · exact (iha _ hh (hl.step (.of .allocator)) hd').head (.of .allocator)
  | drain t a ih iha =>
    intro h hh hl hd
    have ho : Mentions n (.tensor t a) := (up_iff n (.drain t a)).1 (down_up n _ hd)
    cases h with
    | own => exact ⟨_, .single (.of .drainDrop), ho⟩
    | excl => exact absurd rfl hh
    | shared => exact absurd .drain (hl _ .refl)
  | intoExpr b ih =>
    intro h hh hl hd
    exact (ih _ hh (hl.step (.of .intoExpr)) (by simpa [variance, Var.all] using hd)).head (.of .intoExpr)
  | axisExpr t ih =>
    intro h hh hl hd
    have hd' : (variance n t).down = true := by simpa [variance, Var.slice, Var.all, Var.co] using hd
    exact (((ih .shared nofun (((hl.step (.of .axisExpr)).step (.of .view)).step (.of .index)) hd').head (.of .index)).head
      (.of .view)).head (.of .axisExpr)
  | axisExprMut t ih =>
    intro h hh hl hd
    have ho : Mentions n t := occurs t (by
      simp [variance, Var.slice, Var.all, Var.co, Var.inv] at hd; grind)
    cases h with
    | own => exact ⟨.slice t, .head (.of (.axisExprMut nofun)) (.single (.of .viewMut)), ho⟩
    | excl => exact absurd rfl hh
    | shared => exact absurd .axisExprMut (hl _ .refl)
  | lanes t ih =>
    intro h hh hl hd
    have hd' : (variance n t).down = true := by simpa [variance, Var.slice, Var.all, Var.co] using hd
    exact (((ih .shared nofun (((hl.step (.of .lanes)).step (.of .view)).step (.of .index)) hd').head (.of .index)).head
      (.of .view)).head (.of .lanes)
  | lanesMut t ih =>
    intro h hh hl hd
    have ho : Mentions n t := occurs t (by
      simp [variance, Var.slice, Var.all, Var.co, Var.inv] at hd; grind)
    cases h with
    | own => exact ⟨.slice t, .head (.of (.lanesMut nofun)) (.single (.of .viewMut)), ho⟩
    | excl => exact absurd rfl hh
    | shared => exact absurd .lanesMut (hl _ .refl)
  | fill t ih =>
    intro h hh hl hd
    exact (ih _ hh (hl.step (.of .fill)) (by simpa [variance, Var.all] using hd)).head (.of .fill)
  | fillWith t ih =>
    intro h hh hl hd
    exact (ih _ hh (hl.step (.of .fillWith)) (by simpa [variance, Var.all] using hd)).head (.of .fillWith)
  | fromElem t ih =>
    intro h hh hl hd
    exact (ih _ hh (hl.step (.of .fromElem)) (by simpa [variance, Var.all] using hd)).head (.of .fromElem)
  | fromFn t ih =>
    intro h hh hl hd
    exact (ih _ hh (hl.step (.of .fromFn)) (by simpa [variance, Var.all] using hd)).head (.of .fromFn)
  | cloned t ih =>
    intro h hh hl hd
    exact (ih _ hh (hl.step (.of .cloned)) (by simpa [variance, Var.all] using hd)).head (.of .cloned)
  | copied t ih =>
    intro h hh hl hd
    exact (ih _ hh (hl.step (.of .copied)) (by simpa [variance, Var.all] using hd)).head (.of .copied)
  | enumerate t ih =>
    intro h hh hl hd
    exact (ih _ hh (hl.step (.of .enumerate)) (by simpa [variance, Var.all] using hd)).head (.of .enumerate)
  | map e f ihe ihf =>
    intro h hh hl hd
    have hd' : (variance n e).down = true ∨ (variance n f).down = true := by simpa [variance, Var.all] using hd
    rcases hd' with hd' | hd'
    · exact (ihe _ hh (hl.step (.of .mapExpr)) hd').head (.of .mapExpr)
    · exact (ihf _ hh (hl.step (.of .mapFn)) hd').head (.of .mapFn)
  | zip a b iha ihb => intro h hh hl _; exact absurd (.zip hh) (hl _ .refl)
  | iter t ih => intro h hh hl _; exact absurd (.iter hh) (hl _ .refl)

theorem uses_of_reaches {x y : Hold × Ty} {τ : Nat → P} (h : Reaches x y) : Uses x τ y τ := by
  induction h with
  | refl => exact .start
  | tail _ hs ih => exact .step ih hs

theorem reaches_of_uses {x y : Hold × Ty} {τ₀ τ : Nat → P} (h : Uses x τ₀ y τ) : Reaches x y := by
  induction h with
  | start => exact .refl
  | coerce _ _ ih => exact ih
  | step _ hl ih => exact .tail ih hl

theorem coerces_of_fine {x : Hold × Ty} {τ τ' : Nat → P} (hl : Loose x)
    (hf : ∀ y, Reaches x y → ReadsFine τ y τ' ∧ WritesFine τ y τ') : Coerces x τ τ' := by
  obtain ⟨h, t⟩ := x
  refine coerces_iff.2 fun n => ⟨fun hu => ?_, fun hd => ?_⟩
  · have ho : Mentions n t := (up_iff n t).1 (by
      have := down_up n t
      cases h <;> simp [varOf, Var.co, Var.inv] at hu <;> grind)
    obtain ⟨i, hr⟩ := reads_of_mentions n t h hl ho
    exact (hf _ hr).1 n rfl
  · by_cases hh : h = .excl
    · subst hh
      have ho : Mentions n t := (up_iff n t).1 (by
        have := down_up n t
        simp [varOf, Var.inv] at hd; grind)
      exact (hf _ .refl).2 rfl n ho
    · obtain ⟨u, hr, ho⟩ := writes_of_down n t h hh hl (by
        cases h <;> simp_all [varOf, Var.co])
      exact (hf _ hr).2 rfl n ho

theorem mentions_gives {n : Nat} {x y : Hold × Ty} (h : Gives x y) (hn : Mentions n y.2) : Mentions n x.2 := by
  cases h with
  | intoExprNext _ hb => cases hb <;> simp_all [Mentions]
  | _ => simp_all [Mentions]

/-- No type that gives mutable access to something else. -/
def NoMut : Ty → Prop
  | .param _ => True
  | .refMut _ | .viewMut _ | .axisExprMut _ | .lanesMut _ | .drain _ _ => False
  | .ref t | .manuallyDrop t | .slice t | .view t | .array t => NoMut t
  | .tensor t a => NoMut t ∧ NoMut a
  | .intoExpr t | .axisExpr t | .lanes t => NoMut t
  | .fill t | .fillWith t | .fromElem t | .fromFn t => NoMut t
  | .cloned t | .copied t | .enumerate t | .iter t => NoMut t
  | .map e f => NoMut e ∧ NoMut f
  | .zip a b => NoMut a ∧ NoMut b

theorem noMut_leads {x y : Hold × Ty} (h : Leads x y) (hx : x.1 ≠ .excl ∧ NoMut x.2) : y.1 ≠ .excl ∧ NoMut y.2 := by
  obtain ⟨h, hb⟩ := h
  cases h with
  | intoExprNext _ hbuf => cases hbuf <;> simp_all [NoMut]
  | _ => simp_all [NoMut]

theorem noMut_fine {x y : Hold × Ty} {τ τ' : Nat → P} (hx : x.1 ≠ .excl ∧ NoMut x.2)
    (hle : ∀ n, Mentions n x.2 → τ n ≤ τ' n) (h : Reaches x y) : ReadsFine τ y τ' ∧ WritesFine τ y τ' := by
  have key : (y.1 ≠ .excl ∧ NoMut y.2) ∧ ∀ n, Mentions n y.2 → Mentions n x.2 := by
    induction h with
    | refl => exact ⟨hx, fun _ h => h⟩
    | tail _ hs ih => exact ⟨noMut_leads hs ih.1, fun n hn => ih.2 n (mentions_gives hs.1 hn)⟩
  refine ⟨fun n hn => hle n (key.2 n ?_), fun he => absurd he key.1.1⟩
  rw [hn]
  rfl

end Spec
