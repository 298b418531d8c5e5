import Verif.Lemmas.MachineReach

/-! View calls with machine integers in builds with overflow checks: exactly when they panic. -/

namespace Model
open Spec
namespace Machine

theorem retI_true {x y : Int} (h : retI true x = some y) : y = x ∧ FitsI x := by
  unfold retI at h
  split at h
  · exact ⟨(Option.some.inj h).symm, by assumption⟩
  · simp at h

open ViewIdx in
theorem apAllM_true {N : Nat} (xs : List DimIdx) : ∀ (ds : List Nat) (ss : List Int), Fits N ds ss →
    ∀ r, apAllM true xs ds ss = some r → apAll xs ds ss = some r ∧ ∀ t ∈ r.2.2, FitsI t := by
  induction xs with
  | nil =>
    intro ds ss hf r h
    cases ds with
    | cons d ds => simp [apAllM] at h
    | nil =>
      cases ss with
      | cons s ss => simp [apAllM] at h
      | nil =>
        simp [apAllM] at h
        subst h
        exact ⟨rfl, nofun⟩
  | cons x xs ih =>
    intro ds ss hf r h
    cases ds with
    | nil => simp [apAllM] at h
    | cons d ds =>
    cases ss with
    | nil => simp [apAllM] at h
    | cons s ss =>
    simp only [apAllM, Option.bind_eq_bind, Option.bind_eq_some_iff] at h
    obtain ⟨r₁, h1, ⟨delta, k⟩, hq, h⟩ := h
    obtain ⟨g1, g2⟩ := ih ds ss hf.tail _ h1
    obtain ⟨hb1, hb2⟩ := apSel_bounds (x := x) hf.head_usize
    cases k with
    | none =>
      simp only [apConsM, Option.bind_eq_bind, Option.bind_eq_some_iff] at h
      obtain ⟨p, hp, o, ho, h⟩ := h
      obtain ⟨rfl, -⟩ := retI_true hp
      obtain ⟨rfl, -⟩ := retI_true ho
      obtain rfl := Option.some.inj h
      rw [hf.head_cast (le_of_lt (hb1 _ hq))]
      refine ⟨?_, g2⟩
      simp only [apAll, g1, hq, Option.bind_eq_bind, Option.bind_some]
      rfl
    | some lm =>
      obtain ⟨len, mult⟩ := lm
      simp only [apConsM, Option.bind_eq_bind, Option.bind_eq_some_iff] at h
      obtain ⟨p, hp, o, ho, t, ht, h⟩ := h
      obtain ⟨rfl, -⟩ := retI_true hp
      obtain ⟨rfl, -⟩ := retI_true ho
      obtain ⟨rfl, hfit⟩ := retI_true ht
      obtain rfl := Option.some.inj h
      rw [hf.head_cast (hb2 _ _ _ hq).2.1]
      refine ⟨?_, fun t h => ?_⟩
      · simp only [apAll, g1, hq, Option.bind_eq_bind, Option.bind_some]
        rfl
      · rcases List.mem_cons.1 h with rfl | h
        · exact hfit
        · exact g2 t h

theorem stridesFit_of {w : View} (hw : w.map.WF) (h : ∀ s ∈ w.map.strides, FitsI s) : StridesFit w := by
  intro i s hs
  rw [Mapping.stride_eq _ hw] at hs
  obtain ⟨h1, h2⟩ := h s (List.mem_of_getElem? hs)
  norm_num
  exact ⟨h1, h2⟩

theorem view_checked {N : Nat} {v : View} (h : VFits N v) {xs : List DimIdx} (hx : v.dims.length = xs.length)
    {w : View} (hw : view true v xs = some w) : v.view xs = some w ∧ StridesFit w := by
  have hs : v.map.strides.length = xs.length := by rw [h.1.len]; exact hx
  rw [view_machine h hx, Option.map_eq_some_iff] at hw
  obtain ⟨⟨off, nd, ns⟩, hr, rfl⟩ := hw
  obtain ⟨g1, g2⟩ := apAllM_true xs _ _ h.2 _ hr
  obtain ⟨_, he⟩ := viewIndex_eq (checks := true) v.map h.1 h.2 xs v.ty [] v.dims [] v.map.strides rfl rfl hx hs h.1.1
  obtain ⟨c1, c2, hd, _⟩ := he off nd ns hr
  refine ⟨by rw [view_exact h.1 hx, g1, Option.map_some], stridesFit_of (Mapping.mk_wf c1 c2) ?_⟩
  show ∀ s ∈ (Mapping.mk ..).strides, FitsI s
  rw [Mapping.mk_strides hd]
  exact g2

theorem diag_checked {N : Nat} {v : View} (h : VFits N v) {k : Int} (hk : FitsI k) {w : View}
    (hw : v.diag k = some w) :
    (StridesFit w → diag true v k = some w) ∧ (¬ StridesFit w → diag true v k = none) := by
  rcases diag_both (checks := true) h hk with ⟨_, e⟩ | ⟨r, c, s0, s1, off, len, _, _, h2, eu, em⟩
  · rw [e] at hw; simp at hw
  rw [eu] at hw
  obtain rfl := Option.some.inj hw
  refine ⟨fun hf => ?_, fun hf => ?_⟩
  · rw [em, retI_fit (stridesFit (diag_wf len (s0 + s1)) hf (s0 + s1) (by show _ ∈ [s0 + s1]; simp))]; rfl
  · rw [em]
    cases hr : retI true (s0 + s1) with
    | none => rfl
    | some t =>
      exact absurd (stridesFit_of (diag_wf len (s0 + s1)) (fun s hs => by
        have hs : s ∈ [s0 + s1] := hs
        simp only [List.mem_singleton] at hs
        rw [hs]; exact (retI_true hr).2)) hf

/-- One line of a non-empty two-dimensional view. -/
theorem Known.line_eq {checks : Bool} {s : Shape} {v : View} (h : Known s v) (hp : 0 < Spec.size v.dims)
    {xs : List DimIdx} (hx : (∃ i, xs = [.int i, .full]) ∨ ∃ i, xs = [.full, .int i]) :
    Machine.line checks v xs = lineExact v xs := by
  have hl2 : xs.length = 2 := by rcases hx with ⟨i, rfl⟩ | ⟨i, rfl⟩ <;> rfl
  cases hv : lineExact v xs with
  | none =>
    cases hm : Machine.line checks v xs with
    | none => rfl
    | some w =>
      obtain ⟨w', hw', -⟩ := h.lineSound hp hl2 w hm
      rw [hv] at hw'; cases hw'
  | some w =>
    have hv' := hv
    unfold lineExact at hv
    simp only [Option.bind_eq_bind, Option.bind_eq_some_iff] at hv
    obtain ⟨ns, hn, u, hr, hv⟩ := hv
    obtain ⟨hw, hd, ht⟩ := fromDims_any hn
    have hr' := hr
    rw [← viewReshape_eq (checks := checks) (h.vfits hp) hw] at hr
    obtain ⟨hk, ht'⟩ := h.reshape hw (by rw [hd]; exact h.inv.usize) hr
    have hl : u.dims.length = 2 := by
      have hc : u.ty.Conforms u.dims := hk.inv.wf.1
      rw [ht', ht] at hc
      rw [← ShapeTy.conforms_static_length hc]; rfl
    have hpu : 0 < Spec.size u.dims := by
      have := (View.reshape_spec h.inv.wf hw hr').2.2.2.1
      rw [this]; exact hp
    have hvf := hk.vfits hpu
    have hsl : u.map.strides.length = 2 := by rw [hvf.1.len]; exact hl
    have hvv := hv
    rw [view_exact hvf.1 (by rw [hl, hl2]), Option.map_eq_some_iff] at hv
    obtain ⟨⟨off, nd, st⟩, ha, hw'⟩ := hv
    have hs : u.map.strides.length = xs.length := by omega
    obtain ⟨_, he'⟩ := ViewIdx.viewIndex_eq u.map hvf.1 xs u.ty [] u.dims [] u.map.strides rfl rfl (by omega) hs hvf.1.1
    obtain ⟨c1, c2, hd', _⟩ := he' off nd st ha
    have hall : 0 < Spec.size nd ∧ ∀ t ∈ st, FitsI t := by
      obtain ⟨a, b, hab⟩ : ∃ a b, u.dims = [a, b] := by
        match hd : u.dims, hl with
        | [r, c], _ => exact ⟨r, c, rfl⟩
      obtain ⟨s0, s1, hss⟩ : ∃ s0 s1, u.map.strides = [s0, s1] := by
        match hd : u.map.strides, hsl with
        | [r, c], _ => exact ⟨r, c, rfl⟩
      have hfit := hvf.2.fit
      rw [hab] at hpu ha
      rw [hss] at ha hfit
      simp only [size_cons, size_nil, mul_one] at hpu
      have ha0 := Nat.pos_of_mul_pos_right hpu
      have hb0 := Nat.pos_of_mul_pos_left hpu
      rcases hx with ⟨i, rfl⟩ | ⟨i, rfl⟩
      · by_cases hi : i < a
        · simp [ViewIdx.apAll, ViewIdx.apSel, ViewIdx.apCons, hi] at ha
          obtain ⟨-, rfl, rfl⟩ := ha
          exact ⟨by simpa using hb0, fun t ht => hfit t (by simp at ht ⊢; exact Or.inr ht)⟩
        · simp [ViewIdx.apAll, ViewIdx.apSel, hi] at ha
      · by_cases hi : i < b
        · simp [ViewIdx.apAll, ViewIdx.apSel, ViewIdx.apCons, hi] at ha
          obtain ⟨-, rfl, rfl⟩ := ha
          exact ⟨by simpa using ha0, fun t ht => hfit t (by simp at ht ⊢; exact Or.inl ht)⟩
        · simp [ViewIdx.apAll, ViewIdx.apSel, hi] at ha
    subst hw'
    refine h.lineComplete hp hl2 _ hv' ?_ (stridesFit_of (Mapping.mk_wf c1 c2) ?_)
    · show 0 < Spec.size (Mapping.mk ..).dims
      rw [Mapping.mk_dims]; exact hall.1
    · show ∀ s ∈ (Mapping.mk ..).strides, FitsI s
      rw [Mapping.mk_strides hd']; exact hall.2

end Machine
end Model
