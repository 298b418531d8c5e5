import Verif.Lemmas.MappingOps

namespace Spec

theorem unrank_append (a b : List Nat) (k : Nat) (h : k < size (a ++ b)) :
    unrank (a ++ b) k = unrank a (k / size b) ++ unrank b (k % size b) := by
  induction a generalizing k with
  | nil =>
    simp only [List.nil_append] at h
    simp [unrank, Nat.mod_eq_of_lt h]
  | cons d a ih =>
    have hp : 0 < size (a ++ b) := by
      rcases Nat.eq_zero_or_pos (size (a ++ b)) with h0 | h0
      · simp [h0] at h
      · exact h0
    simp only [List.cons_append, unrank]
    rw [ih _ (Nat.mod_lt _ hp), size_append, Nat.mod_mul_left_div_self, Nat.mod_mul_left_mod,
      Nat.mul_comm, Nat.div_div_eq_div_mul]

/-- Offset of the `k`-th element in row-major order. -/
def lin (dims : List Nat) (st : List Int) (k : Nat) : Int := dot st (unrank dims k)

theorem lin_cons (d : Nat) (ds : List Nat) (s : Int) (st : List Int) (k : Nat) :
    lin (d :: ds) (s :: st) k = s * ((k / size ds : Nat) : Int) + lin ds st (k % size ds) := by
  simp [lin, unrank]

theorem lin_zero (ds : List Nat) (st : List Int) : lin ds st 0 = 0 := by
  induction ds generalizing st with
  | nil => cases st <;> simp [lin, unrank, dot]
  | cons d ds ih =>
    cases st with
    | nil => simp [lin, dot]
    | cons s st => rw [lin_cons, Nat.zero_div, Nat.zero_mod, ih]; simp

theorem lin_dense {ds : List Nat} {k : Nat} (h : k < size ds) : lin ds (denseStrides ds) k = k := by
  rw [lin, dot_denseStrides (by simp), rowMajor_unrank h]

end Spec

namespace Model
open Spec

namespace Mapping

theorem linearLoop_eq (ds : List Nat) (st : List Int) (hl : st.length = ds.length) (k : Nat)
    (hk : k < size ds) (off : Int) :
    linearLoop (ds.zip st).reverse k off = some (off + lin ds st k) := by
  induction ds using List.reverseRecOn generalizing st k off with
  | nil => cases st <;> simp_all [linearLoop, lin, dot]
  | append_singleton ds d ih =>
    obtain ⟨st, s, rfl⟩ : ∃ st' s, st = st' ++ [s] := by
      have : st ≠ [] := by rintro rfl; simp at hl
      exact ⟨st.dropLast, st.getLast this, (List.dropLast_append_getLast this).symm⟩
    simp at hl
    have hk' := hk
    rw [size_append] at hk
    simp only [size_cons, size_nil, mul_one] at hk
    have hd : d ≠ 0 := by rintro rfl; simp at hk
    rw [List.zip_append hl.symm]
    simp only [List.zip_cons_cons, List.zip_nil_left, List.reverse_append, List.reverse_cons,
      List.reverse_nil, List.nil_append, List.cons_append, linearLoop]
    rw [check_pos hd, ih st hl (k / d) ((Nat.div_lt_iff_lt_mul (Nat.pos_of_ne_zero hd)).2 hk)]
    simp only [lin]
    rw [unrank_append _ _ _ hk', dot_append (by simp [hl])]
    simp only [size_cons, size_nil, mul_one, unrank, dot_cons, Nat.div_one, dot_nil_nil]
    congr 1; ring

theorem linearOffset_eq (m : Mapping) (h : m.WF) (k : Nat) (hk : k < size m.dims) :
    m.linearOffset k = some (lin m.dims m.strides k) := by
  cases m with
  | dense s => simp only [linearOffset, strides]; rw [lin_dense hk]
  | strided s st =>
    have := linearLoop_eq s.dims st h.2 k hk 0
    simpa [linearOffset, strides] using this

/-! ### Strided reshape -/

@[simp] theorem reshapeLoop_nil (st newDims) : reshapeLoop [] st newDims = reshapeInit newDims := rfl
theorem reshapeLoop_cons (d ds s st newDims) :
    reshapeLoop (d :: ds) (s :: st) newDims = reshapeStep (reshapeLoop ds st newDims) d s := rfl

/-- Region invariant of the strided reshape loop. `base`, `b` and `s` describe the current region:
below `b` offsets are given by `base`, above they continue with stride `s` per `b` elements. -/
structure Region (base : Nat → Int) (b : Nat) (s : Int) (ds : List Nat) (st : List Int)
    (stride : Int) : Prop where
  dvd : b ∣ size ds
  stride_eq : stride = s * ((size ds / b : Nat) : Int)
  lin_eq : ∀ k < size ds, lin ds st k = base (k % b) + s * ((k / b : Nat) : Int)

theorem Region.cons {base b s ds st stride} (hb : 0 < b) (hd : 0 < size ds)
    (h : Region base b s ds st stride) (d : Nat) :
    Region base b s (d :: ds) (stride :: st) (stride * (d : Int)) where
  dvd := by rw [size_cons]; exact Dvd.dvd.mul_left h.dvd d
  stride_eq := by
    rw [h.stride_eq, size_cons, Nat.mul_div_assoc _ h.dvd]; push_cast; ring
  lin_eq := by
    intro k _
    obtain ⟨q, hq⟩ := h.dvd
    rw [lin_cons, h.lin_eq _ (Nat.mod_lt _ hd), h.stride_eq]
    have h1 : k % size ds % b = k % b := Nat.mod_mod_of_dvd _ h.dvd
    have h2 : size ds / b = q := by rw [hq, Nat.mul_div_cancel_left _ hb]
    have h3 : k / b = q * (k / size ds) + k % size ds / b := by
      conv_lhs => rw [← Nat.div_add_mod k (size ds), hq, Nat.mul_assoc, Nat.mul_add_div hb, ← hq]
    rw [h1, h2, h3]; push_cast; ring

/-- Start of a new region. -/
theorem Region.start {ds : List Nat} {st : List Int} (hd : 0 < size ds) (s : Int) :
    Region (fun k => lin ds st k) (size ds) s ds st s where
  dvd := dvd_refl _
  stride_eq := by rw [Nat.div_self hd]; simp
  lin_eq := by
    intro k hk
    rw [Nat.mod_eq_of_lt hk, Nat.div_eq_of_lt hk]; simp

theorem Region.start' {ds : List Nat} {st : List Int} {ds' : List Nat} {st' : List Int}
    (hd : 0 < size ds) (s : Int) (he : size ds' = size ds)
    (hl : ∀ k < size ds, lin ds' st' k = lin ds st k) :
    Region (fun k => lin ds st k) (size ds) s ds' st' s where
  dvd := by rw [he]
  stride_eq := by rw [he, Nat.div_self hd]; simp
  lin_eq := by
    intro k hk
    rw [he] at hk
    rw [Nat.mod_eq_of_lt hk, Nat.div_eq_of_lt hk, hl k hk]; simp

/-- Invariant of the whole loop after processing the old suffix `ods`/`ost`. -/
structure RInv (newDims ods : List Nat) (ost : List Int) (st : ReshapeState) : Prop where
  split : ∃ nds, newDims = st.rem.reverse ++ nds ∧ st.newLen = size nds ∧
    st.acc.length = nds.length ∧ st.oldLen = size ods ∧
    (st.valid = true → ∃ base b s, 0 < b ∧ Region base b s ods ost st.oldStride ∧
      Region base b s nds st.acc st.newStride)

theorem addRegion_inv {newDims base b s} (hb : 0 < b) (hpos : 0 < size newDims) (oldLen : Nat)
    (rem : List Nat) (nds : List Nat) (acc : List Int) (newStride : Int) {valid : Prop}
    (hsplit : newDims = rem.reverse ++ nds) (hlen : acc.length = nds.length)
    (hreg : valid → Region base b s nds acc newStride) :
    ∃ rem' nds' acc' newStride', addRegion oldLen rem (size nds) newStride acc
        = (rem', size nds', newStride', acc') ∧
      newDims = rem'.reverse ++ nds' ∧ acc'.length = nds'.length ∧
      (valid → Region base b s nds' acc' newStride') := by
  induction rem generalizing nds acc newStride with
  | nil => exact ⟨[], nds, acc, newStride, rfl, hsplit, hlen, hreg⟩
  | cons d rem ih =>
    simp only [addRegion]
    split
    · exact ⟨d :: rem, nds, acc, newStride, rfl, hsplit, hlen, hreg⟩
    · have hs : newDims = rem.reverse ++ (d :: nds) := by
        rw [hsplit]; simp
      have hnd : 0 < size nds := by
        rw [hsplit, size_append] at hpos
        exact Nat.pos_of_mul_pos_left hpos
      have := ih (d :: nds) (newStride :: acc) (newStride * (d : Int)) hs (by simp [hlen])
        (fun hv => (hreg hv).cons hb hnd d)
      rw [size_cons, Nat.mul_comm] at this
      exact this

theorem reshapeStep_inv {newDims ods ost st} (d : Nat) (s : Int) (hpos : 0 < size newDims)
    (hopos : 0 < size ods) (h : RInv newDims ods ost st) :
    RInv newDims (d :: ods) (s :: ost) (reshapeStep st d s) := by
  obtain ⟨nds, h1, h2, h3, h4, h5⟩ := h.split
  have hnd : 0 < size nds := by
    rw [h1, size_append] at hpos
    exact Nat.pos_of_mul_pos_left hpos
  by_cases he : st.oldLen = st.newLen
  · -- new region
    have hsz : size nds = size ods := by rw [← h2, ← he, h4]
    obtain ⟨rem', nds', acc', ns', e1, e2, e3, e4⟩ := addRegion_inv (newDims := newDims)
      (base := fun k => lin ods ost k) (b := size ods) (s := s) hopos hpos (st.oldLen * d)
      st.rem nds st.acc s (valid := st.valid = true) h1 h3 (by
        intro hv
        obtain ⟨base, b, s', hb, r1, r2⟩ := h5 hv
        refine Region.start' hopos s hsz ?_
        intro k hk
        rw [r1.lin_eq k hk, r2.lin_eq k (by omega)])
    rw [← h2, he] at e1
    refine ⟨nds', ?_, ?_, ?_, ?_, ?_⟩
    · simp only [reshapeStep, he, if_true]; rw [e1]; exact e2
    · simp only [reshapeStep, he, if_true]; rw [e1]
    · simp only [reshapeStep, he, if_true]; rw [e1]; exact e3
    · simp only [reshapeStep, he, if_true]; rw [← he, h4, size_cons, Nat.mul_comm]
    · simp only [reshapeStep, he, if_true]
      rw [e1]
      intro hv
      refine ⟨_, _, s, hopos, ?_, e4 hv⟩
      exact (Region.start hopos s).cons hopos hopos d
  · by_cases hv : st.valid = true ∧ st.oldStride = s
    · obtain ⟨base, b, s', hb, r1, r2⟩ := h5 hv.1
      obtain ⟨rem', nds', acc', ns', e1, e2, e3, e4⟩ := addRegion_inv (newDims := newDims)
        hb hpos (st.oldLen * d) st.rem nds st.acc st.newStride (valid := True) h1 h3 (fun _ => r2)
      rw [← h2] at e1
      refine ⟨nds', ?_, ?_, ?_, ?_, ?_⟩
      · simp only [reshapeStep, he, if_false]; rw [e1]; exact e2
      · simp only [reshapeStep, he, if_false]; rw [e1]
      · simp only [reshapeStep, he, if_false]; rw [e1]; exact e3
      · simp only [reshapeStep, he, if_false]; rw [h4, size_cons, Nat.mul_comm]
      · simp only [reshapeStep, he, if_false]
        rw [e1]
        intro _
        refine ⟨base, b, s', hb, ?_, e4 trivial⟩
        rw [← hv.2]
        exact r1.cons hb hopos d
    · obtain ⟨rem', nds', acc', ns', e1, e2, e3, e4⟩ := addRegion_inv (newDims := newDims)
        (base := fun _ => 0) (b := 1) (s := 0) Nat.one_pos hpos
        (st.oldLen * d) st.rem nds st.acc st.newStride (valid := False) h1 h3 (fun h => h.elim)
      rw [← h2] at e1
      refine ⟨nds', ?_, ?_, ?_, ?_, ?_⟩
      · simp only [reshapeStep, he, if_false]; rw [e1]; exact e2
      · simp only [reshapeStep, he, if_false]; rw [e1]
      · simp only [reshapeStep, he, if_false]; rw [e1]; exact e3
      · simp only [reshapeStep, he, if_false]; rw [h4, size_cons, Nat.mul_comm]
      · simp only [reshapeStep, he, if_false]
        intro hv'
        simp at hv'
        exact absurd hv' hv

theorem addRemaining_spec (rem : List Nat) (nds : List Nat) (acc : List Int) (ns : Int)
    (hlen : acc.length = nds.length) :
    ∃ acc', addRemaining rem (size nds) ns acc = (size (rem.reverse ++ nds), acc') ∧
      acc'.length = (rem.reverse ++ nds).length ∧
      (∀ base b s, 0 < b → 0 < size (rem.reverse ++ nds) → Region base b s nds acc ns →
        ∃ ns', Region base b s (rem.reverse ++ nds) acc' ns') := by
  induction rem generalizing nds acc ns with
  | nil => exact ⟨acc, rfl, hlen, fun base b s _ _ h => ⟨ns, h⟩⟩
  | cons d rem ih =>
    obtain ⟨acc', e1, e2, e3⟩ := ih (d :: nds) (ns :: acc) (ns * (d : Int)) (by simp [hlen])
    have he : (d :: rem).reverse ++ nds = rem.reverse ++ (d :: nds) := by simp
    rw [he]
    refine ⟨acc', ?_, e2, ?_⟩
    · simp only [addRemaining]; rw [← e1, size_cons, Nat.mul_comm]
    · intro base b s hb hp hr
      refine e3 base b s hb hp (hr.cons hb ?_ d)
      rw [size_append, size_cons] at hp
      exact Nat.pos_of_mul_pos_left (Nat.pos_of_mul_pos_left hp)

theorem reshapeFold_inv (newDims : List Nat) (hpos : 0 < size newDims) (ods : List Nat)
    (ost : List Int) (hl : ost.length = ods.length) (ho : 0 < size ods) :
    RInv newDims ods ost (reshapeLoop ods ost newDims) := by
  induction ods generalizing ost with
  | nil =>
    cases ost with
    | cons _ _ => simp at hl
    | nil =>
      rw [reshapeLoop_nil]
      refine ⟨[], by simp [reshapeInit], rfl, rfl, rfl,
        fun _ => ⟨fun _ => 0, 1, 1, Nat.one_pos, ?_, ?_⟩⟩
      all_goals
        exact ⟨by simp, by simp [reshapeInit], fun k hk => by
          simp at hk; subst hk; simp [lin, unrank, reshapeInit]⟩
  | cons d ods ih =>
    cases ost with
    | nil => simp at hl
    | cons s ost =>
      simp at hl
      have ho' : 0 < size ods := by rw [size_cons] at ho; exact Nat.pos_of_mul_pos_left ho
      exact reshapeStep_inv d s hpos ho' (ih ost hl ho')

theorem addRegion_length (oldLen : Nat) (rem : List Nat) (nl : Nat) (ns : Int) (acc : List Int) :
    (addRegion oldLen rem nl ns acc).1.length + (addRegion oldLen rem nl ns acc).2.2.2.length
      = rem.length + acc.length := by
  induction rem generalizing nl ns acc with
  | nil => simp [addRegion]
  | cons d rem ih =>
    simp only [addRegion]
    split
    · rfl
    · rw [ih]; simp; omega

theorem addRemaining_length (rem : List Nat) (nl : Nat) (ns : Int) (acc : List Int) :
    (addRemaining rem nl ns acc).2.length = rem.length + acc.length := by
  induction rem generalizing nl ns acc with
  | nil => simp [addRemaining]
  | cons d rem ih => simp only [addRemaining]; rw [ih]; simp; omega

theorem reshapeFold_length (l : List (Nat × Int)) (st : ReshapeState) :
    (l.foldr (fun x st => reshapeStep st x.1 x.2) st).rem.length
      + (l.foldr (fun x st => reshapeStep st x.1 x.2) st).acc.length
      = st.rem.length + st.acc.length := by
  induction l with
  | nil => rfl
  | cons x l ih =>
    rw [List.foldr_cons, ← ih]
    simp only [reshapeStep]
    apply addRegion_length

theorem reshapeStrides_length {ods ost newDims r}
    (h : reshapeStrides ods ost newDims = some r) : r.length = newDims.length := by
  simp only [reshapeStrides] at h
  rw [check_bind] at h
  split at h
  · simp at h
    rw [← h, addRemaining_length, reshapeLoop, reshapeFold_length]; simp [reshapeInit]
  · simp at h

/-- Soundness of the strided reshape. -/
theorem reshapeStrides_sound {ods ost newDims r} (hl : ost.length = ods.length)
    (he : size ods = size newDims)
    (h : reshapeStrides ods ost newDims = some r) :
    ∀ k < size newDims, lin newDims r k = lin ods ost k := by
  intro k hk
  have hpos : 0 < size newDims := by omega
  have hinv := reshapeFold_inv newDims hpos ods ost hl (by omega)
  simp only [reshapeStrides] at h
  generalize hst : (reshapeLoop ods ost newDims) = st at hinv h
  obtain ⟨nds, h1, h2, h3, h4, h5⟩ := hinv.split
  obtain ⟨acc', e1, e2, e3⟩ := addRemaining_spec st.rem nds st.acc st.newStride h3
  rw [h2, e1, check_bind] at h
  simp only at h
  rw [← h1] at h e3
  split at h
  · rename_i hc
    simp at h
    subst h
    have hv : st.valid = true := by rcases hc with hc | hc; · omega
                                    · exact hc
    obtain ⟨base, b, s, hb, r1, r2⟩ := h5 hv
    obtain ⟨ns', r3⟩ := e3 base b s hb hpos r2
    rw [r3.lin_eq k hk, r1.lin_eq k (by omega)]
  · simp at h

/-- A contiguous layout is accepted by the strided reshape for every target shape. -/
theorem reshapeFold_contiguous (ods newDims : List Nat) :
    let st := (reshapeLoop ods (denseStrides ods) newDims)
    st.valid = true ∧ st.oldLen = size ods ∧ st.oldStride = (size ods : Int) := by
  induction ods with
  | nil => simp [reshapeInit]
  | cons d ods ih =>
    simp only [denseStrides, reshapeLoop_cons] at ih ⊢
    generalize (reshapeLoop ods (denseStrides ods) newDims) = st at ih ⊢
    obtain ⟨h1, h2, h3⟩ := ih
    simp only [reshapeStep]
    split
    · refine ⟨h1, ?_, ?_⟩
      · rw [h2, size_cons, Nat.mul_comm]
      · simp; ring
    · refine ⟨?_, ?_, ?_⟩
      · simp [h1, h3]
      · rw [h2, size_cons, Nat.mul_comm]
      · simp [h3]; ring

theorem reshapeStrides_contiguous (ods newDims : List Nat) :
    ∃ r, reshapeStrides ods (denseStrides ods) newDims = some r := by
  have h := reshapeFold_contiguous ods newDims
  simp only [reshapeStrides] at h ⊢
  rw [check_pos (Or.inr h.1)]
  exact ⟨_, rfl⟩

/-- Reshaping to the same dimensions is always accepted. -/
theorem addRegion_ones (oldLen : Nat) (rem : List Nat) (ns : Int) (acc : List Int)
    (h : ∀ d ∈ rem, 0 < d) (ho : 0 < oldLen) :
    ∃ k ns' acc', addRegion oldLen rem oldLen ns acc = (rem.drop k, oldLen, ns', acc') ∧
      ∀ d ∈ rem.take k, d = 1 := by
  induction rem generalizing ns acc with
  | nil => exact ⟨0, ns, acc, rfl, by simp⟩
  | cons d rem ih =>
    simp only [addRegion]
    split
    · exact ⟨0, ns, acc, rfl, by simp⟩
    · rename_i hle
      have hd := h d (List.mem_cons_self ..)
      have hd1 : d = 1 := by
        by_contra hne
        have : 2 ≤ d := by omega
        have : oldLen * 2 ≤ oldLen * d := Nat.mul_le_mul_left _ this
        omega
      subst hd1
      obtain ⟨k, ns', acc', e1, e2⟩ := ih (ns * ((1:Nat) : Int)) (ns :: acc)
        (fun d hd => h d (List.mem_cons_of_mem _ hd))
      refine ⟨k + 1, ns', acc', by simpa using e1, ?_⟩
      intro d hd
      simp at hd
      rcases hd with rfl | hd
      · rfl
      · exact e2 d hd

theorem reshapeFold_same (pre ods : List Nat) (ost : List Int) (hl : ost.length = ods.length)
    (hpos : ∀ d ∈ pre ++ ods, 0 < d) :
    let st := (reshapeLoop ods ost (pre ++ ods))
    st.valid = true ∧ st.oldLen = size ods ∧ st.newLen = size ods ∧
      ((st.rem = (pre ++ ods).reverse ∧ ods = []) ∨
        ∃ k, st.rem = pre.reverse.drop k ∧ ∀ d ∈ pre.reverse.take k, d = 1) := by
  induction ods generalizing pre ost with
  | nil => simp [reshapeInit]
  | cons d ods ih =>
    cases ost with
    | nil => simp at hl
    | cons s ost =>
      simp at hl
      have hpre : pre ++ d :: ods = (pre ++ [d]) ++ ods := by simp
      have h := ih (pre ++ [d]) ost hl (by rw [← hpre]; exact hpos)
      simp only [reshapeLoop_cons] at h ⊢
      rw [hpre]
      generalize (reshapeLoop ods ost ((pre ++ [d]) ++ ods)) = st at h ⊢
      obtain ⟨h1, h2, h3, h4⟩ := h
      have hops : 0 < size ods := size_pos_iff.2 fun x hx => hpos x (by simp [hx])
      have hd : 0 < d := hpos d (by simp)
      -- remaining dimensions: either `d` is the next one, or `d = 1` was already added
      have hrem : (st.rem = d :: pre.reverse) ∨
          (d = 1 ∧ ∃ k, st.rem = pre.reverse.drop k ∧ ∀ x ∈ pre.reverse.take k, x = 1) := by
        rcases h4 with ⟨h4, rfl⟩ | ⟨k, h4, h5⟩
        · left; rw [h4]; simp
        · rw [List.reverse_append] at h4 h5
          cases k with
          | zero => left; simpa using h4
          | succ k =>
            right
            simp at h4 h5
            exact ⟨h5.1, k, h4, h5.2⟩
      have he : st.oldLen = st.newLen := by rw [h2, h3]
      simp only [reshapeStep, he, if_true]
      rw [h3]
      refine ⟨h1, by rw [size_cons, Nat.mul_comm], ?_⟩
      rcases hrem with hrem | ⟨rfl, k, hrem, hk⟩
      · rw [hrem]
        simp only [addRegion]
        rw [if_neg (by omega)]
        obtain ⟨k, ns', acc', e1, e2⟩ := addRegion_ones (size ods * d) pre.reverse (s * (d : Int))
          (s :: st.acc) (fun x hx => hpos x (by simp at hx; simp [hx])) (Nat.mul_pos hops hd)
        rw [e1]
        exact ⟨by rw [size_cons, Nat.mul_comm], Or.inr ⟨k, rfl, e2⟩⟩
      · rw [hrem]
        obtain ⟨k', ns', acc', e1, e2⟩ := addRegion_ones (size ods * 1) (pre.reverse.drop k) s
          st.acc (fun x hx => hpos x (by have := List.mem_of_mem_drop hx; simp at this; simp [this]))
          (by omega)
        rw [Nat.mul_one] at e1 ⊢
        rw [e1]
        refine ⟨by simp, Or.inr ⟨k + k', by simp, ?_⟩⟩
        intro x hx
        rw [List.take_add] at hx
        rcases List.mem_append.1 hx with hx | hx
        · exact hk x hx
        · exact e2 x hx

theorem addRemaining_newLen (rem : List Nat) (nl : Nat) (ns : Int) (acc : List Int) :
    (addRemaining rem nl ns acc).1 = nl * size rem := by
  induction rem generalizing nl ns acc with
  | nil => simp [addRemaining]
  | cons d rem ih => simp only [addRemaining]; rw [ih, size_cons]; ring

theorem addRegion_newLen (oldLen : Nat) (rem : List Nat) (nl : Nat) (ns : Int) (acc : List Int) :
    (addRegion oldLen rem nl ns acc).2.1 * size (addRegion oldLen rem nl ns acc).1
      = nl * size rem := by
  induction rem generalizing nl ns acc with
  | nil => simp [addRegion]
  | cons d rem ih =>
    simp only [addRegion]
    split
    · rfl
    · rw [ih, size_cons]; ring

theorem reshapeFold_newLen (l : List (Nat × Int)) (st : ReshapeState) :
    (l.foldr (fun x st => reshapeStep st x.1 x.2) st).newLen *
      size (l.foldr (fun x st => reshapeStep st x.1 x.2) st).rem = st.newLen * size st.rem := by
  induction l with
  | nil => rfl
  | cons x l ih =>
    rw [List.foldr_cons, ← ih]
    simp only [reshapeStep]
    apply addRegion_newLen

/-- The final length computed by the loop is the length of the new shape. -/
theorem reshape_finalLen (ods : List Nat) (ost : List Int) (newDims : List Nat) :
    let st := (reshapeLoop ods ost newDims)
    (addRemaining st.rem st.newLen st.newStride st.acc).1 = size newDims := by
  intro st
  have h := reshapeFold_newLen (ods.zip ost) (reshapeInit newDims)
  rw [addRemaining_newLen]
  refine Eq.trans h ?_
  simp [size_reverse, reshapeInit]

theorem reshapeStrides_same (ods : List Nat) (ost : List Int) (hl : ost.length = ods.length) :
    ∃ r, reshapeStrides ods ost ods = some r := by
  have hlen := reshape_finalLen ods ost ods
  simp only [reshapeStrides] at hlen ⊢
  by_cases h0 : size ods = 0
  · rw [check_pos (Or.inl (by rw [hlen, h0]))]; exact ⟨_, rfl⟩
  · have hpos : ∀ d ∈ ods, 0 < d := size_pos_iff.1 (by omega)
    have h := reshapeFold_same [] ods ost hl (by simpa using hpos)
    simp only [List.nil_append] at h
    rw [check_pos (Or.inr h.1)]; exact ⟨_, rfl⟩

/-- After the inner loop either no new dimension is left or the next one does not fit. -/
theorem addRegion_stop (oldLen : Nat) (rem : List Nat) (nl : Nat) (ns : Int) (acc : List Int) :
    match (addRegion oldLen rem nl ns acc).1 with
    | [] => True
    | d :: _ => oldLen < (addRegion oldLen rem nl ns acc).2.1 * d := by
  induction rem generalizing nl ns acc with
  | nil => simp [addRegion]
  | cons d rem ih =>
    simp only [addRegion]
    by_cases h : nl * d > oldLen
    · simp [h]
    · simp only [h, if_false]; exact ih _ _ _

theorem addRegion_le (oldLen : Nat) (rem : List Nat) (nl : Nat) (ns : Int) (acc : List Int)
    (h : nl ≤ oldLen) : (addRegion oldLen rem nl ns acc).2.1 ≤ oldLen := by
  induction rem generalizing nl ns acc with
  | nil => simpa [addRegion] using h
  | cons d rem ih =>
    simp only [addRegion]
    split
    · exact h
    · exact ih _ _ _ (by omega)

/-- Completeness: if old dimensions have no unit size and some strides for the new dimensions
describe the same sequence of offsets, then the strided reshape accepts. -/
theorem reshapeStrides_complete {ods ost newDims nst} (hl : ost.length = ods.length)
    (he : size ods = size newDims) (hunit : ∀ d ∈ ods, d ≠ 1)
    (hns : nst.length = newDims.length)
    (heq : ∀ k < size newDims, lin newDims nst k = lin ods ost k) :
    ∃ r, reshapeStrides ods ost newDims = some r := by
  have hlen := reshape_finalLen ods ost newDims
  simp only [reshapeStrides] at hlen ⊢
  by_cases h0 : size newDims = 0
  · rw [check_pos (Or.inl (by rw [hlen, h0]))]; exact ⟨_, rfl⟩
  have hpos : 0 < size newDims := by omega
  have hopos : 0 < size ods := by omega
  -- generalise over suffixes of the old dimensions
  have key : ∀ pre suf : List Nat, ∀ pst sst : List Int, ods = pre ++ suf → ost = pst ++ sst →
      sst.length = suf.length →
      (reshapeLoop suf sst newDims).valid = true ∧
      (reshapeLoop suf sst newDims).newLen ≤ size suf ∧
      (suf ≠ [] → match (reshapeLoop suf sst newDims).rem with
        | [] => True
        | d :: _ => size suf < (reshapeLoop suf sst newDims).newLen * d) := by
    intro pre suf
    induction suf generalizing pre with
    | nil =>
      intro pst sst _ _ _
      simp [reshapeInit]
    | cons d suf ih =>
      intro pst sst hods host hsl
      cases sst with
      | nil => simp at hsl
      | cons s sst =>
        simp at hsl
        obtain ⟨hv, hle, hstop⟩ := ih (pre ++ [d]) (pst ++ [s]) sst (by simp [hods]) (by simp [host]) hsl
        have hsp : 0 < size suf := by
          rw [hods, size_append, size_cons] at hopos
          exact Nat.pos_of_mul_pos_left (Nat.pos_of_mul_pos_left hopos)
        have hd2 : 2 ≤ d := by
          have h1 := hunit d (by simp [hods])
          have h2 : 0 < d := size_pos_iff.1 hopos d (by simp [hods])
          omega
        have hinv := reshapeFold_inv newDims hpos suf sst hsl hsp
        rw [reshapeLoop_cons]
        generalize hst : reshapeLoop suf sst newDims = st at *
        obtain ⟨nds, h1, h2, h3, h4, h5⟩ := hinv.split
        refine ⟨?_, ?_, ?_⟩
        · by_cases heq' : st.oldLen = st.newLen
          · simp [reshapeStep, heq', hv]
          · simp only [reshapeStep, heq', if_false, hv, Bool.true_and, beq_iff_eq]
            obtain ⟨base, b, s', hb, r1, r2⟩ := h5 hv
            have hlt : st.newLen < size suf := by omega
            have hsuf : suf ≠ [] := by
              rintro rfl
              rw [size_nil] at hlt
              have : 0 < st.newLen := by
                rw [h2]
                rw [h1, size_append] at hpos
                exact Nat.pos_of_mul_pos_left hpos
              omega
            -- there is a next new dimension
            have hst' := hstop hsuf
            cases hrem : st.rem with
            | nil =>
              exfalso
              rw [hrem] at h1
              simp at h1
              rw [h1] at he
              rw [hods, size_append, size_cons, ← h2] at he
              have hpp : 0 < size pre := by
                rw [hods, size_append] at hopos
                exact Nat.pos_of_mul_pos_right hopos
              have : size suf ≤ size pre * (d * size suf) := by
                calc size suf = 1 * (1 * size suf) := by ring
                  _ ≤ size pre * (d * size suf) :=
                    Nat.mul_le_mul hpp (Nat.mul_le_mul (by omega) (le_refl _))
              omega
            | cons d' rem' =>
              rw [hrem] at hst' h1
              simp only at hst'
              -- linear offsets at three positions
              have hsplit : newDims = rem'.reverse ++ ([d'] ++ nds) := by rw [h1]; simp
              have hnsplit : ∃ na t nb, nst = na ++ ([t] ++ nb) ∧ na.length = rem'.reverse.length ∧
                  nb.length = nds.length := by
                refine ⟨nst.take rem'.length, nst.getD rem'.length 0, nst.drop (rem'.length + 1), ?_, ?_, ?_⟩
                · have hlt' : rem'.length < nst.length := by rw [hns, hsplit]; simp
                  rw [List.getD_eq_getElem?_getD, List.getElem?_eq_getElem hlt']
                  simp
                · simp [hns, hsplit]
                · simp [hns, hsplit]
                  omega
              obtain ⟨na, t, nb, hn1, hn2, hn3⟩ := hnsplit
              have hnd : 0 < size nds := by
                rw [h1, size_append] at hpos
                exact Nat.pos_of_mul_pos_left hpos
              -- low positions only involve the inner dimensions
              have hlow : ∀ (A B : List Nat) (a b : List Int) k, a.length = A.length →
                  k < size B → size B ≤ size (A ++ B) → lin (A ++ B) (a ++ b) k = lin B b k := by
                intro A B a b k hab hk hAB
                unfold lin
                rw [unrank_append _ _ _ (by omega), dot_append (by simp [hab]), Nat.div_eq_of_lt hk,
                  Nat.mod_eq_of_lt hk]
                have : ∀ (a : List Int) (A : List Nat), dot a (unrank A 0) = 0 := by
                  intro a A
                  induction A generalizing a with
                  | nil => cases a <;> simp [unrank, dot]
                  | cons x A ihA => cases a <;> simp [unrank, dot, ihA]
                rw [this]; simp
              have hNle : size ([d'] ++ nds) ≤ size newDims := by
                rw [hsplit, size_append (rem'.reverse)]
                have : 0 < size rem'.reverse := by
                  rw [hsplit, size_append] at hpos; exact Nat.pos_of_mul_pos_right hpos
                exact Nat.le_mul_of_pos_left _ this
              have hOle : size (d :: suf) ≤ size ods := by
                rw [hods, size_append]
                have : 0 < size pre := by
                  rw [hods, size_append] at hopos; exact Nat.pos_of_mul_pos_right hopos
                exact Nat.le_mul_of_pos_left _ this
              have hpl : pst.length = pre.length := by
                rw [host, hods] at hl; simp at hl; omega
              -- F k on old and new side
              have hOld : ∀ k < size (d :: suf), lin ods ost k = lin (d :: suf) (s :: sst) k := by
                intro k hk
                rw [hods, host]
                exact hlow pre (d :: suf) pst (s :: sst) k hpl hk (by rw [← hods]; exact hOle)
              have hNew : ∀ k < size ([d'] ++ nds), lin newDims nst k = lin ([d'] ++ nds) ([t] ++ nb) k := by
                intro k hk
                rw [hn1, hsplit]
                exact hlow rem'.reverse ([d'] ++ nds) na ([t] ++ nb) k hn2 hk
                  (by rw [← hsplit]; exact hNle)
              have hF : ∀ k, k < size (d :: suf) → k < d' * size nds →
                  lin (d :: suf) (s :: sst) k = lin (d' :: nds) (t :: nb) k := by
                intro k hk hk'
                rw [← hOld k hk]
                have hk'' : k < size ([d'] ++ nds) := by simpa using hk'
                have := hNew k hk''
                simp only [List.cons_append, List.nil_append] at this
                rw [← this, heq k (by omega)]
              -- reduce to sizes
              have hSN : size nds = st.newLen := h2.symm
              have hc1 : st.newLen * d' = d' * size nds := by rw [hSN, Nat.mul_comm]
              have hbig : size suf < d' * size nds := by rw [← hc1]; exact hst'
              have hdsuf : size (d :: suf) = d * size suf := size_cons _ _
              have h2suf : 2 * size suf ≤ d * size suf := Nat.mul_le_mul_right _ hd2
              -- value at `size suf`
              have e1 : lin (d :: suf) (s :: sst) (size suf) = s := by
                rw [lin_cons, Nat.div_self hsp, Nat.mod_self]
                have := r1.lin_eq 0 hsp
                have hz : lin suf sst 0 = 0 := by
                  unfold lin
                  have : ∀ (a : List Int) (A : List Nat), dot a (unrank A 0) = 0 := by
                    intro a A
                    induction A generalizing a with
                    | nil => cases a <;> simp [unrank, dot]
                    | cons x A ihA => cases a <;> simp [unrank, dot, ihA]
                  exact this _ _
                rw [hz]; simp
              -- F on [0, size suf) from the region
              have hR : ∀ k < size suf, lin (d :: suf) (s :: sst) k
                  = base (k % b) + s' * ((k / b : Nat) : Int) := by
                intro k hk
                rw [lin_cons, Nat.div_eq_of_lt hk, Nat.mod_eq_of_lt hk, r1.lin_eq k hk]; simp
              obtain ⟨qo, hqo⟩ := r1.dvd
              obtain ⟨qn, hqn⟩ := r2.dvd
              -- value at `newLen`: equals t
              have e2 : lin (d :: suf) (s :: sst) (size nds) = t + lin nds nb 0 := by
                rw [hF _ (by omega) (by omega), lin_cons, Nat.div_self hnd, Nat.mod_self]; simp
              have e3 : lin (d :: suf) (s :: sst) 0 = lin nds nb 0 := by
                rw [hF 0 (by omega) (by omega), lin_cons]; simp
              have e4 := hR (size nds) (by omega)
              have e5 := hR 0 hsp
              rw [hqn, Nat.mul_mod_right, Nat.mul_div_cancel_left _ hb] at e4
              rw [← hqn] at e4
              simp at e5
              -- value at `size suf` through the new dimensions
              have hsub : (size suf - size nds) < size suf := by omega
              have e6 : lin (d :: suf) (s :: sst) (size suf)
                  = t + lin (d :: suf) (s :: sst) (size suf - size nds) := by
                rw [hF _ (by omega) hbig, hF _ (by omega) (by omega), lin_cons, lin_cons]
                have hx : size suf = size nds + (size suf - size nds) := by omega
                have hx1 : size suf / size nds = (size suf - size nds) / size nds + 1 := by
                  conv_lhs => rw [hx]
                  rw [Nat.add_comm, Nat.add_div_right _ hnd]
                have hx2 : size suf % size nds = (size suf - size nds) % size nds := by
                  conv_lhs => rw [hx]
                  rw [Nat.add_mod_left]
                rw [hx1, hx2]; push_cast; ring
              have e7 := hR _ hsub
              have hd1 : size suf - size nds = b * (qo - qn) := by rw [hqo, hqn, Nat.mul_sub]
              have hq : qn ≤ qo := by
                have : b * qn ≤ b * qo := by omega
                exact Nat.le_of_mul_le_mul_left this hb
              rw [hd1, Nat.mul_mod_right, Nat.mul_div_cancel_left _ hb, ← hd1] at e7
              have e8 := r1.stride_eq
              rw [hqo, Nat.mul_div_cancel_left _ hb] at e8
              rw [e8]
              rw [Nat.cast_sub hq] at e7
              rw [e1, e7] at e6
              have e9 : t = s' * (qn : Int) := by
                have : t + lin nds nb 0 = base 0 + s' * (qn : Int) := by rw [← e2, e4]
                have h6 : lin nds nb 0 = base 0 := by rw [← e3, e5]
                linarith
              have hb0 : base 0 = 0 := by
                have := r1.lin_eq 0 hsp
                simp at this
                rw [← this]
                unfold lin
                have : ∀ (a : List Int) (A : List Nat), dot a (unrank A 0) = 0 := by
                  intro a A
                  induction A generalizing a with
                  | nil => cases a <;> simp [unrank, dot]
                  | cons x A ihA => cases a <;> simp [unrank, dot, ihA]
                exact this _ _
              rw [e9, hb0] at e6
              linarith
        · rw [size_cons, Nat.mul_comm]
          simp only [reshapeStep]
          rw [h4]
          apply addRegion_le
          calc st.newLen ≤ size suf * 1 := by omega
            _ ≤ size suf * d := Nat.mul_le_mul_left _ (by omega)
        · intro _
          rw [size_cons, Nat.mul_comm d]
          simp only [reshapeStep]
          rw [h4]
          apply addRegion_stop
  have := (key [] ods [] ost rfl rfl hl).1
  rw [check_pos (Or.inr this)]; exact ⟨_, rfl⟩

end Mapping
end Model
