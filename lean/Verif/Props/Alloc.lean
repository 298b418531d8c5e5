import Verif.Lemmas.AllocRun
import Verif.Lemmas.AllocSame

/-!
# C86: memory blocks and allocators
-/

namespace Props
open Model Spec Model.Alloc

variable {σ : Type} {env : Env σ} {s : σ} {H : Heap} {hs : List (Nat × Nat)} {bs : List (Nat × Nat × Nat)} {a h : Nat}
  {t : RawT}

/-- A tensor made with an allocator owns the allocator value and has its memory from it. If that panics, the allocator
value is dropped and no memory is left. -/
theorem C86_make (he : FairEnv env) (m : Make σ) (hm : ∀ x ∈ makeCode m, Fair x) (ht : Tally H ((h, a) :: hs) bs) :
    M.PostA (m.run env h) (s, H) (fun u x => Owns env.zst x.2 u a hs bs) (fun x => Tally x.2 hs bs) True :=
  out_make he hm ht

/-- A clone owns another value of the same allocator and other memory, and the original is as before; it is also if
cloning panics, and then nothing else is left. -/
theorem C86_clone (he : FairEnv env) (c : M σ Unit) (hc : Fair c) (ho : Owns env.zst H t a hs bs) :
    M.PostA (cloneRaw env t c) (s, H)
      (fun u x => OwnsAll env.zst x.2 [(u, a), (t, a)] hs bs)
      (fun x => Owns env.zst x.2 t a hs bs) True :=
  (out_clone he hc ho).mono (fun u x hx => ownsAll_cons.2 ⟨by simpa using ho.1, by simpa using hx⟩) fun _ h => h

/-- Operations on a tensor that is borrowed mutably leave it with one allocator value of the same allocator and memory
from it, if they return and if they panic. -/
theorem C86_mutate (he : FairEnv env) (m : Mut σ) (hm : ∀ x ∈ mutCode m, Fair x) (ho : Owns env.zst H t a hs bs) :
    M.PostA (m.run env) ((s, H), t) (fun _ x => Owns env.zst x.1.2 x.2 a hs bs)
      (fun x => Owns env.zst x.1.2 x.2 a hs bs) True :=
  steady_mut he hm _ ho

/-- Conversions move the allocator value and the memory to the new tensor. If they panic, both are released. -/
theorem C86_convert (he : FairEnv env) (c : Conv σ) (hc : ∀ x ∈ convCode c, Fair x) (ho : Owns env.zst H t a hs bs) :
    M.PostA (c.run env t) (s, H) (fun u x => Owns env.zst x.2 u a hs bs) (fun x => Tally x.2 hs bs) True :=
  out_conv he hc ho

/-- Dropping a tensor, or what it is turned into, releases the memory and drops the allocator value, if it returns and
if it panics. -/
theorem C86_use (he : FairEnv env) (u : Use σ) (hu : ∀ x ∈ useCode u, Fair x) (ho : Owns env.zst H t a hs bs) :
    M.PostA (u.run env t) (s, H) (fun _ x => Tally x.2 hs bs) (fun x => Tally x.2 hs bs) True :=
  out_use he hu ho

/-- The allocator value of a tensor is replaced (by a clone) only when `resize` or `resize_with` changes other dimensions
than the first one. -/
theorem C86_same (env : Env σ) :
    (∀ (m : Mut σ) (w : σ × Heap) (t : RawT),
      (∀ d r k same l f c re map, m = .resize d r k same l f c re map → same = true) →
      match m.run env (w, t) with
      | .ok _ x | .panic x => x.2.alloc = t.alloc
      | .ub | .abort => True) ∧
    ∀ (c : Conv σ) (t u : RawT) (w w' : σ × Heap), c.run env t w = .ok u w' → u.alloc = t.alloc :=
  ⟨fun m w t hm => by
    have := same_mut (env := env) hm (w, t) t.alloc rfl
    cases h : m.run env (w, t) <;> simp only [h] at this ⊢ <;> exact this, fun _ _ _ _ _ h => same_conv h⟩

/-- In programs that use any number of tensors and allocators, where user code may panic at any time and panics are
caught, no allocator value is used or dropped after it was dropped, and no memory is released twice, to another allocator
or with another size. At any time, the values and blocks that exist are those of the tensors that exist (and of others). -/
theorem C86_program (he : FairEnv env) (xs : List (Step σ)) (hx : ∀ x ∈ xs, ∀ c ∈ stepCode x, Fair c)
    (ps : List (RawT × Nat)) (ho : OwnsAll env.zst H ps hs bs) :
    M.PostA (runSteps env xs) ((s, H), ps.map Prod.fst)
      (fun _ x => ∃ qs : List (RawT × Nat), qs.map Prod.fst = x.2 ∧ OwnsAll env.zst x.1.2 qs hs bs)
      (fun _ => False) True :=
  out_runSteps he xs hx _ ⟨ps, rfl, ho⟩

/-- When the tensors of a program are gone, so are all their allocator values and blocks. -/
theorem C86_leak (he : FairEnv env) (xs : List (Step σ)) (hx : ∀ x ∈ xs, ∀ c ∈ stepCode x, Fair c) (ht : Tally H hs bs)
    (x : (σ × Heap) × List RawT) (hr : runSteps env xs ((s, H), []) = .ok () x) (h0 : x.2 = []) : Tally x.1.2 hs bs := by
  have := C86_program (env := env) (s := s) he xs hx [] (hs := hs) (bs := bs) (H := H) ⟨nofun, ht⟩
  unfold M.PostA at this
  rw [List.map_nil, hr] at this
  obtain ⟨qs, hq, ho⟩ := this
  rw [h0, List.map_eq_nil_iff] at hq
  subst hq
  exact ho.2

/-! Examples: user code counts its calls and panics in the call with a given number. -/

/-- Count a call; the call with number `n` panics. -/
private def tick (n : Nat) : M Nat Unit := fun s => if s = n then .panic (s + 1) else .ok () (s + 1)

private theorem fair_tick (n : Nat) : Fair (tick n) := by
  intro s
  unfold tick
  split <;> nofun

private def exEnv (n : Nat) : Env Nat :=
  ⟨false, true, 1000, fun _ => tick n, fun _ => tick n, fun _ _ s => .ok true s, M.pure (), fun c _ => 2 * c⟩

private theorem fair_exEnv (n : Nat) : FairEnv (exEnv n) :=
  ⟨fun _ => fair_tick n, fun _ => fair_tick n, fun _ _ _ => nofun, fun _ => nofun⟩

/-- A tensor with 6 elements, which is cloned and resized to 8 elements in new memory; both are dropped. -/
private def exSteps (n : Nat) : List (Step Nat) :=
  [.make 7 (.fromExpr (some 6) 6 (tick n)), .clone 0 (tick n),
    .mutate 1 (.resize 0 true false false (some 8) (tick n) (tick n) (M.pure ()) (some 8)),
    .convert 1 .expr, .use 0 (.expr (tick n)), .use 0 .drop]

example (n : Nat) : ∀ x ∈ exSteps n, ∀ c ∈ stepCode x, Fair c := by
  have := fair_tick n
  have h2 : Fair (M.pure () : M Nat Unit) := fun _ => nofun
  simp [exSteps, stepCode, makeCode, mutCode, convCode, useCode, this, h2]

/-- After the first three steps, there are two tensors with a value of allocator 7 each, and blocks of 6 and 8 elements. -/
example : runSteps (exEnv 1000) ((exSteps 1000).take 3) ((0, ⟨[], [], 0⟩), []) =
    .ok () ((16, ⟨[(4, 7), (2, 7)], [(5, 7, 8), (3, 7, 6)], 6⟩), [⟨some 3, 6, 6, 2⟩, ⟨some 5, 8, 8, 4⟩]) := by
  decide +kernel

/-- The copy of the elements panics: the new memory is released, and the old tensor is empty. -/
example : runSteps (exEnv 14) ((exSteps 14).take 3) ((0, ⟨[], [], 0⟩), []) =
    .ok () ((16, ⟨[(2, 7), (0, 7)], [(3, 7, 6), (1, 7, 6)], 6⟩), [⟨some 3, 6, 6, 2⟩, ⟨some 1, 0, 6, 0⟩]) := by
  decide +kernel

/-- In the end, all is gone. -/
example : runSteps (exEnv 14) (exSteps 14) ((0, ⟨[(9, 1)], [], 10⟩), []) =
    .ok () ((19, ⟨[(9, 1)], [], 16⟩), []) := by
  decide +kernel

end Props
