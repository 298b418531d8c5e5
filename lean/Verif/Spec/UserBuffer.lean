import Verif.Model.UserBuffer
import Verif.Spec.Outcome

/-!
Vocabulary for buffers defined outside of the crate.
-/

namespace Spec
open Model

variable {σ T : Type}

/-- The functions are safe code: each call returns or panics, and what it returns is a slice of the memory. -/
structure SafeBuffer (b : UserBuffer σ) (n : Nat) : Prop where
  asSlice : ∀ w, M.Post b.asSlice w (fun q _ => q.1 + size q.2.dims ≤ n) fun _ => True
  asMutSlice : ∀ w, M.Post b.asMutSlice w (fun q _ => q.1 + size q.2.dims ≤ n) fun _ => True

/-- Every call that returns gives the slice at position `p` with shape `s`. -/
structure SteadyBuffer (b : UserBuffer σ) (p : Nat) (s : Shape) : Prop where
  ty : s.ty = b.ty
  asSlice : ∀ w q w', b.asSlice w = .ok q w' → q = (p, s)
  asMutSlice : ∀ w q w', b.asMutSlice w = .ok q w' → q = (p, s)

/-- The functions never panic. -/
def QuietBuffer (b : UserBuffer σ) : Prop :=
  ∀ w w', b.asSlice w ≠ .panic w' ∧ b.asMutSlice w ≠ .panic w'

/-- An unused expression, and a buffer with the elements `xs` between `pre` and `post`. -/
def Fresh (m : BufMem T) (pre : List (Option T)) (xs : List T) (post : List (Option T)) : Prop :=
  m = ⟨pre ++ xs.map some ++ post, 0, [], []⟩

/-- The elements `ys` have been handed out, `ds` have been dropped, and `zs` between them remain where they were. -/
def Emptied (m : BufMem T) (pre : List (Option T)) (ys zs ds : List T) (post : List (Option T)) : Prop :=
  m.cells = pre ++ List.replicate ys.length none ++ zs.map some ++ List.replicate ds.length none ++ post ∧
  m.out = ys ∧ m.log = ds

end Spec
