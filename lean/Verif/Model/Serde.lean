import Verif.Model.Expr

/-!
Model of `src/serde.rs`. Data in the format of the (de)serialiser is a nested value. Reading a value has
three outcomes: `none` is a panic, `some none` an error, `some (some x)` a result.
-/

namespace Model

/-- A value of a self-describing format: a leaf, or a sequence together with the length that
`SeqAccess::size_hint` reports for it (0 if unknown). -/
inductive Val (A : Type)
  | leaf (a : A)
  | seq (hint : Nat) (items : List (Val A))

variable {σ α A T : Type}

/-- Loop for rank 1 in `visit_seq`, src/serde.rs:44-47; `de` is `T::deserialize`, which fails with an
error on `none`. `Vec::push` panics when the capacity exceeds `limit`. -/
def elemLoop (limit : Nat) (de : Val A → Option T) : List (Val A) → List T → Option (Option (List T))
  | [], vec => some (some vec)
  | x :: xs, vec =>
    match de x with
    | none => some none
    | some a => (check (vec.length + 1 ≤ limit)).bind fun _ => elemLoop limit de xs (vec ++ [a])

/-- Loop for higher ranks in `visit_seq`, src/serde.rs:49-74; `row` reads a row. The product in the
argument of `Vec::reserve` can overflow; this is modelled as a panic like a failing `reserve`. -/
def rowLoop (limit hint : Nat) (row : Val A → Option (Option (Shape × List T))) :
    List (Val A) → Shape → Nat → List T → Option (Option (Shape × Nat × List T))
  | [], shape, size, vec => some (some (shape, size, vec))
  | x :: xs, shape, size, vec =>
    (row x).bind fun r =>
      match r with
      | none => some none
      | some (src, ys) =>
        if size = 0 then
          (check (vec.length + src.len * hint ≤ limit)).bind fun _ =>
            (shape.withMutDims fun dims =>
              (Shape.copyFromSlice (dims.drop 1) src.dims).map (dims.take 1 ++ ·)).bind fun shape =>
                (check (vec.length + ys.length ≤ limit)).bind fun _ =>
                  rowLoop limit hint row xs shape (size + 1) (vec ++ ys)
        else if src.dims = shape.dims.drop 1 then
          (check (vec.length + ys.length ≤ limit)).bind fun _ =>
            rowLoop limit hint row xs shape (size + 1) (vec ++ ys)
        else some none

/-- End of `visit_seq`, src/serde.rs:77-85. -/
def visitEnd (head : DimTy) (shape : Shape) (size : Nat) (vec : List T) :
    Option (Option (Shape × List T)) :=
  match head with
  | .dyn =>
    (shape.withMutDims fun dims => some (dims.set 0 size)).bind fun shape =>
      (Shape.reshape ⟨.static [.dyn], [vec.length]⟩ shape).map fun s => some (s, vec)
  | .const _ =>
    (shape.dim 0).bind fun d =>
      if size ≠ d then some none
      else (Shape.reshape ⟨.static [.dyn], [vec.length]⟩ shape).map fun s => some (s, vec)

/-- `Deserialize` for `Tensor` with a static rank, src/serde.rs:32-86 and 101-115. -/
def deserRank (limit : Nat) (de : Val A → Option T) :
    List DimTy → Val A → Option (Option (Shape × List T))
  | [], v =>
    match de v with
    | none => some none
    | some x =>
      (Shape.reshape ⟨.static [.const 1], [1]⟩ (Shape.default (.static []))).map fun s => some (s, [x])
  | _ :: _, .leaf _ => some none
  | [t], .seq hint xs =>
    (check (hint ≤ limit)).bind fun _ =>
      (elemLoop limit de xs []).bind fun r =>
        match r with
        | none => some none
        | some vec => visitEnd t (Shape.default (.static [t])) xs.length vec
  | t :: t' :: ts, .seq hint xs =>
    (rowLoop limit hint (deserRank limit de (t' :: ts)) xs
        (Shape.default (.static (t :: t' :: ts))) 0 []).bind fun r =>
      match r with
      | none => some none
      | some (shape, size, vec) => visitEnd t shape size vec

/-- `Deserialize` for `Tensor`, src/serde.rs:101-115. `Array` (src/serde.rs:89-99) reads a tensor with the
same shape type. -/
def deserialize (limit : Nat) (de : Val A → Option T) : ShapeTy → Val A → Option (Option (Shape × List T))
  | .static tys, v => deserRank limit de tys v
  | .dynRank, _ => none

/-- A `for` loop that collects results, through `next`; fuel as in `iterEq`. -/
def forCollect {β : Type} (f : α → M σ β) : (fuel : Nat) → Iter σ α → M σ (List β)
  | 0, _ => M.ub
  | fuel + 1, it => M.bind it.next fun p =>
    match p.1 with
    | none => M.pure []
    | some x => M.bind (f x) fun y => M.bind (forCollect f fuel p.2) fun ys => M.pure (y :: ys)

/-- `Serialize` for `Slice` of a static rank, src/serde.rs:123-139, by recursion on the rank; `enc`
serialises the element at a position. Errors of the serialiser are modelled in
`Model/SerdeCalls.lean`. -/
def serRank (enc : Int → M σ (Val A)) : (rank : Nat) → View → M σ (Val A)
  | 0, v => M.bind (M.lift (v.index [])) enc
  | rank + 1, v =>
    M.bind (M.lift (v.map.dim 0)) fun d =>
      M.bind (M.lift (Expr.axisNew true v (.const 0))) fun e =>
        let it := Iter.new e
        M.bind (forCollect (serRank enc rank) (it.outerCount * it.innerLimit + 1) it) fun xs =>
          M.pure (.seq d xs)

/-- `Serialize` for `Slice`, src/serde.rs:123-139. A dynamic rank panics. -/
def serialize (enc : Int → M σ (Val A)) (v : View) : M σ (Val A) :=
  match v.ty.rank? with
  | some rank => serRank enc rank v
  | none => M.panic

end Model
