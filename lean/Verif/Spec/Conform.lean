import Verif.Model.Shape

/-! Which dimension lists agree with a shape type (static rank and constant-sized dimensions). -/

namespace Model

/-- A dimension size fits a dimension type. -/
def DimTy.Fits : DimTy → Nat → Prop
  | .const n, s => s = n
  | .dyn, _ => True

instance DimTy.decidableFits : (d : DimTy) → (s : Nat) → Decidable (d.Fits s)
  | .const n, s => inferInstanceAs (Decidable (s = n))
  | .dyn, _ => inferInstanceAs (Decidable True)

/-- Dimensions agree with a shape type: the rank and the constant-sized dimensions match. -/
def ShapeTy.Conforms : ShapeTy → List Nat → Prop
  | .static ds, dims => List.Forall₂ DimTy.Fits ds dims
  | .dynRank, _ => True

instance ShapeTy.decidableConforms : (ty : ShapeTy) → (dims : List Nat) → Decidable (ty.Conforms dims)
  | .static ds, dims => inferInstanceAs (Decidable (List.Forall₂ DimTy.Fits ds dims))
  | .dynRank, _ => inferInstanceAs (Decidable True)

/-- Shape values that can exist at run time. -/
def Shape.WF (s : Shape) : Prop := s.ty.Conforms s.dims

instance Shape.decidableWF (s : Shape) : Decidable s.WF := inferInstanceAs (Decidable (s.ty.Conforms s.dims))

end Model
