import Verif.Model.Keys
import Verif.Spec.DynRank

/-!
Specification for shapes and mappings that are compared, hashed and copied: the represented mapping.
-/

namespace Spec
open Model

/-- Type of a dimension. -/
def dimTyOf : DimRep → DimTy
  | .const n => .const n
  | .dyn _ => .dyn

/-- Size of a dimension. -/
def dimSize : DimRep → Nat
  | .const n => n
  | .dyn n => n

/-- The represented shape, with its type. -/
def shapeOf : ShapeRep → Shape
  | .tuple ds => ⟨.static (ds.map dimTyOf), ds.map dimSize⟩
  | .dynRank s => ⟨.dynRank, s.dims⟩

/-- The represented mapping, with its type. -/
def mappingOf : MapRep → Mapping
  | .dense s => .dense (shapeOf s)
  | .strided s st => .strided (shapeOf s) st

/-- Two mappings have the same type. -/
def SameTy (m m' : MapRep) : Prop :=
  (mappingOf m).layout = (mappingOf m').layout ∧ (mappingOf m).shape.ty = (mappingOf m').shape.ty

end Spec
