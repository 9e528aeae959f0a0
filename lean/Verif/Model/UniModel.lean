import Verif.Model.UniFormat
/-!
# Model of uni/internal/model.inl: unpacking of sampled vertex data

Floats are IEEE single precision, every operation rounded on its own (no fused multiply-add). `Vector4A16` works lane by lane.
-/
namespace PreCore.Uni
open PreCore.F32

/-- `PrimitiveDescriptor::UnpackDataType_e` (uni/model.hpp:30-35). -/
inductive UnpackType
  | none | add | mul | madd
deriving Repr, DecidableEq

/-- One turn of the loops of `PrimitiveDescriptor::Resample` (model.inl:28-63): `min`, `max` are the members of `UnpackData()`. -/
def resampleOne (t : UnpackType) (min max d : Lanes) : Lanes :=
  match t with
  | .none => d
  | .mul => d.zip F32.mul min
  | .madd => max.zip F32.add (d.zip F32.mul min)
  | .add => d.zip F32.add min

/-- `PrimitiveDescriptor::Resample` (model.inl:28-63) on a vector of elements. -/
def resample (t : UnpackType) (min max : Lanes) (data : List Lanes) : List Lanes :=
  match t with
  | .none => data
  | t => data.map (resampleOne t min max)

end PreCore.Uni
