import Verif.Model.Matrix
import Verif.Model.FloatVec
/-!
# Model of uni/rts.hpp and uni/python/pyrts.hpp
-/
namespace PreCore.Rts
open PreCore.Vec

/-- `RTSValue` (rts.hpp:22-25). -/
structure RTS (α : Type) where
  translation : V4 α
  rotation : V4 α
  scale : V4 α
deriving DecidableEq, Repr

/-- The default constructor (rts.hpp:27-28): `translation(0)` sets all four components. -/
def RTS.default {α} [Zero α] [One α] : RTS α := ⟨V4.all 0, mk4 0 0 0 1, mk4 1 1 1 0⟩

/-- `operator==` (rts.hpp:32-35), each with `Vector4A16::operator==` (vectors_simd.hpp:150). -/
def RTS.eq (a b : RTS Fl) : Bool :=
  a.translation.simdEq fltEpsilon b.translation && a.rotation.simdEq fltEpsilon b.rotation && a.scale.simdEq fltEpsilon b.scale
/-- `operator!=` (rts.hpp:37). -/
def RTS.ne (a b : RTS Fl) : Bool := !a.eq b

/-- `esMatrix44::Compose` of the parts (matrix44.cpp:38-45), as importers call it with an `RTSValue`. -/
def RTS.toMatrix {α} [Add α] [Mul α] [Neg α] [Zero α] [One α] (m : Mat α) (v : RTS α) : Mat α := m.compose v.translation v.rotation v.scale

/-- `Py_BuildValue(const RTSValue &)` (pyrts.hpp:22-30): the format `((ffff)(ffff)(ffff))` makes a tuple of three tuples of the arguments in order. -/
def RTS.tuple {α} (v : RTS α) : List (List α) :=
  [[v.translation.x, v.translation.y, v.translation.z, v.translation.w], [v.rotation.x, v.rotation.y, v.rotation.z, v.rotation.w],
   [v.scale.x, v.scale.y, v.scale.z, v.scale.w]]

end PreCore.Rts
