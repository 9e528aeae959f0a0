import Verif.Model.Matrix
import Verif.Model.BC5Blue
/-!
# Vectors and matrices of single precision floats

The functions of `Model/Vectors.lean` and `Model/Matrix.lean` (datas/vectors.hpp, datas/vectors_simd.hpp, datas/matrix44.cpp) are
written for any type with the arithmetic operators; here they are used with the operators of `float` as IEEE 754 defines them (what
the SSE instructions named there do with the default rounding mode). Every operation is rounded once, in the order of the source: no
contraction to fused operations and no excess precision.
-/
namespace PreCore.F32

/-- `a / b` (divss, divps). (vectors_simd.hpp:101-103, vectors.hpp:56) -/
def div (a b : F32) : F32 :=
  match val a, val b with
  | .nan, _ => a ||| 0x00400000
  | _, .nan => b ||| 0x00400000
  | .inf _, .inf _ => 0xffc00000
  | .inf s, .fin t _ => if s = t then 0x7f800000 else 0xff800000
  | .fin s _, .inf t => if s = t then 0 else 0x80000000
  | .fin s m, .fin t n =>
    if n = 0 then (if m = 0 then 0xffc00000 else if s = t then 0x7f800000 else 0xff800000)
    else makeQ (s != t) (m * 2 ^ 149) n

/-- `sqrtf`, `sqrtss`: not a number for negative numbers. (vectors.hpp:122-124, vectors_simd.hpp:182) -/
def sqrtFull (x : F32) : F32 :=
  match val x with
  | .nan => x ||| 0x00400000
  | .inf s => if s then 0xffc00000 else x
  | .fin true m => if m = 0 then x else 0xffc00000
  | .fin false _ => Block.sqrtF x

/-- The order of floats: comparisons with something that is not a number are false. (vectors_simd.hpp:61-62, 153-158) -/
def less (a b : F32) : Bool :=
  match val a, val b with
  | .fin s m, .fin t n => decide ((if s then - (m : Int) else m) < (if t then - (n : Int) else n))
  | .inf s, .fin _ _ => s
  | .fin _ _, .inf t => !t
  | .inf s, .inf t => s && !t
  | _, _ => false

/-- `<=` of floats (vectors.hpp:27, vectors_simd.hpp:61-62). -/
def lessEq (a b : F32) : Bool :=
  match val a, val b with
  | .fin s m, .fin t n => decide ((if s then - (m : Int) else m) ≤ (if t then - (n : Int) else n))
  | .inf s, .fin _ _ => s
  | .fin _ _, .inf t => !t
  | .inf s, .inf t => s || !t
  | _, _ => false

end PreCore.F32

namespace PreCore.Vec
open PreCore.F32

/-- A `float` as an operand. (Element type of vectors.hpp:30-142.) -/
structure Fl where
  bits : F32
deriving DecidableEq, Repr

instance : Add Fl := ⟨fun a b => ⟨add a.bits b.bits⟩⟩
instance : Sub Fl := ⟨fun a b => ⟨sub a.bits b.bits⟩⟩
instance : Mul Fl := ⟨fun a b => ⟨mul a.bits b.bits⟩⟩
instance : Div Fl := ⟨fun a b => ⟨div a.bits b.bits⟩⟩
instance : Neg Fl := ⟨fun a => ⟨negate a.bits⟩⟩
/-- `0.f` -/
instance : Zero Fl := ⟨⟨0x00000000⟩⟩
/-- `1.f` -/
instance : One Fl := ⟨⟨0x3f800000⟩⟩
instance : LT Fl := ⟨fun a b => less a.bits b.bits = true⟩
instance : LE Fl := ⟨fun a b => lessEq a.bits b.bits = true⟩
instance : DecidableLT Fl := fun a b => inferInstanceAs (Decidable (less a.bits b.bits = true))
instance : DecidableLE Fl := fun a b => inferInstanceAs (Decidable (lessEq a.bits b.bits = true))

/-- `sqrtf`, `_mm_sqrt_ss`. (vectors_simd.hpp:182, vectors.hpp:122-124) -/
def Fl.sqrt (a : Fl) : Fl := ⟨sqrtFull a.bits⟩

/-- `FLT_EPSILON` (vectors.hpp:27, vectors_simd.hpp:24-26). -/
def fltEpsilon : Fl := ⟨0x34000000⟩
/-- `0.000001f` (matrix44.cpp:233). -/
def invEpsilon : Fl := ⟨0x358637bd⟩

end PreCore.Vec
