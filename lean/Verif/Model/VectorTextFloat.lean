import Verif.Model.FloatText
/-!
# Model of datas/vectors_string.hpp and datas/vectors_stream.hpp for floats and doubles

`F` is the format of the components (`f32` or `f64`); a component is its bit pattern. The locale is "C" and the stream has its default flags and
precision.
-/
namespace PreCore.VectorText
open PreCore.CNum PreCore.Flt PreCore.Refl

/-- `std::to_string(float)` and `std::to_string(double)`: the text of `%f`, six digits after the point. (vectors_string.hpp:24-35) -/
def fixed6 (F : Fmt) (b : BitVec F.width) : Text :=
  let sg := fun neg => if neg then [0x2d#8] else []
  match F.val b with
  | .fin neg m =>
    let n := rhe (m * 10 ^ 6) (2 ^ F.u)
    sg neg ++ (showNat (n / 10 ^ 6) ++ 0x2e#8 :: padded 6 (n % 10 ^ 6))
  | .inf neg => sg neg ++ [0x69#8, 0x6e#8, 0x66#8]
  | .nan neg => sg neg ++ [0x6e#8, 0x61#8, 0x6e#8]

/-- `to_string(t_Vector2)` (vectors_string.hpp:24-26). -/
def toStringF2 (F : Fmt) (x y : BitVec F.width) : Text := fixed6 F x ++ [0x20#8] ++ fixed6 F y
/-- `to_string(t_Vector)` (vectors_string.hpp:28-30). -/
def toStringF3 (F : Fmt) (x y z : BitVec F.width) : Text := fixed6 F x ++ [0x20#8] ++ fixed6 F y ++ [0x20#8] ++ fixed6 F z
/-- `to_string(t_Vector4_)` (vectors_string.hpp:32-35). -/
def toStringF4 (F : Fmt) (x y z w : BitVec F.width) : Text :=
  fixed6 F x ++ [0x20#8] ++ fixed6 F y ++ [0x20#8] ++ fixed6 F z ++ [0x20#8] ++ fixed6 F w

/-- `operator<<` of `t_Vector2` (vectors_stream.hpp:23-26); a stream writes a float as `%.6g`. -/
def streamF2 (F : Fmt) (x y : BitVec F.width) : Text := F.print 6 x ++ [0x20#8] ++ F.print 6 y
/-- `operator<<` of `t_Vector` (vectors_stream.hpp:28-31). -/
def streamF3 (F : Fmt) (x y z : BitVec F.width) : Text := F.print 6 x ++ [0x20#8] ++ F.print 6 y ++ [0x20#8] ++ F.print 6 z
/-- `operator<<` of `t_Vector4_` (vectors_stream.hpp:33-36). -/
def streamF4 (F : Fmt) (x y z w : BitVec F.width) : Text :=
  F.print 6 x ++ [0x20#8] ++ F.print 6 y ++ [0x20#8] ++ F.print 6 z ++ [0x20#8] ++ F.print 6 w

end PreCore.VectorText
