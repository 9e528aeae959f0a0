import Verif.Model.CNum
/-!
# Model of datas/vectors_string.hpp and datas/vectors_stream.hpp

Components are integers; `bits` is the width of the component type (8, 16, 32, 64). `to_wstring` of vectors (vectors_string.hpp:37-49) is declared to
return `string` and does not compile when used; it is not modelled. Floats: Model/VectorTextFloat.
-/
namespace PreCore.VectorText
open PreCore.CNum

/-- `std::to_string` of a component: integers of all types are promoted and printed as decimal numbers. (vectors_string.hpp:24-35) -/
def comp (z : Int) : List Byte := showInt z

/-- `to_string(t_Vector2)` (vectors_string.hpp:24-26). -/
def toString2 (x y : Int) : List Byte := comp x ++ [0x20#8] ++ comp y
/-- `to_string(t_Vector)` (vectors_string.hpp:28-30). -/
def toString3 (x y z : Int) : List Byte := comp x ++ [0x20#8] ++ comp y ++ [0x20#8] ++ comp z
/-- `to_string(t_Vector4_)` (vectors_string.hpp:32-35). -/
def toString4 (x y z w : Int) : List Byte := comp x ++ [0x20#8] ++ comp y ++ [0x20#8] ++ comp z ++ [0x20#8] ++ comp w

/-- `strm << component` of a stream with default flags: `int8` and `uint8` are `signed char` and `unsigned char`, which a stream writes as characters.
(vectors_stream.hpp:23-36) -/
def streamComp (bits : Nat) (z : Int) : List Byte := if bits = 8 then [BitVec.ofInt 8 z] else showInt z

/-- `operator<<` of `t_Vector2` (vectors_stream.hpp:23-26). -/
def stream2 (bits : Nat) (x y : Int) : List Byte := streamComp bits x ++ [0x20#8] ++ streamComp bits y
/-- `operator<<` of `t_Vector` (vectors_stream.hpp:28-31). -/
def stream3 (bits : Nat) (x y z : Int) : List Byte :=
  streamComp bits x ++ [0x20#8] ++ streamComp bits y ++ [0x20#8] ++ streamComp bits z
/-- `operator<<` of `t_Vector4_` (vectors_stream.hpp:33-36). -/
def stream4 (bits : Nat) (x y z w : Int) : List Byte :=
  streamComp bits x ++ [0x20#8] ++ streamComp bits y ++ [0x20#8] ++ streamComp bits z ++ [0x20#8] ++ streamComp bits w

end PreCore.VectorText
