import Verif.Model.Base
/-!
# Model of datas/endian.hpp
-/
namespace PreCore.Endian

/-- `_fbswap(uint16)` (endian.hpp:30-32). -/
def fbswap16 (v : BitVec 16) : BitVec 16 :=
  ((v &&& 0xFF#16) <<< 8) ||| ((v &&& 0xFF00#16) >>> 8)

/-- `_fbswap(uint32)` (endian.hpp:34-37). -/
def fbswap32 (v : BitVec 32) : BitVec 32 :=
  ((v &&& 0xFF#32) <<< 24) ||| ((v &&& 0xFF00#32) <<< 8) |||
  ((v &&& 0xFF0000#32) >>> 8) ||| ((v &&& 0xFF000000#32) >>> 24)

/-- `_fbswap(uint64)` (endian.hpp:39-46). -/
def fbswap64 (v : BitVec 64) : BitVec 64 :=
  ((v &&& 0xFF#64) <<< 56) ||| ((v &&& 0xFF00#64) <<< 40) |||
  ((v &&& 0xFF0000#64) <<< 24) ||| ((v &&& 0xFF000000#64) <<< 8) |||
  ((v &&& 0xFF00000000#64) >>> 8) |||
  ((v &&& 0xFF0000000000#64) >>> 24) |||
  ((v &&& 0xFF000000000000#64) >>> 40) |||
  ((v &&& 0xFF00000000000000#64) >>> 56)

/-- Scalar widths for which `_fbswap` is specialised (endian.hpp:30,34,39). -/
inductive SWidth | w16 | w32 | w64 deriving DecidableEq, Repr

/-- Number of bytes of the scalar. (endian.hpp:30, 34, 39) -/
def SWidth.bytes : SWidth → Nat | .w16 => 2 | .w32 => 4 | .w64 => 8

/-- `fbswap(D&, bool, ...)` on a scalar (endian.hpp:64-68), dispatching on `sizeof(C)`
(`es::TypeFromSize`). -/
def fbswap : (w : SWidth) → BitVec (8 * w.bytes) → BitVec (8 * w.bytes)
  | .w16, v => fbswap16 v
  | .w32, v => fbswap32 v
  | .w64, v => fbswap64 v

/-- `FByteswapper(C (&)[n])` and `FArraySwapper` (endian.hpp:75-87): the loop swaps every element in place. -/
def fbswapArray (w : SWidth) : List (BitVec (8 * w.bytes)) → List (BitVec (8 * w.bytes))
  | [] => []
  | a :: as => fbswap w a :: fbswapArray w as

end PreCore.Endian
