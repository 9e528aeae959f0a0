import Verif.Model.Base
/-!
# Model of datas/base_128.hpp

The writer functions return the list of bytes handed to `BinWritterRef::Write<uint8>` in order.
The reader functions take the remaining bytes of the stream and return the value together with the bytes
not consumed.  `none` = the stream ended before the reader was done (the C++ `uint8 cNum` would then be
read uninitialised: undefined behaviour).
-/
namespace PreCore.Base128

/-- `static_cast<uint8>(valueCopy)` (base_128.hpp:64 and :122). -/
def lo8 (v : BitVec 64) : Byte := v.setWidth 8

/-- `buint128::Write` loop (base_128.hpp:117-134). `k` is `8 - index`: the C++ loop stops when
`!valueCopy || index == 8`, i.e. `k = 0`. -/
def buWriteLoop : Nat → BitVec 64 → List Byte
  | 0, v => [lo8 v]
  | k + 1, v =>
    if v >>> 7 = 0#64 then [lo8 v]
    else (lo8 v ||| 0x80#8) :: buWriteLoop k (v >>> 7)

/-- `buint128::Write` (base_128.hpp:117-134): `index` starts at 0. -/
def buWrite (v : BitVec 64) : List Byte := buWriteLoop 8 v

/-- `buint128::Read` loop (base_128.hpp:99-112). First argument: iterations left (`9 - id`). -/
def buReadLoop : Nat → Nat → BitVec 64 → List Byte → Option (BitVec 64 × List Byte)
  | 0, _, value, s => some (value, s)
  | _ + 1, _, _, [] => none
  | n + 1, id, value, c :: s =>
    let value := if id = 8 then value ||| (c.setWidth 64 <<< 56)
                 else value ||| ((c &&& 0x7f#8).setWidth 64 <<< (7 * id))
    if c &&& 0x80#8 = 0#8 then some (value, s) else buReadLoop n (id + 1) value s

/-- `buint128::Read` (base_128.hpp:97-115). -/
def buRead (s : List Byte) : Option (BitVec 64 × List Byte) := buReadLoop 9 0 0#64 s

/-- The tail of `bint128::Write` after the loop (base_128.hpp:75-85). -/
def biFinish (sign : Bool) (lastIndex : Nat) (lastValue : Byte) : List Byte :=
  if lastIndex < 8 then
    let signMask : Byte := if sign then 0x40#8 else 0#8
    if lastValue &&& 0x40#8 ≠ 0#8 then [lastValue ||| 0x80#8, signMask]
    else [lastValue ||| signMask]
  else [lastValue]

/-- `bint128::Write` loop (base_128.hpp:63-73) followed by the tail.  The loop is bounded only by
`valueCopy` becoming 0; the first argument is fuel (10 groups of 7 bits exhaust 64 bits, see
`Lemmas.Base128.biWriteLoop_fuel`). -/
def biWriteLoop (sign : Bool) : Nat → Nat → BitVec 64 → List Byte
  | 0, lastIndex, v => biFinish sign lastIndex (lo8 v)
  | f + 1, lastIndex, v =>
    if v >>> 7 = 0#64 then biFinish sign lastIndex (lo8 v)
    else (lo8 v ||| 0x80#8) :: biWriteLoop sign f (lastIndex + 1) (v >>> 7)

/-- `bool sign = value < 0 && !(~(value >> 56));` (base_128.hpp:58); `>>` on `int64` is arithmetic. -/
def biSign (v : BitVec 64) : Bool := v.slt 0#64 && (~~~(v.sshiftRight 56) == 0#64)

/-- `bint128::Write` (base_128.hpp:55-86). -/
def biWrite (v : BitVec 64) : List Byte :=
  biWriteLoop (biSign v) 9 0 (if biSign v then ~~~v else v)

/-- `bint128::Read` loop (base_128.hpp:32-50). First argument: iterations left (`9 - id`).
`static_cast<int64>(cNum) << 56` is modelled as the two's complement shift (base_128.hpp:48). -/
def biReadLoop : Nat → Nat → BitVec 64 → List Byte → Option (BitVec 64 × List Byte)
  | 0, _, value, s => some (value, s)
  | _ + 1, _, _, [] => none
  | n + 1, id, value, c :: s =>
    if id < 8 then
      if c &&& 0x80#8 = 0#8 then
        let value := value ||| ((c &&& 0x3f#8).setWidth 64 <<< (7 * id))
        some (if c &&& 0x40#8 ≠ 0#8 then ~~~value else value, s)
      else biReadLoop n (id + 1) (value ||| ((c &&& 0x7f#8).setWidth 64 <<< (7 * id))) s
    else biReadLoop n (id + 1) (value ||| (c.setWidth 64 <<< (7 * id))) s

/-- `bint128::Read` (base_128.hpp:30-53). -/
def biRead (s : List Byte) : Option (BitVec 64 × List Byte) := biReadLoop 9 0 0#64 s

end PreCore.Base128
