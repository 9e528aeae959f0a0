import Verif.Model.Base
/-!
# Memory images of scalars on a little endian host

`reinterpret_cast` between scalars and bytes, and `stream.read/write(&scalar, sizeof)`.
-/
namespace PreCore

/-- The number stored in a byte sequence, least significant byte first.
(Memory of a little endian host; what `ReadBuffer` and `WriteBuffer` move, binreader_ref.hpp:41-48.) -/
def leNat : List Byte → Nat
  | [] => 0
  | b :: bs => b.toNat + 256 * leNat bs

/-- The `n` low bytes of a number, least significant first.
(Memory of a little endian host; what `ReadBuffer` and `WriteBuffer` move, binreader_ref.hpp:41-48.) -/
def toLE : Nat → Nat → List Byte
  | 0, _ => []
  | n + 1, v => BitVec.ofNat 8 v :: toLE n (v / 256)

end PreCore
