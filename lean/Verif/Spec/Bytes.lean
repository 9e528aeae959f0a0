import Verif.Model.Base
/-!
# Specification: memory image of a scalar on the (little endian) host
-/
namespace PreCore

/-- Byte `i` (from the least significant) of a word. -/
def byteAt {w : Nat} (v : BitVec w) (i : Nat) : Byte := v.extractLsb' (8 * i) 8

/-- The `n` bytes of a scalar in the order in which a little endian host keeps them in memory. -/
def leBytes (n : Nat) (v : BitVec (8 * n)) : List Byte := (List.range n).map (byteAt v)

end PreCore
