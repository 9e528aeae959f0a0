import Verif.Model.Float32
/-!
# Model of `GetFraction_t` (datas/supercore.hpp:60-80), the compile time fraction

`size_t` has 64 bits; nothing overflows for the widths the static assertion accepts.
-/
namespace PreCore.FractionT

/-- `_CMan` (supercore.hpp:64-66). -/
def cman (shiftVal : Nat) : Nat := if shiftVal > 24 then 0 else 2 ^ (24 - shiftVal)

/-- `_MantissaBuilder` (supercore.hpp:67-73); the first argument bounds the recursion (24 levels are the most for `numBits ≥ 1`). -/
def mantissa (numBits : Nat) : Nat → Nat → Nat → Nat
  | 0, last, _ => last
  | f + 1, last, off => if off > 23 then last / 2 else mantissa numBits f (last ||| cman (numBits + off)) (off + numBits)

/-- `GetFraction_t<numBits>::VALUE` (supercore.hpp:61-63, 75-79); `none`: refused by the static assertion. -/
def value (numBits : Nat) : Option Nat :=
  if 127 ≤ numBits then none
  else some (if numBits < 2 then 0x3f800000 else mantissa numBits 25 0 0 ||| ((0x7f ^^^ numBits) <<< 23))

end PreCore.FractionT
