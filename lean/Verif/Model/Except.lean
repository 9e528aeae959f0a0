import Verif.Model.Mem
/-!
# Model of datas/except.hpp (`InvalidHeaderError`)

The text of the exceptions. `isalnum` is the one of the C locale (a `char` above 127 is passed as a negative number,
for which glibc's table answers no; the standard leaves it undefined). The host is little endian with 8 byte `size_t`.
-/
namespace PreCore.Except

/-- `isalnum` in the C locale. (Called at except.hpp:54.) -/
def isAlnum (c : Byte) : Bool :=
  (0x30 ≤ c.toNat && c.toNat ≤ 0x39) || (0x41 ≤ c.toNat && c.toNat ≤ 0x5a) || (0x61 ≤ c.toNat && c.toNat ≤ 0x7a)

/-- `char_traits<char>::length` of the 8 bytes of `magic` (except.hpp:48-50); `none`: no zero among them, the count
goes on behind the object. -/
def length : List Byte → Option Nat
  | [] => none
  | c :: cs => if c = 0#8 then some 0 else (length cs).map (· + 1)

/-- A digit of `%X`. (except.hpp:66-67) -/
def digit (n : Nat) : Byte := BitVec.ofNat 8 (if n < 10 then 0x30 + n else 0x37 + n)

/-- `snprintf(buffer, 8, "0x%X ", (unsigned char)c)` (except.hpp:66-67); at most 5 characters. -/
def hexPiece (c : Byte) : List Byte :=
  [0x30#8, 0x78#8] ++ (if c.toNat < 16 then [digit c.toNat] else [digit (c.toNat / 16), digit (c.toNat % 16)]) ++ [0x20#8]

/-- `DecompileFourCC` (except.hpp:47-73). -/
def decompile (magic : BitVec 64) (size : Nat) : Option (List Byte) :=
  let r := toLE 8 magic.toNat
  (length r).map fun len =>
    let cap := min size len
    let s := r.take cap
    if s.all isAlnum then s else s.flatMap hexPiece

/-- "Invalid format: ". (except.hpp:78-80) -/
def prefixText : List Byte :=
  [0x49, 0x6e, 0x76, 0x61, 0x6c, 0x69, 0x64, 0x20, 0x66, 0x6f, 0x72, 0x6d, 0x61, 0x74, 0x3a, 0x20].map (BitVec.ofNat 8)

/-- `InvalidHeaderError(T magic)` for `T = uint32` (except.hpp:78-80): the argument is zero extended. -/
def what32 (magic : BitVec 32) : Option (List Byte) :=
  (decompile (magic.zeroExtend 64) 4).map (prefixText ++ ·)

/-- For `T = int32` the argument is sign extended to `size_t`. (except.hpp:47-73) -/
def whatInt (magic : BitVec 32) : Option (List Byte) :=
  (decompile (magic.signExtend 64) 4).map (prefixText ++ ·)

/-- For `T = uint64`. (except.hpp:47-73) -/
def what64 (magic : BitVec 64) : Option (List Byte) := (decompile magic 8).map (prefixText ++ ·)

end PreCore.Except
