import Verif.Model.Endian
/-!
# Model of datas/bitfield.hpp and datas/internal/bitfield.inl

A `BitField<BitMemberDecl<0,s0>, BitMemberDecl<1,s1>, ...>` is the list of its sizes `[s0, s1, ...]`
(`BitMemberDecl::index` is the position in that list).  Storage is a `BitVec w`.
Shifts are the C++ shifts for in-range shift counts; out-of-range counts (size 0 or size + position > w)
are undefined behaviour and are excluded by `LayoutOk` in the properties.
-/
namespace PreCore.BitField
open PreCore.Endian

/-- `struct BitMember` (bitfield.hpp:26-28). -/
structure BitMember where
  position : Nat
  size : Nat
deriving DecidableEq, Repr

/-- `BitMember::GetMask` (bitfield.hpp:30-35). -/
def BitMember.getMask (m : BitMember) (w : Nat) : BitVec w :=
  ((BitVec.allOnes w) >>> (w - m.size)) <<< m.position

/-- `BitMember::GetMirrorMask` (bitfield.hpp:37-42). -/
def BitMember.getMirrorMask (m : BitMember) (w : Nat) : BitVec w :=
  ((BitVec.allOnes w) >>> (w - m.size)) <<< (w - m.position - m.size)

/-- `BitField::totalSize` (bitfield.hpp:49, 75). -/
def totalSize : List Nat → Nat
  | [] => 0
  | s :: ss => s + totalSize ss

/-- `BitField::Get_` (bitfield.hpp:64-70 and 77-79); the last member answers for every index.
`none`: empty pack, does not compile. -/
def getAux : List Nat → Nat → Nat → Option BitMember
  | [], _, _ => none
  | [h], _, size => some ⟨size - totalSize [h], h⟩
  | h :: t, 0, size => some ⟨size - totalSize (h :: t), h⟩
  | _ :: t, index + 1, size => getAux t index size

/-- `BitField::Get` (bitfield.hpp:51-57). A one-member field has no `Get` (does not compile): `none`. -/
def get : List Nat → Nat → Option BitMember
  | h :: _ :: _, 0 => some ⟨0, h⟩
  | h :: t@(_ :: _), index + 1 => getAux t index (totalSize (h :: t))
  | _, _ => none

/-- `BitFieldType::Get` (bitfield.hpp:91-95). -/
def fieldGet {w : Nat} (m : BitMember) (value : BitVec w) : BitVec w :=
  (value &&& m.getMask w) >>> m.position

/-- `BitFieldType::Set` (bitfield.hpp:97-102). -/
def fieldSet {w : Nat} (m : BitMember) (value input : BitVec w) : BitVec w :=
  (value &&& ~~~ m.getMask w) ||| ((input <<< m.position) &&& m.getMask w)

/-- The loop of `SwapBitField`, `outWay == false` (bitfield.inl:40-46), over the members in order. -/
def swapInLoop {w : Nat} (input : BitVec w) (ms : List BitMember) : BitVec w :=
  ms.foldl (fun (newVal : BitVec w) (item : BitMember) =>
    newVal ||| ((input &&& item.getMirrorMask w) >>> (w - item.position - item.size)) <<< item.position) 0#w

/-- The loop of `SwapBitField`, `outWay == true` (bitfield.inl:52-58). -/
def swapOutLoop {w : Nat} (input : BitVec w) (ms : List BitMember) : BitVec w :=
  ms.foldl (fun (newVal : BitVec w) (item : BitMember) =>
    newVal ||| ((input &&& item.getMask w) >>> item.position) <<< (w - item.position - item.size)) 0#w

/-- Storage types: `uint8` or a type with a byte swap. (bitfield.inl:33-36) -/
inductive BWidth | w8 | wide (s : SWidth) deriving DecidableEq, Repr

/-- Width in bits. (bitfield.hpp:26-28) -/
def BWidth.bits : BWidth → Nat | .w8 => 8 | .wide s => 8 * s.bytes

/-- `if (sizeof(type) > 1) FByteswapper(input);` (bitfield.inl:37-39, 62-64). -/
def swapBytes : (b : BWidth) → BitVec b.bits → BitVec b.bits
  | .w8, v => v
  | .wide s, v => fbswap s v

/-- The members visited by `for (i = 0; i < numItems; i++) GetMember(i)`. (bitfield.inl:40-46, 52-58) -/
def members (sizes : List Nat) : List BitMember :=
  (List.range sizes.length).filterMap (get sizes)

/-- `BitFieldType::SwapEndian` / `SwapBitField` (bitfield.hpp:104-107, bitfield.inl:33-66). -/
def swapEndian (b : BWidth) (sizes : List Nat) (outWay : Bool) (input : BitVec b.bits) : BitVec b.bits :=
  if outWay then swapBytes b (swapOutLoop input (members sizes))
  else swapInLoop (swapBytes b input) (members sizes)

end PreCore.BitField
