import Verif.Model.BlockDecoder
import Verif.Model.Float32
/-!
# Model of the colours of formats/BlockDecoder.inl, of formats/BlockDecoder.h and of formats/BlockDecoderSimd.hpp

Floats are IEEE single precision, every operation rounded on its own (no fused multiply-add, no excess precision).
-/
namespace PreCore.Block
open PreCore.F32

/-- `static_cast<uint8>(f)` for a float that is not negative: the fraction is cut off; out of range is undefined (`none`).
(The conversions at BlockDecoder.inl:32-39, 72-87.) -/
def toUInt8 (f : F32) : Option Byte :=
  match val f with
  | .fin false m => if m / 2 ^ 149 < 256 then some (BitVec.ofNat 8 (m / 2 ^ 149)) else none
  | .fin true m => if m / 2 ^ 149 = 0 then some 0#8 else none
  | _ => none

/-- `1.0f`. (BlockDecoder.h:41-43) -/
def one : F32 := 0x3f800000
/-- The float of a small integer literal. (BlockDecoder.inl:32-39) -/
def lit (n : Nat) : F32 := ofNat64 n

/-- A channel of `DecodeRGB565Block` (BlockDecoder.h:39-44): the field times `1.0f / max`. -/
def channel (max c : Nat) : F32 := mul (ofInt32 (BitVec.ofNat 32 c)) (divFin one (lit max))

/-- `2.0f / 3.0f` and `1.0f / 3.0f`. (BlockDecoder.inl:32-39) -/
def twoThirds : F32 := divFin (lit 2) (lit 3)
/-- `1.0f / 3.0f` (BlockDecoder.inl:32-39). -/
def oneThird : F32 := divFin one (lit 3)

/-- One channel of an entry of `colors` with four colours (BlockDecoder.inl:32-39, 72-82): `a` and `b` are `color1`, `color2`. -/
def mix4 (a b : F32) : Nat → F32
  | 0 => mul a (lit 255)
  | 1 => mul b (lit 255)
  | 2 => mul (add (mul a twoThirds) (mul b oneThird)) (lit 255)
  | _ => mul (add (mul a oneThird) (mul b twoThirds)) (lit 255)

/-- One channel of an entry of `colors` with three colours (BlockDecoder.inl:72-73, 83-87). -/
def mix3 (a b : F32) : Nat → F32
  | 0 => mul a (lit 255)
  | 1 => mul b (lit 255)
  | _ => mul (add a b) (lit 127)

/-- Blue, green and red field of the colour in two bytes (BlockDecoder.h:40-43). -/
def fields (lo hi : Byte) : List Nat :=
  let c := lo.toNat + 256 * hi.toNat
  [c % 32, c / 32 % 64, c / 2048]

/-- The largest value of each field. (BlockDecoder.h:41-43) -/
def fieldMax : List Nat := [31, 63, 31]

/-- One entry of `colors` (three bytes); `none` if a conversion is undefined. `e` holds the four bytes of the two end colours
(other lengths do not occur and give zeros). (BlockDecoder.inl:32-39, 72-87) -/
def entry (mix : F32 → F32 → Nat → F32) (e : List Byte) (i : Nat) : Option (List Byte) :=
  match e with
  | [a, b, c, d] => ((fields a b).zip ((fields c d).zip fieldMax)).mapM fun p =>
      toUInt8 (mix (channel p.2.2 p.1) (channel p.2.2 p.2.1) i)
  | _ => some [0#8, 0#8, 0#8]

/-- `colors` of `_DecodeBC1Block` (BlockDecoder.inl:32-39). An undefined conversion, which never happens (`entry4_defined`), would give an empty list. -/
def palette4 (e : List Byte) (i : Nat) : List Byte := (entry mix4 e i).getD []

/-- `colors` of `_DecodeBC1BlockA` (BlockDecoder.inl:72-87). -/
def paletteA (e : List Byte) (i : Nat) : List Byte :=
  match e with
  | [a, b, c, d] =>
    if c.toNat + 256 * d.toNat < a.toNat + 256 * b.toNat then (entry mix4 e i).getD [] else (entry mix3 e i).getD []
  | _ => [0#8, 0#8, 0#8]

end PreCore.Block
