import Verif.Model.Base
/-!
# Model of formats/BlockDecoder.inl

The compressed block is a function from byte position to byte, the output buffer a function from address to byte.
`w`, `h` and `width` are counted in blocks. All index arithmetic is done on `uint32` as in the code.
The four colours of a colour block are computed in floating point by the code; they are the parameter `colors` here
(three bytes per colour, `UCVector`), everything else is modelled exactly.
-/
namespace PreCore.Block

/-- The output buffer. (Stores at BlockDecoder.inl:43-51, 128-141, 185-205.) -/
abbrev Buf := Nat → Byte

/-- `((h + row) * width + w + col) * pixeloffset` after `h *= 4; w *= 4; width *= 4;` (BlockDecoder.inl:28-30, 43-51, 162-205). -/
def pixelOffset (w h width pixeloffset : BitVec 32) (row col : Nat) : BitVec 32 :=
  ((h * 4#32 + BitVec.ofNat 32 row) * (width * 4#32) + w * 4#32 + BitVec.ofNat 32 col) * pixeloffset

/-- Storing bytes at an address. (Stores at BlockDecoder.inl:43-51, 128-141, 185-205.) -/
def store (buf : Buf) (at_ : Nat) (bytes : List Byte) : Buf :=
  fun a => if at_ ≤ a ∧ a < at_ + bytes.length then bytes.getD (a - at_) 0#8 else buf a

/-- The stores of a decoder in program order: row, column, bytes. (Stores at BlockDecoder.inl:43-51, 128-141, 185-205.) -/
abbrev Stores := List (Nat × Nat × List Byte)

/-- Performing the stores on `obuffer`. (Stores at BlockDecoder.inl:43-51, 128-141, 185-205.) -/
def perform (w h width pixeloffset : BitVec 32) (obuffer : Nat) (s : Stores) (buf : Buf) : Buf :=
  s.foldl (fun b p => store b (obuffer + (pixelOffset w h width pixeloffset p.1 p.2.1).toNat) p.2.2) buf

/-- The table of `_DecodeBC4Block` (BlockDecoder.inl:166-183). -/
def alphaTable (a0 a1 : Nat) (i : Nat) : Nat :=
  if a0 > a1 then
    match i with
    | 0 => a0
    | 1 => a1
    | 2 => (6 * a0 + 1 * a1) / 7
    | 3 => (5 * a0 + 2 * a1) / 7
    | 4 => (4 * a0 + 3 * a1) / 7
    | 5 => (3 * a0 + 4 * a1) / 7
    | 6 => (2 * a0 + 5 * a1) / 7
    | _ => (1 * a0 + 6 * a1) / 7
  else
    match i with
    | 0 => a0
    | 1 => a1
    | 2 => (4 * a0 + 1 * a1) / 5
    | 3 => (3 * a0 + 2 * a1) / 5
    | 4 => (2 * a0 + 3 * a1) / 5
    | 5 => (1 * a0 + 4 * a1) / 5
    | 6 => 0
    | _ => 255

/-- One turn of the loop of `_DecodeBC4Block` (BlockDecoder.inl:185-207), `data` pointing at byte `p`. The store takes the
first (low) byte of the `uint16` table entry. -/
def bc4Turn (data : Nat → Byte) (alpha : BitVec 8 → Byte) (b p : Nat) : Stores :=
  [(b, 0, [alpha (data p &&& 7#8)]),
   (b, 1, [alpha ((data p &&& 0x38#8) >>> 3)]),
   (b, 2, [alpha (((data p &&& 0xc0#8) >>> 6) ||| ((data (p + 1) &&& 1#8) <<< 2))]),
   (b, 3, [alpha ((data (p + 1) &&& 0xE#8) >>> 1)]),
   (b + 1, 0, [alpha ((data (p + 1) &&& 0x70#8) >>> 4)]),
   (b + 1, 1, [alpha (((data (p + 1) &&& 0x80#8) >>> 7) ||| ((data (p + 2) &&& 3#8) <<< 1))]),
   (b + 1, 2, [alpha ((data (p + 2) &&& 0x1c#8) >>> 2)]),
   (b + 1, 3, [alpha ((data (p + 2) &&& 0xE0#8) >>> 5)])]

/-- The stores of `_DecodeBC4Block` (BlockDecoder.inl:160-208), `data` pointing at byte `p`. -/
def bc4Stores (data : Nat → Byte) (p : Nat) : Stores :=
  let alpha := fun i : BitVec 8 => BitVec.ofNat 8 (alphaTable (data p).toNat (data (p + 1)).toNat i.toNat)
  bc4Turn data alpha 0 (p + 2) ++ bc4Turn data alpha 2 (p + 5)

/-- One row of `_DecodeBC2Block` (BlockDecoder.inl:128-141). -/
def bc2Row (data : Nat → Byte) (row p : Nat) : Stores :=
  [(row, 0, [(data p &&& 0xf#8) * 17#8]),
   (row, 1, [((data p &&& 0xf0#8) >>> 4) * 17#8]),
   (row, 2, [(data (p + 1) &&& 0xf#8) * 17#8]),
   (row, 3, [((data (p + 1) &&& 0xf0#8) >>> 4) * 17#8])]

/-- The stores of `_DecodeBC2Block` (BlockDecoder.inl:122-142). -/
def bc2Stores (data : Nat → Byte) (p : Nat) : Stores :=
  bc2Row data 0 p ++ bc2Row data 1 (p + 2) ++ bc2Row data 2 (p + 4) ++ bc2Row data 3 (p + 6)

/-- One row of the colour loops (BlockDecoder.inl:41-54). -/
def bc1Row (data : Nat → Byte) (colors : BitVec 8 → List Byte) (row p : Nat) : Stores :=
  [(row, 0, colors (data p &&& 3#8)),
   (row, 1, colors ((data p &&& 0xc#8) >>> 2)),
   (row, 2, colors ((data p &&& 0x30#8) >>> 4)),
   (row, 3, colors ((data p &&& 0xc0#8) >>> 6))]

/-- The stores of `_DecodeBC1Block` (BlockDecoder.inl:21-55), `data` pointing at byte `p`; the two end colours are the four
bytes from `p` on. -/
def bc1Stores (colors : List Byte → Nat → List Byte) (data : Nat → Byte) (p : Nat) : Stores :=
  let c := fun i : BitVec 8 => colors [data p, data (p + 1), data (p + 2), data (p + 3)] i.toNat
  bc1Row data c 0 (p + 4) ++ bc1Row data c 1 (p + 5) ++ bc1Row data c 2 (p + 6) ++ bc1Row data c 3 (p + 7)

/-- The alpha stores of one row of `_DecodeBC1BlockA` (BlockDecoder.inl:105-118); they come after the colour stores of the row. -/
def bc1AlphaRow (data : Nat → Byte) (row p : Nat) : Stores :=
  let v := fun d : BitVec 8 => if d = 3#8 then 0#8 else 0xff#8
  [(row, 0, [v (data p &&& 3#8)]),
   (row, 1, [v ((data p &&& 0xc#8) >>> 2)]),
   (row, 2, [v ((data p &&& 0x30#8) >>> 4)]),
   (row, 3, [v ((data p &&& 0xc0#8) >>> 6)])]

/-- `cl1 > cl2` (BlockDecoder.inl:63-66, 76). -/
def fourColours (data : Nat → Byte) : Bool :=
  (data 2).toNat + 256 * (data 3).toNat < (data 0).toNat + 256 * (data 1).toNat

/-- `DecodeBC1Block` (BlockDecoder.inl:155-158). -/
def decodeBC1 (colors : List Byte → Nat → List Byte) (data : Nat → Byte) (o : Nat) (w h width : BitVec 32) (buf : Buf) : Buf :=
  perform w h width 3#32 o (bc1Stores colors data 0) buf

/-- `DecodeBC1BlockA` (BlockDecoder.inl:57-120, 144-147): per row the four colour stores, then the four alpha stores when
`usealpha`. `colors` are the four colours of either branch (BlockDecoder.inl:72-87). -/
def decodeBC1A (colors : List Byte → Nat → List Byte) (data : Nat → Byte) (o : Nat) (w h width : BitVec 32) (buf : Buf) : Buf :=
  let c := fun i : BitVec 8 => colors [data 0, data 1, data 2, data 3] i.toNat
  let row := fun (r : Nat) (b : Buf) =>
    let b1 := perform w h width 4#32 o (bc1Row data c r (4 + r)) b
    if fourColours data then b1 else perform w h width 4#32 (o + 3) (bc1AlphaRow data r (4 + r)) b1
  row 3 (row 2 (row 1 (row 0 buf)))

/-- `DecodeBC2Block` (BlockDecoder.inl:149-153). -/
def decodeBC2 (colors : List Byte → Nat → List Byte) (data : Nat → Byte) (o : Nat) (w h width : BitVec 32) (buf : Buf) : Buf :=
  perform w h width 4#32 o (bc1Stores colors data 8) (perform w h width 4#32 (o + 3) (bc2Stores data 0) buf)

/-- `DecodeBC4Block` (BlockDecoder.inl:210-213). -/
def decodeBC4 (data : Nat → Byte) (o : Nat) (w h width : BitVec 32) (buf : Buf) : Buf :=
  perform w h width 1#32 o (bc4Stores data 0) buf

/-- `DecodeBC5Block` (BlockDecoder.inl:215-219). -/
def decodeBC5 (data : Nat → Byte) (o : Nat) (w h width : BitVec 32) (buf : Buf) : Buf :=
  perform w h width 3#32 (o + 2) (bc4Stores data 8) (perform w h width 3#32 (o + 1) (bc4Stores data 0) buf)

/-- `DecodeBC5BlockGA` (BlockDecoder.inl:221-225). -/
def decodeBC5GA (data : Nat → Byte) (o : Nat) (w h width : BitVec 32) (buf : Buf) : Buf :=
  perform w h width 2#32 (o + 1) (bc4Stores data 8) (perform w h width 2#32 o (bc4Stores data 0) buf)

/-- `DecodeBC3Block` (BlockDecoder.inl:227-231). -/
def decodeBC3 (colors : List Byte → Nat → List Byte) (data : Nat → Byte) (o : Nat) (w h width : BitVec 32) (buf : Buf) : Buf :=
  perform w h width 4#32 o (bc1Stores colors data 8) (perform w h width 4#32 (o + 3) (bc4Stores data 0) buf)

end PreCore.Block
