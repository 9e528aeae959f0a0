import Verif.Model.Mem
/-!
# Model of datas/encrypt (xorenc.hpp, blowfish.h, blowfish.cpp, blowfish2.h)
-/
namespace PreCore.Crypt

/-- `XOREncoder::Encode` (xorenc.hpp:27-30), loop from index `ii` on.
`none`: `ii % key.size()` with an empty key (division by zero, undefined behaviour). -/
def xorLoop (key : List Byte) : Nat → List Byte → Option (List Byte)
  | _, [] => some []
  | ii, b :: bs =>
    match key[ii % key.length]? with
    | none => none
    | some k => (xorLoop key (ii + 1) bs).map (fun r => (b ^^^ k) :: r)

/-- `XOREncoder::Encode` (xorenc.hpp:27-30). -/
def xorEncode (key buffer : List Byte) : Option (List Byte) := xorLoop key 0 buffer

/-- `XOREncoder::Decode` (xorenc.hpp:32). -/
def xorDecode (key buffer : List Byte) : Option (List Byte) := xorEncode key buffer

/-! ## Blowfish -/

/-- The key schedule: `pboxes[18]`, `sboxes[1024]` (blowfish.h:38-39), and which of the two classes:
`rev = true` is `BlowfishEncoder` (`_item.b[3 - _id]`, blowfish.cpp:23), `rev = false` is
`BlowfishEncoder2` (`_item.b[_id]`, blowfish.cpp:495). Tables are total functions; only the indices
0..17 and 0..1023 are ever used. -/
structure Boxes where
  p : Nat → BitVec 32
  s : Nat → BitVec 32
  rev : Bool

/-- `_item.b[i]` of `union BFDataChunk` (blowfish.cpp:208-211) on a little endian host. -/
def chunkByte (d : BitVec 32) (i : Nat) : Nat := (d.extractLsb' (8 * i) 8).toNat

/-- `_BF_SBKEY(_item, _id)` (blowfish.cpp:23 and 495). -/
def sbKey1 (bx : Boxes) (d : BitVec 32) (id : Nat) : BitVec 32 :=
  bx.s (id * 256 + chunkByte d (if bx.rev then 3 - id else id))

/-- `BF_SBKEY` (blowfish.cpp:24-26). -/
def sbKey (bx : Boxes) (d : BitVec 32) : BitVec 32 :=
  ((sbKey1 bx d 0 + sbKey1 bx d 1) ^^^ sbKey1 bx d 2) + sbKey1 bx d 3

/-- The two halves `_val0`, `_val1`. (blowfish.cpp:214-216) -/
structure Halves where
  v0 : BitVec 32
  v1 : BitVec 32
deriving DecidableEq, Repr

/-- `BF_XOR(_val1, _val0, pid)` (blowfish.cpp:27). -/
def xor1 (bx : Boxes) (pid : Nat) (h : Halves) : Halves := { h with v1 := h.v1 ^^^ (sbKey bx h.v0 ^^^ bx.p pid) }
/-- `BF_XOR(_val0, _val1, pid)` (blowfish.cpp:27). -/
def xor0 (bx : Boxes) (pid : Nat) (h : Halves) : Halves := { h with v0 := h.v0 ^^^ (sbKey bx h.v1 ^^^ bx.p pid) }

/-- Body of `EncodeBlock` on the halves (blowfish.cpp:218-238 and 502-522), including the final exchange. -/
def encodeHalves (bx : Boxes) (h : Halves) : Halves :=
  let h := { h with v0 := h.v0 ^^^ bx.p 0 }
  let h := xor1 bx 1 h
  let h := xor0 bx 2 h
  let h := xor1 bx 3 h
  let h := xor0 bx 4 h
  let h := xor1 bx 5 h
  let h := xor0 bx 6 h
  let h := xor1 bx 7 h
  let h := xor0 bx 8 h
  let h := xor1 bx 9 h
  let h := xor0 bx 10 h
  let h := xor1 bx 11 h
  let h := xor0 bx 12 h
  let h := xor1 bx 13 h
  let h := xor0 bx 14 h
  let h := xor1 bx 15 h
  let h := xor0 bx 16 h
  let h := { h with v1 := h.v1 ^^^ bx.p 17 }
  ⟨h.v1, h.v0⟩

/-- Body of `DecodeBlock` on the halves (blowfish.cpp:246-266 and 530-550). -/
def decodeHalves (bx : Boxes) (h : Halves) : Halves :=
  let h := { h with v0 := h.v0 ^^^ bx.p 17 }
  let h := xor1 bx 16 h
  let h := xor0 bx 15 h
  let h := xor1 bx 14 h
  let h := xor0 bx 13 h
  let h := xor1 bx 12 h
  let h := xor0 bx 11 h
  let h := xor1 bx 10 h
  let h := xor0 bx 9 h
  let h := xor1 bx 8 h
  let h := xor0 bx 7 h
  let h := xor1 bx 6 h
  let h := xor0 bx 5 h
  let h := xor1 bx 4 h
  let h := xor0 bx 3 h
  let h := xor1 bx 2 h
  let h := xor0 bx 1 h
  let h := { h with v1 := h.v1 ^^^ bx.p 0 }
  ⟨h.v1, h.v0⟩

/-- Reading `val0`, `val1` out of the `uint64` (blowfish.cpp:214-216), little endian host. -/
def split (b : BitVec 64) : Halves := ⟨b.extractLsb' 0 32, b.extractLsb' 32 32⟩
/-- Writing them back (blowfish.cpp:237-238). -/
def join (h : Halves) : BitVec 64 := h.v1 ++ h.v0

/-- `EncodeBlock` (blowfish.cpp:213-239, 497-523). -/
def encodeBlock (bx : Boxes) (b : BitVec 64) : BitVec 64 := join (encodeHalves bx (split b))
/-- `DecodeBlock` (blowfish.cpp:241-267, 525-551). -/
def decodeBlock (bx : Boxes) (b : BitVec 64) : BitVec 64 := join (decodeHalves bx (split b))

/-- `enum Mode` (blowfish.h:29-36). -/
inductive Mode | ECB | CBC | PCBC | CFB | OFB deriving DecidableEq, Repr

/-- One iteration of the encoder loops: current block and `currentVector` in, new block and new
`currentVector` out.  ECB blowfish.cpp:319-323, CBC :345-347, PCBC :376-379, CFB :407-409, OFB :438-441. -/
def encStep (bx : Boxes) : Mode → BitVec 64 → BitVec 64 → BitVec 64 × BitVec 64
  | .ECB, cv, block => (encodeBlock bx block, cv)
  | .CBC, cv, block => let block := encodeBlock bx (block ^^^ cv); (block, block)
  | .PCBC, cv, block => let last := block; let block := encodeBlock bx (block ^^^ cv); (block, block ^^^ last)
  | .CFB, cv, block => let cv := encodeBlock bx cv; let block := block ^^^ cv; (block, block)
  | .OFB, cv, block => let cv := encodeBlock bx cv; let last := cv; let block := block ^^^ cv; (block, last)

/-- One iteration of the decoder loops: ECB blowfish.cpp:330-334, CBC :360-363, PCBC :392-395,
CFB :422-425, OFB :453-454. -/
def decStep (bx : Boxes) : Mode → BitVec 64 → BitVec 64 → BitVec 64 × BitVec 64
  | .ECB, cv, block => (decodeBlock bx block, cv)
  | .CBC, cv, block => let last := block; let block := decodeBlock bx block ^^^ cv; (block, last)
  | .PCBC, cv, block => let last := block; let block := decodeBlock bx block ^^^ cv; (block, block ^^^ last)
  | .CFB, cv, block => let cv := encodeBlock bx cv; let last := block; (block ^^^ cv, last)
  | .OFB, cv, block => let cv := encodeBlock bx cv; (block ^^^ cv, cv)

/-- `reinterpret_cast<uint64&>(*curBuffer)`: eight bytes as a word, little endian host. (blowfish.cpp:319-323) -/
def packBlock (bs : List Byte) : BitVec 64 := BitVec.ofNat 64 (leNat bs)

/-- The word written back into memory. (blowfish.cpp:319-323) -/
def unpackBlock (w : BitVec 64) : List Byte := toLE 8 w.toNat

/-- The `for (b = 0; b < numblocks; b++)` loop over the buffer; the trailing `size % 8` bytes are left
as they are (`restbytes` is computed and never used, blowfish.cpp:317 etc.). -/
def blockLoop (f : BitVec 64 → BitVec 64 → BitVec 64 × BitVec 64) (cv : BitVec 64) : List Byte → List Byte
  | b0 :: b1 :: b2 :: b3 :: b4 :: b5 :: b6 :: b7 :: rest =>
    let r := f cv (packBlock [b0, b1, b2, b3, b4, b5, b6, b7])
    unpackBlock r.1 ++ blockLoop f r.2 rest
  | tail => tail

/-- `const int numblocks = static_cast<int>(size / 8)` (blowfish.cpp:316 etc.), `size_t` of 64 bits: the value modulo `2^32` as a signed
number. -/
def numBlocks (size : Nat) : Int := ((size / 8 : Nat) : Int).bmod (2 ^ 32)

/-- A loop over a buffer (blowfish.cpp:315-456): the offset `8 * b` is an `int`, so more than `2^28` blocks overflow it (`none`); a
`numblocks` that is not positive runs no iteration; blocks after `numblocks` stay as they are. -/
def overBuffer (f : BitVec 64 → BitVec 64 → BitVec 64 × BitVec 64) (cv : BitVec 64) (buffer : List Byte) : Option (List Byte) :=
  let n := numBlocks buffer.length
  if 2 ^ 28 < n then none
  else some (blockLoop f cv (buffer.take (8 * n.toNat)) ++ buffer.drop (8 * n.toNat))

/-- `BlowfishEncoder::Encode` (blowfish.cpp:275-293). `none` = signed overflow of the index. -/
def encode (bx : Boxes) (mode : Mode) (eVector : BitVec 64) (buffer : List Byte) : Option (List Byte) :=
  overBuffer (encStep bx mode) eVector buffer

/-- `BlowfishEncoder::Decode` (blowfish.cpp:295-313). -/
def decode (bx : Boxes) (mode : Mode) (eVector : BitVec 64) (buffer : List Byte) : Option (List Byte) :=
  overBuffer (decStep bx mode) eVector buffer

/-! ### Key schedule -/

/-- `*(inKey + i % inSize)` promoted from (signed) `char` to `int`, as a 32 bit word (blowfish.cpp:470). -/
def keyChar (key : List Byte) (i : Nat) : Option (BitVec 32) :=
  (key[i % key.length]?).map (fun c => c.signExtend 32)

/-- `keyEntry` of `BlowfishEncoder::SetKey` (blowfish.cpp:469-473); `BlowfishEncoder2` uses the opposite
byte order (blowfish.cpp:562-566). `none`: empty key, `% 0`. -/
def keyEntry (rev : Bool) (key : List Byte) (i : Nat) : Option (BitVec 32) := do
  let c := i * 4
  let k0 ← keyChar key c
  let k1 ← keyChar key (c + 1)
  let k2 ← keyChar key (c + 2)
  let k3 ← keyChar key (c + 3)
  if rev then some (k3 ||| (k2 <<< 8) ||| (k1 <<< 16) ||| (k0 <<< 24))
  else some (k0 ||| (k1 <<< 8) ||| (k2 <<< 16) ||| (k3 <<< 24))

/-- The 18 key words XORed into the initial p-boxes (blowfish.cpp:468-476). -/
def keyMaterial (rev : Bool) (key : List Byte) : Option (List (BitVec 32)) :=
  (List.range 18).mapM (keyEntry rev key)

/-- Function update, for array stores. (Stores at blowfish.cpp:275-313.) -/
def upd {α : Type} (f : Nat → α) (i : Nat) (v : α) : Nat → α := fun j => if j = i then v else f j

/-- One iteration `EncodeBlock(lastblock); pboxes[i] = lo; pboxes[i+1] = hi` (blowfish.cpp:478-482). -/
def pStep (st : Boxes × BitVec 64) (i : Nat) : Boxes × BitVec 64 :=
  let lb := encodeBlock st.1 st.2
  ({ st.1 with p := upd (upd st.1.p i (split lb).v0) (i + 1) (split lb).v1 }, lb)

/-- The same for `sboxes` (blowfish.cpp:484-488). -/
def sStep (st : Boxes × BitVec 64) (i : Nat) : Boxes × BitVec 64 :=
  let lb := encodeBlock st.1 st.2
  ({ st.1 with s := upd (upd st.1.s i (split lb).v0) (i + 1) (split lb).v1 }, lb)

/-- `SetKey` (blowfish.cpp:458-489, 553-582) from the constant tables `P0`, `S0`
(`BF_PBOXES`, `BF_SBOXES`, blowfish.cpp:29-206; parameters here, the literals are in `BlowfishTables`). The vector created for chaining
modes (blowfish.cpp:459-460) is modelled by the separate `eVector` argument of `encode`. -/
def setKey (P0 S0 : Nat → BitVec 32) (rev : Bool) (key : List Byte) : Option Boxes :=
  (keyMaterial rev key).map fun km =>
    let p : Nat → BitVec 32 := fun i => P0 i ^^^ km.getD i 0#32
    let st : Boxes × BitVec 64 := ({ p := p, s := S0, rev := rev }, 0#64)
    let st := ((List.range 9).map (2 * ·)).foldl pStep st
    let st := ((List.range 512).map (2 * ·)).foldl sStep st
    st.1

end PreCore.Crypt
