import Verif.Model.BlockDecoder
import Verif.Model.Mem
/-!
# Model of formats/BlockDecoderSimd.hpp

SSE registers are four 32 bit lanes (lane 0 lowest) or, for byte shuffles, their sixteen bytes in memory order.
-/
namespace PreCore.Block

/-- `IVector4A16` (vectors_simd.hpp:240-348, `V4SimdIntType_t<int32>`). -/
structure V4 where
  x : BitVec 32
  y : BitVec 32
  z : BitVec 32
  w : BitVec 32
deriving DecidableEq, Repr

/-- `IVector4A16(s)` (vectors_simd.hpp:266). -/
def V4.all (s : BitVec 32) : V4 := ⟨s, s, s, s⟩
/-- `operator*` (vectors_simd.hpp:282-284, `_mm_mullo_epi32`). -/
def V4.mul (a b : V4) : V4 := ⟨a.x * b.x, a.y * b.y, a.z * b.z, a.w * b.w⟩
/-- `operator+` (vectors_simd.hpp:276-278). -/
def V4.add (a b : V4) : V4 := ⟨a.x + b.x, a.y + b.y, a.z + b.z, a.w + b.w⟩
/-- `operator&` (vectors_simd.hpp:285-287). -/
def V4.and (a b : V4) : V4 := ⟨a.x &&& b.x, a.y &&& b.y, a.z &&& b.z, a.w &&& b.w⟩
/-- `operator>>` for signed lanes (vectors_simd.hpp:314-318, `_mm_srai_epi32`): the sign is kept. -/
def V4.sra (a : V4) (n : Nat) : V4 := ⟨a.x.sshiftRight n, a.y.sshiftRight n, a.z.sshiftRight n, a.w.sshiftRight n⟩
/-- `_mm_hadd_epi32`. (Intrinsic used in BlockDecoderSimd.hpp:33-92.) -/
def V4.hadd (a b : V4) : V4 := ⟨a.x + a.y, a.z + a.w, b.x + b.y, b.z + b.w⟩
/-- `_mm_unpacklo_epi32`. (Intrinsic used in BlockDecoderSimd.hpp:33-92.) -/
def V4.unpackLo32 (a b : V4) : V4 := ⟨a.x, b.x, a.y, b.y⟩
/-- `_mm_unpacklo_epi64`. (Intrinsic used in BlockDecoderSimd.hpp:33-92.) -/
def V4.unpackLo64 (a b : V4) : V4 := ⟨a.x, a.y, b.x, b.y⟩
/-- The sixteen bytes of a register. (Intrinsic used in BlockDecoderSimd.hpp:33-92.) -/
def V4.bytes (a : V4) : List Byte := toLE 4 a.x.toNat ++ toLE 4 a.y.toNat ++ toLE 4 a.z.toNat ++ toLE 4 a.w.toNat

/-- `_mm_shuffle_epi8`: a set top bit gives zero, otherwise the low four bits select a byte. (Intrinsic used in BlockDecoderSimd.hpp:33-92.) -/
def shuffle8 (a idx : List Byte) : List Byte := idx.map fun i => if i.getLsbD 7 then 0#8 else a.getD (i &&& 15#8).toNat 0#8

/-- `DecodeRGB565Blocks` (BlockDecoderSimd.hpp:22-31). -/
def decode565 (raw : BitVec 32) : V4 × V4 :=
  let cl00 := V4.all raw
  let cl0 := cl00.mul ⟨0x8000000, 0x200000, 0x10000, 0⟩
  let cl1 := cl00.mul ⟨0x800, 0x20, 0x1, 0⟩
  (cl0.sra 24, cl1.sra 24)

/-- One precomputed colour, shifted together (BlockDecoderSimd.hpp:47-63). -/
def collect (c : V4) : V4 :=
  let c := c.mul ⟨1, 0x100, 0x10000, 1⟩
  V4.hadd (V4.hadd c c) c

/-- `finalMix` (BlockDecoderSimd.hpp:36-68). -/
def finalMix (raw : BitVec 32) : V4 :=
  let (color0, color1) := decode565 raw
  let color2 := ((color0.mul (V4.all 0xaa)).add (color1.mul (V4.all 0x55))).sra 8
  let color3 := ((color0.mul (V4.all 0x55)).add (color1.mul (V4.all 0xaa))).sra 8
  V4.unpackLo64 (V4.unpackLo32 (collect color0) (collect color1)) (V4.unpackLo32 (collect color2) (collect color3))

/-- `finalIndices` for an index byte (BlockDecoderSimd.hpp:71-82); `char` is sign extended. -/
def finalIndices (d : Byte) : List Byte :=
  let cMask := ((V4.all (d.signExtend 32)).and ⟨0x3, 0xc, 0x30, 0xc0⟩).mul ⟨0x400, 0x100, 0x40, 0x10⟩
  let sfMask := shuffle8 cMask.bytes (V4.bytes ⟨0x01010101, 0x05050505, 0x09090909, 0x0d0d0d0d⟩)
  List.zipWith (· + ·) sfMask (V4.bytes ⟨0x03020100, 0x03020100, 0x03020100, 0x03020100⟩)

/-- The twelve bytes of a row (BlockDecoderSimd.hpp:83-90). -/
def rowBytes (mix : V4) (d : Byte) : List Byte :=
  let indexedMix := shuffle8 mix.bytes (finalIndices d)
  (shuffle8 indexedMix (V4.bytes ⟨0x04020100, 0x09080605, 0x0e0d0c0a, 0x10101010⟩)).take 12

/-- `_SDecodeBC1Block` (BlockDecoderSimd.hpp:33-92). -/
def decodeBC1Simd (data : Nat → Byte) (o : Nat) (w h width pixeloffset : BitVec 32) (buf : Buf) : Buf :=
  let raw := BitVec.ofNat 32 (leNat [data 0, data 1, data 2, data 3])
  perform w h width pixeloffset o ((List.range 4).map fun row => (row, 0, rowBytes (finalMix raw) (data (4 + row)))) buf

end PreCore.Block
