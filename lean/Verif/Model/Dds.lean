import Verif.Model.Supercore
import Verif.Model.Flags
/-!
# Model of formats/DDS.hpp

Enumerators are their 32 bit values. The header is reduced to the members that the modelled functions read or write.
`ComputeBufferSize` writes into two arrays of fifteen elements: more mips than that are undefined behaviour (`none`).
-/
namespace PreCore.Dds

/-! Formats named by the conversion tables (enum `DXGI_FORMAT`, DDS.hpp:23-144; the value is the position). -/
/-- DDS.hpp:24 -/
abbrev UNKNOWN : BitVec 32 := 0#32
/-- DDS.hpp:26 -/
abbrev R32G32B32A32_FLOAT : BitVec 32 := 2#32
/-- DDS.hpp:34 -/
abbrev R16G16B16A16_FLOAT : BitVec 32 := 10#32
/-- DDS.hpp:35 -/
abbrev R16G16B16A16_UNORM : BitVec 32 := 11#32
/-- DDS.hpp:37 -/
abbrev R16G16B16A16_SNORM : BitVec 32 := 13#32
/-- DDS.hpp:40 -/
abbrev R32G32_FLOAT : BitVec 32 := 16#32
/-- DDS.hpp:48 -/
abbrev R10G10B10A2_UNORM : BitVec 32 := 24#32
/-- DDS.hpp:52 -/
abbrev R8G8B8A8_UNORM : BitVec 32 := 28#32
/-- DDS.hpp:53 -/
abbrev R8G8B8A8_UNORM_SRGB : BitVec 32 := 29#32
/-- DDS.hpp:58 -/
abbrev R16G16_FLOAT : BitVec 32 := 34#32
/-- DDS.hpp:59 -/
abbrev R16G16_UNORM : BitVec 32 := 35#32
/-- DDS.hpp:65 -/
abbrev R32_FLOAT : BitVec 32 := 41#32
/-- DDS.hpp:73 -/
abbrev R8G8_UNORM : BitVec 32 := 49#32
/-- DDS.hpp:78 -/
abbrev R16_FLOAT : BitVec 32 := 54#32
/-- DDS.hpp:79 -/
abbrev D16_UNORM : BitVec 32 := 55#32
/-- DDS.hpp:80 -/
abbrev R16_UNORM : BitVec 32 := 56#32
/-- DDS.hpp:85 -/
abbrev R8_UNORM : BitVec 32 := 61#32
/-- DDS.hpp:89 -/
abbrev A8_UNORM : BitVec 32 := 65#32
/-- DDS.hpp:92 -/
abbrev R8G8_B8G8_UNORM : BitVec 32 := 68#32
/-- DDS.hpp:93 -/
abbrev G8R8_G8B8_UNORM : BitVec 32 := 69#32
/-- DDS.hpp:95 -/
abbrev BC1_UNORM : BitVec 32 := 71#32
/-- DDS.hpp:96 -/
abbrev BC1_UNORM_SRGB : BitVec 32 := 72#32
/-- DDS.hpp:98 -/
abbrev BC2_UNORM : BitVec 32 := 74#32
/-- DDS.hpp:99 -/
abbrev BC2_UNORM_SRGB : BitVec 32 := 75#32
/-- DDS.hpp:101 -/
abbrev BC3_UNORM : BitVec 32 := 77#32
/-- DDS.hpp:102 -/
abbrev BC3_UNORM_SRGB : BitVec 32 := 78#32
/-- DDS.hpp:104 -/
abbrev BC4_UNORM : BitVec 32 := 80#32
/-- DDS.hpp:105 -/
abbrev BC4_SNORM : BitVec 32 := 81#32
/-- DDS.hpp:107 -/
abbrev BC5_UNORM : BitVec 32 := 83#32
/-- DDS.hpp:108 -/
abbrev BC5_SNORM : BitVec 32 := 84#32
/-- DDS.hpp:109 -/
abbrev B5G6R5_UNORM : BitVec 32 := 85#32
/-- DDS.hpp:110 -/
abbrev B5G5R5A1_UNORM : BitVec 32 := 86#32
/-- DDS.hpp:111 -/
abbrev B8G8R8A8_UNORM : BitVec 32 := 87#32
/-- DDS.hpp:112 -/
abbrev B8G8R8X8_UNORM : BitVec 32 := 88#32
/-- DDS.hpp:115 -/
abbrev B8G8R8A8_UNORM_SRGB : BitVec 32 := 91#32
/-- DDS.hpp:117 -/
abbrev B8G8R8X8_UNORM_SRGB : BitVec 32 := 93#32
/-- DDS.hpp:119 -/
abbrev BC6H_UF16 : BitVec 32 := 95#32
/-- DDS.hpp:120 -/
abbrev BC6H_SF16 : BitVec 32 := 96#32
/-- DDS.hpp:122 -/
abbrev BC7_UNORM : BitVec 32 := 98#32
/-- DDS.hpp:123 -/
abbrev BC7_UNORM_SRGB : BitVec 32 := 99#32
/-- DDS.hpp:131 -/
abbrev YUY2 : BitVec 32 := 107#32
/-- DDS.hpp:139 -/
abbrev B4G4R4A4_UNORM : BitVec 32 := 115#32

/-- `CompileFourCC` of a four character literal (supercore.hpp:38-46, modelled in `Verif.Model.Supercore`). -/
abbrev cc (a b c d : Char) : BitVec 32 :=
  Supercore.compileFourCC (BitVec.ofNat 8 a.toNat) (BitVec.ofNat 8 b.toNat) (BitVec.ofNat 8 c.toNat) (BitVec.ofNat 8 d.toNat)

/-- `DDS_PixelFormat` without the constant `pfSize` (DDS.hpp:262-301); `==` compares exactly these members. -/
structure PixelFormat where
  pfFlags : BitVec 32
  fourCC : BitVec 32
  bpp : BitVec 32
  r : BitVec 32
  g : BitVec 32
  b : BitVec 32
  a : BitVec 32
deriving DecidableEq, Repr

/-- `PFFlags` words (DDS.hpp:265-274, flags.hpp): FourCC, RGB, RGB and AlphaPixels, Luminance, Luminance and AlphaPixels, Alpha. -/
abbrev fFourCC : BitVec 32 := Flags.unpack 0#32 [2]
/-- see `fFourCC` (DDS.hpp:265-274) -/
abbrev fRGB : BitVec 32 := Flags.unpack 0#32 [6]
/-- see `fFourCC` (DDS.hpp:265-274) -/
abbrev fRGBA : BitVec 32 := Flags.unpack 0#32 [6, 0]
/-- see `fFourCC` (DDS.hpp:265-274) -/
abbrev fLum : BitVec 32 := Flags.unpack 0#32 [17]
/-- see `fFourCC` (DDS.hpp:265-274) -/
abbrev fLumA : BitVec 32 := Flags.unpack 0#32 [17, 0]
/-- see `fFourCC` (DDS.hpp:265-274) -/
abbrev fAlpha : BitVec 32 := Flags.unpack 0#32 [1]

/-- `DDS_PixelFormat(fourCC, bpp)` (DDS.hpp:288-289). -/
abbrev pfCC (c bpp : BitVec 32) : PixelFormat := ⟨fFourCC, c, bpp, 0#32, 0#32, 0#32, 0#32⟩

/-- `DDS_PixelFormat(flags, bpp, masks)` (DDS.hpp:290-293). -/
abbrev pfMask (fl bpp r g b a : BitVec 32) : PixelFormat := ⟨fl, 0#32, bpp, r, g, b, a⟩

/-- `DDSFormat_DXT1` (DDS.hpp:303) -/
abbrev fmtDXT1 : PixelFormat := pfCC (cc 'D' 'X' 'T' '1') 4#32
/-- `DDSFormat_DXT2` (DDS.hpp:304) -/
abbrev fmtDXT2 : PixelFormat := pfCC (cc 'D' 'X' 'T' '2') 8#32
/-- `DDSFormat_DXT3` (DDS.hpp:305) -/
abbrev fmtDXT3 : PixelFormat := pfCC (cc 'D' 'X' 'T' '3') 8#32
/-- `DDSFormat_DXT4` (DDS.hpp:306) -/
abbrev fmtDXT4 : PixelFormat := pfCC (cc 'D' 'X' 'T' '4') 8#32
/-- `DDSFormat_DXT5` (DDS.hpp:307) -/
abbrev fmtDXT5 : PixelFormat := pfCC (cc 'D' 'X' 'T' '5') 8#32
/-- `DDSFormat_BC4U` (DDS.hpp:309) -/
abbrev fmtBC4U : PixelFormat := pfCC (cc 'B' 'C' '4' 'U') 4#32
/-- `DDSFormat_BC4S` (DDS.hpp:310) -/
abbrev fmtBC4S : PixelFormat := pfCC (cc 'B' 'C' '4' 'S') 4#32
/-- `DDSFormat_BC5U` (DDS.hpp:311) -/
abbrev fmtBC5U : PixelFormat := pfCC (cc 'B' 'C' '5' 'U') 8#32
/-- `DDSFormat_BC5S` (DDS.hpp:312) -/
abbrev fmtBC5S : PixelFormat := pfCC (cc 'B' 'C' '5' 'S') 8#32
/-- `DDSFormat_R8G8_B8G8` (DDS.hpp:314) -/
abbrev fmtR8G8_B8G8 : PixelFormat := pfCC (cc 'R' 'B' 'G' 'B') 32#32
/-- `DDSFormat_G8R8_G8B8` (DDS.hpp:315) -/
abbrev fmtG8R8_G8B8 : PixelFormat := pfCC (cc 'G' 'R' 'G' 'B') 32#32
/-- `DDSFormat_UYVY` (DDS.hpp:316) -/
abbrev fmtUYVY : PixelFormat := pfCC (cc 'U' 'Y' 'V' 'Y') 32#32
/-- `DDSFormat_YUY2` (DDS.hpp:317) -/
abbrev fmtYUY2 : PixelFormat := pfCC (cc 'Y' 'U' 'Y' '2') 32#32
/-- `DDSFormat_ATI1` (DDS.hpp:319) -/
abbrev fmtATI1 : PixelFormat := pfCC (cc 'A' 'T' 'I' '1') 4#32
/-- `DDSFormat_ATI2` (DDS.hpp:320) -/
abbrev fmtATI2 : PixelFormat := pfCC (cc 'A' 'T' 'I' '2') 8#32
/-- `DDSFormat_DX10` (DDS.hpp:322) -/
abbrev fmtDX10 : PixelFormat := pfCC (cc 'D' 'X' '1' '0') 0#32
/-- `DDSFormat_A2B10G10R10` (DDS.hpp:324-326) -/
abbrev fmtA2B10G10R10 : PixelFormat := pfMask fRGBA 32#32 0x000003ff#32 0x000ffc00#32 0x3ff00000#32 0x00000000#32
/-- `DDSFormat_A8R8G8B8` (DDS.hpp:327-329) -/
abbrev fmtA8R8G8B8 : PixelFormat := pfMask fRGBA 32#32 0x00ff0000#32 0x0000ff00#32 0x000000ff#32 0xff000000#32
/-- `DDSFormat_A1R5G5B5` (DDS.hpp:330-332) -/
abbrev fmtA1R5G5B5 : PixelFormat := pfMask fRGBA 16#32 0x00007c00#32 0x000003e0#32 0x0000001f#32 0x00008000#32
/-- `DDSFormat_A4R4G4B4` (DDS.hpp:333-335) -/
abbrev fmtA4R4G4B4 : PixelFormat := pfMask fRGBA 16#32 0x00000f00#32 0x000000f0#32 0x0000000f#32 0x0000f000#32
/-- `DDSFormat_A8L8` (DDS.hpp:336-338) -/
abbrev fmtA8L8 : PixelFormat := pfMask fLumA 16#32 0x000000ff#32 0x00000000#32 0x00000000#32 0x0000ff00#32
/-- `DDSFormat_X8R8G8B8` (DDS.hpp:340-342) -/
abbrev fmtX8R8G8B8 : PixelFormat := pfMask fRGB 32#32 0x00ff0000#32 0x0000ff00#32 0x000000ff#32 0x00000000#32
/-- `DDSFormat_G16R16` (DDS.hpp:343-345) -/
abbrev fmtG16R16 : PixelFormat := pfMask fRGB 32#32 0x0000ffff#32 0xffff0000#32 0x00000000#32 0x00000000#32
/-- `DDSFormat_R8G8B8` (DDS.hpp:346-348) -/
abbrev fmtR8G8B8 : PixelFormat := pfMask fRGB 24#32 0x00ff0000#32 0x0000ff00#32 0x000000ff#32 0x00000000#32
/-- `DDSFormat_R5G6B5` (DDS.hpp:349-351) -/
abbrev fmtR5G6B5 : PixelFormat := pfMask fRGB 16#32 0x0000f800#32 0x000007e0#32 0x0000001f#32 0x00000000#32
/-- `DDSFormat_L16` (DDS.hpp:352-354) -/
abbrev fmtL16 : PixelFormat := pfMask fLum 16#32 0x0000ffff#32 0x00000000#32 0x00000000#32 0x00000000#32
/-- `DDSFormat_L8` (DDS.hpp:355-357) -/
abbrev fmtL8 : PixelFormat := pfMask fLum 8#32 0x000000ff#32 0x00000000#32 0x00000000#32 0x00000000#32
/-- `DDSFormat_A8` (DDS.hpp:358-360) -/
abbrev fmtA8 : PixelFormat := pfMask fAlpha 8#32 0x00000000#32 0x00000000#32 0x00000000#32 0x000000ff#32

/-- The unnamed B8G8R8A8 format (DDS.hpp:630-633, 774-777). -/
abbrev fmtB8G8R8A8 : PixelFormat := pfMask fRGBA 32#32 0x000000ff#32 0x0000ff00#32 0x00ff0000#32 0xff000000#32
/-- The unnamed B8G8R8X8 format (DDS.hpp:636-639, 781-784). -/
abbrev fmtB8G8R8X8 : PixelFormat := pfMask fRGBA 32#32 0x000000ff#32 0x0000ff00#32 0x00ff0000#32 0x00000000#32
/-- The unnamed B4G4R4A4 format (DDS.hpp:642-645, 787-790). -/
abbrev fmtB4G4R4A4 : PixelFormat := pfMask fRGBA 16#32 0x0000000f#32 0x000000f0#32 0x00000f00#32 0x0000f000#32

/-- `AlphaMode_Premultiplied` (DDS.hpp:376). -/
abbrev premultiplied : BitVec 32 := 2#32

/-- The members of `DDS` used below (DDS.hpp:211-235, 237-260, 362-391). -/
structure Header where
  flags : BitVec 32
  height : BitVec 32
  width : BitVec 32
  mipMapCount : BitVec 32
  pf : PixelFormat
  caps00 : BitVec 32
  dxgiFormat : BitVec 32
  alphaMode : BitVec 32
deriving DecidableEq, Repr

/-- `NumMipmaps(int)` (DDS.hpp:400-407). -/
def numMipmaps (d : Header) (num : BitVec 32) : Header :=
  let usesMips := decide (1 < num.toInt)
  { d with mipMapCount := num, caps00 := Flags.set (Flags.set d.caps00 3 usesMips) 22 usesMips, flags := Flags.set d.flags 17 usesMips }

/-- `_bpps` (DDS.hpp:175-182). -/
def bpps : List (BitVec 32) := [0, 128, 128, 128, 128, 96, 96, 96, 96, 64, 64, 64, 64, 64, 64, 64, 64, 64, 64, 64, 64, 64, 64, 32, 32, 32, 32, 32, 32, 32, 32, 32, 32, 32, 32, 32, 32, 32, 32, 32, 32, 32, 32, 32, 32, 32, 32, 32, 16, 16, 16, 16, 16, 16, 16, 16, 16, 16, 16, 16, 8, 8, 8, 8, 8, 8, 1, 32, 32, 32, 4, 4, 4, 8, 8, 8, 8, 8, 8, 4, 4, 4, 8, 8, 8, 16, 16, 32, 32, 32, 32, 32, 32, 32, 8, 8, 8, 8, 8, 8, 32, 32, 64, 12, 32, 64, 32, 32, 32, 64, 0, 0, 0, 0, 0, 16, 0, 0, 0, 0]

/-- `IsBC` (DDS.hpp:146-173); the case labels as values. -/
def isBC (f : BitVec 32) : Bool := [70#32, 71#32, 72#32, 73#32, 74#32, 75#32, 76#32, 77#32, 78#32, 79#32, 80#32, 81#32, 82#32, 83#32, 84#32, 94#32, 95#32, 96#32, 97#32, 98#32, 99#32].contains f

/-- `ComputeBPP` (DDS.hpp:409-457). A format outside of the table is an out of bounds read (`none`). -/
def computeBPP (d : Header) : Option Header :=
  if d.pf.bpp ≠ 0#32 then some d
  else if d.pf = fmtDX10 then (bpps[d.dxgiFormat.toNat]?).map (fun b => { d with pf := { d.pf with bpp := b } })
  else
    let c := d.pf.fourCC
    let set := fun (b : BitVec 32) => some { d with pf := { d.pf with bpp := b } }
    if c = 36#32 ∨ c = 110#32 ∨ c = 113#32 ∨ c = 115#32 then set 64#32
    else if c = 111#32 then set 16#32
    else if c = 112#32 ∨ c = 114#32 ∨ c = cc 'R' 'B' 'G' 'B' ∨ c = cc 'G' 'R' 'G' 'B' ∨ c = cc 'Y' 'U' 'Y' '2' then set 32#32
    else if c = 116#32 then set 128#32
    else if c = cc 'D' 'X' 'T' '1' ∨ c = cc 'B' 'C' '4' 'U' ∨ c = cc 'A' 'T' 'I' '1' ∨ c = cc 'B' 'C' '4' 'S' then set 4#32
    else if c = cc 'D' 'X' 'T' '2' ∨ c = cc 'D' 'X' 'T' '3' ∨ c = cc 'D' 'X' 'T' '4' ∨ c = cc 'D' 'X' 'T' '5' ∨ c = cc 'B' 'C' '5' 'U'
      ∨ c = cc 'A' 'T' 'I' '2' ∨ c = cc 'B' 'C' '5' 'S' then set 8#32
    else some d

/-- The choice of `useBlockCompression` (DDS.hpp:475-514). -/
def useBlockCompression (d : Header) : Bool :=
  if d.dxgiFormat ≠ 0#32 then
    [BC1_UNORM, BC1_UNORM_SRGB, BC2_UNORM, BC2_UNORM_SRGB, BC3_UNORM, BC3_UNORM_SRGB, BC4_UNORM, BC4_SNORM, BC5_UNORM, BC5_SNORM,
      BC6H_UF16, BC6H_SF16, BC7_UNORM, BC7_UNORM_SRGB].contains d.dxgiFormat
  else
    [cc 'D' 'X' 'T' '1', cc 'D' 'X' 'T' '2', cc 'D' 'X' 'T' '3', cc 'D' 'X' 'T' '4', cc 'D' 'X' 'T' '5', cc 'B' 'C' '4' 'U', cc 'A' 'T' 'I' '1',
      cc 'B' 'C' '4' 'S', cc 'B' 'C' '5' 'U', cc 'A' 'T' 'I' '2', cc 'B' 'C' '5' 'S'].contains d.pf.fourCC

/-- One mip level (DDS.hpp:517-524). -/
def mipSize (block : Bool) (bpp w h : BitVec 32) : BitVec 32 :=
  let (w', h') := if block ∧ w * h < 16#32 then (4#32, 4#32) else (w, h)
  ((w' * h' * bpp) + 7#32) / 8#32

/-- The loop over the mips (DDS.hpp:516-529): the `(size, offset)` pairs written from here on and `fullBuffer` at the end. -/
def mipLoop (block : Bool) (bpp : BitVec 32) : Nat → (w h full : BitVec 32) → List (BitVec 32 × BitVec 32) × BitVec 32
  | 0, _, _, full => ([], full)
  | n + 1, w, h, full =>
    let size := mipSize block bpp w h
    let rest := mipLoop block bpp n (w / 2#32) (h / 2#32) (full + size)
    ((size, full) :: rest.1, rest.2)

/-- `ComputeBufferSize` (DDS.hpp:465-532): mips and returned size. -/
def computeBufferSize (d : Header) : Option (List (BitVec 32 × BitVec 32) × BitVec 32) :=
  if d.pf.bpp = 0#32 then some ([], 0#32)
  else
    let mipCount := if d.mipMapCount ≠ 0#32 then d.mipMapCount else 1#32
    if mipCount.toNat ≤ 15 then some (mipLoop (useBlockCompression d) d.pf.bpp mipCount.toNat d.width d.height 0#32) else none

/-- The first switch of `FromLegacy` (DDS.hpp:537-605): format and, for the premultiplied ones, the alpha mode. -/
def fromFourCC (c : BitVec 32) : Option (BitVec 32 × Option (BitVec 32)) :=
  if c = 36#32 then some (R16G16B16A16_UNORM, none)
  else if c = 110#32 then some (R16G16B16A16_SNORM, none)
  else if c = 111#32 then some (R16_FLOAT, none)
  else if c = 112#32 then some (R16G16_FLOAT, none)
  else if c = 113#32 then some (R16G16B16A16_FLOAT, none)
  else if c = 114#32 then some (R32_FLOAT, none)
  else if c = 115#32 then some (R32G32_FLOAT, none)
  else if c = 116#32 then some (R32G32B32A32_FLOAT, none)
  else if c = cc 'D' 'X' 'T' '1' then some (BC1_UNORM, none)
  else if c = cc 'D' 'X' 'T' '2' then some (BC2_UNORM, some premultiplied)
  else if c = cc 'D' 'X' 'T' '3' then some (BC2_UNORM, none)
  else if c = cc 'D' 'X' 'T' '4' then some (BC3_UNORM, some premultiplied)
  else if c = cc 'D' 'X' 'T' '5' then some (BC3_UNORM, none)
  else if c = cc 'B' 'C' '4' 'U' ∨ c = cc 'A' 'T' 'I' '1' then some (BC4_UNORM, none)
  else if c = cc 'B' 'C' '4' 'S' then some (BC4_SNORM, none)
  else if c = cc 'B' 'C' '5' 'U' ∨ c = cc 'A' 'T' 'I' '2' then some (BC5_UNORM, none)
  else if c = cc 'B' 'C' '5' 'S' then some (BC5_SNORM, none)
  else if c = cc 'R' 'B' 'G' 'B' then some (R8G8_B8G8_UNORM, none)
  else if c = cc 'G' 'R' 'G' 'B' then some (G8R8_G8B8_UNORM, none)
  else if c = cc 'Y' 'U' 'Y' '2' then some (YUY2, none)
  else none

/-- The comparisons after the switch (DDS.hpp:611-648). -/
def fromMasks (p : PixelFormat) : Option (BitVec 32) :=
  if p = fmtA2B10G10R10 then some R10G10B10A2_UNORM
  else if p = fmtA8R8G8B8 then some R8G8B8A8_UNORM
  else if p = fmtG16R16 then some R16G16_UNORM
  else if p = fmtA8 then some A8_UNORM
  else if p = fmtR5G6B5 then some B5G6R5_UNORM
  else if p = fmtA1R5G5B5 then some B5G5R5A1_UNORM
  else if p = fmtA8L8 then some R8G8_UNORM
  else if p = fmtL16 then some R16_UNORM
  else if p = fmtL8 then some R8_UNORM
  else if p = fmtB8G8R8A8 then some B8G8R8A8_UNORM
  else if p = fmtB8G8R8X8 then some B8G8R8X8_UNORM
  else if p = fmtB4G4R4A4 then some B4G4R4A4_UNORM
  else none

/-- `FromLegacy` (DDS.hpp:534-655): the header afterwards and the returned code. -/
def fromLegacy (d : Header) : Header × Nat :=
  match fromFourCC d.pf.fourCC with
  | some (f, none) => ({ d with dxgiFormat := f, pf := fmtDX10 }, 0)
  | some (f, some m) => ({ d with dxgiFormat := f, alphaMode := m, pf := fmtDX10 }, 0)
  | none =>
    match fromMasks d.pf with
    | some f => ({ d with dxgiFormat := f, pf := fmtDX10 }, 0)
    | none => (d, 1)

/-- The first switch of `ToLegacy` (DDS.hpp:660-744). -/
def legacyOf (f alphaMode : BitVec 32) : Option PixelFormat :=
  if f = R16G16B16A16_UNORM then some (pfCC 36#32 64#32)
  else if f = R16G16B16A16_SNORM then some (pfCC 110#32 64#32)
  else if f = R16G16B16A16_FLOAT then some (pfCC 113#32 64#32)
  else if f = R10G10B10A2_UNORM then some (fmtA2B10G10R10)
  else if f = R8G8B8A8_UNORM then some (fmtA8R8G8B8)
  else if f = R16G16_UNORM then some (fmtG16R16)
  else if f = R16_FLOAT then some (pfCC 111#32 16#32)
  else if f = R16G16_FLOAT then some (pfCC 112#32 32#32)
  else if f = R32_FLOAT then some (pfCC 114#32 32#32)
  else if f = R32G32_FLOAT then some (pfCC 115#32 64#32)
  else if f = R32G32B32A32_FLOAT then some (pfCC 116#32 128#32)
  else if f = A8_UNORM then some (fmtA8)
  else if f = R8G8_B8G8_UNORM then some (fmtR8G8_B8G8)
  else if f = G8R8_G8B8_UNORM then some (fmtG8R8_G8B8)
  else if f = BC1_UNORM then some (fmtDXT1)
  else if f = BC2_UNORM then some (if alphaMode = premultiplied then fmtDXT2 else fmtDXT3)
  else if f = BC3_UNORM then some (if alphaMode = premultiplied then fmtDXT4 else fmtDXT5)
  else if f = BC4_UNORM then some (fmtBC4U)
  else if f = BC4_SNORM then some (fmtBC4S)
  else if f = BC5_UNORM then some (fmtATI2)
  else if f = BC5_SNORM then some (fmtBC5S)
  else if f = B5G6R5_UNORM then some (fmtR5G6B5)
  else if f = B5G5R5A1_UNORM then some (fmtA1R5G5B5)
  else if f = YUY2 then some (fmtYUY2)
  else none

/-- The second switch of `ToLegacy` (DDS.hpp:749-795). -/
def forcedLegacyOf (f : BitVec 32) : Option PixelFormat :=
  if f = R8G8B8A8_UNORM_SRGB then some fmtA8R8G8B8
  else if f = R8G8_UNORM then some fmtA8L8
  else if f = D16_UNORM ∨ f = R16_UNORM then some fmtL16
  else if f = R8_UNORM then some fmtL8
  else if f = BC1_UNORM_SRGB then some fmtDXT1
  else if f = BC2_UNORM_SRGB then some fmtDXT3
  else if f = BC3_UNORM_SRGB then some fmtDXT5
  else if f = B8G8R8A8_UNORM ∨ f = B8G8R8A8_UNORM_SRGB then some fmtB8G8R8A8
  else if f = B8G8R8X8_UNORM ∨ f = B8G8R8X8_UNORM_SRGB then some fmtB8G8R8X8
  else if f = B4G4R4A4_UNORM then some fmtB4G4R4A4
  else none

/-- `ToLegacy` (DDS.hpp:657-799). -/
def toLegacy (d : Header) (force : Bool) : Header × Nat :=
  match legacyOf d.dxgiFormat d.alphaMode with
  | some p => ({ d with pf := p }, 0)
  | none =>
    if force then
      match forcedLegacyOf d.dxgiFormat with
      | some p => ({ d with pf := p }, 0)
      | none => (d, 1)
    else (d, 1)

end PreCore.Dds
