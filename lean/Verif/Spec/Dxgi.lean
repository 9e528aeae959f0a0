/-!
# Specification of texture formats

The formats of `DXGI_FORMAT` (DDS.hpp:23-144), in the order of the enumeration, and what Microsoft's documentation of the enumeration
(and of the legacy `D3DFORMAT` codes) says about the bits of a pixel.
-/
namespace PreCore.Spec

/-- How a texture format stores pixels. -/
inductive Layout
  /-- each pixel has channels of these widths -/
  | channels (bits : List Nat)
  /-- every 4 x 4 pixels are compressed into a block of this many bytes -/
  | block (bytes : Nat)
  /-- two pixels side by side share these channels -/
  | pairs (bits : List Nat)
  /-- planes, some of a lower resolution, that take this many bits for each pixel -/
  | planes (bits : Nat)
  /-- no format -/
  | none
deriving DecidableEq, Repr

/-- The formats and their layouts; the value of a format is its position. -/
def dxgi : List (String × Layout) := [
  ("UNKNOWN", .none),
  ("R32G32B32A32_TYPELESS", .channels [32, 32, 32, 32]),
  ("R32G32B32A32_FLOAT", .channels [32, 32, 32, 32]),
  ("R32G32B32A32_UINT", .channels [32, 32, 32, 32]),
  ("R32G32B32A32_SINT", .channels [32, 32, 32, 32]),
  ("R32G32B32_TYPELESS", .channels [32, 32, 32]),
  ("R32G32B32_FLOAT", .channels [32, 32, 32]),
  ("R32G32B32_UINT", .channels [32, 32, 32]),
  ("R32G32B32_SINT", .channels [32, 32, 32]),
  ("R16G16B16A16_TYPELESS", .channels [16, 16, 16, 16]),
  ("R16G16B16A16_FLOAT", .channels [16, 16, 16, 16]),
  ("R16G16B16A16_UNORM", .channels [16, 16, 16, 16]),
  ("R16G16B16A16_UINT", .channels [16, 16, 16, 16]),
  ("R16G16B16A16_SNORM", .channels [16, 16, 16, 16]),
  ("R16G16B16A16_SINT", .channels [16, 16, 16, 16]),
  ("R32G32_TYPELESS", .channels [32, 32]),
  ("R32G32_FLOAT", .channels [32, 32]),
  ("R32G32_UINT", .channels [32, 32]),
  ("R32G32_SINT", .channels [32, 32]),
  ("R32G8X24_TYPELESS", .channels [32, 8, 24]),
  ("D32_FLOAT_S8X24_UINT", .channels [32, 8, 24]),
  ("R32_FLOAT_X8X24_TYPELESS", .channels [32, 8, 24]),
  ("X32_TYPELESS_G8X24_UINT", .channels [32, 8, 24]),
  ("R10G10B10A2_TYPELESS", .channels [10, 10, 10, 2]),
  ("R10G10B10A2_UNORM", .channels [10, 10, 10, 2]),
  ("R10G10B10A2_UINT", .channels [10, 10, 10, 2]),
  ("R11G11B10_FLOAT", .channels [11, 11, 10]),
  ("R8G8B8A8_TYPELESS", .channels [8, 8, 8, 8]),
  ("R8G8B8A8_UNORM", .channels [8, 8, 8, 8]),
  ("R8G8B8A8_UNORM_SRGB", .channels [8, 8, 8, 8]),
  ("R8G8B8A8_UINT", .channels [8, 8, 8, 8]),
  ("R8G8B8A8_SNORM", .channels [8, 8, 8, 8]),
  ("R8G8B8A8_SINT", .channels [8, 8, 8, 8]),
  ("R16G16_TYPELESS", .channels [16, 16]),
  ("R16G16_FLOAT", .channels [16, 16]),
  ("R16G16_UNORM", .channels [16, 16]),
  ("R16G16_UINT", .channels [16, 16]),
  ("R16G16_SNORM", .channels [16, 16]),
  ("R16G16_SINT", .channels [16, 16]),
  ("R32_TYPELESS", .channels [32]),
  ("D32_FLOAT", .channels [32]),
  ("R32_FLOAT", .channels [32]),
  ("R32_UINT", .channels [32]),
  ("R32_SINT", .channels [32]),
  ("R24G8_TYPELESS", .channels [24, 8]),
  ("D24_UNORM_S8_UINT", .channels [24, 8]),
  ("R24_UNORM_X8_TYPELESS", .channels [24, 8]),
  ("X24_TYPELESS_G8_UINT", .channels [24, 8]),
  ("R8G8_TYPELESS", .channels [8, 8]),
  ("R8G8_UNORM", .channels [8, 8]),
  ("R8G8_UINT", .channels [8, 8]),
  ("R8G8_SNORM", .channels [8, 8]),
  ("R8G8_SINT", .channels [8, 8]),
  ("R16_TYPELESS", .channels [16]),
  ("R16_FLOAT", .channels [16]),
  ("D16_UNORM", .channels [16]),
  ("R16_UNORM", .channels [16]),
  ("R16_UINT", .channels [16]),
  ("R16_SNORM", .channels [16]),
  ("R16_SINT", .channels [16]),
  ("R8_TYPELESS", .channels [8]),
  ("R8_UNORM", .channels [8]),
  ("R8_UINT", .channels [8]),
  ("R8_SNORM", .channels [8]),
  ("R8_SINT", .channels [8]),
  ("A8_UNORM", .channels [8]),
  ("R1_UNORM", .channels [1]),
  ("R9G9B9E5_SHAREDEXP", .channels [9, 9, 9, 5]),
  ("R8G8_B8G8_UNORM", .pairs [8, 8, 8, 8]),
  ("G8R8_G8B8_UNORM", .pairs [8, 8, 8, 8]),
  ("BC1_TYPELESS", .block 8),
  ("BC1_UNORM", .block 8),
  ("BC1_UNORM_SRGB", .block 8),
  ("BC2_TYPELESS", .block 16),
  ("BC2_UNORM", .block 16),
  ("BC2_UNORM_SRGB", .block 16),
  ("BC3_TYPELESS", .block 16),
  ("BC3_UNORM", .block 16),
  ("BC3_UNORM_SRGB", .block 16),
  ("BC4_TYPELESS", .block 8),
  ("BC4_UNORM", .block 8),
  ("BC4_SNORM", .block 8),
  ("BC5_TYPELESS", .block 16),
  ("BC5_UNORM", .block 16),
  ("BC5_SNORM", .block 16),
  ("B5G6R5_UNORM", .channels [5, 6, 5]),
  ("B5G5R5A1_UNORM", .channels [5, 5, 5, 1]),
  ("B8G8R8A8_UNORM", .channels [8, 8, 8, 8]),
  ("B8G8R8X8_UNORM", .channels [8, 8, 8, 8]),
  ("R10G10B10_XR_BIAS_A2_UNORM", .channels [10, 10, 10, 2]),
  ("B8G8R8A8_TYPELESS", .channels [8, 8, 8, 8]),
  ("B8G8R8A8_UNORM_SRGB", .channels [8, 8, 8, 8]),
  ("B8G8R8X8_TYPELESS", .channels [8, 8, 8, 8]),
  ("B8G8R8X8_UNORM_SRGB", .channels [8, 8, 8, 8]),
  ("BC6H_TYPELESS", .block 16),
  ("BC6H_UF16", .block 16),
  ("BC6H_SF16", .block 16),
  ("BC7_TYPELESS", .block 16),
  ("BC7_UNORM", .block 16),
  ("BC7_UNORM_SRGB", .block 16),
  ("AYUV", .channels [8, 8, 8, 8]),
  ("Y410", .channels [10, 10, 10, 2]),
  ("Y416", .channels [16, 16, 16, 16]),
  ("NV12", .planes 12),
  ("P010", .planes 24),
  ("P016", .planes 24),
  ("420_OPAQUE", .planes 12),
  ("YUY2", .pairs [8, 8, 8, 8]),
  ("Y210", .pairs [16, 16, 16, 16]),
  ("Y216", .pairs [16, 16, 16, 16]),
  ("NV11", .planes 12),
  ("AI44", .channels [4, 4]),
  ("IA44", .channels [4, 4]),
  ("P8", .channels [8]),
  ("A8P8", .channels [8, 8]),
  ("B4G4R4A4_UNORM", .channels [4, 4, 4, 4]),
  ("P208", .planes 16),
  ("V208", .planes 16),
  ("V408", .planes 24),
  ("FORCE_UINT", .none)]

/-- Legacy codes: `D3DFORMAT` numbers, and four character codes. -/
def d3dNumbers : List (Nat × Layout) := [
  (36, .channels [16, 16, 16, 16]), (110, .channels [16, 16, 16, 16]), (111, .channels [16]), (112, .channels [16, 16]),
  (113, .channels [16, 16, 16, 16]), (114, .channels [32]), (115, .channels [32, 32]), (116, .channels [32, 32, 32, 32])]

def fourCCs : List (String × Layout) := [
  ("DXT1", .block 8), ("DXT2", .block 16), ("DXT3", .block 16), ("DXT4", .block 16), ("DXT5", .block 16),
  ("BC4U", .block 8), ("BC4S", .block 8), ("ATI1", .block 8), ("BC5U", .block 16), ("BC5S", .block 16), ("ATI2", .block 16),
  ("RBGB", .pairs [8, 8, 8, 8]), ("GRGB", .pairs [8, 8, 8, 8]), ("YUY2", .pairs [8, 8, 8, 8])]

/-- Four characters as the number they are in a little endian file. -/
def codeOf (s : String) : Nat := ((s.toList.map Char.toNat).zipIdx.map (fun p => p.1 * 256 ^ p.2)).sum

/-- Bits that one pixel takes. -/
def Layout.bits : Layout → Option Nat
  | .channels l => some l.sum
  | .block n => some (n * 8 / 16)
  | .pairs l => some (l.sum / 2)
  | .planes n => some n
  | .none => Option.none

end PreCore.Spec
