import Verif.Model.EsFloat
import Verif.Model.Mem
/-!
# Model of the uni vertex formats (uni/format.hpp, uni/internal/format_full.hpp, uni/uni_format.cpp)

Memory behind the `input` pointer is the list of bytes from there to the end of the buffer; a load of `n` bytes beyond it is
`none` (out of bounds). An SSE vector is four 32 bit lanes; `UIVector4A16 >> k` is logical, `IVector4A16 >> k` arithmetic,
`*` is `mullo_epi32`. Converting between the two keeps the bits. Float lanes are bit patterns (`F32`).
-/
namespace PreCore.Uni
open PreCore PreCore.F32 PreCore.EsFloat

/-- `DataType` (format.hpp:34-53); `CUSTOM` has no codec. -/
inductive DataType
  | R32G32B32A32 | R32G32B32 | R16G16B16A16 | R32G32 | R16G16B16 | R32 | R16G16 | R10G10B10A2 | R11G11B10 | R8G8B8A8 | R24G8
  | R8G8B8 | R8G8 | R16 | R5G6B5 | R5G5B5A1 | R8
deriving DecidableEq, Repr

/-- `FormatType` (format.hpp:24-32). -/
inductive FormatType
  | INVALID | INT | UINT | NORM | UNORM | FLOAT | UFLOAT
deriving DecidableEq, Repr

/-- A 128 bit register as four lanes. (`IVector4A16`, `Vector4A16`, vectors_simd.hpp:29-348.) -/
structure Lanes where
  x : BitVec 32
  y : BitVec 32
  z : BitVec 32
  w : BitVec 32
deriving DecidableEq, Repr

/-- An operation on every lane (vectors_simd.hpp:297-319). -/
def Lanes.map (f : BitVec 32 → BitVec 32) (v : Lanes) : Lanes := ⟨f v.x, f v.y, f v.z, f v.w⟩
/-- An operation on the lanes of two registers (vectors_simd.hpp:92-112, 276-293). -/
def Lanes.zip (f : BitVec 32 → BitVec 32 → BitVec 32) (u v : Lanes) : Lanes := ⟨f u.x v.x, f u.y v.y, f u.z v.z, f u.w v.w⟩
/-- `_mm_set1_epi32`. (vectors_simd.hpp:266) -/
def Lanes.all (v : BitVec 32) : Lanes := ⟨v, v, v, v⟩

/-- `fmtStrides` (format_full.hpp:23-24), in bits. -/
def fmtStrides : DataType → Nat
  | .R32G32B32A32 => 128 | .R32G32B32 => 96 | .R16G16B16A16 => 64 | .R32G32 => 64 | .R16G16B16 => 48 | .R32 => 32
  | .R16G16 => 32 | .R10G10B10A2 => 32 | .R11G11B10 => 32 | .R8G8B8A8 => 32 | .R24G8 => 32 | .R8G8B8 => 24 | .R8G8 => 16
  | .R16 => 16 | .R5G6B5 => 16 | .R5G5B5A1 => 16 | .R8 => 8

/-- `fmtBitmasks` (format_full.hpp:34-53), as the four bytes of `BM`. -/
def fmtBitmasks : DataType → Nat × Nat × Nat × Nat
  | .R32G32B32A32 => (32, 32, 32, 32) | .R32G32B32 => (32, 32, 32, 0) | .R16G16B16A16 => (16, 16, 16, 16)
  | .R32G32 => (32, 32, 0, 0) | .R16G16B16 => (16, 16, 16, 0) | .R32 => (32, 0, 0, 0) | .R16G16 => (16, 16, 0, 0)
  | .R10G10B10A2 => (10, 10, 10, 2) | .R11G11B10 => (11, 11, 10, 0) | .R8G8B8A8 => (8, 8, 8, 8) | .R24G8 => (24, 8, 0, 0)
  | .R8G8B8 => (8, 8, 8, 0) | .R8G8 => (8, 8, 0, 0) | .R16 => (16, 0, 0, 0) | .R5G6B5 => (5, 6, 5, 0)
  | .R5G5B5A1 => (5, 5, 5, 1) | .R8 => (8, 0, 0, 0)

/-- A load of `n` bytes through a `reinterpret_cast` of the input pointer (little endian). (format_full.hpp:86-235) -/
def load (mem : List Byte) (n : Nat) : Option Nat := if n ≤ mem.length then some (leNat (mem.take n)) else none

/-- A member of a loaded structure: `width` bits from bit `off`, widened to a lane. (format_full.hpp:86-235) -/
def member (n off width : Nat) : BitVec 32 := BitVec.ofNat 32 (n / 2 ^ off % 2 ^ width)

/-- `FormatCodec_t<UINT, d>::GetValue` (format_full.hpp:86-235). -/
def getUInt (d : DataType) (mem : List Byte) : Option Lanes :=
  match d with
  | .R32G32B32A32 => do let n ← load mem 16; return ⟨member n 0 32, member n 32 32, member n 64 32, member n 96 32⟩
  | .R32G32B32 => do let n ← load mem 12; return ⟨member n 0 32, member n 32 32, member n 64 32, 0⟩
  | .R32G32 => do let n ← load mem 12; return ⟨member n 0 32, member n 32 32, 0, 0⟩
  | .R32 => do let n ← load mem 12; return ⟨member n 0 32, 0, 0, 0⟩
  | .R16G16B16A16 => do let n ← load mem 8; return ⟨member n 0 16, member n 16 16, member n 32 16, member n 48 16⟩
  | .R16G16B16 => do let n ← load mem 6; return ⟨member n 0 16, member n 16 16, member n 32 16, 0⟩
  | .R16G16 => do let n ← load mem 4; return ⟨member n 0 16, member n 16 16, 0, 0⟩
  | .R16 => do let n ← load mem 2; return ⟨member n 0 16, 0, 0, 0⟩
  | .R8G8B8A8 => do let n ← load mem 4; return ⟨member n 0 8, member n 8 8, member n 16 8, member n 24 8⟩
  | .R8G8B8 => do let n ← load mem 3; return ⟨member n 0 8, member n 8 8, member n 16 8, 0⟩
  | .R8G8 => do let n ← load mem 2; return ⟨member n 0 8, member n 8 8, 0, 0⟩
  | .R8 => do let n ← load mem 1; return ⟨member n 0 8, 0, 0, 0⟩
  | .R10G10B10A2 => do
    let n ← load mem 4
    let v := BitVec.ofNat 32 n
    return Lanes.zip (· &&& ·) ⟨v, v >>> 10, v >>> 20, v >>> 30⟩ ⟨0x3ff, 0x3ff, 0x3ff, 3⟩
  | .R11G11B10 => do
    let n ← load mem 4
    let v := BitVec.ofNat 32 n
    return Lanes.zip (· &&& ·) ⟨v, v >>> 11, v >>> 22, 0⟩ ⟨0x7ff, 0x7ff, 0x3ff, 0⟩
  | .R24G8 => do
    let n ← load mem 4
    let v := BitVec.ofNat 32 n
    return Lanes.zip (· &&& ·) ⟨v, v >>> 24, 0, 0⟩ ⟨0xffffff, 0xff, 0, 0⟩
  | .R5G6B5 => do
    let n ← load mem 2
    let v := BitVec.ofNat 32 n
    return Lanes.zip (· &&& ·) ⟨v, v >>> 5, v >>> 11, 0⟩ ⟨0x1f, 0x3f, 0x1f, 0⟩
  | .R5G5B5A1 => do
    let n ← load mem 2
    let v := BitVec.ofNat 32 n
    return Lanes.zip (· &&& ·) ⟨v, v >>> 5, v >>> 10, v >>> 15⟩ ⟨0x1f, 0x1f, 0x1f, 1⟩

/-- `sBit`: the sign bit of a channel (format_full.hpp:257-267). -/
def sBit (width : Nat) : BitVec 32 := if width = 0 then 0 else BitVec.ofNat 32 (2 ^ (width - 1))

/-- One lane of the signed codec (format_full.hpp:265-275). -/
def intLane (width : Nat) (out : BitVec 32) : BitVec 32 :=
  let sMaskLow := sBit width - 1
  let sMask := ((sMaskLow <<< 1) ||| 1) ^^^ 0xffffffff#32
  let negated := out ||| sMask
  if sMaskLow.slt out then negated else out

/-- `FormatCodec_t<INT, d>::GetValue` (format_full.hpp:241-289). -/
def getInt (d : DataType) (mem : List Byte) : Option Lanes :=
  match d with
  | .R32G32B32A32 | .R32G32B32 | .R32G32 | .R32 => getUInt d mem
  | _ => do
    let out ← getUInt d mem
    let (a, b, c, e) := fmtBitmasks d
    return ⟨intLane a out.x, intLane b out.y, intLane c out.z, intLane e out.w⟩

/-- One lane of `_mm_cmpeq_epi32(1 << 15, l & (1 << 15))` (format_full.hpp:489-490). -/
def cmp15 (l : BitVec 32) : BitVec 32 := if 0x8000#32 = l &&& 0x8000#32 then 0xffffffff#32 else 0

/-- `FormatCodec_t<UNORM, d>::GetValueNoFrac` (format_full.hpp:295-513). The scalar ones fill lane X. -/
def noFrac (d : DataType) (mem : List Byte) : Option Lanes :=
  match d with
  | .R32G32B32A32 | .R32G32B32 | .R32G32 => getUInt d mem
  | .R32 => do let n ← load mem 4; return ⟨BitVec.ofNat 32 n, 0, 0, 0⟩
  | .R16G16B16A16 => do
    let n ← load mem 8
    let lo := member n 0 32
    let hi := member n 32 32
    let r := (Lanes.zip (· * ·) ⟨lo, hi, lo, hi⟩ ⟨0x10000, 0x10000, 1, 1⟩).map (· >>> 16)
    return ⟨r.x, r.z, r.y, r.w⟩
  | .R16G16B16 => do
    let n ← load mem 8
    let lo := member n 0 32
    let hi := member n 32 32
    let r := (Lanes.zip (· * ·) ⟨lo, hi, lo, hi⟩ ⟨0x10000, 0x10000, 1, 0⟩).map (· >>> 16)
    return ⟨r.x, r.z, r.y, r.w⟩
  | .R16G16 => do
    let n ← load mem 4
    return (Lanes.zip (· * ·) (.all (BitVec.ofNat 32 n)) ⟨0x10000, 1, 0, 0⟩).map (· >>> 16)
  | .R16 => do let n ← load mem 2; return ⟨BitVec.ofNat 32 n, 0, 0, 0⟩
  | .R8G8B8A8 => do
    let n ← load mem 4
    return (Lanes.zip (· * ·) (.all (BitVec.ofNat 32 n)) ⟨0x1000000, 0x10000, 0x100, 1⟩).map (· >>> 24)
  | .R8G8B8 => do
    let n ← load mem 4
    return (Lanes.zip (· * ·) (.all (BitVec.ofNat 32 n)) ⟨0x1000000, 0x10000, 0x100, 0⟩).map (· >>> 24)
  | .R8G8 => do
    let n ← load mem 2
    return (Lanes.zip (· * ·) (.all (BitVec.ofNat 32 n)) ⟨0x1000000, 0x10000, 0, 0⟩).map (· >>> 24)
  | .R8 => do let n ← load mem 1; return ⟨BitVec.ofNat 32 n, 0, 0, 0⟩
  | .R10G10B10A2 => do
    let n ← load mem 4
    let v := BitVec.ofNat 32 n
    let r := (Lanes.zip (· * ·) (.all v) ⟨0x400000, 0x1000, 4, 0⟩).map (· >>> 22)
    return { r with w := v >>> 30 }
  | .R11G11B10 => do
    let n ← load mem 4
    return (Lanes.zip (· * ·) (.all (BitVec.ofNat 32 n)) ⟨0x200000, 0x400, 1, 0⟩).map (· >>> 21)
  | .R24G8 => do
    let n ← load mem 4
    let v := BitVec.ofNat 32 n
    return ⟨v &&& 0xffffff, v >>> 24, 0, 0⟩
  | .R5G5B5A1 => do
    let n ← load mem 2
    let vctr := Lanes.zip (· * ·) (.all (BitVec.ofNat 32 n)) ⟨0x8000000, 0x400000, 0x20000, 1⟩
    let cmpMask := vctr.map cmp15
    return (Lanes.zip (· ||| ·) vctr cmpMask).map (· >>> 27)
  | .R5G6B5 => do
    let n ← load mem 2
    return (Lanes.zip (· * ·) (.all (BitVec.ofNat 32 n)) ⟨0x8000000, 0x200000, 0x10000, 0⟩).map (· >>> 26)

/-- Widths in the `GetFraction`s of the unsigned codecs (format_full.hpp:295-513), by lane; scalar codecs leave zeros in the other
lanes, and 32 bit channels lose their lowest bit first. -/
def unormBits : DataType → Nat × Nat × Nat × Nat
  | .R32G32B32A32 | .R32G32B32 | .R32G32 | .R32 => (31, 31, 31, 31)
  | .R16G16B16A16 | .R16G16B16 | .R16G16 | .R16 => (16, 16, 16, 16)
  | .R8G8B8A8 | .R8G8B8 | .R8G8 | .R8 => (8, 8, 8, 8)
  | .R10G10B10A2 => (10, 10, 10, 2)
  | .R11G11B10 => (11, 11, 11, 11)
  | .R24G8 => (24, 8, 0, 0)
  | .R5G5B5A1 => (5, 5, 5, 5)
  | .R5G6B5 => (6, 6, 6, 6)

/-- The factor of a lane; 0 stands for the literal `0` of R24G8 (format_full.hpp:478). -/
def fraction (bits : Nat) : F32 := if bits = 0 then 0 else getFraction bits

/-- The formats of 32 bit channels, specialised at format_full.hpp:278-289. -/
def is32 : DataType → Bool
  | .R32G32B32A32 | .R32G32B32 | .R32G32 | .R32 => true
  | _ => false

/-- Integer lanes times factors, as `Vector4A16(lanes) * frac`. (format_full.hpp:295-513) -/
def scale (v : Lanes) (f : Nat × Nat × Nat × Nat) : Lanes :=
  ⟨mul (ofInt32 v.x) (fraction f.1), mul (ofInt32 v.y) (fraction f.2.1), mul (ofInt32 v.z) (fraction f.2.2.1),
    mul (ofInt32 v.w) (fraction f.2.2.2)⟩

/-- `FormatCodec_t<UNORM, d>::GetValue` (format_full.hpp:295-513). -/
def getUnorm (d : DataType) (mem : List Byte) : Option Lanes := do
  let v ← noFrac d mem
  let v := if is32 d then v.map (· >>> 1) else v
  return scale v (unormBits d)

/-- The signed integers of the normalised codecs: shifted up and arithmetically down again (format_full.hpp:519-681). -/
def signedLanes (d : DataType) (mem : List Byte) : Option Lanes :=
  match d with
  | .R32G32B32A32 | .R32G32B32 | .R32G32 | .R32 => noFrac d mem
  | .R16G16B16A16 | .R16G16B16 | .R16G16 | .R16 => do
    let v ← noFrac d mem; return v.map fun l => (l <<< 16).sshiftRight 16
  | .R8G8B8A8 | .R8G8B8 | .R8G8 | .R8 => do
    let v ← noFrac d mem; return v.map fun l => (l <<< 24).sshiftRight 24
  | .R10G10B10A2 => do
    let n ← load mem 4
    let v := BitVec.ofNat 32 n
    let r := (Lanes.zip (· * ·) (.all v) ⟨0x400000, 0x1000, 4, 0⟩).map (·.sshiftRight 22)
    return { r with w := v.sshiftRight 30 }
  | .R11G11B10 => do
    let v ← noFrac d mem; return v.map fun l => (l <<< 21).sshiftRight 21
  | .R24G8 => do
    let n ← load mem 4
    let v := BitVec.ofNat 32 n
    return ⟨(v <<< 8).sshiftRight 8, ((v.sshiftRight 24).setWidth 8).signExtend 32, 0, 0⟩
  | .R5G5B5A1 => do
    let v ← noFrac d mem; return v.map fun l => (l <<< 27).sshiftRight 27
  | .R5G6B5 => do
    let v ← noFrac d mem; return v.map fun l => (l <<< 26).sshiftRight 26

/-- Widths in the `GetFraction`s of the signed codecs (format_full.hpp:519-681). `GetFraction(1)` is 1. -/
def normBits : DataType → Nat × Nat × Nat × Nat
  | .R32G32B32A32 | .R32G32B32 | .R32G32 | .R32 => (31, 31, 31, 31)
  | .R16G16B16A16 | .R16G16B16 | .R16G16 | .R16 => (15, 15, 15, 15)
  | .R8G8B8A8 | .R8G8B8 | .R8G8 | .R8 => (7, 7, 7, 7)
  | .R10G10B10A2 => (9, 9, 9, 1)
  | .R11G11B10 => (10, 10, 10, 10)
  | .R24G8 => (23, 7, 0, 0)
  | .R5G5B5A1 => (4, 4, 4, 1)
  | .R5G6B5 => (5, 5, 5, 5)

/-- `FormatCodec_t<NORM, d>::GetValue` (format_full.hpp:519-681). -/
def getNorm (d : DataType) (mem : List Byte) : Option Lanes := do
  let v ← signedLanes d mem
  return scale v (normBits d)

/-- `FormatCodec_t<FLOAT, d>::GetValue` (format_full.hpp:687-767); `none` without a specialisation. -/
def getFloat (d : DataType) : Option (List Byte → Option Lanes) :=
  match d with
  | .R32G32B32A32 => some fun mem => do
    let n ← load mem 16; return ⟨member n 0 32, member n 32 32, member n 64 32, member n 96 32⟩
  | .R32G32B32 => some fun mem => do let n ← load mem 12; return ⟨member n 0 32, member n 32 32, member n 64 32, 0⟩
  | .R32G32 => some fun mem => do let n ← load mem 8; return ⟨member n 0 32, member n 32 32, 0, 0⟩
  | .R32 => some fun mem => do let n ← load mem 4; return ⟨member n 0 32, 0, 0, 0⟩
  | .R16G16B16A16 | .R16G16B16 | .R16G16 => some fun mem => do
    let v ← noFrac d mem; return v.map (toVectorLane float16)
  | .R16 => some fun mem => do
    let n ← load mem 2; return ⟨toFloat float16 (BitVec.ofNat 64 n), 0, 0, 0⟩
  | .R11G11B10 => some fun mem => do
    let v ← noFrac d mem; return v.map (toVectorLane ⟨5, 5, true⟩)
  | _ => none

/-- `FormatCodec_t<UFLOAT, d>::GetValue` (format_full.hpp:769-779). -/
def getUFloat (d : DataType) : Option (List Byte → Option Lanes) :=
  match d with
  | .R11G11B10 => some fun mem => do let v ← noFrac d mem; return v.map (toVectorLane ⟨6, 5, false⟩)
  | _ => none

/-- What a codec produces: integer or float vectors. (format_full.hpp:781-824) -/
structure Codec where
  isInt : Bool
  value : List Byte → Option Lanes

/-- `FormatCodec::Get`: the registry (uni_format.cpp:64-80, 98-100); `none` is `std::out_of_range`. -/
def codec (f : FormatType) (d : DataType) : Option Codec :=
  match f with
  | .INT => some ⟨true, getInt d⟩
  | .UINT => some ⟨true, getUInt d⟩
  | .UNORM => some ⟨false, getUnorm d⟩
  | .NORM => some ⟨false, getNorm d⟩
  | .FLOAT => (getFloat d).map (⟨false, ·⟩)
  | .UFLOAT => (getUFloat d).map (⟨false, ·⟩)
  | .INVALID => none

/-- How a call can fail. (uni_format.cpp:82-100) -/
inductive Fail
  /-- `std::runtime_error("Invalid call...")`. -/
  | invalidCall
  /-- `std::runtime_error("Provided stride...")`. -/
  | shortStride
  /-- Memory behind the buffer is read. -/
  | outOfBounds
deriving DecidableEq, Repr

/-- `FormatCodec::GetValue` for an integer (`wantInt`) or float result (format_full.hpp:781-824, uni_format.cpp:82-88). -/
def getValue (c : Codec) (wantInt : Bool) (mem : List Byte) : Except Fail Lanes :=
  if c.isInt = wantInt then
    match c.value mem with
    | some v => .ok v
    | none => .error .outOfBounds
  else .error .invalidCall

/-- The loop of `_fmtSampler` (format_full.hpp:72-75): `n` elements are left, the input pointer advances by `stride`. -/
def sampleLoop (value : List Byte → Option Lanes) (stride : Nat) : Nat → List Byte → Except Fail (List Lanes)
  | 0, _ => .ok []
  | n + 1, mem =>
    match value mem with
    | none => .error .outOfBounds
    | some v =>
      match sampleLoop value stride n (mem.drop stride) with
      | .ok rest => .ok (v :: rest)
      | .error e => .error e

/-- `FormatCodec::Sample` with an output vector of `outSize` elements (format_full.hpp:56-76, uni_format.cpp:90-96). -/
def sample (c : Codec) (d : DataType) (wantInt : Bool) (outSize : Nat) (mem : List Byte) (count stride : Nat) :
    Except Fail (List Lanes) :=
  if c.isInt = wantInt then
    let fmtStride := fmtStrides d / 8
    if stride ≠ 0 ∧ stride < fmtStride then .error .shortStride
    else
      let n := if count ≠ 0 then count else outSize
      let stride := if stride = 0 then fmtStride else stride
      sampleLoop c.value stride n mem
  else .error .invalidCall

end PreCore.Uni
