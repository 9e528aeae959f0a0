import Verif.Model.Mem
/-!
# Model of formats/WAVE.hpp (chunk headers)

A chunk is its four character id and its data; in the file: id, 32 bit data size, data.
-/
namespace PreCore.Wave

/-- `WAVEGenericHeader::Next` (WAVE.hpp:27-30): offset of the header it returns for the header at `a`. -/
def next (buf : List Byte) (a : Nat) : Nat := a + leNat ((buf.drop (a + 4)).take 4)

/-- `RIFFHeader(fullSize)` (WAVE.hpp:38-39): `chunkSize`. -/
def riffSize (fullSize : BitVec 32) : BitVec 32 := fullSize - 8

/-- `bitsPerSample` chosen by `WAVE_fmt(iFormat)` (WAVE.hpp:63-81). -/
def bitsPerSample (format : BitVec 16) : BitVec 16 :=
  if format = 1 then 16 else if format = 2 ∨ format = 0x11 then 4 else if format = 6 ∨ format = 7 then 8 else 0

/-- `CalcData` (WAVE.hpp:83-86): bytes per second and block alignment; `uint16` operands are promoted to `int`. -/
def calcData (channels : BitVec 16) (sampleRate : BitVec 32) (bits : BitVec 16) : BitVec 32 × BitVec 16 :=
  let b := bits.toNat / 8
  (BitVec.ofNat 32 (channels.toNat * sampleRate.toNat * b), BitVec.ofNat 16 (channels.toNat * b))

/-- `IsValidWaveChunk` (WAVE.hpp:137-148). -/
def isValidWaveChunk (id : BitVec 32) : Bool :=
  id = 0x20746d66 ∨ id = 0x61746164 ∨ id = 0x74636166 ∨ id = 0x6c706d73

end PreCore.Wave
