import Verif.Model.Float32
/-!
# Model of datas/float.hpp (`esFloat<_mantissa, _exponent, _sign>`)

`Fmt` carries the template parameters. Vector functions act on each 32 bit lane alone; the model gives the lane function.
`_mm_blendv_ps(a, b, mask)` with a comparison result as mask is `if mask then b else a`. `size_t` constants appear as their
32 bit lane values.
-/
namespace PreCore.EsFloat
open PreCore.F32

/-- Template parameters (float.hpp:21). -/
structure Fmt where
  m : Nat
  e : Nat
  s : Bool
deriving Repr, DecidableEq

/-- `TOTAL_SIZE` (float.hpp:23). -/
def Fmt.total (f : Fmt) : Nat := f.m + f.e + (if f.s then 1 else 0)
/-- `MANTISSA_MASK` (float.hpp:24). -/
def Fmt.mantMask (f : Fmt) : BitVec 32 := BitVec.ofNat 32 (2 ^ f.m - 1)
/-- `EXPONENT_MASK` (float.hpp:25-26). -/
def Fmt.expMask (f : Fmt) : BitVec 32 := BitVec.ofNat 32 ((2 ^ f.e - 1) * 2 ^ f.m)
/-- `SIGN_MASK` (float.hpp:27). -/
def Fmt.signMask (f : Fmt) : BitVec 32 := if f.s then BitVec.ofNat 32 (2 ^ (f.total - 1)) else 0
/-- `EXP_REF` (float.hpp:28-29). -/
def Fmt.expRef (f : Fmt) : BitVec 32 := BitVec.ofNat 32 (0x3f800000 - (2 ^ f.e - 1) / 2 * 2 ^ 23)

/-- `float16` (float.hpp:161). -/
def float16 : Fmt := ⟨10, 5, true⟩

/-- One lane of `ToVector4` (float.hpp:132-158). -/
def toVectorLane (f : Fmt) (value : BitVec 32) : F32 :=
  let exponentI := value &&& f.expMask
  let mantissa := (value &&& f.mantMask) <<< (23 - f.m)
  let sign := (value &&& f.signMask) <<< (32 - f.total)
  let nzResult := ((exponentI <<< (23 - f.m)) + f.expRef) ||| mantissa
  let imNANNZ := if exponentI = f.expMask then 0x7f800000#32 else nzResult
  let denormResult1 := F32.sub ((value &&& f.mantMask) ||| 0x3f000000#32) half
  let finalResult := if exponentI = 0 then denormResult1 else imNANNZ
  finalResult ||| sign

/-- `ToFloat` (float.hpp:31-61). The products of masked lanes and powers of two are `mullo_epi32`; the two `hadd`s add the
four lanes. -/
def toFloat (f : Fmt) (value : BitVec 64) : F32 :=
  let v := value.setWidth 32
  let e := (v &&& f.expMask)
  let x := e * BitVec.ofNat 32 (2 ^ (23 - f.m))
  let y := (v &&& f.mantMask) * BitVec.ofNat 32 (2 ^ (23 - f.m))
  let z := (v &&& f.signMask) * BitVec.ofNat 32 (2 ^ (32 - f.total))
  let w := v &&& f.mantMask
  let lanes :=
    if e ≠ 0 then
      if e = f.expMask then (x * 0 + 0x7f800000, y * 1 + 0, z * 1 + 0, w * 0 + 0)
      else (x * 1 + f.expRef, y * 1 + 0, z * 1 + 0, w * 0 + 0)
    else (x * 0 + 0x3f000000, y * 0 + 0, z * 1 + 0, w * 1 + 0)
  let result := (lanes.1 + lanes.2.1) + (lanes.2.2.1 + lanes.2.2.2)
  if e ≠ 0 then result else F32.sub result half

/-- `FromFloat` (float.hpp:63-85). `size_t` values are 64 bit. -/
def fromFloat (f : Fmt) (input : F32) : BitVec 64 :=
  let cvted := input.setWidth 64
  let cvtedDenorm := (F32.add input half).setWidth 64
  let mskExp := cvted &&& 0x7f800000#64
  let isSubNorm := cvtedDenorm &&& 0x3f000000#64 = 0x3f000000#64
  let result := (if isSubNorm then cvtedDenorm else cvted >>> (23 - f.m)) &&& f.mantMask.setWidth 64
  let result := if f.s ∧ cvted &&& 0x80000000#64 ≠ 0 then result ||| f.signMask.setWidth 64 else result
  if mskExp = 0x7f800000#64 then result ||| f.expMask.setWidth 64
  else if ¬ isSubNorm then result ||| (((mskExp - f.expRef.setWidth 64) >>> (23 - f.m)) &&& f.expMask.setWidth 64)
  else result

/-- One lane of `FromVector4` (float.hpp:95-130); `>>` on `IVector4A16` is arithmetic. -/
def fromVectorLane (f : Fmt) (value : F32) : BitVec 32 :=
  let shtSign := ((value &&& 0x80000000#32).sshiftRight (32 - f.total)) &&& f.signMask
  let mskExp := value &&& 0x7f800000#32
  let shtMant := value.sshiftRight (23 - f.m)
  let cvtedDenorm := F32.add value half
  let denorm := cvtedDenorm &&& 0x7f800000#32 = 0x3f000000#32
  let maskedMant := (if denorm then cvtedDenorm else shtMant) &&& f.mantMask
  let unRef := ((mskExp - f.expRef).sshiftRight (23 - f.m)) &&& f.expMask
  let blendExp0 := if mskExp = 0x7f800000#32 then f.expMask else unRef
  let blendExp1 := if denorm then 0 else blendExp0
  blendExp1 ||| maskedMant ||| shtSign

end PreCore.EsFloat
