import Verif.Model.BlockColours
/-!
# Model of `ComputeBC5Blue` (formats/BlockDecoder.h:46-64)

Floats as in `Model/Float32`: every operation rounded on its own. `sqrtf` is correctly rounded (IEEE 754).
-/
namespace PreCore.Block
open PreCore.F32

/-- Integer square root, one bit per step. (Part of `sqrtf`, BlockDecoder.h:60.) -/
def isqrt : Nat → Nat → Nat
  | 0, _ => 0
  | f + 1, n =>
    let r := 2 * isqrt f (n / 4)
    if (r + 1) * (r + 1) ≤ n then r + 1 else r

/-- `sqrtf` of a float that is not negative, rounded to nearest: the root of the magnitude (units of 2^-149) is taken 64 bits
below the unit, with one more bit that tells whether something is left over. Other arguments do not occur here.
(C library, called at BlockDecoder.h:60.) -/
def sqrtF (x : F32) : F32 :=
  match val x with
  | .fin false m =>
    let n := m * 2 ^ (149 + 128)
    let s := isqrt 300 n
    makeQ false (2 * s + (if s * s = n then 0 else 1)) (2 ^ 65)
  | _ => x

/-- `a < b` of floats. (Used at BlockDecoder.h:55-57.) -/
def lessF (a b : F32) : Bool :=
  match val a, val b with
  | .fin s m, .fin t n => decide ((if s then - (m : Int) else m) < (if t then - (n : Int) else n))
  | .inf s, .fin _ _ => s
  | .fin _ _, .inf t => !t
  | .inf s, .inf t => s && !t
  | _, _ => false

/-- A component of `RG` (BlockDecoder.h:48-51; `t_Vector2` calculates lane by lane, vectors.hpp:66-69, 118-120). -/
def coordinate (b : Byte) : F32 := sub (mul (ofInt32 (b.zeroExtend 32)) (divFin (lit 2) (lit 255))) one

/-- `zcomp` before the root: dot product and its limits (BlockDecoder.h:53-58; vectors.hpp:126). -/
def dotLimited (x y : F32) : F32 :=
  let d := add (mul x x) (mul y y)
  if lessF one d then one else if lessF d 0 then 0 else d

/-- The float that is converted to `char` (BlockDecoder.h:60-62). -/
def blueFloat (g r : Byte) : F32 :=
  mul (add (sqrtF (sub one (dotLimited (coordinate g) (coordinate r)))) one) (lit 127)

/-- `static_cast<char>(f)`: the fraction is cut off; a value `char` (signed) cannot hold is undefined (`none`). (BlockDecoder.h:62) -/
def toChar (f : F32) : Option Byte :=
  match val f with
  | .fin false m => if m / 2 ^ 149 ≤ 127 then some (BitVec.ofNat 8 (m / 2 ^ 149)) else none
  | .fin true m => if m / 2 ^ 149 ≤ 128 then some (- BitVec.ofNat 8 (m / 2 ^ 149)) else none
  | _ => none

/-- The same conversion where `char` is unsigned (ARM). (BlockDecoder.h:62) -/
def toCharUnsigned (f : F32) : Option Byte :=
  match val f with
  | .fin false m => if m / 2 ^ 149 ≤ 255 then some (BitVec.ofNat 8 (m / 2 ^ 149)) else none
  | .fin true m => if m / 2 ^ 149 = 0 then some 0#8 else none
  | _ => none

/-- What x86 compilers make of the conversion to a signed `char`: `cvttss2si` to 32 bits, of which the low byte is kept. (BlockDecoder.h:62) -/
def toCharX86 (f : F32) : Option Byte :=
  match val f with
  | .fin false m => if m / 2 ^ 149 < 2 ^ 31 then some (BitVec.ofNat 8 (m / 2 ^ 149)) else some 0#8
  | .fin true m => if m / 2 ^ 149 ≤ 2 ^ 31 then some (- BitVec.ofNat 8 (m / 2 ^ 149)) else some 0#8
  | _ => some 0#8

/-- `ComputeBC5Blue(buffer, size)` (BlockDecoder.h:46-64) on a buffer of `size` bytes: every third byte is replaced, from the
two behind it. With one or two bytes left it reads behind the buffer (`none`). `cast` is the conversion to `char`.
Sizes are below 2^32 - 2, so that the counter does not wrap. -/
def computeBC5Blue (cast : F32 → Option Byte) : List Byte → Option (List Byte)
  | [] => some []
  | _ :: g :: r :: rest =>
    match cast (blueFloat g r) with
    | none => none
    | some b => (computeBC5Blue cast rest).map (fun rest => b :: g :: r :: rest)
  | _ => none

end PreCore.Block
