import Verif.Model.Base
/-!
# Model of single precision floats (IEEE 754, as the host computes them)

A `float` is its bit pattern. Finite magnitudes are natural numbers in units of 2^-149 (the smallest subnormal), so sums and
differences are exact integers that are then rounded to nearest, ties to even. NaN operands
come out quieted, as SSE does it.
-/
namespace PreCore.F32

/-- The bits of a `float` (`float` of supercore.hpp:80-82, vectors.hpp:30-142). -/
abbrev F32 := BitVec 32

/-- What a float stands for; magnitudes of finite values in units of 2^-149.
(Hardware arithmetic of `float`, as used by vectors.hpp:53-58, vectors_simd.hpp:92-103.) -/
inductive Val
  | fin (neg : Bool) (mag : Nat)
  | inf (neg : Bool)
  | nan
deriving Repr, DecidableEq

/-- Sign bit. (Hardware arithmetic of `float`, as used by vectors.hpp:53-58, vectors_simd.hpp:92-103.) -/
def neg (b : F32) : Bool := b.getLsbD 31
/-- Exponent field. (Hardware arithmetic of `float`, as used by vectors.hpp:53-58, vectors_simd.hpp:92-103.) -/
def expo (b : F32) : Nat := b.toNat / 2 ^ 23 % 2 ^ 8
/-- Mantissa field. (Hardware arithmetic of `float`, as used by vectors.hpp:53-58, vectors_simd.hpp:92-103.) -/
def mant (b : F32) : Nat := b.toNat % 2 ^ 23

/-- The value of a bit pattern. (Hardware arithmetic of `float`, as used by vectors.hpp:53-58, vectors_simd.hpp:92-103.) -/
def val (b : F32) : Val :=
  if expo b = 255 then (if mant b = 0 then .inf (neg b) else .nan)
  else if expo b = 0 then .fin (neg b) (mant b)
  else .fin (neg b) ((2 ^ 23 + mant b) * 2 ^ (expo b - 1))

/-- Rounds a magnitude to nearest, ties to even; result: bit pattern without sign (infinity on overflow).
(Hardware arithmetic of `float`, as used by vectors.hpp:53-58, vectors_simd.hpp:92-103.) -/
def roundMag (n : Nat) : Nat :=
  if n < 2 ^ 24 then n
  else
    let k := n.log2 - 23
    let q := n / 2 ^ k
    let r := n % 2 ^ k
    let h := 2 ^ (k - 1)
    let q' := if r > h ∨ (r = h ∧ q % 2 = 1) then q + 1 else q
    min (k * 2 ^ 23 + q') 0x7f800000

/-- The float with the given sign and magnitude. (Hardware arithmetic of `float`, as used by vectors.hpp:53-58, vectors_simd.hpp:92-103.) -/
def make (sign : Bool) (n : Nat) : F32 := BitVec.ofNat 32 ((if sign then 2 ^ 31 else 0) + roundMag n)

/-- `a + b` (addss/addps, round to nearest). (vectors_simd.hpp:92-94) -/
def add (a b : F32) : F32 :=
  match val a, val b with
  | .nan, _ => a ||| 0x00400000
  | _, .nan => b ||| 0x00400000
  | .inf s, .inf t => if s = t then a else 0xffc00000
  | .inf _, _ => a
  | _, .inf _ => b
  | .fin s m, .fin t n =>
    if s = t then make s (m + n)
    else if m = n then 0
    else if n < m then make s (m - n)
    else make t (n - m)

/-- `-a`. (vectors_simd.hpp:141) -/
def negate (a : F32) : F32 := a ^^^ 0x80000000

/-- `a - b` (subss/subps). (vectors_simd.hpp:95-97) -/
def sub (a b : F32) : F32 := add a (negate b)

/-- `0.5f`. (float.hpp:60, 65) -/
def half : F32 := 0x3f000000

/-- Rounds the magnitude `n / d` (in units of 2^-149) to nearest, ties to even; result: bit pattern without sign. `roundMag n` is
the case `d = 1`. (Hardware arithmetic of `float`, as used by vectors.hpp:53-58, vectors_simd.hpp:92-103.) -/
def roundQ (n d : Nat) : Nat :=
  let k := (n / d).log2 - 23
  let q := n / (d * 2 ^ k)
  let r := n % (d * 2 ^ k)
  let q' := if 2 * r > d * 2 ^ k ∨ (2 * r = d * 2 ^ k ∧ q % 2 = 1) then q + 1 else q
  min (k * 2 ^ 23 + q') 0x7f800000

/-- The float with the given sign and magnitude `n / d`. (Hardware arithmetic of `float`, as used by vectors.hpp:53-58, vectors_simd.hpp:92-103.) -/
def makeQ (sign : Bool) (n d : Nat) : F32 := BitVec.ofNat 32 ((if sign then 2 ^ 31 else 0) + roundQ n d)

/-- `a * b` (mulss/mulps). (vectors_simd.hpp:98-100) -/
def mul (a b : F32) : F32 :=
  match val a, val b with
  | .nan, _ => a ||| 0x00400000
  | _, .nan => b ||| 0x00400000
  | .inf s, .inf t => if s = t then 0x7f800000 else 0xff800000
  | .inf s, .fin t n => if n = 0 then 0xffc00000 else if s = t then 0x7f800000 else 0xff800000
  | .fin s m, .inf t => if m = 0 then 0xffc00000 else if s = t then 0x7f800000 else 0xff800000
  | .fin s m, .fin t n => makeQ (s != t) (m * n) (2 ^ 149)

/-- `a / b` for a finite `a` and a finite `b` that is not zero. (supercore.hpp:80-82) -/
def divFin (a b : F32) : F32 :=
  match val a, val b with
  | .fin s m, .fin t n => makeQ (s != t) (m * 2 ^ 149) n
  | _, _ => 0xffc00000

/-- Conversion of a 32 bit integer (cvtepi32_ps, cvtsi2ss). (vectors_simd.hpp:274) -/
def ofInt32 (v : BitVec 32) : F32 := makeQ v.msb (v.toInt.natAbs * 2 ^ 149) 1

/-- Conversion of an unsigned 64 bit integer (`static_cast<float>`). (supercore.hpp:80-82) -/
def ofNat64 (v : Nat) : F32 := makeQ false (v * 2 ^ 149) 1

/-- `GetFraction` (supercore.hpp:80-82). -/
def getFraction (numBits : Nat) : F32 := divFin 0x3f800000 (ofNat64 (2 ^ numBits - 1))

end PreCore.F32
