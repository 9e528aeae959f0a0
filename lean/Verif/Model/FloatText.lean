import Mathlib.Data.Nat.Log
import Verif.Model.Reflector
/-!
# Model of float texts: `SetNumber` for floats (reflector.cpp:46-86) and the `%g` printing of reflector.cpp:777-794

The C library functions behind them are modelled by their definition (C11 7.22.1.3 `strtod`, 7.21.6.1 `%g`) as glibc on x86
implements it: correctly rounded, to nearest, ties to even; `ERANGE` on overflow and for inexact results that are tiny after
rounding. "C" locale. Both formats are covered by one definition over the parameters of the format.
-/
namespace PreCore.Flt
open CNum Refl

/-- A binary interchange format: bits of the stored significand and of the exponent.
(C library conversion behind `std::stof`, `std::stod`, `atof` (reflector.cpp:46-86) and `snprintf` (reflector.cpp:777-794).) -/
structure Fmt where
  mb : Nat
  eb : Nat
deriving DecidableEq, Repr

/-- `float`. (reflector.cpp:48-50, 782) -/
def f32 : Fmt := ⟨23, 8⟩
/-- `double`. (reflector.cpp:52-54, 786) -/
def f64 : Fmt := ⟨52, 11⟩

/-- Magnitudes are counted in units of `2^-u`, the smallest subnormal (149 and 1074).
(C library conversion behind `std::stof`, `std::stod`, `atof` (reflector.cpp:46-86) and `snprintf` (reflector.cpp:777-794).) -/
def Fmt.u (F : Fmt) : Nat := 2 ^ (F.eb - 1) - 2 + F.mb
/-- Bit pattern of infinity.
(C library conversion behind `std::stof`, `std::stod`, `atof` (reflector.cpp:46-86) and `snprintf` (reflector.cpp:777-794).) -/
def Fmt.inf (F : Fmt) : Nat := (2 ^ F.eb - 1) * 2 ^ F.mb
/-- Number of bits. (C library conversion behind `std::stof`, `std::stod`, `atof` (reflector.cpp:46-86) and `snprintf` (reflector.cpp:777-794).) -/
def Fmt.width (F : Fmt) : Nat := F.mb + F.eb + 1
/-- `numeric_limits<T>::max()`. (reflector.cpp:59) -/
def Fmt.maxP (F : Fmt) : Nat := F.inf - 1
/-- `numeric_limits<T>::min()`. (reflector.cpp:60) -/
def Fmt.minP (F : Fmt) : Nat := 2 ^ F.mb
/-- Bit pattern of `strtod("nan")`.
(C library conversion behind `std::stof`, `std::stod`, `atof` (reflector.cpp:46-86) and `snprintf` (reflector.cpp:777-794).) -/
def Fmt.nan (F : Fmt) : Nat := F.inf + 2 ^ (F.mb - 1)

/-- The nearest natural number to `n / d`, ties to even.
(C library conversion behind `std::stof`, `std::stod`, `atof` (reflector.cpp:46-86) and `snprintf` (reflector.cpp:777-794).) -/
def rhe (n d : Nat) : Nat := if 2 * (n % d) > d ∨ (2 * (n % d) = d ∧ n / d % 2 = 1) then n / d + 1 else n / d

/-- Bit pattern (no sign, no upper limit) of the magnitude nearest to `n / d` units.
(C library conversion behind `std::stof`, `std::stod`, `atof` (reflector.cpp:46-86) and `snprintf` (reflector.cpp:777-794).) -/
def roundP (mb n d : Nat) : Nat :=
  let k := (n / d).log2 - mb
  k * 2 ^ mb + rhe n (d * 2 ^ k)

/-- Pattern with its sign.
(C library conversion behind `std::stof`, `std::stod`, `atof` (reflector.cpp:46-86) and `snprintf` (reflector.cpp:777-794).) -/
def Fmt.make (F : Fmt) (neg : Bool) (p : Nat) : BitVec F.width := BitVec.ofNat _ ((if neg then 2 ^ (F.mb + F.eb) else 0) + p)

/-! ## Reading -/

/-- What `strtod` finds in a text: a number `n / d`, an infinity or a NaN.
(C library conversion behind `std::stof`, `std::stod`, `atof` (reflector.cpp:46-86) and `snprintf` (reflector.cpp:777-794).) -/
inductive Num
  | frac (n d : Nat)
  | inf
  | nan
deriving DecidableEq, Repr

/-- Lower case of a letter.
(C library conversion behind `std::stof`, `std::stod`, `atof` (reflector.cpp:46-86) and `snprintf` (reflector.cpp:777-794).) -/
def lower (c : Byte) : Byte := toLower c

/-- The text begins with this word, in any case.
(C library conversion behind `std::stof`, `std::stod`, `atof` (reflector.cpp:46-86) and `snprintf` (reflector.cpp:777-794).) -/
def startsCI (t w : Text) : Bool := (t.take w.length).map lower == w

/-- `n * b^e / 1` or `n / b^-e`.
(C library conversion behind `std::stof`, `std::stod`, `atof` (reflector.cpp:46-86) and `snprintf` (reflector.cpp:777-794).) -/
def scaled (n : Nat) (b : Nat) (e : Int) : Num :=
  if 0 ≤ e then .frac (n * b ^ e.toNat) 1 else .frac n (b ^ (-e).toNat)

/-- Exponent part: marker, optional sign, digits; without a digit there is no exponent part.
(C library conversion behind `std::stof`, `std::stod`, `atof` (reflector.cpp:46-86) and `snprintf` (reflector.cpp:777-794).) -/
def exponent (mark : Byte) (t : Text) : Int :=
  match t with
  | [] => 0
  | c :: r =>
    if lower c = mark then
      let s := sign r
      let ds := digits 10 s.2
      let e : Int := value 10 0 ds
      if s.1 then -e else e
    else 0

/-- Digits, optional point, digits: the digits, how many of them follow the point, and the rest.
(C library conversion behind `std::stof`, `std::stod`, `atof` (reflector.cpp:46-86) and `snprintf` (reflector.cpp:777-794).) -/
def mantissa (base : Nat) (t : Text) : List Nat × Nat × Text :=
  let ip := digits base t
  let r := t.drop ip.length
  match r with
  | c :: r' =>
    if c = 0x2e#8 then
      let fp := digits base r'
      (ip ++ fp, fp.length, r'.drop fp.length)
    else (ip, 0, r)
  | [] => (ip, 0, [])

/-- The number part without sign (C11 7.22.1.3). A NaN's character sequence is ignored.
(C library conversion behind `std::stof`, `std::stod`, `atof` (reflector.cpp:46-86) and `snprintf` (reflector.cpp:777-794).) -/
def number (t : Text) : Option Num :=
  if startsCI t [0x69#8, 0x6e#8, 0x66#8] then some .inf
  else if startsCI t [0x6e#8, 0x61#8, 0x6e#8] then some .nan
  else
    let h := mantissa 16 (t.drop 2)
    if startsCI t [0x30#8, 0x78#8] ∧ h.1 ≠ [] then
      let e := exponent 0x70#8 h.2.2 - 4 * h.2.1
      some (scaled (value 16 0 h.1) 2 e)
    else
      let m := mantissa 10 t
      if m.1 = [] then none
      else
        let e := exponent 0x65#8 m.2.2 - m.2.1
        some (scaled (value 10 0 m.1) 10 e)

/-- `strtod` up to rounding: sign and number; `none` = no conversion.
(C library conversion behind `std::stof`, `std::stod`, `atof` (reflector.cpp:46-86) and `snprintf` (reflector.cpp:777-794).) -/
def strtod (t : Text) : Option (Bool × Num) :=
  let s := sign (skipSpace t)
  (number s.2).map (fun x => (s.1, x))

/-- The pattern of the finite number `n / d` in the format, infinity on overflow.
(C library conversion behind `std::stof`, `std::stod`, `atof` (reflector.cpp:46-86) and `snprintf` (reflector.cpp:777-794).) -/
def Fmt.round (F : Fmt) (n d : Nat) : Nat := min (roundP F.mb (n * 2 ^ F.u) d) F.inf

/-- `fVal > 0`, `fVal > 1.0`, `fVal < -1.0` for `fVal = atof(text)` (reflector.cpp:75-80). Patterns of the same sign are ordered like
the numbers. -/
def atofPos (neg : Bool) (n d : Nat) : Bool := !neg && 0 < f64.round n d
/-- Whether `atof` of the text is above 1 (reflector.cpp:75-78). -/
def atofAboveOne (neg : Bool) (n d : Nat) : Bool := !neg && 0x3ff0000000000000 < f64.round n d
/-- Whether `atof` of the text is below -1 (reflector.cpp:75-80). -/
def atofBelowMinusOne (neg : Bool) (n d : Nat) : Bool := neg && 0x3ff0000000000000 < f64.round n d

/-- What is stored when the number is out of range (reflector.cpp:77-80): sign and pattern. -/
def Fmt.clamp (F : Fmt) (neg : Bool) (n d : Nat) : Bool × Nat :=
  if atofPos neg n d then (false, if atofAboveOne neg n d then F.maxP else F.minP)
  else (true, if atofBelowMinusOne neg n d then F.maxP else F.minP)

/-- `std::stof`/`std::stod` throws `out_of_range`, or the result is subnormal (reflector.cpp:62-67): overflow, or not zero and
below the smallest normal number even after rounding to full precision. -/
def Fmt.oor (F : Fmt) (n d : Nat) : Bool :=
  n ≠ 0 ∧ (F.inf ≤ roundP F.mb (n * 2 ^ F.u) d ∨ 4 * (n * 2 ^ F.u) < d * (4 * 2 ^ F.mb - 1))

/-- `SetNumber` for `float` and `double` (reflector.cpp:46-86): error and the value stored, if any. -/
def Fmt.setNumber (F : Fmt) (t : Text) : Err × Option (BitVec F.width) :=
  match strtod t with
  | none => (.InvalidFormat, none)
  | some (neg, .inf) => (.None, some (F.make neg F.inf))
  | some (neg, .nan) => (.None, some (F.make neg F.nan))
  | some (neg, .frac n d) =>
    if F.oor n d then
      let c := F.clamp neg n d
      (.OutOfRange, some (F.make c.1 c.2))
    else (.None, some (F.make neg (F.round n d)))

/-! ## Printing -/

/-- What a pattern stands for.
(C library conversion behind `std::stof`, `std::stod`, `atof` (reflector.cpp:46-86) and `snprintf` (reflector.cpp:777-794).) -/
inductive Val
  | fin (neg : Bool) (mag : Nat)
  | inf (neg : Bool)
  | nan (neg : Bool)
deriving DecidableEq, Repr

/-- Magnitude of a pattern without sign, in units of `2^-u`.
(C library conversion behind `std::stof`, `std::stod`, `atof` (reflector.cpp:46-86) and `snprintf` (reflector.cpp:777-794).) -/
def magOf (mb p : Nat) : Nat := if p / 2 ^ mb = 0 then p else (2 ^ mb + p % 2 ^ mb) * 2 ^ (p / 2 ^ mb - 1)

/-- The value of a pattern.
(C library conversion behind `std::stof`, `std::stod`, `atof` (reflector.cpp:46-86) and `snprintf` (reflector.cpp:777-794).) -/
def Fmt.val (F : Fmt) (b : BitVec F.width) : Val :=
  let neg := decide (2 ^ (F.mb + F.eb) ≤ b.toNat)
  let p := b.toNat % 2 ^ (F.mb + F.eb)
  if p < F.inf then .fin neg (magOf F.mb p) else if p = F.inf then .inf neg else .nan neg

/-- Decimal digits of `n`, padded with zeros to `w` characters. (C library, `snprintf` at reflector.cpp:782, 786.) -/
def padded (w n : Nat) : Text := let s := showNat n; List.replicate (w - s.length) 0x30#8 ++ s

/-- Trailing zeros removed. (C library, `snprintf` at reflector.cpp:782, 786.) -/
def stripZeros (t : Text) : Text := (t.reverse.dropWhile (· == 0x30#8)).reverse

/-- Fraction digits with their point, nothing if all are zero (`%g` without `#`). (C library, `snprintf` at reflector.cpp:782, 786.) -/
def fraction (t : Text) : Text := let s := stripZeros t; if s = [] then [] else 0x2e#8 :: s

/-- Exponent of `%e`: sign and at least two digits. (C library, `snprintf` at reflector.cpp:782, 786.) -/
def showExp (e : Int) : Text := 0x65#8 :: (if e < 0 then 0x2d#8 else 0x2b#8) :: padded 2 e.natAbs

/-- Decimal scale that makes every magnitude at least one: 10^60 > 2^149, 10^330 > 2^1074. (C library, `snprintf` at reflector.cpp:782, 786.) -/
def Fmt.scale (F : Fmt) : Nat := if F.u ≤ 190 then 60 else 330

/-- Decimal exponent of the magnitude `m > 0` before rounding, plus the scale. (C library, `snprintf` at reflector.cpp:782, 786.) -/
def Fmt.expo (F : Fmt) (m : Nat) : Nat := Nat.log 10 (m * 10 ^ F.scale / 2 ^ F.u)

/-- `%.Pg` of a magnitude `m > 0` (C11 7.21.6.1): `X` is the exponent the conversion to style `e` would have.
(C library, `snprintf` at reflector.cpp:782, 786.) -/
def Fmt.showMag (F : Fmt) (P m : Nat) : Text :=
  let L := F.expo m
  let D := rhe (m * 10 ^ (F.scale + P - 1)) (2 ^ F.u * 10 ^ L)
  let X : Int := (if D = 10 ^ P then L + 1 else L : Nat) - F.scale
  if -4 ≤ X ∧ X < P then
    let q := (P - 1 - X).toNat
    let N := rhe (m * 10 ^ q) (2 ^ F.u)
    showNat (N / 10 ^ q) ++ fraction (padded q (N % 10 ^ q))
  else
    let D := if D = 10 ^ P then 10 ^ (P - 1) else D
    showNat (D / 10 ^ (P - 1)) ++ fraction (padded (P - 1) (D % 10 ^ (P - 1))) ++ showExp X

/-- `snprintf("%.Pg")` (reflector.cpp:777-794; the buffer of 32 bytes is large enough). -/
def Fmt.print (F : Fmt) (P : Nat) (b : BitVec F.width) : Text :=
  let sg := fun neg => if neg then [0x2d#8] else []
  match F.val b with
  | .fin neg m => sg neg ++ (if m = 0 then [0x30#8] else F.showMag P m)
  | .inf neg => sg neg ++ [0x69#8, 0x6e#8, 0x66#8]
  | .nan neg => sg neg ++ [0x6e#8, 0x61#8, 0x6e#8]

/-- The environment of the reflector with these conversions: `%.6g` for `float`, `%.13g` for `double` (reflector.cpp:782, 786). -/
def cEnv (enums : BitVec 32 → Option EnumTab) : Env :=
  ⟨enums, f32.setNumber, f64.setNumber, f32.print 6, f64.print 13⟩

end PreCore.Flt
