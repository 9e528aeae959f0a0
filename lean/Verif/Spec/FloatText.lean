import Mathlib.Algebra.Order.Field.Rat
import Verif.Spec.Number
/-!
# What a float and a decimal text denote (specification, independent of the conversion code)
-/
namespace PreCore.Spec

/-- IEEE 754 binary interchange format with `mb` fraction bits and `eb` exponent bits: the finite number `v` of the bit pattern `b`. -/
def FloatValue (mb eb : Nat) (b : Nat) (v : ℚ) : Prop :=
  let s := b / 2 ^ (mb + eb)
  let e := b / 2 ^ mb % 2 ^ eb
  let f := b % 2 ^ mb
  let bias : Int := 2 ^ (eb - 1) - 1
  e ≠ 2 ^ eb - 1 ∧
  v = (-1) ^ s * (if e = 0 then (f : ℚ) / 2 ^ mb * 2 ^ (1 - bias) else (1 + (f : ℚ) / 2 ^ mb) * 2 ^ ((e : Int) - bias))

/-- The pattern `b` is a float nearest to `v`, and the even one of two equally near ones. -/
def NearestFloat (mb eb : Nat) (b : Nat) (v : ℚ) : Prop :=
  ∃ r, FloatValue mb eb b r ∧ ∀ c w, c < 2 ^ (mb + eb + 1) → FloatValue mb eb c w →
    |r - v| ≤ |w - v| ∧ (|r - v| = |w - v| → w = r ∨ b % 2 = 0)

/-- Smallest normal number of a format: 2^-126 and 2^-1022. -/
def smallestNormal (eb : Nat) : ℚ := 2 ^ (2 - 2 ^ (eb - 1) : Int)

/-- Largest finite number: 2^128 - 2^104 and 2^1024 - 2^971. -/
def largestFinite (mb eb : Nat) : ℚ := (2 - 1 / 2 ^ mb) * 2 ^ (2 ^ (eb - 1) - 1)

/-- Half a unit above the largest finite number: from here on numbers round to infinity. -/
def overflowAt (mb eb : Nat) : ℚ := (2 - 1 / 2 ^ (mb + 1)) * 2 ^ (2 ^ (eb - 1) - 1)

/-- Numbers below this stay below the smallest normal number when rounded to `mb + 1` digits. -/
def tinyBelow (mb eb : Nat) : ℚ := smallestNormal eb * (1 - 1 / 2 ^ (mb + 2))

/-- Fraction part of a decimal number: nothing, or a point and digits. -/
inductive Frac : List Byte → List Nat → Prop
  | none : Frac [] []
  | some {cs ds} : DigitChars 10 cs ds → Frac (0x2e#8 :: cs) ds

/-- Exponent part: nothing, or `e`/`E`, a sign and digits. -/
inductive Expo : List Byte → Int → Prop
  | none : Expo [] 0
  | some {c sg neg cs ds} : (c = 0x65#8 ∨ c = 0x45#8) → Sign sg neg → DigitChars 10 cs ds → ds ≠ [] →
      Expo (c :: (sg ++ cs)) (if neg then -(positional 10 ds : Int) else positional 10 ds)

/-- What follows does not look like a part of the number. -/
def EndsNumber (rest : List Byte) : Prop :=
  ∀ c, rest.head? = some c → (∀ d, ¬ IsDigit 10 c d) ∧ c ≠ 0x2e#8 ∧ c ≠ 0x65#8 ∧ c ≠ 0x45#8 ∧ c ≠ 0x78#8 ∧ c ≠ 0x58#8

/-- `Decimal t neg v`: the text `t` consists of white space, a sign, a decimal number (digits, optional fraction, optional exponent)
of absolute value `v`, and possibly more text; `neg` tells whether there is a minus. -/
inductive Decimal : List Byte → Bool → ℚ → Prop
  | mk {ws sg neg ip ids fp fds ex e rest} : (∀ c ∈ ws, White c) → Sign sg neg → DigitChars 10 ip ids → Frac fp fds →
      ids ++ fds ≠ [] → Expo ex e → EndsNumber rest →
      Decimal (ws ++ sg ++ ip ++ fp ++ ex ++ rest) neg ((positional 10 (ids ++ fds) : ℚ) * 10 ^ (e - fds.length))

/-- Fraction part of a hexadecimal number. -/
inductive HexFrac : List Byte → List Nat → Prop
  | none : HexFrac [] []
  | some {cs ds} : DigitChars 16 cs ds → HexFrac (0x2e#8 :: cs) ds

/-- Exponent part of a hexadecimal number: nothing, or `p`/`P`, a sign and decimal digits. -/
inductive HexExpo : List Byte → Int → Prop
  | none : HexExpo [] 0
  | some {c sg neg cs ds} : (c = 0x70#8 ∨ c = 0x50#8) → Sign sg neg → DigitChars 10 cs ds → ds ≠ [] →
      HexExpo (c :: (sg ++ cs)) (if neg then -(positional 10 ds : Int) else positional 10 ds)

/-- What follows does not look like a part of a hexadecimal number. -/
def EndsHex (rest : List Byte) : Prop :=
  ∀ c, rest.head? = some c → (∀ d, ¬ IsDigit 16 c d) ∧ c ≠ 0x2e#8 ∧ c ≠ 0x70#8 ∧ c ≠ 0x50#8

/-- `Hexadecimal t neg v`: the text `t` consists of white space, a sign, `0x` or `0X`, a hexadecimal number (digits, optional fraction,
optional binary exponent) of absolute value `v`, and possibly more text. -/
inductive Hexadecimal : List Byte → Bool → ℚ → Prop
  | mk {ws sg neg x ip ids fp fds ex e rest} : (∀ c ∈ ws, White c) → Sign sg neg → (x = 0x78#8 ∨ x = 0x58#8) → DigitChars 16 ip ids →
      HexFrac fp fds → ids ++ fds ≠ [] → HexExpo ex e → EndsHex rest →
      Hexadecimal (ws ++ sg ++ [0x30#8, x] ++ ip ++ fp ++ ex ++ rest) neg ((positional 16 (ids ++ fds) : ℚ) / 16 ^ fds.length * 2 ^ e)

/-- `DecimalNumber t neg v`: the whole text `t` is a sign and a decimal number of absolute value `v`. -/
inductive DecimalNumber : List Byte → Bool → ℚ → Prop
  | mk {sg neg ip ids fp fds ex e} : Sign sg neg → DigitChars 10 ip ids → Frac fp fds → ids ++ fds ≠ [] → Expo ex e →
      DecimalNumber (sg ++ ip ++ fp ++ ex) neg ((positional 10 (ids ++ fds) : ℚ) * 10 ^ (e - fds.length))

/-- A number of at most `P` significant decimal digits. -/
def SigDigits (P : Nat) (v : ℚ) : Prop := ∃ (k : Nat) (j : Int), k < 10 ^ P ∧ v = k * 10 ^ j

/-- `y` is `x > 0` rounded to `P` significant decimal digits, halves to the even digit. -/
def Rounded (P : Nat) (x y : ℚ) : Prop :=
  ∃ (e : Int) (k : Nat), 10 ^ e ≤ x ∧ x < 10 ^ (e + 1) ∧ y = k * 10 ^ (e + 1 - P) ∧
    |y - x| ≤ 10 ^ (e + 1 - P) / 2 ∧ (|y - x| = 10 ^ (e + 1 - P) / 2 → k % 2 = 0)

/-- The text begins with the given lower case word, letters in either case. -/
def Word (w : List Byte) (t : List Byte) : Prop :=
  ∃ cs rest, t = cs ++ rest ∧ List.Forall₂ (fun c l => c = l ∨ c.toNat + 32 = l.toNat) cs w

/-- `inf` and `nan` -/
def wordInf : List Byte := [0x69#8, 0x6e#8, 0x66#8]
def wordNan : List Byte := [0x6e#8, 0x61#8, 0x6e#8]

/-- `Signed t neg r`: the text is white space, a sign and `r`, and `r` does not continue them. -/
def Signed (t : List Byte) (neg : Bool) (r : List Byte) : Prop :=
  ∃ ws sg, t = ws ++ sg ++ r ∧ (∀ c ∈ ws, White c) ∧ Sign sg neg ∧
    (sg = [] → ∀ c, r.head? = some c → ¬ White c ∧ c ≠ 0x2d#8 ∧ c ≠ 0x2b#8)

/-- The text holds no number: after white space and sign there is no digit, no point with a digit, and neither of the words. -/
def NoNumber (t : List Byte) : Prop :=
  ∃ neg r, Signed t neg r ∧ ¬ Word wordInf r ∧ ¬ Word wordNan r ∧
    ∀ c, r.head? = some c → (∀ d, ¬ IsDigit 10 c d) ∧
      (c = 0x2e#8 → ∀ c', r.tail.head? = some c' → ∀ d, ¬ IsDigit 10 c' d)

/-- The number with its sign. -/
def signedQ (neg : Bool) (v : ℚ) : ℚ := if neg then -v else v

end PreCore.Spec
