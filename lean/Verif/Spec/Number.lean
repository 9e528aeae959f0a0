import Verif.Model.Base
/-!
# What a number text denotes (specification, independent of the conversion code)
-/
namespace PreCore.Spec

/-- `c` is the character of digit `d` in `base`. -/
def IsDigit (base : Nat) (c : Byte) (d : Nat) : Prop :=
  d < base ∧ ((d < 10 ∧ c.toNat = 48 + d) ∨ (10 ≤ d ∧ d < 36 ∧ (c.toNat = 87 + d ∨ c.toNat = 55 + d)))

/-- The characters are the digits `ds`. -/
inductive DigitChars (base : Nat) : List Byte → List Nat → Prop
  | nil : DigitChars base [] []
  | cons {c d cs ds} : IsDigit base c d → DigitChars base cs ds → DigitChars base (c :: cs) (d :: ds)

/-- Positional value of a digit sequence, most significant first. -/
def positional (base : Nat) : List Nat → Nat
  | [] => 0
  | d :: ds => d * base ^ ds.length + positional base ds

/-- The text does not continue a number in `base`. -/
def Stops (base : Nat) (t : List Byte) : Prop := ∀ c, t.head? = some c → ∀ d, ¬ IsDigit base c d

/-- `0x` -/
def hexMark : List Byte := [0x30#8, 0x78#8]

/-- The texts starting with `0x` or `-0x`. -/
def HexText (t : List Byte) : Prop := (∃ r, t = hexMark ++ r) ∨ (∃ r, t = 0x2d#8 :: hexMark ++ r)

/-- A sign: none, plus, or minus. -/
inductive Sign : List Byte → Bool → Prop
  | none : Sign [] false
  | plus : Sign [0x2b#8] false
  | minus : Sign [0x2d#8] true

def White (c : Byte) : Prop := c = 0x20#8 ∨ (9 ≤ c.toNat ∧ c.toNat ≤ 13)

/-- `Literal t neg m`: `t` reads as the number `m`, negated when `neg`.
Hexadecimal when it starts with `0x` or `-0x`, decimal otherwise; anything after the digits is ignored. -/
inductive Literal : List Byte → Bool → Nat → Prop
  /-- white space, sign, decimal digits, anything else -/
  | dec {ws sg neg cs ds rest} : (∀ c ∈ ws, White c) → Sign sg neg → DigitChars 10 cs ds → ds ≠ [] → Stops 10 rest →
      ¬ HexText (ws ++ sg ++ cs ++ rest) → Literal (ws ++ sg ++ cs ++ rest) neg (positional 10 ds)
  /-- `0x` and hexadecimal digits -/
  | hex {cs ds rest} : DigitChars 16 cs ds → ds ≠ [] → Stops 16 rest →
      Literal (hexMark ++ cs ++ rest) false (positional 16 ds)
  | hexNeg {cs ds rest} : DigitChars 16 cs ds → ds ≠ [] → Stops 16 rest →
      Literal (0x2d#8 :: hexMark ++ cs ++ rest) true (positional 16 ds)
  /-- `0x` not followed by a hexadecimal digit reads as the number 0 followed by other characters -/
  | zero {rest} : Stops 16 rest → Literal (hexMark ++ rest) false 0
  | zeroNeg {rest} : Stops 16 rest → Literal (0x2d#8 :: hexMark ++ rest) true 0

/-- The integer denoted. -/
def signedVal (neg : Bool) (m : Nat) : Int := if neg then - (m : Int) else m

end PreCore.Spec
