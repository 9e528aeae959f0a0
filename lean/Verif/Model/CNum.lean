import Verif.Model.Base
/-!
# The C/C++ library number conversions used by the reflector and enum registration

`std::stoll`, `std::stoull`, `std::strtoull`, `std::to_string` are not part of /repo; they are modelled from the C and
C++ standards ("C" locale) because datas/reflector.cpp:127,150,745-775 and datas/internal/reflector_enum_reg.hpp:49
rely on them.  A text is the list of its characters; reading past the end yields the terminating NUL, which is neither
blank, sign nor digit.
-/
namespace PreCore.CNum

/-- `isspace` in the "C" locale. (C library, inside the conversions called at reflector.cpp:127, 150.) -/
def isSpace (c : Byte) : Bool := c == 0x20#8 || (9 ≤ c.toNat && c.toNat ≤ 13)

/-- Value of a digit in `base` (10 or 16). (C library, inside the conversions called at reflector.cpp:127, 150.) -/
def digitVal (base : Nat) (c : Byte) : Option Nat :=
  let n := c.toNat
  let v := if 48 ≤ n ∧ n ≤ 57 then n - 48 else if 97 ≤ n ∧ n ≤ 122 then n - 87 else if 65 ≤ n ∧ n ≤ 90 then n - 55 else 99
  if v < base then some v else none

/-- The longest prefix of digits. (C library, inside the conversions called at reflector.cpp:127, 150.) -/
def digits (base : Nat) : List Byte → List Nat
  | [] => []
  | c :: cs => match digitVal base c with
    | none => []
    | some d => d :: digits base cs

/-- Positional value, most significant digit first. (C library, inside the conversions called at reflector.cpp:127, 150.) -/
def value (base : Nat) (acc : Nat) : List Nat → Nat
  | [] => acc
  | d :: ds => value base (acc * base + d) ds

/-- Leading white space skipped by `strtoll` (C library, called at reflector.cpp:127, 150). -/
def skipSpace : List Byte → List Byte
  | [] => []
  | c :: cs => if isSpace c then skipSpace cs else c :: cs

/-- Optional sign: (is negative, rest). (C library, inside the conversions called at reflector.cpp:127, 150.) -/
def sign : List Byte → Bool × List Byte
  | [] => (false, [])
  | c :: cs => if c = 0x2d#8 then (true, cs) else if c = 0x2b#8 then (false, cs) else (false, c :: cs)

/-- Optional `0x`/`0X` in base 16; it belongs to the number only when a hexadecimal digit follows.
(C library, base chosen at reflector.cpp:117-118.) -/
def hexPrefix (base : Nat) : List Byte → List Byte
  | c0 :: c1 :: c2 :: cs =>
    if base = 16 ∧ c0 = 0x30#8 ∧ (c1 = 0x78#8 ∨ c1 = 0x58#8) ∧ (digitVal 16 c2).isSome then c2 :: cs
    else c0 :: c1 :: c2 :: cs
  | t => t

/-- Subject sequence of the `strto*` family: sign and magnitude; `none` when there is no number.
(C library, called at reflector.cpp:127, 150, reflector_enum_reg.hpp:49.) -/
def parse (base : Nat) (t : List Byte) : Option (Bool × Nat) :=
  let (neg, r) := sign (skipSpace t)
  match digits base (hexPrefix base r) with
  | [] => none
  | d :: ds => some (neg, value base 0 (d :: ds))

/-- Outcome of `std::stoll` / `std::stoull`. (Caught at reflector.cpp:126-131, 149-154.) -/
inductive Res (α : Type) | ok (v : α) | invalid | outOfRange deriving DecidableEq, Repr

/-- `std::stoll`. (Called at reflector.cpp:127.) -/
def stoll (base : Nat) (t : List Byte) : Res Int :=
  match parse base t with
  | none => .invalid
  | some (neg, m) =>
    let z : Int := if neg then - (m : Int) else m
    if z < - 2 ^ 63 ∨ z > 2 ^ 63 - 1 then .outOfRange else .ok z

/-- `std::stoull`: a minus sign negates in the unsigned type. (Called at reflector.cpp:150.) -/
def stoull (base : Nat) (t : List Byte) : Res Nat :=
  match parse base t with
  | none => .invalid
  | some (neg, m) =>
    if m > 2 ^ 64 - 1 then .outOfRange else .ok (if neg then (2 ^ 64 - m) % 2 ^ 64 else m)

/-- `std::strtoull`: 0 without digits, `ULLONG_MAX` on overflow. (Called at reflector_enum_reg.hpp:49.) -/
def strtoull (base : Nat) (t : List Byte) : Nat :=
  match stoull base t with
  | .ok v => v
  | .invalid => 0
  | .outOfRange => 2 ^ 64 - 1

/-- Decimal digits of a natural number, as `std::to_string` prints it. (Called at reflector.cpp:745-775.) -/
def showNat (n : Nat) : List Byte :=
  if h : n < 10 then [BitVec.ofNat 8 (48 + n)] else showNat (n / 10) ++ [BitVec.ofNat 8 (48 + n % 10)]
termination_by n
decreasing_by omega

/-- `std::to_string` of a signed integer. (Called at reflector.cpp:745-775.) -/
def showInt (z : Int) : List Byte :=
  if z < 0 then 0x2d#8 :: showNat z.natAbs else showNat z.natAbs

end PreCore.CNum
