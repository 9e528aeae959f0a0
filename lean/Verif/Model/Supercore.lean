import Verif.Model.Base
/-!
# Model of datas/supercore.hpp
-/
namespace PreCore.Supercore

/-- `IsPow2` (supercore.hpp:84-86) for an unsigned type of `w` bits. -/
def isPow2 {w : Nat} (x : BitVec w) : Bool := x &&& (x - 1#w) == 0#w

/-- `GetPadding` (supercore.hpp:50-55), `size_t` = 64 bits. -/
def getPadding (value alignment : BitVec 64) : BitVec 64 :=
  let mask := alignment - 1#64
  let result := value &&& mask
  if result = 0#64 then 0#64 else alignment - result

/-- One step of `CompileFourCC` (supercore.hpp:40-43): `const uint32 tmp = input[i]` converts a (signed) `char`. -/
def fourCCStep (i : Nat) (acc : BitVec 32) (c : Byte) : BitVec 32 := acc ||| (c.signExtend 32 <<< (8 * i))

/-- `CompileFourCC` (supercore.hpp:38-46). -/
def compileFourCC (c0 c1 c2 c3 : Byte) : BitVec 32 :=
  fourCCStep 3 (fourCCStep 2 (fourCCStep 1 (fourCCStep 0 0#32 c0) c1) c2) c3

/-- The condition `c == ' ' || c == '\t' || (inclNewLine && c == '\n')` (supercore.hpp:98-99). -/
def blank (nl : Bool) (c : Byte) : Bool := c == 0x20#8 || c == 0x09#8 || (nl && c == 0x0a#8)

/-- A view into a buffer: what precedes it, its characters, and what follows it. (Argument of supercore.hpp:96-119.) -/
structure View where
  before : List Byte
  chars : List Byte
  after : List Byte
deriving Repr, DecidableEq

/-- `SkipStartWhitespace` (supercore.hpp:96-104) on the characters of the view. The second component tells whether
`input[0]` was evaluated on an empty view (a read outside of the view; its value does not matter because
`!input.empty()` is tested afterwards). -/
def skipStart (nl : Bool) : List Byte → List Byte × Bool
  | [] => ([], true)
  | c :: cs => if blank nl c then skipStart nl cs else (c :: cs, false)

/-- `SkipEndWhitespace` (supercore.hpp:106-114), working on the reversed characters: `back()` is the head. -/
def skipEndRev (nl : Bool) : List Byte → List Byte × Bool
  | [] => ([], true)
  | c :: cs => if blank nl c then skipEndRev nl cs else (c :: cs, false)

/-- `SkipEndWhitespace` (supercore.hpp:106-114). -/
def skipEnd (nl : Bool) (s : List Byte) : List Byte × Bool :=
  let r := skipEndRev nl s.reverse
  (r.1.reverse, r.2)

/-- `TrimWhitespace` (supercore.hpp:116-119). -/
def trim (s : List Byte) : List Byte × Bool :=
  let a := skipStart false s
  let b := skipEnd false a.1
  (b.1, a.2 || b.2)

/-- `atohLUT` (supercore.hpp:26-29): 48 dots, 0-9, 7 dots, a-f, 19 + 7 dots, a-f, and the terminating NUL of the string
literal at index 103 (the code of 'g'). -/
def atohLUT : List Nat :=
  List.replicate 48 0x2e ++ [0, 1, 2, 3, 4, 5, 6, 7, 8, 9] ++ List.replicate 7 0x2e ++ [10, 11, 12, 13, 14, 15] ++
  List.replicate 26 0x2e ++ [10, 11, 12, 13, 14, 15] ++ [0]

end PreCore.Supercore
