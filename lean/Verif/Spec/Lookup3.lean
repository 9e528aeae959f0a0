import Verif.Model.Base
/-!
# Bob Jenkins' `hashword` (lookup3.c, May 2006, public domain), independent of the model (C58)
-/
namespace PreCore.Lookup3

abbrev Word := BitVec 32

structure St where
  a : Word
  b : Word
  c : Word
deriving DecidableEq, Repr

/-- The `mix` macro: six lines of subtract, xor with a rotation, add. -/
def mix (s : St) : St :=
  let line (x y z : Word) (k : Nat) : Word × Word := ((x - z) ^^^ z.rotateLeft k, z + y)
  let (a, c) := line s.a s.b s.c 4
  let (b, a) := line s.b c a 6
  let (c, b) := line c a b 8
  let (a, c) := line a b c 16
  let (b, a) := line b c a 19
  let (c, b) := line c a b 4
  ⟨a, b, c⟩

/-- The `final` macro: seven lines of xor, subtract a rotation. -/
def final (s : St) : St :=
  let line (x y : Word) (k : Nat) : Word := (x ^^^ y) - y.rotateLeft k
  let c := line s.c s.b 14
  let a := line s.a c 11
  let b := line s.b a 25
  let c := line c b 16
  let a := line a c 4
  let b := line b a 14
  let c := line c b 24
  ⟨a, b, c⟩

/-- The loop and the closing `switch`. -/
def loop (s : St) : List Word → St
  | [] => s
  | [x] => final ⟨s.a + x, s.b, s.c⟩
  | [x, y] => final ⟨s.a + x, s.b + y, s.c⟩
  | [x, y, z] => final ⟨s.a + x, s.b + y, s.c + z⟩
  | x :: y :: z :: w :: rest => loop (mix ⟨s.a + x, s.b + y, s.c + z⟩) (w :: rest)

/-- `hashword(k, length, initval)`. -/
def hashword (ws : List Word) (initval : Word) : Word :=
  let s := 0xdeadbeef#32 + BitVec.ofNat 32 (4 * ws.length) + initval
  (loop ⟨s, s, s⟩ ws).c

/-- A text as little endian words, padded with zeros. -/
def wordsOf : List Byte → List Word
  | [] => []
  | [a] => [0#8 ++ 0#8 ++ 0#8 ++ a]
  | [a, b] => [0#8 ++ 0#8 ++ b ++ a]
  | [a, b, c] => [0#8 ++ c ++ b ++ a]
  | a :: b :: c :: d :: rest => (d ++ c ++ b ++ a) :: wordsOf rest

end PreCore.Lookup3
