import Verif.Model.Base
/-!
# Textbook Blowfish (C57), independent of the model

Schneier's description: a 64 bit block is two words (L, R); an array of 18 + 4*256 words holds the P-array and the four S-boxes; 16
Feistel rounds; the key schedule encrypts the all-zero block over and over and replaces the array from front to back.
`order` is the position of the byte of a word that indexes S-box `j`: the textbook uses the most significant byte for box 0.
-/
namespace PreCore.Blowfish

/-- `a`: the array, `a 0 .. a 17` the P-array, `a (18 + 256 * j + x)` entry `x` of S-box `j`. -/
def box (a : Nat → BitVec 32) (j : Nat) (x : BitVec 8) : BitVec 32 := a (18 + 256 * j + x.toNat)

/-- Byte of a word: 0 is the most significant one. -/
def byteOf (x : BitVec 32) : Nat → BitVec 8
  | 0 => x.extractLsb' 24 8
  | 1 => x.extractLsb' 16 8
  | 2 => x.extractLsb' 8 8
  | _ => x.extractLsb' 0 8

/-- The round function. -/
def F (a : Nat → BitVec 32) (order : Nat → Nat) (x : BitVec 32) : BitVec 32 :=
  ((box a 0 (byteOf x (order 0)) + box a 1 (byteOf x (order 1))) ^^^ box a 2 (byteOf x (order 2))) + box a 3 (byteOf x (order 3))

/-- Rounds `i, i+1, ...`, `n` of them, each followed by the exchange of the halves. -/
def rounds (a : Nat → BitVec 32) (order : Nat → Nat) : (n i : Nat) → BitVec 32 × BitVec 32 → BitVec 32 × BitVec 32
  | 0, _, lr => lr
  | n + 1, i, (l, r) => rounds a order n (i + 1) (r ^^^ F a order (l ^^^ a i), l ^^^ a i)

/-- Encryption of one block: sixteen rounds, the last exchange undone, output whitening. -/
def encrypt (a : Nat → BitVec 32) (order : Nat → Nat) (lr : BitVec 32 × BitVec 32) : BitVec 32 × BitVec 32 :=
  let (l, r) := rounds a order 16 0 lr
  (r ^^^ a 17, l ^^^ a 16)

/-- The key schedule: from position `i` on `n` pairs are replaced by successive encryptions. -/
def schedule (order : Nat → Nat) : (n i : Nat) → (Nat → BitVec 32) → BitVec 32 × BitVec 32 → (Nat → BitVec 32)
  | 0, _, a, _ => a
  | n + 1, i, a, lr =>
    let c := encrypt a order lr
    schedule order n (i + 2) (fun j => if j = i then c.1 else if j = i + 1 then c.2 else a j) c

/-- Setting a key: `k i` are the 18 key words, `init` the initial array. -/
def keySetup (order : Nat → Nat) (init k : Nat → BitVec 32) : Nat → BitVec 32 :=
  schedule order 521 0 (fun i => if i < 18 then init i ^^^ k i else init i) (0, 0)

end PreCore.Blowfish
