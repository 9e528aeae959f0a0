import Verif.Model.Base
/-!
# Model of datas/jenkinshash.hpp and datas/jenkinshash3.hpp
-/
namespace PreCore.Jenkins

/-- One iteration of the loop of `JenkinsHash_<T>` (jenkinshash.hpp:32-38), `w` = bits of `T`. -/
def oatStep (w : Nat) (result : BitVec w) (c : Byte) : BitVec w :=
  let result := result + c.setWidth w
  let result := result + (result <<< 10)
  let result := result ^^^ (result >>> 6)
  (result.setWidth 32).setWidth w

/-- `JenkinsHash_<T>` (jenkinshash.hpp:28-45). -/
def oatHash (w : Nat) (input : List Byte) : BitVec 32 :=
  let result := input.foldl (oatStep w) 0#w
  let result := result + (result <<< 3)
  let result := result ^^^ (result >>> 11)
  let result := result + (result <<< 15)
  result.setWidth 32

/-- `JenHash("...")` (jenkinshash.hpp:55, 77). -/
def jenHash (input : List Byte) : BitVec 32 := oatHash 64 input
/-- `JenHashCannon("...")` (jenkinshash.hpp:78). -/
def jenHashCannon (input : List Byte) : BitVec 32 := oatHash 32 input

/-- `operator<` (jenkinshash.hpp:70): the operands are exchanged. -/
def hashLt (self o : BitVec 32) : Bool := o.ult self
/-- `operator>` (jenkinshash.hpp:71). -/
def hashGt (self o : BitVec 32) : Bool := self.ult o
/-- `operator==` (jenkinshash.hpp:62). -/
def hashEq (self o : BitVec 32) : Bool := o == self

/-! ## jenkinshash3.hpp -/

/-- `struct JenTriplet_` (jenkinshash3.hpp:23-24). -/
structure Triplet where
  a : BitVec 32
  b : BitVec 32
  c : BitVec 32
deriving DecidableEq, Repr

/-- `Setup_` (jenkinshash3.hpp:26-28). -/
def setup (len seed : BitVec 32) : BitVec 32 := 0xdeadbeef#32 + (len <<< 2) + seed

/-- `JenRotate` (jenkinshash3.hpp:30-32). -/
def rot (num : BitVec 32) (by_ : Nat) : BitVec 32 := (num <<< by_) ||| (num >>> (32 - by_))

/-- `operator+=` (jenkinshash3.hpp:42-47). -/
def Triplet.add (t k : Triplet) : Triplet := ⟨t.a + k.a, t.b + k.b, t.c + k.c⟩

/-- `Mix` (jenkinshash3.hpp:49-68). -/
def Triplet.mix (t : Triplet) : Triplet :=
  let (a, b, c) := (t.a, t.b, t.c)
  let a := a - c
  let a := a ^^^ rot c 4
  let c := c + b
  let b := b - a
  let b := b ^^^ rot a 6
  let a := a + c
  let c := c - b
  let c := c ^^^ rot b 8
  let b := b + a
  let a := a - c
  let a := a ^^^ rot c 16
  let c := c + b
  let b := b - a
  let b := b ^^^ rot a 19
  let a := a + c
  let c := c - b
  let c := c ^^^ rot b 4
  let b := b + a
  ⟨a, b, c⟩

/-- `Finalize` (jenkinshash3.hpp:70-85). -/
def Triplet.finalize (t : Triplet) : Triplet :=
  let (a, b, c) := (t.a, t.b, t.c)
  let c := c ^^^ b
  let c := c - rot b 14
  let a := a ^^^ c
  let a := a - rot c 11
  let b := b ^^^ a
  let b := b - rot a 25
  let c := c ^^^ b
  let c := c - rot b 16
  let a := a ^^^ c
  let a := a - rot c 4
  let b := b ^^^ a
  let b := b - rot a 14
  let c := c ^^^ b
  let c := c - rot b 24
  ⟨a, b, c⟩

/-- `JenMutateKey_` (jenkinshash3.hpp:88-94): four characters, little endian, zero past the end. -/
def mutateKey (input : List Byte) (offset : Nat) : BitVec 32 :=
  let ck (i : Nat) : BitVec 32 := if offset + i ≥ input.length then 0#32 else (input.getD (offset + i) 0).setWidth 32
  ck 0 ||| (ck 1 <<< 8) ||| (ck 2 <<< 16) ||| (ck 3 <<< 24)

/-- The `for` loop (jenkinshash3.hpp:104-111); first argument: fuel (the loop advances `k` by 12, so
`input.length` iterations always suffice). -/
def mixLoop (input : List Byte) : Nat → Nat → Triplet → Triplet
  | 0, _, t => t
  | f + 1, k, t =>
    if k < max input.length 12 - 12 then
      mixLoop input f (k + 12)
        ((t.add ⟨mutateKey input k, mutateKey input (k + 4), mutateKey input (k + 8)⟩).mix)
    else t

/-- `numRKeys` (jenkinshash3.hpp:97-100). -/
def numRKeys (size : Nat) : Nat := if size % 4 ≠ 0 then size / 4 + 1 else size / 4

/-- `lastTrip` (jenkinshash3.hpp:113-128), from `lastKeys`. -/
def lastTrip (input : List Byte) (lastKeys : Nat) : Triplet :=
  let n := input.length
  if lastKeys > 8 then
    ⟨mutateKey input (n - lastKeys), mutateKey input (n - (lastKeys - 4)), mutateKey input (n - (lastKeys - 8))⟩
  else if lastKeys > 4 then
    ⟨mutateKey input (n - lastKeys), mutateKey input (n - (lastKeys - 4)), 0#32⟩
  else if lastKeys > 0 then ⟨mutateKey input (n - lastKeys), 0#32, 0#32⟩
  else ⟨0#32, 0#32, 0#32⟩

/-- `JenkinsHash3_` (jenkinshash3.hpp:96-136). `lastKeys` after the branches is still > 0 exactly when it
was > 0 before (it is reduced by 4 or 8 from more than 4 or 8). -/
def hash3 (input : List Byte) (seed : BitVec 32) : BitVec 32 :=
  let n := input.length
  let s := setup (BitVec.ofNat 32 (numRKeys n)) seed
  let t := mixLoop input n 0 ⟨s, s, s⟩
  let lastKeys := if n = 12 then 12 else n % 12
  if lastKeys > 0 then ((t.add (lastTrip input lastKeys)).finalize).c else t.c

end PreCore.Jenkins
