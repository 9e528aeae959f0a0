import Verif.Model.Reflector
/-!
# Model of the printing half of datas/reflector.cpp

`none` = undefined behaviour or no result (unbounded recursion).
-/
namespace PreCore.Refl
open CNum

/-- Result of `PrintEnumValue` (reflector.cpp:658-677). -/
inductive NameRes | unregistered | notFound | found (n : Text) deriving DecidableEq

/-- `PrintEnumValue` (reflector.cpp:658-677): name of the first enumerator with this value. -/
def enumName (env : Env) (h : BitVec 32) (v : Nat) : NameRes :=
  match env.enums h with
  | none => .unregistered
  | some tab => match tab.find? (fun e => e.2.toNat == v) with
    | none => .notFound
    | some e => .found e.1

/-- The `Enum` case of `GetReflectedPrimitive` with `PrintEnum` (reflector.cpp:679-685, 821-833): an exception is
caught and leads to the empty string at the end of the function. -/
def printEnum (env : Env) (h : BitVec 32) (v : Nat) : Text :=
  match enumName env h v with
  | .found n => n
  | _ => []

/-- `" | "` (reflector.cpp:687-719). -/
def tBar : Text := [0x20#8, 0x7c#8, 0x20#8]

/-- The loop of `PrintEnumFlags` (reflector.cpp:696-713) over the bits `t, t+1, ...` (first argument: how many remain). -/
def flagsPrintLoop (env : Env) (h : BitVec 32) (v : BitVec 64) : Nat → Nat → Text → Text
  | 0, _, res => res
  | k + 1, t, res =>
    if v.getLsbD t then
      let res := if res ≠ [] then res ++ tBar else res
      match enumName env h t with
      | .unregistered => res
      | .notFound => flagsPrintLoop env h v k (t + 1) res
      | .found n => flagsPrintLoop env h v k (t + 1) (res ++ n)
    else flagsPrintLoop env h v k (t + 1) res

/-- `PrintEnumFlags` (reflector.cpp:687-719). -/
def printFlags (env : Env) (h : BitVec 32) (v : BitVec 64) (numBits : Nat) : Text :=
  let res := flagsPrintLoop env h v numBits 0 []
  if res = [] then tNULL else res

/-- Printing a bit field member (reflector.cpp:796-816). -/
def printBitMember (r : RType) (w : BitVec 64) : Text :=
  let out := (w &&& bfMask r.subSize.toNat r.offset.toNat) >>> r.offset.toNat
  if r.subType = .UnsignedInteger then showNat out.toNat
  else
    let uMax : BitVec 64 := BitVec.ofNat 64 (2 ^ r.subSize.toNat - 1)
    let iMin : BitVec 64 := ~~~ (uMax >>> 1)
    let out := if out &&& iMin ≠ 0#64 then out ||| ~~~ uMax else out
    showInt out.toInt

/-- The text of a sub class (reflector.cpp:835-836). -/
def tSub : Text := "SUBCLASS_TYPE".toList.map (fun c => BitVec.ofNat 8 c.toNat)
/-- `", "` (reflector.cpp:848-872). -/
def tSep : Text := [0x2c#8, 0x20#8]

/-- The element loop (reflector.cpp:862-865). -/
def printItems (pr : Nat → Option Text) : Nat → Nat → Option Text
  | 0, _ => some []
  | k + 1, i => match pr i with
    | none => none
    | some t => (printItems pr k (i + 1)).map (fun r => t ++ tSep ++ r)

/-- The array case of `GetReflectedPrimitive` (reflector.cpp:848-872): with no items the second `pop_back` is applied
to an empty string (undefined). -/
def printArray (pr : Nat → Option Text) (open_ close_ : Byte) (numItems : Nat) : Option Text :=
  if numItems = 0 then none
  else (printItems pr numItems 0).map (fun s => (open_ :: s).dropLast.dropLast ++ [close_])

/-- `GetReflectedPrimitive` (reflector.cpp:721-875). The first argument bounds the nesting: an array of vectors of
scalars needs 3 levels, a description asking for more recurses without end in the code. -/
def print (env : Env) : Nat → RType → Nat → Obj → Option Text
  | 0, _, _, _ => none
  | f + 1, r, a, o =>
    let n := r.subSize.toNat
    let pr := fun i => print env f (elemType r) (a + n * i) o
    let num := leNat (o.read a n)
    match r.type with
    | .Bool => some (if o.mem a ≠ 0#8 then tTrue else tFalse)
    | .Integer => some (if n = 1 ∨ n = 2 ∨ n = 4 ∨ n = 8 then showInt (BitVec.ofNat (8 * n) num).toInt else [])
    | .UnsignedInteger => some (if n = 1 ∨ n = 2 ∨ n = 4 ∨ n = 8 then showNat num else [])
    | .FloatingPoint =>
      some (if n = 4 then env.showFloat (BitVec.ofNat 32 num) else if n = 8 then env.showDouble (BitVec.ofNat 64 num) else [])
    | .BitFieldMember => some (printBitMember r (BitVec.ofNat 64 (leNat (o.read a 8))))
    | .EnumFlags => if n ≤ 8 then some (printFlags env r.typeHash (BitVec.ofNat 64 num) (n * 8)) else none
    | .Enum => if n ≤ 8 then some (printEnum env r.typeHash num) else none
    | .CString =>
      -- the bytes of the pointer itself are taken for the text (reflector.cpp:835-836)
      let b := o.read a 8
      if 0#8 ∈ b then some (b.takeWhile (· ≠ 0#8)) else none
    | .String => some (o.strs a)
    | .Class | .BitFieldClass => some tSub
    | .Array => printArray pr 0x7b#8 0x7d#8 r.numItems.toNat
    | .Vector => printArray pr 0x5b#8 0x5d#8 r.numItems.toNat
    | .ArrayClass => printArray pr 0x28#8 0x29#8 r.numItems.toNat
    | .None => some []

/-- `GetReflectedPrimitive` for the descriptions that registration produces. (reflector.cpp:721-875) -/
def printMember (env : Env) (r : RType) (a : Nat) (o : Obj) : Option Text := print env 3 r a o

/-- `GetReflectedValue(size_t)` (reflector.cpp:877-888). -/
def getByID (env : Env) (c : ClassTab) (id : Nat) (o : Obj) : Option Text :=
  match typeAt c id with
  | none => some []
  | some r => printMember env r (if r.type = .BitFieldMember then 0 else r.offset.toNat) o

/-- `GetReflectedValue(JenHash)` (reflector.inl:164-171); `ID` of the type found is its index. -/
def getByName (env : Env) (c : ClassTab) (h : BitVec 32) (o : Obj) : Option Text :=
  match lookup c h with
  | none => some []
  | some i => getByID env c i o

/-- `eValue & (1 << subID)` (reflector.cpp:924-928, 971-977) for a flags value of `n` bytes held in `v`: `1 << subID` is an
`int`, so 31 sign extends and looks at the upper half too, of which only `n` bytes were copied into an uninitialised variable
(`none` unless all 8 were); larger shifts are undefined (`none`). -/
def flagBit (v : BitVec 64) (n i : Nat) : Option Bool :=
  if i < 31 then some (v.getLsbD i)
  else if i = 31 ∧ n = 8 then some (v &&& 0xffffffff80000000#64 != 0#64)
  else none

/-- "true" or "false" for flag `i` of the `n` byte value at `a` (reflector.cpp:924-928, 971-977). -/
def printFlagBit (o : Obj) (a n i : Nat) : Option Text :=
  (flagBit (BitVec.ofNat 64 (leNat (o.read a n))) n i).map (fun b => if b then tTrue else tFalse)

/-- `GetReflectedValue(size_t, size_t)` (reflector.cpp:890-934). -/
def getSub (env : Env) (c : ClassTab) (id subID : Nat) (o : Obj) : Option Text :=
  match typeAt c id with
  | none => some []
  | some r =>
    match r.type with
    | .Array | .Vector | .ArrayClass =>
      if r.numItems.toNat ≤ subID then some []
      else printMember env (elemType r) (r.offset.toNat + r.subSize.toNat * subID) o
    | .EnumFlags =>
      if r.subSize.toNat * 8 ≤ subID then some []
      else printFlagBit o r.offset.toNat r.subSize.toNat subID
    | _ => some []

/-- `GetReflectedValue(size_t, size_t, size_t)` (reflector.cpp:936-984). -/
def getElem (env : Env) (c : ClassTab) (id subID element : Nat) (o : Obj) : Option Text :=
  match typeAt c id with
  | none => some []
  | some r =>
    if !isArray r then some [] else
    match r.subType with
    | .Vector =>
      if r.numItems.toNat ≤ subID then some []
      else if (decNum r.typeHash).toNat ≤ element then some []
      else printMember env { r with type := decType r.typeHash, numItems := decNum r.typeHash, subSize := decSize r.typeHash }
        (r.offset.toNat + r.subSize.toNat * subID + (decSize r.typeHash).toNat * element) o
    | .EnumFlags =>
      if r.subSize.toNat * 8 ≤ element ∨ r.numItems.toNat ≤ subID then some []
      else printFlagBit o (r.offset.toNat + r.subSize.toNat * subID) r.subSize.toNat element
    | _ => some []

end PreCore.Refl
