import Verif.Model.CNum
import Verif.Model.Mem
import Verif.Model.StringView
import Verif.Model.Supercore
/-!
# Model of datas/reflector.cpp and datas/internal/reflector.inl

Addresses are byte offsets from the reflected instance, so that stores outside of a field (or outside of the object)
are visible.  `std::string` members live in a separate store keyed by their address.
Float parsing and printing (`stof`, `stod`, `atof`, `fpclassify`, `%g`) are uninterpreted functions of the text.
Diagnostics printed through `printerror`/`printwarning` are left out.
-/
namespace PreCore.Refl
open CNum Supercore StringView

/-- `es::string_view`, `std::string` (reflector.cpp:27-28). -/
abbrev Text := List Byte

/-- `Reflector::ErrorType` (reflector.hpp:67-75). -/
inductive Err | None | SignMismatch | OutOfRange | InvalidFormat | InvalidDestination | EmptyInput | ShortInput
deriving DecidableEq, Repr

/-- `REFType` (reflector_fwd.hpp:26-42). -/
inductive RT
  | None | Integer | UnsignedInteger | FloatingPoint | Class | Enum | Bool | CString | String | Array | Vector
  | ArrayClass | EnumFlags | BitFieldMember | BitFieldClass
deriving DecidableEq, Repr

/-- Numbering of `REFType` (reflector_fwd.hpp:26-42); other byte values behave like `None` in every switch. -/
def RT.ofByte (n : Nat) : RT :=
  ([RT.None, .Integer, .UnsignedInteger, .FloatingPoint, .Class, .Enum, .Bool, .CString, .String, .Array, .Vector,
    .ArrayClass, .EnumFlags, .BitFieldMember, .BitFieldClass][n]?).getD .None

/-- `reflType` (reflector_type.hpp:25-34). -/
structure RType where
  type : RT
  subType : RT
  subSize : BitVec 8
  ID : BitVec 8
  numItems : BitVec 16
  offset : BitVec 16
  valueNameHash : BitVec 32
  typeHash : BitVec 32
deriving DecidableEq, Repr

/-- `_DecomposedVectorHash` (reflector_type.hpp:113-120): the bytes of the hash on a little endian host. -/
def decType (h : BitVec 32) : RT := RT.ofByte (h.extractLsb' 0 8).toNat
/-- `size` of the hash (reflector_type.hpp:113-120). -/
def decSize (h : BitVec 32) : BitVec 8 := h.extractLsb' 8 8
/-- `numItems` of the hash (reflector_type.hpp:113-120). -/
def decNum (h : BitVec 32) : BitVec 16 := h.extractLsb' 16 16

/-- The object: its bytes and its `std::string` members. (What `objAddr` points into, reflector.cpp:392-398.) -/
structure Obj where
  mem : Nat → Byte
  strs : Nat → Text

/-- Store `bs` at `a` (`memcpy` or a scalar store). (reflector.cpp:221-277, 392-493) -/
def Obj.write (o : Obj) (a : Nat) (bs : List Byte) : Obj :=
  { o with mem := fun x => if a ≤ x ∧ x < a + bs.length then bs.getD (x - a) 0#8 else o.mem x }

/-- Load `n` bytes from `a`. (reflector.cpp:721-875) -/
def Obj.read (o : Obj) (a n : Nat) : List Byte := (List.range n).map (fun i => o.mem (a + i))

/-- Assign a `std::string` member. (reflector.cpp:392-493) -/
def Obj.writeStr (o : Obj) (a : Nat) (s : Text) : Obj :=
  { o with strs := fun x => if x = a then s else o.strs x }

/-- A registered enum: its enumerator names with their values (`ReflectedEnum`, reflector_enum_reg.hpp:57-99). -/
abbrev EnumTab := List (Text × BitVec 64)

/-- What the functions read besides the object: the enum registry (`REFEnumStorage`, reflector.cpp:1045) and the float
conversions of the C library. -/
structure Env where
  enums : BitVec 32 → Option EnumTab
  float : Text → Err × Option (BitVec 32)
  double : Text → Err × Option (BitVec 64)
  showFloat : BitVec 32 → Text
  showDouble : BitVec 64 → Text

/-- `base` in `SetNumber` (reflector.cpp:117-118). -/
def numBase (t : Text) : Nat := if t.take 2 = [0x30#8, 0x78#8] ∨ t.take 3 = [0x2d#8, 0x30#8, 0x78#8] then 16 else 10

/-- `input[0] == '-'` (reflector.cpp:139, 158). -/
def startsMinus (t : Text) : Bool := t.head? == some 0x2d#8

/-- The signed branch of `SetNumber` (reflector.cpp:120-143) for a `w` bit type: error and value stored, if any. -/
def setSigned (w : Nat) (t : Text) : Err × Option (BitVec w) :=
  let iMin : Int := - 2 ^ (w - 1)
  let iMax : Int := 2 ^ (w - 1) - 1
  match stoll (numBase t) t with
  | .invalid => (.InvalidFormat, none)
  | .outOfRange => (.OutOfRange, some (BitVec.ofInt w (if startsMinus t then iMin else iMax)))
  | .ok v =>
    if v > iMax ∨ v < iMin then (.OutOfRange, some (BitVec.ofInt w (if startsMinus t then iMin else iMax)))
    else (.None, some (BitVec.ofInt w v))

/-- The unsigned branch of `SetNumber` (reflector.cpp:144-177) for a `w` bit type. -/
def setUnsigned (w : Nat) (t : Text) : Err × Option (BitVec w) :=
  let uMax : Nat := 2 ^ w - 1
  match stoull (numBase t) t with
  | .invalid => (.InvalidFormat, none)
  | .outOfRange => (.OutOfRange, some (BitVec.ofNat w uMax))
  | .ok v =>
    let v' := if startsMinus t then v % 2 ^ w else v
    if v' > uMax then (.OutOfRange, some (BitVec.ofNat w uMax))
    else (if startsMinus t then .SignMismatch else .None, some (BitVec.ofNat w v'))

/-- `SetNumber` for `BFTag` (reflector.cpp:95-178): `is_signed` is false for the tag type, whatever the member's
signedness, and the cast for a leading minus is the identity on 64 bits.  `bits ≤ 30`: beyond that `1 << numBits`
(reflector.cpp:108) overflows an `int`, which is undefined; every theorem about bit fields has that bound. -/
def setBF (bits : Nat) (t : Text) : Err × Option (BitVec 64) :=
  let uMax : Nat := 2 ^ bits - 1
  match stoull (numBase t) t with
  | .invalid => (.InvalidFormat, none)
  | .outOfRange => (.OutOfRange, some (BitVec.ofNat 64 uMax))
  | .ok v =>
    if v > uMax then (.OutOfRange, some (BitVec.ofNat 64 uMax))
    else (if startsMinus t then .SignMismatch else .None, some (BitVec.ofNat 64 v))

/-- `tolower` in the "C" locale. (C library, called at reflector.cpp:187.) -/
def toLower (c : Byte) : Byte := if 65 ≤ c.toNat ∧ c.toNat ≤ 90 then c + 32#8 else c

/-- `"true"` (reflector.cpp:189). -/
def tTrue : Text := [0x74#8, 0x72#8, 0x75#8, 0x65#8]
/-- `"false"` (reflector.cpp:191). -/
def tFalse : Text := [0x66#8, 0x61#8, 0x6c#8, 0x73#8, 0x65#8]
/-- `"NULL"` (reflector.cpp:267). -/
def tNULL : Text := [0x4e#8, 0x55#8, 0x4c#8, 0x4c#8]

/-- `SetBoolean` (reflector.cpp:185-197): the value is stored in every case. A text shorter than the word compared
differs at its terminating NUL. -/
def setBoolean (t : Text) : Err × Bool :=
  let l := t.map toLower
  let output := l.take 4 == tTrue
  (if !output && l.take 5 != tFalse then .InvalidFormat else .None, output)

/-- Result of `GetEnumValue` (reflector.cpp:199-219). -/
inductive EnumRes | unregistered | notFound | found (v : BitVec 64) deriving DecidableEq

/-- `GetEnumValue` (reflector.cpp:199-219): first item with this name. -/
def enumValue (env : Env) (t : Text) (h : BitVec 32) : EnumRes :=
  match env.enums h with
  | none => .unregistered
  | some tab => match tab.find? (fun e => StringView.compare e.1 t == 0) with
    | none => .notFound
    | some e => .found e.2

/-- `memcpy(objAddr, &eValue, size)` of a 64-bit value (size ≤ 8; more would read past the variable). (reflector.cpp:221-277) -/
def u64Bytes (v : BitVec 64) (size : Nat) : List Byte := toLE size v.toNat

/-- `SetEnum` (reflector.cpp:221-246): error and bytes stored. -/
def setEnum (env : Env) (t : Text) (h : BitVec 32) (size : Nat) : Err × Option (List Byte) :=
  let t := (skipEnd false t).1
  if t = [] then (.EmptyInput, none) else
  match enumValue env t h with
  | .unregistered => (.InvalidDestination, none)
  | .notFound => (.InvalidFormat, none)
  | .found v => (.None, some (u64Bytes v size))

/-- `FlagFromEnum` (reflector.cpp:248-277): error and new accumulated value.
`1ULL << cValue` for `cValue ≥ 64` is undefined; modelled as 0 (theorems assume values below 64). -/
def flagFromEnum (env : Env) (t : Text) (h : BitVec 32) (acc : BitVec 64) : Err × BitVec 64 :=
  let t := (trim t).1
  if t = [] then (.EmptyInput, acc) else
  match enumValue env t h with
  | .unregistered => (.InvalidDestination, acc)
  | .notFound => if t ≠ tNULL then (.InvalidFormat, acc) else (.None, acc)
  | .found v => (.None, acc ||| (1#64 <<< v.toNat))

/-- The loop of `SetEnumFlags` over the characters (reflector.cpp:281-306). `cur`: reversed characters since
`lastIterator`. `none` = early return with `InvalidDestination`. -/
def flagsLoop (env : Env) (h : BitVec 32) : Text → Text → Err → BitVec 64 → Option (Err × BitVec 64)
  | [], cur, err, acc =>
    if cur = [] then some (err, acc) else
    let r := flagFromEnum env cur.reverse h acc
    if r.1 = .InvalidDestination then none
    else some (if r.1 = .None then err else r.1, r.2)
  | c :: cs, cur, err, acc =>
    if c = 0x7c#8 then
      let r := flagFromEnum env cur.reverse h acc
      if r.1 = .InvalidDestination then none
      else flagsLoop env h cs [] (if r.1 = .None then err else r.1) r.2
    else flagsLoop env h cs (c :: cur) err acc

/-- `SetEnumFlags` (reflector.cpp:279-311). -/
def setEnumFlags (env : Env) (t : Text) (h : BitVec 32) (size : Nat) : Err × Option (List Byte) :=
  match flagsLoop env h t [] .None 0#64 with
  | none => (.InvalidDestination, none)
  | some (e, v) => (e, some (u64Bytes v size))

/-- `SetValue` of a float or double (reflector.cpp:46-86): `stof`/`stod` reject a text without characters other than
white space (`invalid_argument`), the rest is the library's business. -/
def setFloat {w : Nat} (f : Text → Err × Option (BitVec w)) (t : Text) : Err × Option (BitVec w) :=
  if skipSpace t = [] then (.InvalidFormat, none) else f t

/-- Store a `w` bit value when there is one. (reflector.cpp:392-493) -/
def storeBits {w : Nat} (o : Obj) (a n : Nat) (r : Err × Option (BitVec w)) : Err × Obj :=
  match r.2 with
  | none => (r.1, o)
  | some v => (r.1, o.write a (toLE n v.toNat))

/-- Store a value of `n` bytes when there is one (reflector.cpp:392-493). -/
def storeBytes (o : Obj) (a : Nat) (r : Err × Option (List Byte)) : Err × Obj :=
  match r.2 with
  | none => (r.1, o)
  | some bs => (r.1, o.write a bs)

/-- `BitMember::GetMask<uint64>` (bitfield.hpp:30-35). -/
def bfMask (size pos : Nat) : BitVec 64 := (BitVec.allOnes 64 >>> (64 - size)) <<< pos

/-- The `BitFieldMember` case (reflector.cpp:456-476): the 64-bit word at the instance is rewritten in every case;
when nothing was parsed the inserted value is 0. -/
def setBitMember (r : RType) (t : Text) (a : Nat) (o : Obj) : Err × Obj :=
  let res := setBF r.subSize.toNat t
  let ins := res.2.getD 0#64
  let w := BitVec.ofNat 64 (leNat (o.read a 8))
  let w' := (w &&& ~~~ (bfMask r.subSize.toNat r.offset.toNat)) ||| (ins <<< r.offset.toNat)
  (res.1, o.write a (toLE 8 w'.toNat))

/-- Characters that open or close a scope in `SetReflectedArray` (reflector.cpp:358, 361). -/
def opens (c : Byte) : Bool := c == 0x5b#8 || c == 0x22#8 || c == 0x28#8 || c == 0x7b#8
/-- Characters that close a scope (reflector.cpp:361). -/
def closes (c : Byte) : Bool := c == 0x5d#8 || c == 0x22#8 || c == 0x29#8 || c == 0x7d#8

/-- The items `SetReflectedArray` cuts out of the text between the braces (reflector.cpp:353-367); `cur`: reversed
characters since `curIter`. -/
def cutItems : Text → Text → Bool → List Text
  | [], _, _ => []
  | c :: cs, cur, scope =>
    let scope := if closes c && scope then false else scope
    if scope || opens c then cutItems cs (c :: cur) true
    else if cs = [] then [(c :: cur).reverse]
    else if c = 0x2c#8 then cur.reverse :: cutItems cs [] scope
    else cutItems cs (c :: cur) scope

/-- Type given to an element (reflector.cpp:344-352). -/
def elemType (r : RType) : RType :=
  if r.subType = .Vector then
    { r with type := .Vector, subType := decType r.typeHash, numItems := decNum r.typeHash, subSize := decSize r.typeHash }
  else { r with type := r.subType }

/-- Assigning the items in order (reflector.cpp:366-386); the error of an element is dropped. -/
def setItems (assign : Text → Nat → Obj → Err × Obj) (numItems subSize base : Nat) :
    List Text → Nat → Obj → Err × Obj
  | [], _, o => (.None, o)
  | t :: ts, i, o =>
    let t := (skipStart false t).1
    if t = [] ∧ i < numItems then (.ShortInput, o)
    else if t ≠ [] ∧ i ≥ numItems then (.OutOfRange, o)
    else setItems assign numItems subSize base ts (i + 1) (assign t (base + subSize * i) o).2

/-- `SetReflectedArray` (reflector.cpp:313-390) up to the element assignment. -/
def setArray (assign : Text → Nat → Obj → Err × Obj) (open_ close_ : Byte) (t : Text) (r : RType) (a : Nat) (o : Obj) :
    Err × Obj :=
  match StringView.find t [open_] 0, findLastOf t [close_] npos with
  | .at b, .at e =>
    if e < b then (.InvalidFormat, o)
    else
      -- `{begin + arrBegin + 1, begin + arrEnd}` (reflector.cpp:335)
      let inner := (t.take e).drop (b + 1)
      if inner = [] then (.EmptyInput, o)
      else setItems assign r.numItems.toNat r.subSize.toNat a (cutItems inner [] false) 0 o
  | _, _ => (.InvalidFormat, o)

/-- `SetReflectedMember` (reflector.cpp:392-493). The first argument bounds the nesting; every nested call receives a
shorter text, so `text length + 1` is always enough (`member_fuel`). -/
def member (env : Env) : Nat → RType → Text → Nat → Obj → Err × Obj
  | 0, _, _, _, o => (.None, o)
  | f + 1, r, t0, a, o =>
    let t := (skipStart false t0).1
    let rec_ := fun t' a' o' => member env f (elemType r) t' a' o'
    match r.type with
    | .Bool => let b := setBoolean t; (b.1, o.write a [if b.2 then 1#8 else 0#8])
    | .Integer =>
      match r.subSize.toNat with
      | 1 => storeBits o a 1 (setSigned 8 t)
      | 2 => storeBits o a 2 (setSigned 16 t)
      | 4 => storeBits o a 4 (setSigned 32 t)
      | 8 => storeBits o a 8 (setSigned 64 t)
      | _ => (.InvalidDestination, o)
    | .UnsignedInteger =>
      match r.subSize.toNat with
      | 1 => storeBits o a 1 (setUnsigned 8 t)
      | 2 => storeBits o a 2 (setUnsigned 16 t)
      | 4 => storeBits o a 4 (setUnsigned 32 t)
      | 8 => storeBits o a 8 (setUnsigned 64 t)
      | _ => (.InvalidDestination, o)
    | .FloatingPoint =>
      match r.subSize.toNat with
      | 4 => storeBits o a 4 (setFloat env.float t)
      | 8 => storeBits o a 8 (setFloat env.double t)
      | _ => (.InvalidDestination, o)
    | .BitFieldMember => setBitMember r t a o
    | .Enum => storeBytes o a (setEnum env t r.typeHash r.subSize.toNat)
    | .EnumFlags => storeBytes o a (setEnumFlags env t r.typeHash r.subSize.toNat)
    | .String => (.None, o.writeStr a t)
    | .Array => setArray rec_ 0x7b#8 0x7d#8 t r a o
    | .Vector => setArray rec_ 0x5b#8 0x5d#8 t r a o
    | .ArrayClass => setArray rec_ 0x28#8 0x29#8 t r a o
    | _ => (.None, o)

/-- `SetReflectedMember` with enough fuel. (reflector.cpp:392-493) -/
def setMember (env : Env) (r : RType) (t : Text) (a : Nat) (o : Obj) : Err × Obj := member env (t.length + 1) r t a o

/-- `SetReflectedValue(reflType, value)` (reflector.cpp:495-503). -/
def setValue (env : Env) (r : RType) (t : Text) (o : Obj) : Err × Obj :=
  setMember env r t (if r.type = .BitFieldMember then 0 else r.offset.toNat) o

/-- `SetReflectedValue(reflType, value, subID)` (reflector.cpp:505-521). -/
def setValueSub (env : Env) (r : RType) (t : Text) (subID : Nat) (o : Obj) : Err × Obj :=
  setMember env (elemType r) t (r.offset.toNat + r.subSize.toNat * subID) o

/-- `SetReflectedValue(reflType, value, subID, element)` (reflector.cpp:523-557). -/
def setValueElem (env : Env) (r : RType) (t : Text) (subID element : Nat) (o : Obj) : Err × Obj :=
  if r.subType ≠ .Vector then (.InvalidDestination, o)
  else if element ≥ (decSize r.typeHash).toNat then (.OutOfRange, o)
  else setMember env { r with subSize := decSize r.typeHash, type := decType r.typeHash } t
    (r.offset.toNat + r.subSize.toNat * subID + (decSize r.typeHash).toNat * element) o

/-- The element address computation shared by the typed setters (reflector.cpp:561-578, 591-609, 622-640):
address and type of what is stored to, or an error. -/
def typedDest (r : RType) (subID : Nat) : Except Err (Nat × RT) :=
  if subID = 0 then .ok (r.offset.toNat, r.type)
  else match r.type with
    | .Array | .Vector | .ArrayClass =>
      if subID ≥ r.numItems.toNat then .error .OutOfRange
      else .ok (r.offset.toNat + subID * r.subSize.toNat, r.subType)
    | _ => .error .OutOfRange

/-- `SetReflectedValueInt` (reflector.cpp:559-587). -/
def setValueInt (r : RType) (v : BitVec 64) (subID : Nat) (o : Obj) : Err × Obj :=
  match typedDest r subID with
  | .error e => (e, o)
  | .ok (a, ty) => if ty ≠ .Integer then (.InvalidDestination, o) else (.None, o.write a (u64Bytes v r.subSize.toNat))

/-- `SetReflectedValueUInt` (reflector.cpp:589-618). -/
def setValueUInt (r : RType) (v : BitVec 64) (subID : Nat) (o : Obj) : Err × Obj :=
  match typedDest r subID with
  | .error e => (e, o)
  | .ok (a, ty) =>
    if ty ≠ .UnsignedInteger then (.InvalidDestination, o) else (.None, o.write a (u64Bytes v r.subSize.toNat))

/-- `SetReflectedValueFloat` (reflector.cpp:620-656); `narrow` is the conversion double to float. -/
def setValueFloat (narrow : BitVec 64 → BitVec 32) (r : RType) (v : BitVec 64) (subID : Nat) (o : Obj) : Err × Obj :=
  match typedDest r subID with
  | .error e => (e, o)
  | .ok (a, ty) =>
    if ty ≠ .FloatingPoint then (.InvalidDestination, o)
    else match r.subSize.toNat with
      | 4 => (.None, o.write a (toLE 4 (narrow v).toNat))
      | 8 => (.None, o.write a (toLE 8 v.toNat))
      | _ => (.InvalidDestination, o)

/-- The part of `reflectorStatic` (reflector_class_reg.hpp:45-65) used by lookups. -/
structure ClassTab where
  types : List RType
  aliases : Option (List (BitVec 32))

/-- `for (t = 0; t < nTypes; t++) if (hashes[t] == hash) return t` (reflector.cpp:34-36, 39-41). -/
def findHash (h : BitVec 32) : List (BitVec 32) → Nat → Option Nat
  | [], _ => none
  | x :: xs, i => if x = h then some i else findHash h xs (i + 1)

/-- `GetReflectedType(JenHash)` (reflector.cpp:30-44), as the index of the type found. -/
def lookup (c : ClassTab) (h : BitVec 32) : Option Nat :=
  match findHash h (c.types.map (·.valueNameHash)) 0 with
  | some i => some i
  | none => match c.aliases with
    | none => none
    | some al => findHash h (al.take c.types.length) 0

/-- `GetReflectedType(size_t)` (reflector.inl:6-13). -/
def typeAt (c : ClassTab) (id : Nat) : Option RType := c.types[id]?

/-- Result of a name lookup. (reflector.cpp:30-44) -/
def typeOf (c : ClassTab) (h : BitVec 32) : Option RType := (lookup c h).bind (fun i => typeAt c i)

/-- `SetReflectedValue(JenHash, value)` (reflector.inl:15-23). -/
def setByName (env : Env) (c : ClassTab) (h : BitVec 32) (t : Text) (o : Obj) : Err × Obj :=
  match typeOf c h with
  | none => (.InvalidDestination, o)
  | some r => setValue env r t o

/-- `SetReflectedValue(size_t, value)` (reflector.inl:25-33). -/
def setByID (env : Env) (c : ClassTab) (id : Nat) (t : Text) (o : Obj) : Err × Obj :=
  match typeAt c id with
  | none => (.InvalidDestination, o)
  | some r => setValue env r t o

/-- The type switch of the three argument setters (reflector.inl:43-51, 61-69). -/
def setSubOf (env : Env) (ty : Option RType) (t : Text) (subID : Nat) (o : Obj) : Err × Obj :=
  match ty with
  | none => (.InvalidDestination, o)
  | some r => match r.type with
    | .Array | .Vector | .ArrayClass | .EnumFlags => setValueSub env r t subID o
    | _ => (.InvalidDestination, o)

/-- `SetReflectedValue(JenHash, value, subID)` (reflector.inl:35-52). -/
def setSubByName (env : Env) (c : ClassTab) (h : BitVec 32) (t : Text) (subID : Nat) (o : Obj) : Err × Obj :=
  setSubOf env (typeOf c h) t subID o

/-- `IsArray(size_t)` (reflector.inl:281-288) -/
def isArray (r : RType) : Bool := r.type == .Array || r.type == .ArrayClass

/-- `SetReflectedValue(JenHash, value, subID, element)` (reflector.inl:72-82). `IsArray(hash)` goes through the `ID`
of the type found; `ID` is the index of the type (`registered_ids`). -/
def setElemByName (env : Env) (c : ClassTab) (h : BitVec 32) (t : Text) (subID element : Nat) (o : Obj) : Err × Obj :=
  match typeOf c h with
  | none => (.InvalidDestination, o)
  | some r => if isArray r then setValueElem env r t subID element o else (.InvalidDestination, o)

end PreCore.Refl
