import Verif.Model.Base128
import Verif.Model.Reflector
/-!
# Model of `ReflectorBinUtil` (datas/reflector_io.cpp:413-674)

Writers return the bytes appended to the (not byte swapping) writer; readers take the remaining bytes of the (not byte
swapping) reader.  Addresses are byte offsets as in `Model/Reflector`.
-/
namespace PreCore.ReflBin
open Refl Base128

/-- `reflectorStatic` (reflector_class_reg.hpp:45-65) as far as used here. -/
structure ClassDef where
  hash : BitVec 32
  tab : ClassTab

/-- `ReflectedInstance`: class and address. (reflector.cpp:985-1043) -/
structure Inst where
  cls : ClassDef
  base : Nat

/-- `REFSubClassStorage` (reflector.cpp:1046). -/
abbrev Registry := BitVec 32 → Option ClassDef

/-- `GetReflectedSubClass(id, subID)` (reflector.cpp:985-1043); `none` is the empty instance. -/
def subClass (reg : Registry) (inst : Inst) (id sub : Nat) : Option Inst :=
  match inst.cls.tab.types[id]? with
  | none => none
  | some r =>
    if sub ≠ 0 ∧ sub ≥ r.numItems.toNat then none
    else
      let p : Nat × RT := match r.type with
        | .Array | .Vector | .ArrayClass => (inst.base + r.offset.toNat + sub * r.subSize.toNat, r.subType)
        | t => (inst.base + r.offset.toNat, t)
      if p.2 = .Class ∨ p.2 = .BitFieldClass then (reg r.typeHash).map (fun c => ⟨c, p.1⟩) else none

/-- The type of element `i` in `WriteDataItem` / `LoadDataItem` (reflector_io.cpp:461-474, 573-586). -/
def elem (r : RType) (i : Nat) : RType :=
  if r.subType = .Vector then
    { r with type := .Vector, subType := decType r.typeHash, numItems := decNum r.typeHash, subSize := decSize r.typeHash }
  else { r with type := r.subType, subType := r.type, numItems := BitVec.ofNat 16 i }

/-- Outcome of writing: error code and bytes; `none` = undefined behaviour (null instance, `memcpy` larger than the
variable) or recursion deeper than the bound. (reflector_io.cpp:428-539) -/
abbrev WRes := Option (Nat × List Byte)

/-- The element loop (reflector_io.cpp:472-479): an error of an element becomes 2. First argument: elements left. -/
def writeElems (wi : Nat → WRes) : Nat → Nat → WRes
  | 0, _ => some (0, [])
  | k + 1, i => match wi i with
    | none => none
    | some (e, bs) =>
      if e ≠ 0 then some (2, bs)
      else match writeElems wi k (i + 1) with
        | none => none
        | some (e, bs') => some (e, bs ++ bs')

/-- The item loop of `SaveClass` (reflector_io.cpp:508-522): name hash, size of the value, value. -/
def saveFields (wi : RType → WRes) : List RType → WRes
  | [] => some (0, [])
  | t :: ts => match wi t with
    | none => none
    | some (e, bs) =>
      if e ≠ 0 then some (e, [])
      else match saveFields wi ts with
        | none => none
        | some (e, bs') =>
          some (e, toLE 4 t.valueNameHash.toNat ++ buWrite (BitVec.ofNat 64 bs.length) ++ bs ++ bs')

/-- `SaveClass` (reflector_io.cpp:498-528); `wi` writes an item of a type at an address. -/
def saveClass (wi : RType → Nat → WRes) (inst : Inst) : WRes :=
  match saveFields (fun t => wi t (inst.base + t.offset.toNat)) inst.cls.tab.types with
  | none => none
  | some (e, bs) =>
    if e ≠ 0 then some (e, [])
    else
      let buf := buWrite (BitVec.ofNat 64 inst.cls.tab.types.length) ++ bs
      some (0, buWrite (BitVec.ofNat 64 buf.length) ++ buf)

/-- The 64-bit variable after `memcpy(&tvar, objAddr, subSize)` and the shifts (reflector_io.cpp:435-438). -/
def signedVar (bs : List Byte) : BitVec 64 := (BitVec.ofNat (8 * bs.length) (leNat bs)).signExtend 64

/-- `WriteDataItem` (reflector_io.cpp:428-496). `root`: the reflector given to `Save`, used for every nested class. -/
def writeItem (reg : Registry) (root : Inst) (o : Obj) : Nat → RType → Nat → WRes
  | 0, _, _ => none
  | f + 1, r, a =>
    let n := r.subSize.toNat
    let raw : WRes := some (0, o.read a n)
    let uns : WRes := if n > 1 then (if n ≤ 8 then some (0, buWrite (BitVec.ofNat 64 (leNat (o.read a n)))) else none) else raw
    let lst : WRes := writeElems (fun i => writeItem reg root o f (elem r i) (a + n * i)) r.numItems.toNat 0
    match r.type with
    | .Integer | .Enum => if n > 1 then (if n ≤ 8 then some (0, biWrite (signedVar (o.read a n))) else none) else raw
    | .UnsignedInteger | .EnumFlags | .BitFieldClass => uns
    | .Bool | .FloatingPoint => raw
    | .Array | .ArrayClass | .Vector => lst
    | .String => some (0, toLE 4 (o.strs a).length ++ o.strs a)
    | .Class => match subClass reg root r.ID.toNat r.numItems.toNat with
      | none => none
      | some inst => saveClass (writeItem reg root o f) inst
    | _ => some (1, [])

/-- `ReflectorBinUtil::Save` (reflector_io.cpp:530-539). The first argument bounds the nesting. -/
def save (f : Nat) (reg : Registry) (c : ClassDef) (o : Obj) : WRes :=
  match saveClass (writeItem reg ⟨c, 0⟩ o f) ⟨c, 0⟩ with
  | none => none
  | some (e, bs) => some (e, toLE 4 c.hash.toNat ++ bs)

/-- Outcome of reading: error code, bytes not consumed, object. `none` = the stream ended too early, a skip of 2 GiB or
more (converted to a negative `int`), undefined behaviour, or recursion deeper than the bound. (reflector_io.cpp:543-674) -/
abbrev RRes := Option (Nat × List Byte × Obj)

/-- `ReadBuffer`. (binreader_ref.hpp:41-48) -/
def takeN (n : Nat) (s : List Byte) : Option (List Byte × List Byte) :=
  if n ≤ s.length then some (s.take n, s.drop n) else none

/-- `Skip(int)`. (bincore_navi.hpp:35) -/
def skip (n : BitVec 64) (s : List Byte) : Option (List Byte) := if n.toNat < 2 ^ 31 then some (s.drop n.toNat) else none

/-- The element loop (reflector_io.cpp:584-591). -/
def loadElems (li : Nat → List Byte → Obj → RRes) : Nat → Nat → List Byte → Obj → RRes
  | 0, _, s, o => some (0, s, o)
  | k + 1, i, s, o => match li i s o with
    | none => none
    | some (e, s, o) => if e ≠ 0 then some (2, s, o) else loadElems li k (i + 1) s o

/-- The item loop of `LoadClass` (reflector_io.cpp:629-653). The reader handed to the item is a copy of the reader on the
same stream, so the saved position survives. -/
def loadFields (tab : ClassTab) (li : RType → List Byte → Obj → RRes) : Nat → Nat → List Byte → Obj → RRes
  | 0, err, s, o => some (err, s, o)
  | k + 1, err, s, o =>
    match takeN 4 s with
    | none => none
    | some (h, s) => match buRead s with
      | none => none
      | some (size, s) => match typeOf tab (BitVec.ofNat 32 (leNat h)) with
        | none => match skip size s with
          | none => none
          | some s => loadFields tab li k err s o
        | some t => match li t s o with
          | none => none
          | some (0, s', o) => loadFields tab li k 0 s' o
          | some (e, _, o) => match skip size s with
            | none => none
            | some s => loadFields tab li k e s o

/-- `LoadClass` (reflector_io.cpp:610-656). -/
def loadClass (li : RType → Nat → List Byte → Obj → RRes) (inst : Inst) (s : List Byte) (o : Obj) : RRes :=
  match buRead s with
  | none => none
  | some (chunk, s) => match buRead s with
    | none => none
    | some (num, s') =>
      if num.toNat ≠ inst.cls.tab.types.length then (skip chunk s).map (fun s => (1, s, o))
      else loadFields inst.cls.tab (fun t => li t (inst.base + t.offset.toNat)) inst.cls.tab.types.length 0 s' o

/-- `LoadDataItem` (reflector_io.cpp:543-608). `inst`: the instance being loaded. -/
def loadItem (reg : Registry) : Nat → Inst → RType → Nat → List Byte → Obj → RRes
  | 0, _, _, _, _, _ => none
  | f + 1, inst, r, a, s, o =>
    let n := r.subSize.toNat
    let raw : RRes := match takeN n s with
      | none => none
      | some (bs, s) => some (0, s, o.write a bs)
    let var : Option (BitVec 64 × List Byte) → RRes := fun x => match x with
      | none => none
      | some (v, s) => if n ≤ 8 then some (0, s, o.write a (toLE n v.toNat)) else none
    let lst : RRes := loadElems (fun i => loadItem reg f inst (elem r i) (a + n * i)) r.numItems.toNat 0 s o
    match r.type with
    | .Integer | .Enum => if n > 1 then var (biRead s) else raw
    | .UnsignedInteger | .EnumFlags | .BitFieldClass => if n > 1 then var (buRead s) else raw
    | .Bool | .FloatingPoint => raw
    | .Array | .ArrayClass | .Vector => lst
    | .String => match takeN 4 s with
      | none => none
      | some (c, s) => match takeN (leNat c) s with
        | none => none
        | some (bs, s) => some (0, s, o.writeStr a bs)
    | .Class => match subClass reg inst r.ID.toNat r.numItems.toNat with
      | none => none
      | some sub => loadClass (loadItem reg f sub) sub s o
    | _ => some (1, s, o)

/-- `ReflectorBinUtil::Load` (reflector_io.cpp:658-674). -/
def load (f : Nat) (reg : Registry) (c : ClassDef) (s : List Byte) (o : Obj) : RRes :=
  match takeN 4 s with
  | none => none
  | some (h, s') => if leNat h ≠ c.hash.toNat then some (1, s, o) else loadClass (loadItem reg f ⟨c, 0⟩) ⟨c, 0⟩ s' o

end PreCore.ReflBin
