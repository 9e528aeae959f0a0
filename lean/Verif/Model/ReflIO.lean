import Verif.Model.Mem
import Verif.Model.Stream
/-!
# Model of `ReflectorIO` (datas/reflector_io.cpp:22-411), the database of class and enum descriptions

Writing: the writer stands at the end of its file and every `Write` and `Skip` of a positive length appends (`Skip` appends zeros,
binwritter_stream.hpp:43-55), so the body (everything behind the 32 byte header) is the concatenation of what the statements append;
`Tell()` is relative to the body. `Save` is given as the list of its statements (`Ev`), executed by `run`.

Reading: `Load` takes the body into memory at address `B` and turns file offsets into pointers in place. Memory is a function from
body offset to byte; what lies outside of the body is not modelled (a file whose offsets point there is undefined behaviour).

A `reflType` is its 16 bytes. Strings are their characters. The byte order of the streams is the host's (little endian, no swapping).
-/
namespace PreCore.ReflIO
open PreCore

/-- A zero terminated string of the tables (reflector_class_reg.hpp:49-53). -/
abbrev Text := List Byte

/-- `reflectorStatic` (reflector_class_reg.hpp:45-53); `none` is a null pointer. -/
structure Cls where
  hash : BitVec 32
  types : List (List Byte)
  names : Option (List Text)
  className : Option Text
  aliases : Option (List (Option Text))
  aliasHashes : Option (List (BitVec 32))
  descs : Option (List (Text × Text))
deriving DecidableEq, Repr

/-- `ReflectedEnum` (reflector_enum_reg.hpp:57-64): names and values, type name, hash. -/
structure Enm where
  hash : BitVec 32
  items : List (Text × BitVec 64)
  name : Text
deriving DecidableEq, Repr

/-- `ReflectorIO` (reflector_io.hpp:22-27). -/
structure DB where
  classes : List Cls
  enums : List Enm
deriving DecidableEq, Repr

/-- The six `Fixups` of `Save` (reflector_io.cpp:219-224). -/
inductive Q | item | strs | cls | alias | desc | ahash
deriving DecidableEq, Repr

/-- Statements of `Save`. (reflector_io.cpp:226-407) -/
inductive Ev
  /-- `Write`, `Skip(n)` (as zeros), `WriteT`, `WriteContainer` -/
  | bytes (bs : List Byte)
  /-- `q.AddPointer(); wr.Skip<uint32>();` -/
  | slot (q : Q)
  /-- `q.FixupDestination();` -/
  | dest (q : Q)
  /-- `wr.ApplyPadding(8);` -/
  | pad
deriving DecidableEq, Repr

/-- `Skip(n)`. (binwritter_stream.hpp:43-55) -/
def zeros (n : Nat) : List Byte := List.replicate n 0#8

/-- Writer and fixups (reflector_io.cpp:22-52). The k-th `FixupDestination` belongs to the k-th `AddPointer`: `fixupIter` counts the
destinations, so the vector of pairs is kept as two lists. -/
structure W where
  buf : List Byte
  ptrs : Q → List Nat
  dests : Q → List Nat

/-- One statement. `static_cast<uint32>(ref.Tell())` truncates when the value is written (`patch`). (reflector_io.cpp:226-407) -/
def W.step (w : W) : Ev → W
  | .bytes bs => { w with buf := w.buf ++ bs }
  | .slot q => { w with buf := w.buf ++ zeros 4, ptrs := fun r => if r = q then w.ptrs r ++ [w.buf.length] else w.ptrs r }
  | .dest q => { w with dests := fun r => if r = q then w.dests r ++ [w.buf.length] else w.dests r }
  | .pad => { w with buf := w.buf ++ zeros (if w.buf.length % 8 = 0 then 0 else 8 - w.buf.length % 8) }

/-- The statements of `Save` in order (reflector_io.cpp:226-407). -/
def run (es : List Ev) : W := es.foldl W.step ⟨[], fun _ => [], fun _ => []⟩

/-- A conditional pointer: `if (cond) q.AddPointer(); wr.Skip<uint32>();` (for example reflector_io.cpp:233-236). -/
def slotIf (c : Bool) (q : Q) : Ev := if c then .slot q else .bytes (zeros 4)

/-- `PAD_CHECK` (reflector_io.cpp:54-55). -/
def padCheck : List Byte :=
  toLE 4 0x78563412 ++ toLE 4 0xEFCDAB90 ++ toLE 4 0xFECAADDE ++ toLE 4 0xADDEBEBA ++ toLE 4 0xBEBAFECA ++ toLE 4 0xADDEEFBE

/-- The record of a class (reflector_io.cpp:226-257). -/
def recEv (c : Cls) : List Ev :=
  [.bytes (toLE 4 c.hash.toNat ++ toLE 4 c.types.length ++ padCheck), .slot .item, slotIf c.names.isSome .strs,
    slotIf c.className.isSome .cls, slotIf c.aliases.isSome .alias, slotIf c.aliasHashes.isSome .ahash, slotIf c.descs.isSome .desc]

/-- The types of a class (reflector_io.cpp:259-265). -/
def typesEv (c : Cls) : List Ev := [.dest .item, .bytes c.types.flatten]

/-- The alias hashes (reflector_io.cpp:267-275). -/
def ahashEv (c : Cls) : List Ev :=
  match c.aliasHashes with
  | none => []
  | some hs => [.dest .ahash, .bytes (hs.flatMap (fun h => toLE 4 h.toNat))]

/-- The table of member names (reflector_io.cpp:277-288). -/
def namesEv (c : Cls) : List Ev :=
  match c.names with
  | none => []
  | some ns => .pad :: .dest .strs :: .bytes (zeros (4 * ns.length)) :: ns.map (fun _ => .slot .strs)

/-- The table of aliases (reflector_io.cpp:290-302). -/
def aliasEv (c : Cls) : List Ev :=
  match c.aliases with
  | none => []
  | some as => .pad :: .dest .alias :: .bytes (zeros (4 * as.length)) :: as.map (fun a => slotIf a.isSome .alias)

/-- One part of a description in the table (reflector_io.cpp:310-320). -/
def partEv (t : Text) : List Ev := [slotIf (!t.isEmpty) .desc, .bytes (toLE 4 t.length)]

/-- The table of descriptions (reflector_io.cpp:304-323). -/
def descEv (c : Cls) : List Ev :=
  match c.descs with
  | none => []
  | some ds => .dest .desc :: .bytes (zeros (16 * ds.length)) :: ds.flatMap (fun d => partEv d.1 ++ partEv d.2)

/-- A string with its terminator (`WriteT`; `WriteContainer` and `Skip(1)`). (reflector_io.cpp:325-363) -/
def strEv (q : Q) (t : Text) : List Ev := [.dest q, .bytes (t ++ [0#8])]

/-- Member names of a class (reflector_io.cpp:326-331). -/
def nameStrs (c : Cls) : List Ev := (c.names.getD []).flatMap (strEv .strs)

/-- Alias strings (reflector_io.cpp:333-341). -/
def aliasStr (a : Option Text) : List Ev := match a with | none => [] | some t => strEv .alias t
/-- The strings of all aliases (reflector_io.cpp:333-341). -/
def aliasStrs (c : Cls) : List Ev := (c.aliases.getD []).flatMap aliasStr

/-- Description strings (reflector_io.cpp:343-357). -/
def partStr (t : Text) : List Ev := if t.isEmpty then [] else strEv .desc t
/-- The strings of all descriptions (reflector_io.cpp:343-357). -/
def descStrs (c : Cls) : List Ev := (c.descs.getD []).flatMap (fun d => partStr d.1 ++ partStr d.2)

/-- Class name (reflector_io.cpp:359-362). -/
def classStr (c : Cls) : List Ev := match c.className with | none => [] | some t => strEv .cls t

/-- All strings of a class (reflector_io.cpp:325-363). -/
def stringsEv (c : Cls) : List Ev := nameStrs c ++ aliasStrs c ++ descStrs c ++ classStr c

/-- The statements up to the enums (reflector_io.cpp:226-365). -/
def classesEv (cs : List Cls) : List Ev :=
  cs.flatMap recEv ++ cs.flatMap typesEv ++ cs.flatMap ahashEv ++ cs.flatMap namesEv ++ cs.flatMap aliasEv ++ cs.flatMap descEv ++
  cs.flatMap stringsEv ++ [.pad]

/-- `totalStrings` (reflector_io.cpp:368, 373). -/
def totalStrings : List Enm → Nat
  | [] => 0
  | e :: es => e.items.length + 1 + totalStrings es

/-- Hash, size and values of an enum (reflector_io.cpp:370-378). -/
def enumBytes (e : Enm) : List Byte :=
  toLE 4 e.hash.toNat ++ toLE 4 e.items.length ++ e.items.flatMap (fun i => toLE 8 i.2.toNat)

/-- The strings of an enum, in the order of the table: names, then the type name (reflector_io.cpp:388-398). -/
def enumStrings (e : Enm) : List Text := e.items.map Prod.fst ++ [e.name]

/-- The statements about enums (reflector_io.cpp:370-398). -/
def enumsEv (es : List Enm) : List Ev :=
  es.map (fun e => .bytes (enumBytes e)) ++ [.bytes (zeros (4 * totalStrings es))] ++
  List.replicate (totalStrings es) (.slot .strs) ++ es.flatMap (fun e => (enumStrings e).flatMap (strEv .strs))

/-- `WriteFixups` (reflector_io.cpp:46-51): seek and write a `uint32`. -/
def patch (buf : List Byte) (fs : List (Nat × Nat)) : List Byte :=
  fs.foldl (fun b f => Stream.overwrite b f.1 (toLE 4 f.2)) buf

/-- The five `WriteFixups` calls (reflector_io.cpp:403-407); the alias hashes have none. -/
def fixAll (w : W) : List Byte :=
  let p := fun q b => patch b ((w.ptrs q).zip (w.dests q))
  p .desc (p .alias (p .cls (p .strs (p .item w.buf))))

/-- The body written by `Save` (reflector_io.cpp:226-407). -/
def body (db : DB) : List Byte := fixAll (run (classesEv db.classes ++ enumsEv db.enums))

/-- `CompileFourCC("RFDB")` (reflector_io.cpp:74). -/
def magic : Nat := 0x42444652

/-- The final header (reflector_io.cpp:73-83, 213-215, 366, 380, 400-402); every field is truncated to 32 bits. -/
def header (db : DB) : List Byte :=
  toLE 4 magic ++ toLE 4 1000 ++ toLE 4 db.classes.length ++ toLE 4 db.enums.length ++ toLE 4 (totalStrings db.enums) ++
  toLE 4 (run (classesEv db.classes)).buf.length ++ toLE 4 (run (classesEv db.classes ++ enumsEv db.enums)).buf.length ++ toLE 4 0

/-- `Save` on a file holding `pre` with the writer at its end (reflector_io.cpp:212-411). `first` is the header written at first,
whose last members are indeterminate; `ResetRelativeOrigin` seeks to the start of the file, so the final header goes there. -/
def save (pre first : List Byte) (db : DB) : List Byte := Stream.overwrite (pre ++ first ++ body db) 0 (header db)

/-! ## Load -/

/-- The buffer `Load` works on (reflector_io.cpp:85-100). -/
abbrev Mem := Nat → Byte

/-- Reading `n` bytes of the buffer (pointer accesses at reflector_io.cpp:106-207). -/
def rd (m : Mem) (a n : Nat) : List Byte := (List.range n).map (fun i => m (a + i))
/-- Reading an offset (reflector_io.cpp:22-52). -/
def rd32 (m : Mem) (a : Nat) : Nat := leNat (rd m a 4)
/-- Reading a pointer (reflector_io.cpp:22-52). -/
def rd64 (m : Mem) (a : Nat) : Nat := leNat (rd m a 8)
/-- Writing bytes into the buffer (pointer fixups at reflector_io.cpp:106-207). -/
def wr (m : Mem) (a : Nat) (bs : List Byte) : Mem := fun x => if a ≤ x ∧ x < a + bs.length then bs.getD (x - a) 0#8 else m x
/-- Writing a pointer (reflector_io.cpp:22-52). -/
def wr64 (m : Mem) (a v : Nat) : Mem := wr m a (toLE 8 v)

/-- The loops over name and alias offsets (reflector_io.cpp:117-122, 136-144, 191-198): `left` entries remain, the next is `t`, the
table at `tbl` has `n` entries. `nullable`: an offset 0 becomes a null pointer (aliases only). -/
def ptrLoop (B : Nat) (nullable : Bool) (tbl n : Nat) : (left t : Nat) → Mem → Mem
  | 0, _, m => m
  | k + 1, t, m =>
    let o := rd32 m (tbl + 4 * n + 4 * t)
    ptrLoop B nullable tbl n k (t + 1) (wr64 m (tbl + 8 * t) (if nullable ∧ o = 0 then 0 else B + o))

/-- The loop over descriptions (reflector_io.cpp:163-172): `i` counts the parts. -/
def descLoop (B tbl n : Nat) : (left i : Nat) → Mem → Mem
  | 0, _, m => m
  | k + 1, i, m =>
    let o := rd32 m (tbl + 16 * n + 8 * i)
    let m := if o ≠ 0 then wr64 m (tbl + 16 * i) (B + o)
      else wr (wr64 m (tbl + 16 * i) 0) (tbl + 16 * n + 8 * i) (toLE 4 0)
    descLoop B tbl n k (i + 1) (wr64 m (tbl + 16 * i + 8) (rd32 m (tbl + 16 * n + 8 * i + 4)))

/-- The body of the class loop (reflector_io.cpp:107-177) for the record at `a`: 4 byte offsets at `a + 32 ...` become 8 byte
pointers at `a + 8 ...` in place. -/
def expandClass (B a : Nat) (m : Mem) : Mem :=
  let n := rd32 m (a + 4)
  let m := wr64 m (a + 8) (B + rd32 m (a + 32))
  let nm := rd32 m (a + 36)
  let m := if nm ≠ 0 then ptrLoop B false nm n n 0 (wr64 m (a + 16) (B + nm)) else wr64 m (a + 16) 0
  let cn := rd32 m (a + 40)
  let m := if cn ≠ 0 then wr64 m (a + 24) (B + cn) else wr64 m (a + 24) 0
  let al := rd32 m (a + 44)
  let m := if al ≠ 0 then ptrLoop B true al n n 0 (wr64 m (a + 32) (B + al)) else wr64 m (a + 32) 0
  let ah := rd32 m (a + 48)
  let m := if ah ≠ 0 then wr64 m (a + 32) (B + ah) else wr64 m (a + 40) 0
  let ds := rd32 m (a + 52)
  if ds ≠ 0 then descLoop B ds n (2 * n) 0 (wr64 m (a + 48) (B + ds)) else wr64 m (a + 48) 0

/-- The class loop (reflector_io.cpp:106-178): `k` records from `a` on. -/
def expandAll (B : Nat) : (k a : Nat) → Mem → Mem
  | 0, _, m => m
  | k + 1, a, m => expandAll B k (a + 56) (expandClass B a m)

/-- A `const char *` as the library sees it: the characters up to the terminator (at most `fuel`). (Readers of reflector_class_reg.hpp:49-53.) -/
def cstr (m : Mem) : (fuel a : Nat) → Text
  | 0, _ => []
  | f + 1, a => if m a = 0#8 then [] else m a :: cstr m f (a + 1)

/-- `enums` as loaded so far: hash and the body offset and number of its values (reflector_io.cpp:180-189); result also `enumsIter`
behind the last one. -/
def enumLoop (m : Mem) : (k it : Nat) → List (BitVec 32 × Nat × Nat) × Nat
  | 0, it => ([], it)
  | k + 1, it =>
    let n := rd32 m (it + 4)
    let r := enumLoop m k (it + 8 + 8 * n)
    ((BitVec.ofNat 32 (rd32 m it), it + 8, n) :: r.1, r.2)

/-- What a pointer of the body points at: `none` for null. (Readers of reflector_class_reg.hpp:49-53.) -/
def deref (B p : Nat) : Option Nat := if p = 0 then none else some (p - B)

/-- A class as a user sees it through the `reflectorStatic` at `a` (reflector_class_reg.hpp:45-53), with strings of at most `f`
characters. -/
def viewClass (B f : Nat) (m : Mem) (a : Nat) : Cls :=
  let n := rd32 m (a + 4)
  let str := fun p => cstr m f (p - B)
  { hash := BitVec.ofNat 32 (rd32 m a)
    types := (List.range n).map (fun t => rd m (rd64 m (a + 8) - B + 16 * t) 16)
    names := (deref B (rd64 m (a + 16))).map (fun p => (List.range n).map (fun t => str (rd64 m (p + 8 * t))))
    className := (deref B (rd64 m (a + 24))).map (fun p => cstr m f p)
    aliases := (deref B (rd64 m (a + 32))).map (fun p => (List.range n).map (fun t =>
      (deref B (rd64 m (p + 8 * t))).map (fun q => cstr m f q)))
    aliasHashes := (deref B (rd64 m (a + 40))).map (fun p => (List.range n).map (fun t => BitVec.ofNat 32 (rd32 m (p + 4 * t))))
    descs := (deref B (rd64 m (a + 48))).map (fun p => (List.range n).map (fun t =>
      (rd m (rd64 m (p + 32 * t) - B) (rd64 m (p + 32 * t + 8)), rd m (rd64 m (p + 32 * t + 16) - B) (rd64 m (p + 32 * t + 24))))) }

/-- Names and type name of the enums from the table entry at `np` on (reflector_io.cpp:200-207); `lEn.values` stays a pointer into
the body and is read here. -/
def viewEnums (B f : Nat) (m : Mem) : List (BitVec 32 × Nat × Nat) → Nat → List Enm
  | [], _ => []
  | (h, vp, n) :: es, np =>
    { hash := h
      items := (List.range n).map (fun t => (cstr m f (rd64 m (np + 8 * t) - B), BitVec.ofNat 64 (rd64 m (vp + 8 * t))))
      name := cstr m f (rd64 m (np + 8 * n) - B) } :: viewEnums B f m es (np + 8 * n + 8)

/-- `Load` into an empty object from the bytes of a file, the reader at their start (reflector_io.cpp:85-210): the returned code and
the contents as a user sees them. `B`: address of the buffer. `none`: the file ends too early. -/
def load (B : Nat) (file : List Byte) : Option (Nat × DB) :=
  if file.length < 32 then none
  else
    let h := fun i => leNat ((file.drop (4 * i)).take 4)
    if h 0 ≠ magic then some (1, ⟨[], []⟩)
    else if h 1 > 1000 then some (2, ⟨[], []⟩)
    else if file.length < 32 + h 6 then none
    else
      let data := (file.drop 32).take (h 6)
      let m : Mem := fun a => data.getD a 0#8
      let m := expandAll B (h 2) 0 m
      let es := enumLoop m (h 3) (h 5)
      let m := ptrLoop B false es.2 (h 4) (h 4) 0 m
      some (0, ⟨(List.range (h 2)).map (fun c => viewClass B (h 6) m (56 * c)), viewEnums B (h 6) m es.1 es.2⟩)

/-- The class loop over all of `classes` (reflector_io.cpp:106): the offsets of the records in the order of the vector. -/
def expandList (B : Nat) : List Nat → Mem → Mem
  | [], m => m
  | a :: l, m => expandList B l (expandClass B a m)

/-- `Load` into an object whose `classes` already hold the records at the offsets `old` of its buffer (left by an earlier `Load`; the buffer
stays where it is, as `ReadContainer` of no more than the capacity does not move it) and which has no enums, of a file without enums:
the classes as a user sees them. (reflector_io.cpp:85-210) -/
def loadMore (B : Nat) (old : List Nat) (file : List Byte) : Option (Nat × List Cls) :=
  if file.length < 32 then none
  else
    let h := fun i => leNat ((file.drop (4 * i)).take 4)
    if h 0 ≠ magic then some (1, [])
    else if h 1 > 1000 then some (2, [])
    else if file.length < 32 + h 6 then none
    else
      let data := (file.drop 32).take (h 6)
      let offsets := old ++ (List.range (h 2)).map (fun c => 56 * c)
      let m := expandList B offsets (fun a => data.getD a 0#8)
      some (0, offsets.map (viewClass B (h 6) m))

end PreCore.ReflIO
