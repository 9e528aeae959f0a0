import Verif.Model.Stream
/-!
# Model of datas/zip_vfs.hpp and formats/ZIP.hpp, ZIP_istream.inl

`ZIPVFS` over the stream model (`Stream.Navi`, reader side, no endian swapping). Adjacent `ReadBuffer` calls of one header
are listed in `readParts`; the fields are then taken from the concatenated bytes at their file offsets. Reading past the end
leaves the header (an uninitialised local) indeterminate: outcome `short`. The map is an association list in insertion order;
its mutex is not modelled (`Get` holds it for the whole body).
-/
namespace PreCore.Zip
open PreCore.Stream

/-- Ways in which `ReadEntry` does not return normally. (zip_vfs.hpp:64-147) -/
inductive Err
  | encrypted
  | compressed
  | noName
  | badBlock (id pos : Nat)
  | short
deriving Repr, DecidableEq

/-- `std::map<std::string, std::pair<size_t, size_t>>` (zip_vfs.hpp:33): name, offset, size. -/
abbrev Index := List (List Byte × Nat × Nat)

/-- `map::emplace`: an existing key keeps its value. (Called at zip_vfs.hpp:71-100.) -/
def emplace (ix : Index) (k : List Byte) (v : Nat × Nat) : Index :=
  if k ∈ ix.map Prod.fst then ix else ix ++ [(k, v)]

/-- `map::find`. (Called at zip_vfs.hpp:37, 45-58.) -/
def find (ix : Index) (k : List Byte) : Option (Nat × Nat) := (ix.find? (fun e => e.1 == k)).map Prod.snd

/-- A 16 bit field of a header (little endian host). (ZIP.hpp:94-111) -/
def u16 (h : List Byte) (o : Nat) : Nat := leNat ((h.drop o).take 2)
/-- A 32 bit field of a header. (ZIP.hpp:94-111) -/
def u32 (h : List Byte) (o : Nat) : Nat := leNat ((h.drop o).take 4)

/-- Consecutive `ReadBuffer` calls (ZIP_istream.inl:21-53). -/
def readParts (n : Navi) : List Nat → Option (List Byte) × Navi
  | [] => (some [], n)
  | k :: ks =>
    match n.s.read k with
    | (some a, s) =>
      match readParts { n with s := s } ks with
      | (some b, n) => (some (a ++ b), n)
      | (none, n) => (none, n)
    | (none, s) => (none, { n with s := s })

/-- Conversion of an unsigned sum to the `int` parameter of `Skip` (binreader_stream.hpp:43). -/
def toInt (n : Nat) : Int := (BitVec.ofNat 32 n).toInt

/-- The local file case (zip_vfs.hpp:71-100), header read by `ZIPLocalFile::Read` (ZIP_istream.inl:21-26): 14 bytes up to
`lastModFileDate`, 16 bytes from `crc` on. -/
def readLocal (n : Navi) (ix : Index) : Except Err (Navi × Index) :=
  match readParts n [14, 16] with
  | (none, _) => .error .short
  | (some h, n) =>
    let flags := u16 h 6
    let compression := u16 h 8
    let csize := u32 h 18
    let usize := u32 h 22
    let nameSize := u16 h 26
    let extraSize := u16 h 28
    if csize = 0 then .ok (skip .reader n (toInt (nameSize + extraSize + usize)), ix)
    else if flags.testBit 0 then .error .encrypted
    else if compression ≠ 0 then .error .compressed
    else if nameSize = 0 then .error .noName
    else
      match n.s.read nameSize with
      | (none, _) => .error .short
      | (some path, s) =>
        let n := skip .reader { n with s := s } (toInt extraSize)
        .ok (skip .reader n (toInt csize), emplace ix path (tell n, csize))

/-- The other cases: header in `parts`, then `Skip` of `len header`. (zip_vfs.hpp:101-141) -/
def readOther (n : Navi) (ix : Index) (parts : List Nat) (len : List Byte → Nat) : Except Err (Navi × Index) :=
  match readParts n parts with
  | (none, _) => .error .short
  | (some h, n) => .ok (skip .reader n (toInt (len h)), ix)

/-- As `readOther` without `Skip`. (zip_vfs.hpp:101-141) -/
def readPlain (n : Navi) (ix : Index) (parts : List Nat) : Except Err (Navi × Index) :=
  match readParts n parts with
  | (none, _) => .error .short
  | (some _, n) => .ok (n, ix)

/-- `ReadEntry` (zip_vfs.hpp:64-147). -/
def readEntry (n : Navi) (ix : Index) : Except Err (Navi × Index) :=
  let n := push n
  match readScalar n .u32 with
  | (none, _) => .error .short
  | (some id, n) =>
    let n := pop n
    if id.toNat = 0x04034b50 then readLocal n ix
    else if id.toNat = 0x02014b50 then readOther n ix [38, 8] (fun h => u16 h 28 + u16 h 30 + u16 h 32)
    else if id.toNat = 0x06054b50 then readOther n ix [22] (fun h => u16 h 20)
    else if id.toNat = 0x06064b50 then readPlain n ix [4, 16, 4, 32]
    else if id.toNat = 0x07064b50 then readPlain n ix [20]
    else if id.toNat = 0x05054b50 then readOther n ix [6] (fun h => u16 h 4)
    else if id.toNat = 0x08064b50 then readOther n ix [8] (fun h => u32 h 4)
    else .error (.badBlock id.toNat (tell n))

/-- The loop of `Read` (zip_vfs.hpp:149-154); `none`: still looping after `fuel` entries. -/
def readLoop (fileSize : Nat) : Nat → Navi → Index → Option (Except Err (Navi × Index))
  | 0, n, ix => if tell n < fileSize then none else some (.ok (n, ix))
  | f + 1, n, ix =>
    if tell n < fileSize then
      match readEntry n ix with
      | .ok (n, ix) => readLoop fileSize f n ix
      | .error e => some (.error e)
    else some (.ok (n, ix))

/-- The constructor `ZIPVFS(rd)` / `Read` (zip_vfs.hpp:37, 149-154). -/
def openZip (f : Nat) (n : Navi) : Option (Except Err (Navi × Index)) :=
  let r := getSize n
  readLoop r.1 f r.2 []

/-- `Get(value)` (zip_vfs.hpp:45-52): the stream content; `none`: the bytes are not there. -/
def getAt (n : Navi) (v : Nat × Nat) : Option (List Byte) × Navi :=
  let n := seek n v.1 .beg
  if v.2 = 0 then (some [], n)
  else match n.s.read v.2 with
    | (r, s) => (r, { n with s := s })

/-- `Get(fileName)` (zip_vfs.hpp:56-58): `none` when `at` throws or the bytes are not there. -/
def get (n : Navi) (ix : Index) (name : List Byte) : Option (List Byte) × Navi :=
  match find ix name with
  | some v => getAt n v
  | none => (none, n)

end PreCore.Zip
