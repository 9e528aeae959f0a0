import Verif.Model.Mem
/-!
# Model of the records of formats/ZIP.hpp with formats/ZIP_istream.inl and formats/ZIP_ostream.inl

A record in memory is the list of its `sizeof` bytes. The members lie where the ABI of the host puts them: each at the
next multiple of its size, little endian. The streams do not swap endianness (`Read(id)` would, the raw blocks would not).
-/
namespace PreCore.ZipRec

/-- A struct: members in order (name, size). (Structs of ZIP.hpp:94-187.) -/
abbrev Fields := List (String × Nat)

/-- Next multiple of `a`. (Structs of ZIP.hpp:94-187.) -/
def alignUp (o a : Nat) : Nat := (o + (a - 1)) / a * a

/-- Offset and size of every member from offset `o` on (natural alignment). (Structs of ZIP.hpp:94-187.) -/
def layoutFrom (o : Nat) : Fields → List (String × Nat × Nat)
  | [] => []
  | (name, w) :: fs => (name, alignUp o w, w) :: layoutFrom (alignUp o w + w) fs

/-- Offsets and sizes of all members (structs of ZIP.hpp:94-187). -/
def layout (fs : Fields) : List (String × Nat × Nat) := layoutFrom 0 fs

/-- `offsetof` and `sizeof` of a member. (Structs of ZIP.hpp:94-187.) -/
def fieldAt (fs : Fields) (name : String) : Nat × Nat :=
  match (layout fs).find? (fun e => e.1 == name) with
  | some e => e.2
  | none => (0, 0)

/-- `sizeof` of the struct: the end of the last member rounded up to the widest one. (Structs of ZIP.hpp:94-187.) -/
def sizeOf (fs : Fields) : Nat :=
  alignUp ((layout fs).foldl (fun _ e => e.2.1 + e.2.2) 0) (fs.foldl (fun a e => max a e.2) 1)

/-- Value of a member. (Structs of ZIP.hpp:94-187.) -/
def value (fs : Fields) (mem : List Byte) (name : String) : Nat :=
  leNat ((mem.drop (fieldAt fs name).1).take (fieldAt fs name).2)

/-- `getBlockSize(classname, startval, endval)` (datas/internal/bincore.hpp:23-25) with the block's offset. -/
def block (fs : Fields) (a b : String) : Nat × Nat :=
  ((fieldAt fs a).1, (fieldAt fs b).1 + (fieldAt fs b).2 - (fieldAt fs a).1)

/-- `ZIPLocalFile` (ZIP.hpp:94-111). -/
def localFile : Fields := [("id", 4), ("extractVersion", 2), ("flags", 2), ("compression", 2), ("lastModFileTime", 2),
  ("lastModFileDate", 2), ("_pad", 2), ("crc", 4), ("compressedSize", 4), ("uncompressedSize", 4), ("fileNameSize", 2),
  ("extraFieldSize", 2)]
/-- `ZIPFile` (ZIP.hpp:113-135). -/
def file : Fields := [("id", 4), ("madeBy", 2), ("extractVersion", 2), ("flags", 2), ("compression", 2),
  ("lastModFileTime", 2), ("lastModFileDate", 2), ("crc", 4), ("compressedSize", 4), ("uncompressedSize", 4),
  ("fileNameSize", 2), ("extraFieldSize", 2), ("fileCommentSize", 2), ("diskNumberStart", 2), ("internalFileAttrs", 2),
  ("externalFileAttrs", 4), ("localHeaderOffset", 4)]
/-- `ZIPSignature` (ZIP.hpp:137-144). -/
def signature : Fields := [("id", 4), ("dataSize", 2)]
/-- `ZIPCentralDir` (ZIP.hpp:146-159). -/
def centralDir : Fields := [("id", 4), ("diskNumber", 2), ("startDiskNumber", 2), ("numDiskEntries", 2),
  ("numDirEntries", 2), ("dirSize", 4), ("dirOffset", 4), ("commentSize", 2)]
/-- `ZIP64CentralDir` (ZIP.hpp:161-176). -/
def central64 : Fields := [("id", 4), ("dirRecord", 8), ("madeBy", 2), ("extractVersion", 2), ("diskNumber", 4),
  ("startDiskNumber", 4), ("numDiskEntries", 8), ("numDirEntries", 8), ("dirSize", 8), ("dirOffset", 8)]
/-- `ZIP64CentralDirLocator` (ZIP.hpp:178-187). -/
def locator64 : Fields := [("id", 4), ("diskNumber", 4), ("centralDirOffset", 8), ("numDisks", 4)]

/-- The blocks (offset, size) of `Read` (ZIP_istream.inl:21-53), in order. -/
def readBlocks (fs : Fields) : List (Nat × Nat) :=
  if fs = localFile then [block fs "id" "lastModFileDate", block fs "crc" "extraFieldSize"]
  else if fs = file then [block fs "id" "internalFileAttrs", ((fieldAt fs "externalFileAttrs").1, 8)]
  else if fs = signature then [(0, 6)]
  else if fs = centralDir then [(0, 22)]
  else if fs = central64 then [fieldAt fs "id", block fs "dirRecord" "diskNumber", fieldAt fs "startDiskNumber",
    block fs "numDiskEntries" "dirOffset"]
  else [(0, 20)]

/-- The blocks of `Write` (ZIP_ostream.inl:21-53), in order. -/
def writeBlocks (fs : Fields) : List (Nat × Nat) :=
  if fs = localFile then [block fs "id" "lastModFileDate", block fs "crc" "extraFieldSize"]
  else if fs = file then [block fs "id" "internalFileAttrs", ((fieldAt fs "externalFileAttrs").1, 8)]
  else if fs = signature then [(0, 6)]
  else if fs = centralDir then [(0, 22)]
  else if fs = central64 then [fieldAt fs "id", block fs "dirRecord" "diskNumber", fieldAt fs "startDiskNumber",
    block fs "numDiskEntries" "dirOffset"]
  else [(0, 20)]

/-- `WriteBuffer` of each block: the bytes appended to the stream. (ZIP_ostream.inl:21-53) -/
def write (bs : List (Nat × Nat)) (mem : List Byte) : List Byte := bs.flatMap fun b => (mem.drop b.1).take b.2

/-- `ReadBuffer` of each block into the struct: the struct and the rest of the stream; `none`: the stream ends. (ZIP_istream.inl:21-53) -/
def read : List (Nat × Nat) → List Byte → List Byte → Option (List Byte × List Byte)
  | [], mem, s => some (mem, s)
  | (o, n) :: bs, mem, s =>
    if s.length < n then none
    else read bs (mem.take o ++ s.take n ++ mem.drop (o + n)) (s.drop n)

/-- `Write` of a record. (ZIP_ostream.inl:21-53) -/
def writeRec (fs : Fields) (mem : List Byte) : List Byte := write (writeBlocks fs) mem
/-- `Read` of a record. (ZIP_istream.inl:21-53) -/
def readRec (fs : Fields) (mem s : List Byte) : Option (List Byte × List Byte) := read (readBlocks fs) mem s

end PreCore.ZipRec
