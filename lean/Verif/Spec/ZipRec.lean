import Verif.Model.Mem
/-!
# The record layouts of PKWARE's APPNOTE.TXT 6.3.9 (sections 4.3.7, 4.3.12, 4.3.13, 4.3.14, 4.3.15, 4.3.16)

Fields in file order with their sizes, all little endian, no gaps.
-/
namespace PreCore.Spec.ZipRec

def localFile : List (String × Nat) := [("id", 4), ("extractVersion", 2), ("flags", 2), ("compression", 2),
  ("lastModFileTime", 2), ("lastModFileDate", 2), ("crc", 4), ("compressedSize", 4), ("uncompressedSize", 4),
  ("fileNameSize", 2), ("extraFieldSize", 2)]
def file : List (String × Nat) := [("id", 4), ("madeBy", 2), ("extractVersion", 2), ("flags", 2), ("compression", 2),
  ("lastModFileTime", 2), ("lastModFileDate", 2), ("crc", 4), ("compressedSize", 4), ("uncompressedSize", 4),
  ("fileNameSize", 2), ("extraFieldSize", 2), ("fileCommentSize", 2), ("diskNumberStart", 2), ("internalFileAttrs", 2),
  ("externalFileAttrs", 4), ("localHeaderOffset", 4)]
def signature : List (String × Nat) := [("id", 4), ("dataSize", 2)]
def centralDir : List (String × Nat) := [("id", 4), ("diskNumber", 2), ("startDiskNumber", 2), ("numDiskEntries", 2),
  ("numDirEntries", 2), ("dirSize", 4), ("dirOffset", 4), ("commentSize", 2)]
def central64 : List (String × Nat) := [("id", 4), ("dirRecord", 8), ("madeBy", 2), ("extractVersion", 2),
  ("diskNumber", 4), ("startDiskNumber", 4), ("numDiskEntries", 8), ("numDirEntries", 8), ("dirSize", 8), ("dirOffset", 8)]
def locator64 : List (String × Nat) := [("id", 4), ("diskNumber", 4), ("centralDirOffset", 8), ("numDisks", 4)]

/-- The bytes of a record with the given field values. -/
def bytes (fields : List (String × Nat)) (val : String → Nat) : List Byte :=
  fields.flatMap fun f => toLE f.2 (val f.1)

end PreCore.Spec.ZipRec
