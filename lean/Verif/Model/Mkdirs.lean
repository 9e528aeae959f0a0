import Verif.Model.FileInfo
/-!
# Model of datas/stat.hpp (`mkdirs`) and datas/internal/stat_ix.inl (`FileType`)

The host file system is part of the trusted base and modelled as a tree without symbolic links, permissions,
quotas or name length limits: a node is the list of names from the innermost to the outermost one, `[]` is `/`.
`mkdir(2)` is modelled after POSIX: it creates one directory when its parent can be walked to and the name is free,
and changes nothing otherwise. Failure codes are ignored, as `mkdirs` ignores them.
-/
namespace PreCore.Mkdirs
open PreCore.FileInfo

/-- A name in a folder (components of the argument of `mkdir`, stat_ix.inl:20-33). -/
abbrev Name := List Byte
/-- Names from the innermost folder outwards. (The host, behind stat.hpp:40-46 and stat_ix.inl:20-33.) -/
abbrev Node := List Name

/-- What a name stands for (`stat`, stat_ix.inl:20-33). -/
inductive Kind
  | missing | dir | file
deriving DecidableEq, Repr

/-- The host file system. (The host, behind stat.hpp:40-46 and stat_ix.inl:20-33.) -/
abbrev FS := Node → Kind

/-- POSIX path components: the text between slashes; `cur` holds the characters of the current one.
(The host, behind stat.hpp:40-46 and stat_ix.inl:20-33.) -/
def splitGo (cur : Name) : List Byte → List Name
  | [] => [cur]
  | c :: cs => if c = slash then cur :: splitGo [] cs else splitGo (cur ++ [c]) cs

/-- Components of a path; consecutive slashes count as one. (The host, behind stat.hpp:40-46 and stat_ix.inl:20-33.) -/
def comps (p : List Byte) : List Name := (splitGo [] p).filter (fun n => !n.isEmpty)

/-- `"."`, resolved by the host (`mkdir`, `stat` at stat.hpp:50-69, stat_ix.inl:20-33). -/
def dotName : Name := [dot]
/-- `".."`, resolved by the host (`mkdir`, `stat` at stat.hpp:50-69, stat_ix.inl:20-33). -/
def dotdotName : Name := [dot, dot]

/-- Path resolution from node `n` (POSIX 4.16 without symbolic links). (The host, behind stat.hpp:40-46 and stat_ix.inl:20-33.) -/
def walk (fs : FS) : Node → List Name → Option Node
  | n, [] => some n
  | n, c :: cs =>
    if fs n ≠ .dir then none
    else if c = dotName then walk fs n cs
    else if c = dotdotName then walk fs n.tail cs
    else if fs (c :: n) = .missing then none
    else walk fs (c :: n) cs

/-- Absolute paths start at `/`, others at the working directory. (The host, behind stat.hpp:40-46 and stat_ix.inl:20-33.) -/
def start (cwd : Node) (p : List Byte) : Node := if p.head? = some slash then [] else cwd

/-- What a C string function sees of a `std::string`. (Calls at stat.hpp:40-46, stat_ix.inl:20-33.) -/
def cstr (p : List Byte) : List Byte := p.takeWhile (· ≠ 0#8)

/-- `::mkdir(path, mode)` as POSIX defines it (called by stat.hpp:40-46). -/
def hostMkdir (cwd : Node) (fs : FS) (p : List Byte) : FS :=
  if p = [] then fs
  else match (comps p).getLast? with
    | none => fs
    | some last => match walk fs (start cwd p) (comps p).dropLast with
      | none => fs
      | some n =>
        if fs n ≠ .dir then fs
        else if last = dotName ∨ last = dotdotName then fs
        else if fs (last :: n) ≠ .missing then fs
        else fun m => if m = last :: n then .dir else fs m

/-- `es::mkdir(const std::string &)` (stat.hpp:44-46): `path.data()` is a C string. -/
def mkdir (cwd : Node) (fs : FS) (p : List Byte) : FS := hostMkdir cwd fs (cstr p)

/-- The loops stat.hpp:58-62 and 75-80: the strings `(begin, it)` for every `it` at a slash, in order. -/
def foldersGo (done : List Byte) : List Byte → List (List Byte)
  | [] => []
  | c :: cs => if c = slash then done :: foldersGo (done ++ [c]) cs else foldersGo (done ++ [c]) cs

/-- `AFileInfo(path).GetFullPath()` of a fresh object (fileinfo.hpp:41-49), stat.hpp:55-56, 72-73. -/
def fullPath (p : List Byte) : List Byte := (load ⟨[], 0, 0⟩ p).fullPath

/-- The folders of a path, as `AFileInfo::Explode` gives them (fileinfo.hpp:73-92, used at stat.hpp:71-81). -/
def folders (p : List Byte) : List (List Byte) := foldersGo [] (fullPath p)

/-- `std::less<std::string>`: `char_traits<char>::compare`, characters as `unsigned char`. (Order of the `std::set` at stat.hpp:52.) -/
def less : List Byte → List Byte → Bool
  | _, [] => false
  | [], _ :: _ => true
  | a :: as, b :: bs => if a = b then less as bs else a.toNat < b.toNat

/-- `std::set<std::string>::emplace`, the set kept as the ordered list of its elements (stat.hpp:52, 60). -/
def setInsert (x : List Byte) : List (List Byte) → List (List Byte)
  | [] => [x]
  | y :: ys => if less x y then x :: y :: ys else if less y x then y :: setInsert x ys else y :: ys

/-- The tree of all folders (stat.hpp:52-63); `files` are the strings `fc(f)`. -/
def tree (files : List (List Byte)) : List (List Byte) :=
  files.foldl (fun t f => (folders f).foldl (fun t q => setInsert q t) t) []

/-- `mkdirs(inFilepath, files, fc)` (stat.hpp:50-69). -/
def mkdirsBatch (cwd : Node) (fs : FS) (base : List Byte) (files : List (List Byte)) : FS :=
  (tree files).foldl (fun s q => mkdir cwd s (base ++ q)) fs

/-- `mkdirs(inFilepath)` (stat.hpp:71-81). -/
def mkdirsOne (cwd : Node) (fs : FS) (p : List Byte) : FS :=
  (folders p).foldl (fun s q => mkdir cwd s q) fs

/-- `FileType_e` (stat.hpp:23-28). -/
inductive FileType
  | error | invalid | directory | file
deriving DecidableEq, Repr

/-- `FileType` (stat_ix.inl:20-33); `none`: `stat` failed, `some m`: `st_mode`. `S_IFDIR` is 0040000 and `S_IFREG`
0100000 (octal). -/
def fileType : Option (BitVec 32) → FileType
  | none => .error
  | some m => if m &&& 0x4000#32 ≠ 0#32 then .directory
    else if m &&& 0x8000#32 ≠ 0#32 then .file
    else .invalid

end PreCore.Mkdirs
