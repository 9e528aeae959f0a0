import Verif.Model.Base
/-!
# Model of datas/fileinfo.hpp (`FileInfo<char>`)

A path is the list of its characters, assumed free of embedded NUL (`GetFilenameExt`, `GetExtension` and the last
component of `Explode` are built from C strings and stop at a NUL). `std::string::find_last_of(char)` is modelled
by its standard meaning.
-/
namespace PreCore.FileInfo

/-- `/` (fileinfo.hpp:48). -/
def slash : Byte := 0x2f#8
/-- `\\` (fileinfo.hpp:47). -/
def backslash : Byte := 0x5c#8
/-- `.` (fileinfo.hpp:51). -/
def dot : Byte := 0x2e#8

/-- `std::string::find_last_of(char)`: index of the last occurrence, `none` for `npos`. (Called at fileinfo.hpp:50-51.) -/
def lastOf (c : Byte) : List Byte → Option Nat
  | [] => none
  | x :: xs => match lastOf c xs with
    | some i => some (i + 1)
    | none => if x = c then some 0 else none

/-- The data members (fileinfo.hpp:32-34). -/
structure Info where
  fullPath : List Byte
  endFolder : Nat
  lastDot : Nat
deriving Repr, DecidableEq

/-- `for (auto &c : fullPath) if (c == '\\') c = '/';` (fileinfo.hpp:46-48). -/
def normalise (p : List Byte) : List Byte := p.map (fun c => if c = backslash then slash else c)

/-- `Load` (fileinfo.hpp:40-60). An empty path returns early and keeps the old indices. -/
def load (old : Info) (input : List Byte) : Info :=
  if input.length = 0 then { old with fullPath := input }
  else
    let full := normalise input
    { fullPath := full
      endFolder := match lastOf slash full with | some i => i + 1 | none => 0
      lastDot := match lastOf dot full with
        | none => full.length
        | some 0 => full.length
        | some (i + 1) => i + 1 }

/-- A view `[from, to)` into `fullPath`; `none` when it is not a valid range inside the string. (fileinfo.hpp:62-71) -/
def range (s : List Byte) (fro to : Nat) : Option (List Byte) :=
  if fro ≤ to ∧ to ≤ s.length then some ((s.take to).drop fro) else none

/-- `GetFullPathNoExt` (fileinfo.hpp:62). -/
def fullPathNoExt (i : Info) : Option (List Byte) := range i.fullPath 0 i.lastDot
/-- `GetFilenameExt` (fileinfo.hpp:64-66). -/
def filenameExt (i : Info) : Option (List Byte) := range i.fullPath i.endFolder i.fullPath.length
/-- `GetFilename` (fileinfo.hpp:67-69). -/
def filename (i : Info) : Option (List Byte) := range i.fullPath i.endFolder i.lastDot
/-- `GetExtension` (fileinfo.hpp:70). -/
def extension (i : Info) : Option (List Byte) := range i.fullPath i.lastDot i.fullPath.length
/-- `GetFolder` (fileinfo.hpp:71). -/
def folder (i : Info) : Option (List Byte) := range i.fullPath 0 i.endFolder

/-- The loop of `Explode` (fileinfo.hpp:82-86): first argument `fullSize - c`; `lastOffset`, `c` are indices.
Result: components and the final `lastOffset`. -/
def explodeLoop (s : List Byte) : Nat → Nat → Nat → List (List Byte) × Nat
  | 0, _, last => ([], last)
  | f + 1, c, last =>
    if s[c]? = some slash then
      let r := explodeLoop s f (c + 1) (c + 1)
      ((s.take c).drop last :: r.1, r.2)
    else explodeLoop s f (c + 1) last

/-- `Explode` (fileinfo.hpp:73-92); `none` for the empty path (`std::prev(end())` of an empty string). -/
def explode (i : Info) : Option (List (List Byte)) :=
  let s := i.fullPath
  if s.length = 0 then none
  else
    let last := if s[0]? = some slash then 1 else 0
    let r := explodeLoop s (s.length - 1) 1 last
    some (if r.2 ≠ s.length then r.1 ++ [s.drop r.2] else r.1)

end PreCore.FileInfo
