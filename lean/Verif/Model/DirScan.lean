import Verif.Model.Base
/-!
# Model of datas/directory_scanner.cpp (POSIX branch)

The file system is a function from the string given to `opendir` to the entries that `readdir` lists, with a mark for
directories (`d_type == DT_DIR`); `none`: `opendir` fails.  It does not change during the scan.
-/
namespace PreCore.DirScan

/-- `std::string` (directory_scanner.hpp:30, directory_scanner.cpp:29). -/
abbrev Text := List Byte
/-- The host file system behind `opendir`, `readdir` (directory_scanner.cpp:53-81). -/
abbrev FS := Text → Option (List (Text × Bool))

/-- `"."` (directory_scanner.cpp:64-79). -/
def dot : Text := [0x2e#8]
/-- `".."` (directory_scanner.cpp:64-79). -/
def dotdot : Text := [0x2e#8, 0x2e#8]

/-- `std::string::find`. (Called at directory_scanner.cpp:34.) -/
def find (s f : Text) : Option Nat := (List.range (s.length + 1)).find? (fun i => (s.drop i).take f.length == f)

/-- `IsFilteredFile` (directory_scanner.cpp:29-38). -/
def isFilteredFile (filters : List Text) (name : Text) : Bool :=
  filters.isEmpty || filters.any (fun f => (find name f).isSome)

/-- The string after the preparation in `Scan` (directory_scanner.cpp:41-51). -/
def prepare (dir : Text) : Text :=
  match dir.getLast? with
  | none => dir
  | some lastWord =>
    let dir := if lastWord = 0x22#8 then dir.dropLast else dir
    if lastWord ≠ 0x5c#8 ∧ lastWord ≠ 0x2f#8 then dir ++ [0x2f#8] else dir

/-- The `readdir` loop (directory_scanner.cpp:64-79); `sub` scans a directory. `none`: recursion without end. -/
def loop (sub : Text → List Text → Option (List Text)) (filters : List Text) (dir : Text) :
    List (Text × Bool) → List Text → Option (List Text)
  | [], files => some files
  | (name, isDir) :: es, files =>
    if name = dot ∨ name = dotdot then loop sub filters dir es files
    else
      let subFile := dir.dropLast ++ name
      if isDir then (sub subFile files).bind (loop sub filters dir es)
      else if isFilteredFile filters name then loop sub filters dir es (files ++ [subFile])
      else loop sub filters dir es files

/-- `Scan` (directory_scanner.cpp:40-82); the first argument bounds the depth, the last is `files` before. -/
def scan (fs : FS) (filters : List Text) : Nat → Text → List Text → Option (List Text)
  | 0, _, _ => none
  | n + 1, dir, files =>
    let dir := prepare dir ++ dot
    match fs dir with
    | none => some files
    | some es => loop (scan fs filters n) filters dir es files

end PreCore.DirScan
