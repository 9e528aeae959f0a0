import Verif.Model.DirScan
import Verif.Model.Mkdirs
/-!
# Model of datas/directory_scanner.cpp (Windows branch) and datas/internal/stat_win.inl

`FindFirstFile` and `FindNextFile` are a function from the pattern to the entries found, in order; at least one, as
`FindFirstFile` fails when there is none. Names are given as the UTF-8 text that `std::to_string` makes of them (see `Model/Unicode.lean`
for the conversion); `.` and `..` stay what they are. The file system does not change during the scan.
-/
namespace PreCore.DirScanWin
open PreCore PreCore.DirScan

/-- `WIN32_FIND_DATA`, as far as used (directory_scanner.cpp:86, 94-105). -/
structure Found where
  name : Text
  attrs : BitVec 32
deriving DecidableEq, Repr

/-- The host behind `FindFirstFile` and `FindNextFile` (directory_scanner.cpp:87-93); `none`: `INVALID_HANDLE_VALUE`. -/
abbrev WFS := Text → Option (Found × List Found)

/-- `dwFileAttributes & FILE_ATTRIBUTE_DEVICE` (directory_scanner.cpp:96). -/
def Found.isDevice (f : Found) : Bool := f.attrs &&& 0x40#32 ≠ 0#32
/-- `dwFileAttributes & FILE_ATTRIBUTE_DIRECTORY` (directory_scanner.cpp:105; stat_win.inl:52). -/
def Found.isDirectory (f : Found) : Bool := f.attrs &&& 0x10#32 ≠ 0#32

/-- `"*"` (directory_scanner.cpp:83). -/
def star : Text := [0x2a#8]

/-- The `FindNextFile` loop (directory_scanner.cpp:93-110); `sub` scans a directory. `none`: recursion without end. -/
def loopW (sub : Text → List Text → Option (List Text)) (filters : List Text) (dir : Text) :
    List Found → List Text → Option (List Text)
  | [], files => some files
  | f :: es, files =>
    if f.name = dot ∨ f.name = dotdot ∨ f.isDevice = true then loopW sub filters dir es files
    else
      let subFile := dir.dropLast ++ f.name
      if f.isDirectory = true then (sub subFile files).bind (loopW sub filters dir es)
      else if isFilteredFile filters f.name then loopW sub filters dir es (files ++ [subFile])
      else loopW sub filters dir es files

/-- `Scan` (directory_scanner.cpp:40-51, 83-114); the first argument bounds the depth. What `FindFirstFile` found is not looked at. -/
def scanW (fs : WFS) (filters : List Text) : Nat → Text → List Text → Option (List Text)
  | 0, _, _ => none
  | n + 1, dir, files =>
    let dir := prepare dir ++ star
    match fs dir with
    | none => some files
    | some (_, rest) => loopW (scanW fs filters n) filters dir rest files

/-- `FileType` (stat_win.inl:39-57); the argument is the result of `GetFileAttributes`. -/
def fileTypeW (flags : BitVec 32) : Mkdirs.FileType :=
  if flags = 0xffffffff#32 then .invalid
  else if flags &&& 0x10#32 ≠ 0#32 then .directory
  else .file

end PreCore.DirScanWin
