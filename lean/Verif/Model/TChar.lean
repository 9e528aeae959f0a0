import Verif.Model.Unicode
import Verif.Model.StringView
/-!
# Model of `UPrintf` and `IsHelp` (datas/tchar.hpp)

`printf` and `wprintf` are library code, modelled for a call without arguments by what the C standard says: characters other than `%`
are printed, `%%` prints one `%`, any other conversion asks for an argument that is not there or is no conversion (undefined).
-/
namespace PreCore.Uni8

/-- `wprintf(format)` without arguments (C standard; called at tchar.hpp:65); `none` is undefined behaviour. -/
def format : List Nat → Option (List Nat)
  | [] => some []
  | c :: r =>
    if c = 0x25 then
      match r with
      | d :: r => if d = 0x25 then (format r).map (0x25 :: ·) else none
      | [] => none
    else (format r).map (c :: ·)

/-- `UPrintf` (tchar.hpp:65 for builds with `UNICODE`, tchar.hpp:70 for others) of the text at `data`, which ends before the first NUL; what is
written to the standard output, as wide characters or bytes. -/
def uPrintf (unicode : Bool) (data : List Nat) : Res (List Nat) :=
  if unicode then
    match toUTF1632 (upToZero data) with
    | .ok w => match format (upToZero w) with
      | some out => .ok out
      | none => .ub
    | .throws => .throws
    | .ub => .ub
  else .ok (upToZero data)

/-- `IsHelp` (tchar.hpp:73-76). -/
def isHelp (data : List Byte) : Bool :=
  StringView.opEq data [0x2d#8, 0x68#8] || StringView.opEq data [0x2d#8, 0x3f#8] || StringView.opEq data [0x2f#8, 0x3f#8] ||
    StringView.opEq data [0x2d#8, 0x2d#8, 0x68#8, 0x65#8, 0x6c#8, 0x70#8]

end PreCore.Uni8
