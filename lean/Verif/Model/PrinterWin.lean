import Verif.Model.Flags
/-!
# Model of datas/internal/master_printer_win.inl (console colours of the log printer on Windows)

The console is its attribute word (`wAttributes`); `SetConsoleTextAttribute` replaces it. Components are `int`s without overflow
(|x| < 2^31 - 127). The constructor runs once for every thread and every file that includes the header.
-/
namespace PreCore.PrinterWin

/-- `MSVC_Console_Flags` (master_printer.cpp:24-29), equal to the bits of `FOREGROUND_BLUE`, `_GREEN`, `_RED`, `_INTENSITY`. -/
def blue : Nat := 0
/-- `MSC_Text_Green` as a bit (master_printer.cpp:26). -/
def green : Nat := 1
/-- `MSC_Text_Red` as a bit (master_printer.cpp:27). -/
def red : Nat := 2
/-- `MSC_Text_Intensify` as a bit (master_printer.cpp:28). -/
def intensify : Nat := 3

/-- The console's attribute word and `__MasterPrinter.consoleColorAttr`. (master_printer.cpp:45, master_printer_win.inl:47-61) -/
structure State where
  attr : BitVec 16
  saved : BitVec 32
deriving DecidableEq, Repr

/-- `a | b | c` of ints as two's complement, signed comparison with 128 (master_printer_win.inl:23). -/
def bright (r g b : BitVec 32) : Bool := (128#32).slt (r ||| g ||| b)

/-- `SetConsoleTextColor(int, int, int)` (master_printer_win.inl:20-39, 47-49): the word given to the console is the lower half. -/
def setColour (r g b : BitVec 32) (s : State) : State :=
  let i := bright r g b
  let r := if i then r - 127#32 else r
  let g := if i then g - 127#32 else g
  let b := if i then b - 127#32 else b
  let f := Flags.set s.saved intensify i
  let f := Flags.set f red ((0#32).slt r)
  let f := Flags.set f green ((0#32).slt g)
  let f := Flags.set f blue ((0#32).slt b)
  { s with attr := f.setWidth 16 }

/-- `RestoreConsoleTextColor()` (master_printer_win.inl:51-53): the call goes to the template `SetConsoleTextColor`, not to the template
`RestoreConsoleTextColor` (41-45) that writes the saved word. -/
def restore (s : State) : State := setColour 0x1f#32 0x1f#32 0x1f#32 s

/-- The constructor of a thread's printer (master_printer_win.inl:55-61): `FOREGROUND_*` are the lowest four bits. -/
def construct (s : State) : State := { s with saved := (s.attr &&& 0x000f#16).setWidth 32 }

/-- What happens to the console: constructors, colours, restoring, and other users of the console. (master_printer_win.inl:20-61) -/
inductive Op
  | construct
  | colour (r g b : BitVec 32)
  | restore
  | other (attr : BitVec 16)

/-- What each does (master_printer_win.inl:20-61). -/
def step (s : State) : Op → State
  | .construct => construct s
  | .colour r g b => setColour r g b s
  | .restore => restore s
  | .other a => { s with attr := a }

/-- A history from the start of the program: the saved word is zero (static). (master_printer_win.inl:20-61) -/
def run (attr : BitVec 16) (ops : List Op) : State := ops.foldl step ⟨attr, 0#32⟩

end PreCore.PrinterWin
