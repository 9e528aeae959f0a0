import Verif.Model.Printer
import Verif.Model.CNum
/-!
# Model of the console colours: datas/master_printer.cpp:23-59, 78-110 and datas/internal/master_printer_ix.inl

The printer of Verif.Model.Printer, with the colour flag of every sink and the escape sequences. The functions
`SetConsoleTextColor` and `RestoreConsoleTextColor` do not take the lock; here each of their calls happens between two flushes.
-/
namespace PreCore.PrinterColour
open PreCore.Printer

/-- What a sink can be called with: message text, or one of the two escape sequences. (master_printer.cpp:78-106, master_printer_ix.inl:18-27) -/
inductive Call
  | text (t : Text)
  | colour (r g b : Int)
  | restore
deriving DecidableEq, Repr

/-- `FuncType` (master_printer.cpp:34-40): the function and `useColor`. -/
abbrev Sink := Nat × Bool

/-- As `Printer.World`, with the colour flags. (master_printer.cpp:33-46) -/
structure World where
  threads : Nat → Thread
  functions : List Sink
  printThreadID : Bool
  out : List (Nat × Call)

/-- The loop of both console functions (master_printer_ix.inl:29-45): every sink that uses colours is called. -/
def toColoured (fs : List Sink) (c : Call) : List (Nat × Call) := (fs.filter (·.2)).map (fun s => (s.1, c))

/-- `SetConsoleTextColor(255, 255, 0)`, `(255, 0, 0)` (master_printer.cpp:88-94). -/
def severityCall : MPType → Option Call
  | .WRN => some (.colour 255 255 0)
  | .ERR => some (.colour 255 0 0)
  | _ => none

/-- One round of the loop of `FlushAll` (master_printer.cpp:78-106), for sink `s`. -/
def round (fs : List Sink) (withId : Bool) (tid : Text) (c : MPType) (text : Text) (s : Sink) : List (Nat × Call) :=
  (if withId then [(s.1, .text [0x54#8, 0x68#8, 0x72#8, 0x65#8, 0x61#8, 0x64#8, 0x5b#8, 0x30#8, 0x78#8]), (s.1, .text tid), (s.1, .text [0x5d#8, 0x20#8])]
    else []) ++
  (if s.2 then (match severityCall c with | some e => toColoured fs e | none => []) else []) ++
  ((prefixOf c).map (fun t => (s.1, .text t))) ++ [(s.1, .text text)] ++
  (if s.2 && decide (c ≠ .MSG) then toColoured fs .restore else [])

/-- `FlushAll` (master_printer.cpp:61-110). -/
def flushAll (tidText : Nat → Text) (w : World) (i : Nat) : Option World :=
  let t := w.threads i
  let buffsize := t.put + 1
  match cstr (t.buf.take buffsize) with
  | none => none
  | some text =>
    let buf := if buffsize > maximumStreamSize then [] else t.buf
    some { w with
      threads := fun j => if j = i then ⟨buf, 0, .MSG⟩ else w.threads j
      out := w.out ++ w.functions.flatMap (round w.functions w.printThreadID (tidText i) t.cType text) }

/-- Operations; `AddPrinterFunction` has the flag, and there are the console functions. (master_printer.cpp:54-122, master_printer_ix.inl:29-45) -/
inductive Op
  | text (s : Text)
  | type (c : MPType)
  | flush (endWay : Bool)
  | addFunction (f : Nat) (useColor : Bool)
  | threadId (b : Bool)
  | colour (r g b : Int)
  | restore
deriving DecidableEq

/-- Sets the stream of thread `i` (`thread_local`, master_printer.hpp:28-31). -/
def World.setThread (w : World) (i : Nat) (t : Thread) : World := { w with threads := fun j => if j = i then t else w.threads j }

/-- One operation of thread `i` (master_printer.cpp:54-59 for `addFunction`: a registered function stays as it is). -/
def step (tidText : Nat → Text) (w : World) (i : Nat) : Op → Option World
  | .text s => some (w.setThread i (insert (w.threads i) s))
  | .type c => some (w.setThread i { w.threads i with cType := c })
  | .flush e =>
    let t := if e then insert (w.threads i) [0x0a#8] else w.threads i
    flushAll tidText (w.setThread i (insert t [0#8])) i
  | .addFunction f c => some (if w.functions.any (·.1 == f) then w else { w with functions := w.functions ++ [(f, c)] })
  | .threadId b => some { w with printThreadID := b }
  | .colour r g b => some { w with out := w.out ++ toColoured w.functions (.colour r g b) }
  | .restore => some { w with out := w.out ++ toColoured w.functions .restore }

/-- A history (calls of master_printer.cpp:54-122 and master_printer_ix.inl:29-45). -/
def run (tidText : Nat → Text) : List (Nat × Op) → World → Option World
  | [], w => some w
  | (i, o) :: os, w => (step tidText w i o).bind (run tidText os)

/-- At program start (master_printer.cpp:33-46). -/
def start : World := ⟨fun _ => ⟨[], 0, .MSG⟩, [], false, []⟩

/-- The bytes of `"\033[38;2;%i;%i;%im"` (master_printer_ix.inl:21). -/
def colourText (r g b : Int) : Text :=
  [0x1b#8, 0x5b#8, 0x33#8, 0x38#8, 0x3b#8, 0x32#8, 0x3b#8] ++ CNum.showInt r ++ [0x3b#8] ++ CNum.showInt g ++ [0x3b#8] ++ CNum.showInt b ++ [0x6d#8]

/-- The string a call passes to the sink; `sprintf` into `buffer[32]` writes a terminator too (master_printer_ix.inl:18-27); `none`: written
behind the buffer. -/
def callBytes : Call → Option Text
  | .text t => some t
  | .colour r g b => if (colourText r g b).length + 1 ≤ 32 then some (colourText r g b) else none
  | .restore => some [0x1b#8, 0x5b#8, 0x30#8, 0x6d#8]

end PreCore.PrinterColour
