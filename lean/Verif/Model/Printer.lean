import Verif.Model.Base
/-!
# Model of datas/master_printer.cpp and datas/master_printer.hpp

Every thread has its own stream and severity; the sinks are shared and are called under a mutex
(master_printer.cpp:76), so the calls of one flush are adjacent in `out`.  Inserted values appear as the text they are
formatted to.  Console colours are left out.  Sinks are numbered (function pointers).
-/
namespace PreCore.Printer

/-- A `std::string` (master_printer.hpp:26). -/
abbrev Text := List Byte

/-- `MPType` (master_printer.hpp:26). -/
inductive MPType | MSG | WRN | ERR | INF deriving DecidableEq, Repr

/-- The stream of a thread: buffer, put position (the get position is 0 between calls), and `cType`
(master_printer.hpp:28-31). -/
structure Thread where
  buf : Text
  put : Nat
  cType : MPType
deriving DecidableEq

/-- All threads, the registered sinks (master_printer.cpp:41), `printThreadID`, and the calls made to the sinks. -/
structure World where
  threads : Nat → Thread
  functions : List Nat
  printThreadID : Bool
  out : List (Nat × Text)

/-- Insertion into the stream: overwrites from the put position on. (`std::stringstream`, master_printer.hpp:28-39.) -/
def insert (t : Thread) (s : Text) : Thread :=
  { t with buf := t.buf.take t.put ++ s ++ t.buf.drop (t.put + s.length), put := t.put + s.length }

/-- What a C string function sees of the `n` bytes read into the `malloc`ed `tempOut`; `none`: no terminator among them
(memory behind them is read, undefined). (master_printer.cpp:61-74, 102) -/
def cstr (bytes : Text) : Option Text := if 0#8 ∈ bytes then some (bytes.takeWhile (· ≠ 0#8)) else none

/-- Severity text (master_printer.cpp:96-100). -/
def prefixOf : MPType → List Text
  | .WRN => [[0x57#8, 0x41#8, 0x52#8, 0x4e#8, 0x49#8, 0x4e#8, 0x47#8, 0x3a#8, 0x20#8]]
  | .ERR => [[0x45#8, 0x52#8, 0x52#8, 0x4f#8, 0x52#8, 0x3a#8, 0x20#8]]
  | _ => []

/-- The calls to one sink (master_printer.cpp:79-102); `tid` the hexadecimal text of the thread id. -/
def calls (withId : Bool) (tid : Text) (c : MPType) (text : Text) : List Text :=
  (if withId then [[0x54#8, 0x68#8, 0x72#8, 0x65#8, 0x61#8, 0x64#8, 0x5b#8, 0x30#8, 0x78#8], tid, [0x5d#8, 0x20#8]] else []) ++
  prefixOf c ++ [text]

/-- `maximumStreamSize` (master_printer.hpp:30). -/
def maximumStreamSize : Nat := 2048

/-- `FlushAll` (master_printer.cpp:61-110). -/
def flushAll (tidText : Nat → Text) (w : World) (i : Nat) : Option World :=
  let t := w.threads i
  let buffsize := t.put + 1
  match cstr (t.buf.take buffsize) with
  | none => none
  | some text =>
    let buf := if buffsize > maximumStreamSize then [] else t.buf
    some { w with
      threads := fun j => if j = i then ⟨buf, 0, .MSG⟩ else w.threads j
      out := w.out ++ w.functions.flatMap (fun f => (calls w.printThreadID (tidText i) t.cType text).map (fun c => (f, c))) }

/-- What threads do. (master_printer.hpp:33-58, master_printer.cpp:54-122) -/
inductive Op
  | text (s : Text)      -- `printer << value` (master_printer.hpp:36-39)
  | type (c : MPType)    -- `printer << MPType` (master_printer.hpp:53-58)
  | flush (endWay : Bool) -- `printer >> endWay` (master_printer.cpp:112-118)
  | addFunction (f : Nat) -- `AddPrinterFunction` (master_printer.cpp:54-59)
  | threadId (b : Bool)   -- `PrintThreadID` (master_printer.cpp:120-122)
deriving DecidableEq

/-- Set the stream of thread `i`. (`thread_local` stream, master_printer.hpp:28-31.) -/
def World.setThread (w : World) (i : Nat) (t : Thread) : World := { w with threads := fun j => if j = i then t else w.threads j }

/-- One operation of thread `i`. (master_printer.hpp:33-58, master_printer.cpp:54-122) -/
def step (tidText : Nat → Text) (w : World) (i : Nat) : Op → Option World
  | .text s => some (w.setThread i (insert (w.threads i) s))
  | .type c => some (w.setThread i { w.threads i with cType := c })
  | .flush e =>
    let t := if e then insert (w.threads i) [0x0a#8] else w.threads i
    flushAll tidText (w.setThread i (insert t [0#8])) i
  | .addFunction f => some (if f ∈ w.functions then w else { w with functions := w.functions ++ [f] })
  | .threadId b => some { w with printThreadID := b }

/-- A history: which thread does what, in the order in which the operations take effect. (master_printer.hpp:33-58, master_printer.cpp:54-122) -/
def run (tidText : Nat → Text) : List (Nat × Op) → World → Option World
  | [], w => some w
  | (i, o) :: os, w => (step tidText w i o).bind (run tidText os)

/-- At program start. (master_printer.cpp:33-46) -/
def start : World := ⟨fun _ => ⟨[], 0, .MSG⟩, [], false, []⟩

end PreCore.Printer
