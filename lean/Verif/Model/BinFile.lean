import Verif.Model.Stream
/-!
# Model of datas/binreader.hpp, datas/binwritter.hpp and datas/internal/bincore_file.hpp

The disk is a map from paths to contents. `std::fstream::open` on a stream that is already open sets failbit and changes nothing else;
otherwise it opens and clears the state, or sets failbit (C++ standard, [fstream.members], [filebuf.members]). Objects live at
addresses; `baseStream` (binreader_stream.hpp:31) is the address of the object whose `FileStream` is used.
-/
namespace PreCore.BinFile
open PreCore.Stream

/-- A file name, the argument of `Open_` (bincore_file.hpp:31-49). -/
abbrev Path := List Byte
/-- The files of the host, what `std::fstream::open` finds (bincore_file.hpp:31-49). -/
abbrev Disk := Path → Option (List Byte)

/-- A `BinReader` or `BinWritter` object: its `FileStream` (`navi.s`) and whether that has a file, the members of `BinStreamNavi` and
`BinSteamEndian` (the rest of `navi`), and `baseStream`. (binreader.hpp:23-24, binwritter.hpp:23-24, bincore_file.hpp:22-24) -/
structure Obj where
  isOpen : Bool
  navi : Navi
  base : Option Nat
deriving Repr, DecidableEq

/-- Errors: the exceptions of `OpenFile` (binreader.hpp:27, binwritter.hpp:27), undefined behaviour. -/
inductive Err | notFound | invalidAccess | ub
deriving Repr, DecidableEq

/-- The objects alive, by address. (Variables of binreader.hpp:23, binwritter.hpp:23.) -/
abbrev World := Nat → Option Obj

/-- Replaces one object (no code of its own; used for the assignments of binreader.hpp:25-31). -/
def World.set (w : World) (i : Nat) (o : Option Obj) : World := fun j => if j = i then o else w j

/-- A stream without a file. (`FileStream` before `Open_`, bincore_file.hpp:24.) -/
def closed : Stream := ⟨[], 0, false, false⟩

/-- `BinReader()` (binreader.hpp:34, bincore_navi.hpp:26, bincore_endian.hpp:24, binreader_stream.hpp:32). -/
def fresh : Obj := ⟨false, ⟨closed, 0, 0, false⟩, none⟩

/-- `BinStreamFile::Open_` (bincore_file.hpp:31-49): `FileStream.open(fileName, MODE)`, then `!FileStream.fail()`. For a writer the
file is created and emptied (`out` without `in`, `app`), for a reader its content is found. -/
def open_ (k : Kind) (disk : Disk) (canWrite : Path → Bool) (o : Obj) (p : Path) : Bool × Obj :=
  if o.isOpen then (false, { o with navi := { o.navi with s := { o.navi.s with fail := true } } })
  else
    match (match k with | .reader => disk p | .writer => if canWrite p then some [] else none) with
    | none => (false, { o with navi := { o.navi with s := { o.navi.s with fail := true } } })
    | some c => (true, { o with isOpen := true, navi := { o.navi with s := ⟨c, 0, false, false⟩ } })

/-- `OpenFile` (binreader.hpp:25-31, binwritter.hpp:25-31) of the object at address `i`. -/
def openFile (k : Kind) (disk : Disk) (canWrite : Path → Bool) (i : Nat) (o : Obj) (p : Path) : Option Err × Obj :=
  match open_ k disk canWrite o p with
  | (false, o) => (some (match k with | .reader => .notFound | .writer => .invalidAccess), o)
  | (true, o) => (none, { o with base := some i })

/-- What a program does with readers (writers). `α` is what an access yields. (binreader.hpp:33-45, binwritter.hpp:33-46) -/
inductive Op (α : Type)
  /-- Default constructor at address `i`. -/
  | make (i : Nat)
  /-- `Open(path)`. -/
  | open_ (i : Nat) (p : Path)
  /-- Construction at `j` by moving from `i`. -/
  | move (i j : Nat)
  /-- Destructor. -/
  | destroy (i : Nat)
  /-- Any use of the reader's functions. -/
  | use (i : Nat) (f : Navi → α × Navi)

/-- Outcome of one operation. (binreader.hpp:25-31, binwritter.hpp:25-31) -/
inductive Out (α : Type)
  | done
  | value (a : α)
  | error (e : Err)
deriving Repr, DecidableEq

/-- One operation. The moved constructor (binreader.hpp:40: `= default`) moves `FileStream` and copies the base class with its pointer. -/
def step {α : Type} (k : Kind) (disk : Disk) (canWrite : Path → Bool) (w : World) : Op α → Out α × World
  | .make i => (.done, w.set i (some fresh))
  | .open_ i p =>
    match w i with
    | none => (.error .ub, w)
    | some o =>
      match openFile k disk canWrite i o p with
      | (some e, o) => (.error e, w.set i (some o))
      | (none, o) => (.done, w.set i (some o))
  | .move i j =>
    match w i with
    | none => (.error .ub, w)
    | some o => (.done, (w.set i (some { o with isOpen := false, navi := { o.navi with s := closed } })).set j (some o))
  | .destroy i =>
    match w i with
    | none => (.error .ub, w)
    | some _ => (.done, w.set i none)
  | .use i f =>
    match w i with
    | none => (.error .ub, w)
    | some o =>
      match o.base with
      | none => (.error .ub, w)
      | some b =>
        match w b with
        | none => (.error .ub, w)
        | some ob =>
          let r := f { o.navi with s := ob.navi.s }
          let w := w.set b (some { ob with navi := { ob.navi with s := r.2.s } })
          (.value r.1, match w i with
            | some o => w.set i (some { o with navi := { r.2 with s := o.navi.s } })
            | none => w)

/-- A program; an undefined operation ends it. (Calls of binreader.hpp:33-45, binwritter.hpp:33-46.) -/
def run {α : Type} (k : Kind) (disk : Disk) (canWrite : Path → Bool) : List (Op α) → World → List (Out α)
  | [], _ => []
  | op :: l, w =>
    match step k disk canWrite w op with
    | (.error .ub, _) => [.error .ub]
    | (r, w) => r :: run k disk canWrite l w

end PreCore.BinFile
