import Verif.Model.Zip
/-!
# Model of concurrent `ZIPVFS::Get` calls (datas/zip_vfs.hpp:45-52)

Any number of threads, each with a list of `Get(value)` calls on one `ZIPVFS`. One step of a thread is one of the statements that touch
shared state: taking the mutex (`lock_guard`, line 47), `rd.Seek` (48), the read of `rd.ReadContainer` (49), releasing the mutex (the
destructor of the guard, 52). `std::mutex` is its specification: taken by at most one thread, others wait. The map is only read.
-/
namespace PreCore.ZipConc
open PreCore.Stream PreCore.Zip

/-- Where a thread stands in its current call. (zip_vfs.hpp:45-52) -/
inductive Pc | out | locked | sought | read
deriving DecidableEq, Repr

/-- A thread: calls still to be made (the first one is the current), position, contents returned so far. (zip_vfs.hpp:45-52) -/
structure Thr where
  todo : List (Nat × Nat)
  pc : Pc
  got : List (Option (List Byte))

/-- The `ZIPVFS` (its reader and mutex, zip_vfs.hpp:61-62) and the threads. -/
structure St where
  rd : Navi
  owner : Option Nat
  thr : Nat → Thr

/-- Replace thread `i`. (zip_vfs.hpp:45-52) -/
def St.set (s : St) (i : Nat) (t : Thr) : St := { s with thr := fun j => if j = i then t else s.thr j }

/-- The read of `ReadContainer(holder, value.second)` (zip_vfs.hpp:49, binreader_ref.hpp:41-48). -/
def readPart (n : Navi) (size : Nat) : Option (List Byte) × Navi :=
  if size = 0 then (some [], n) else match n.s.read size with | (r, s) => (r, { n with s := s })

/-- One step of thread `i`; `none`: it has nothing to do or waits for the mutex. (zip_vfs.hpp:45-52) -/
def step (s : St) (i : Nat) : Option St :=
  match (s.thr i).todo, (s.thr i).pc with
  | [], _ => none
  | _ :: _, .out => if s.owner = none then some ({ s with owner := some i }.set i { s.thr i with pc := .locked }) else none
  | v :: _, .locked => some ({ s with rd := seek s.rd v.1 .beg }.set i { s.thr i with pc := .sought })
  | v :: _, .sought =>
    some ({ s with rd := (readPart s.rd v.2).2 }.set i { s.thr i with pc := .read, got := (s.thr i).got ++ [(readPart s.rd v.2).1] })
  | _ :: vs, .read => some ({ s with owner := none }.set i { s.thr i with todo := vs, pc := .out })

/-- A schedule: at each moment some thread is chosen; one that cannot go on stays where it is. (zip_vfs.hpp:45-52) -/
def run : List Nat → St → St
  | [], s => s
  | i :: l, s => run l ((step s i).getD s)

/-- All threads before their first call. (zip_vfs.hpp:45-52) -/
def start (rd : Navi) (calls : Nat → List (Nat × Nat)) : St := ⟨rd, none, fun i => ⟨calls i, .out, []⟩⟩

end PreCore.ZipConc
