/-!
# Model of `RunThreadedQueue` (datas/multi_thread.hpp:25-54)

A labelled transition system: the calling thread takes one step at a time; a started task may finish at any moment
(normally or by an exception, which its future swallows).  `std::async` is assumed to be able to start a thread.
Assigning a future over another one first waits for the old task (datas/multi_thread.hpp:45); it is ready there.
-/
namespace PreCore.Threads

/-- What happened so far. (multi_thread.hpp:33, 45) -/
inductive Ev | start (t : Nat) | finish (t : Nat)
deriving DecidableEq, Repr

/-- Where the calling thread is: first loop (:32-35), `while` test (:37), inner loop (:38-48), last loop (:51-53),
returned. -/
inductive Pc | launch (i : Nat) | round | poll (i : Nat) | wait (i : Nat) | done
deriving DecidableEq, Repr

/-- `slots[i]`: the task of `workingThreads[i]`, `none` for the default constructed future. (multi_thread.hpp:28-30) -/
structure St where
  pc : Pc
  cur : Nat
  slots : List (Option Nat)
  log : List Ev
deriving DecidableEq, Repr

/-- `numThreads` (multi_thread.hpp:26-27). -/
def numThreads (hw num : Nat) : Nat := min hw num

/-- State at the beginning (multi_thread.hpp:26-30). -/
def init (hw num : Nat) : St := ⟨.launch 0, 0, List.replicate (numThreads hw num) none, []⟩

/-- The future of slot `i` is ready. (multi_thread.hpp:43-44) -/
def ready (s : St) (i : Nat) : Bool := match s.slots[i]? with
  | some (some t) => Ev.finish t ∈ s.log
  | _ => false

/-- `wt = std::async(std::launch::async, fc, curTask); curTask++;` (multi_thread.hpp:33-34, 45-46). -/
def assign (s : St) (i : Nat) (pc : Pc) : St := ⟨pc, s.cur + 1, s.slots.set i (some s.cur), s.log ++ [.start s.cur]⟩

/-- One step of the calling thread (multi_thread.hpp:32-53); `none`: blocked in `wait()`, or returned. -/
def mainStep (hw num : Nat) (s : St) : Option St :=
  match s.pc with
  | .launch i => if i < numThreads hw num then some (assign s i (.launch (i + 1))) else some { s with pc := .round }
  | .round => if s.cur < num then some { s with pc := .poll 0 } else some { s with pc := .wait 0 }
  | .poll i =>
    if i < numThreads hw num then
      if s.cur ≥ num then some { s with pc := .round }
      else if ready s i then some (assign s i (.poll (i + 1)))
      else some { s with pc := .poll (i + 1) }
    else some { s with pc := .round }
  | .wait i =>
    if i < numThreads hw num then (if ready s i then some { s with pc := .wait (i + 1) } else none)
    else some { s with pc := .done }
  | .done => none

/-- One step of the program: the calling thread moves or a running task finishes. (multi_thread.hpp:32-53) -/
def Step (hw num : Nat) (s s' : St) : Prop :=
  mainStep hw num s = some s' ∨
  ∃ t, Ev.start t ∈ s.log ∧ Ev.finish t ∉ s.log ∧ s' = { s with log := s.log ++ [.finish t] }

/-- States reachable under some schedule. (multi_thread.hpp:25-54) -/
inductive Reach (hw num : Nat) : St → Prop
  | init : Reach hw num (init hw num)
  | step {s s'} : Reach hw num s → Step hw num s s' → Reach hw num s'

end PreCore.Threads
