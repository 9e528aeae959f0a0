/-!
# Model of datas/allocator_hybrid.hpp and datas/deleter_hybrid.hpp

Addresses are numbers.  `operator new` may return any address not in use; the address is part of the operation.
-/
namespace PreCore.Alloc

/-- The allocator's `buffer` (allocator_hybrid.hpp:55), what the client holds, the blocks obtained from `operator new` and
not yet given back, and the addresses passed to `operator delete`. -/
structure St where
  buffer : Option Nat
  live : List Nat
  heap : List Nat
  freed : List Nat
deriving DecidableEq, Repr

/-- A call; `alloc a`: `operator new` would return `a`. (Calls of allocator_hybrid.hpp:46-83.) -/
inductive Op | alloc (a : Nat) | dealloc (p : Nat)
deriving DecidableEq, Repr

/-- `allocate` (allocator_hybrid.hpp:68-73): the address returned and the state after. -/
def allocate (s : St) (a : Nat) : Nat × St :=
  match s.buffer with
  | none => (a, { s with live := a :: s.live, heap := a :: s.heap })
  | some b => (b, { s with live := b :: s.live })

/-- `operator delete`; `none`: not a live heap block (undefined behaviour). (Called by `deallocate`, allocator_hybrid.hpp:75-82.) -/
def delete (s : St) (p : Nat) : Option St :=
  if p ∈ s.heap then some { s with heap := s.heap.erase p, freed := p :: s.freed } else none

/-- `deallocate` (allocator_hybrid.hpp:75-82). -/
def deallocate (s : St) (p : Nat) : Option St :=
  let s' := { s with live := s.live.erase p }
  if s.buffer = some p then some { s' with buffer := none } else delete s' p

/-- One call. (Calls of allocator_hybrid.hpp:46-83.) -/
def step (s : St) : Op → Option St
  | .alloc a => some (allocate s a).2
  | .dealloc p => deallocate s p

/-- A sequence of calls. (Calls of allocator_hybrid.hpp:46-83.) -/
def run : List Op → St → Option St
  | [], s => some s
  | o :: os, s => (step s o).bind (run os)

/-- `allocator_hybrid(iBuff)` (allocator_hybrid.hpp:59). -/
def linked (b : Nat) : St := ⟨some b, [], [], []⟩
/-- `allocator_hybrid()` (allocator_hybrid.hpp:57). -/
def owned : St := ⟨none, [], [], []⟩

/-- `deleter_hybrid::operator()`, `deleter_hybrid_c::operator()` (deleter_hybrid.hpp:30-33, 42-45). -/
def hybridDelete (canDelete : Bool) (s : St) (p : Nat) : Option St :=
  if canDelete then delete s p else some s

end PreCore.Alloc
