import Verif.Model.Base
/-!
# Model of uni/common.hpp (`Element`, `ToElement`), uni/list_vector.hpp (`PolyVectorList`) and datas/deleter_hybrid.hpp

An `Element` is a `std::unique_ptr` with a `deleter_hybrid`. Handles (variables of type `std::unique_ptr<C>`, `Element<C>` or items of
`PolyVectorList::storage`) are numbered; a handle that was moved from is null.
-/
namespace PreCore.Element

/-- A handle: its pointer (an object number), `canDelete` of its deleter (deleter_hybrid.hpp:24-34), and whether it is a plain
`std::unique_ptr<C>` (whose deleter always deletes) and no `Element<C>`. -/
structure Handle where
  ptr : Option Nat
  canDelete : Bool
  plain : Bool
deriving DecidableEq, Repr

/-- Objects made so far, objects alive, objects deleted (last first), handles made so far, handles (`none`: destroyed or not made).
(All `Element`s of a program, uni/common.hpp:24.) -/
structure St where
  made : Nat
  live : List Nat
  freed : List Nat
  count : Nat
  handles : Nat → Option Handle

/-- Replaces handle `h` (bookkeeping for the moves of `std::unique_ptr`, uni/common.hpp:34-40). -/
def St.put (s : St) (h : Nat) (x : Option Handle) : St := { s with handles := fun j => if j = h then x else s.handles j }
/-- A new handle. (Result of uni/common.hpp:34-40, list_vector.hpp:58.) -/
def St.push (s : St) (x : Handle) : St := { s.put s.count (some x) with count := s.count + 1 }

/-- Before any `Element` is made (uni/common.hpp:24). -/
def start : St := ⟨0, [], [], 0, fun _ => none⟩

/-- What a program does. (uni/common.hpp:34-40, list_vector.hpp:58) -/
inductive Op
  /-- `std::make_unique<C>()`, or `storage.emplace_back(new C)`. -/
  | make
  /-- `ToElement(handle)` (uni/common.hpp:34-40): releases the handle, the new element owns. -/
  | toElement (h : Nat)
  /-- `PolyVectorList::At(id)` on storage item `h` (list_vector.hpp:58): `{ptr, false}`. -/
  | at_ (h : Nat)
  /-- Move construction: pointer and deleter go to the new handle. -/
  | move (h : Nat)
  /-- Move assignment of `h` to `g`: `g` deletes what it had, and takes pointer and deleter. -/
  | assign (g h : Nat)
  /-- Destruction of a handle. -/
  | drop (h : Nat)
  /-- Use of the object. -/
  | deref (h : Nat)
deriving DecidableEq, Repr

/-- `delete`; of an object that is not alive it is undefined. (deleter_hybrid.hpp:32) -/
def delete (s : St) (p : Nat) : Option St :=
  if p ∈ s.live then some { s with live := s.live.erase p, freed := p :: s.freed } else none

/-- The deleter called by `unique_ptr` for a pointer that is not null (deleter_hybrid.hpp:30-33). -/
def release (s : St) (h : Handle) : Option St :=
  match h.ptr with
  | none => some s
  | some p => if h.canDelete then delete s p else some s

/-- One operation; `none` is undefined behaviour. Operations on handles that do not exist or are of the wrong type are not programs and
change nothing. (uni/common.hpp:34-40, list_vector.hpp:58, deleter_hybrid.hpp:30-33) -/
def step (s : St) : Op → Option St
  | .make => some ({ s with made := s.made + 1, live := s.made :: s.live }.push ⟨some s.made, true, true⟩)
  | .toElement h =>
    match s.handles h with
    | some x => if x.plain then some ((s.put h (some { x with ptr := none })).push ⟨x.ptr, true, false⟩) else some s
    | none => some s
  | .at_ h =>
    match s.handles h with
    | some x => some (s.push ⟨x.ptr, false, false⟩)
    | none => some s
  | .move h =>
    match s.handles h with
    | some x => some ((s.put h (some { x with ptr := none })).push x)
    | none => some s
  | .assign g h =>
    match s.handles g, s.handles h with
    | some y, some x =>
      if g = h ∨ y.plain ≠ x.plain then some s
      else (release s y).map fun s => (s.put h (some { x with ptr := none })).put g (some x)
    | _, _ => some s
  | .drop h =>
    match s.handles h with
    | some x => (release s x).map fun s => s.put h none
    | none => some s
  | .deref h =>
    match s.handles h with
    | some x =>
      match x.ptr with
      | some p => if p ∈ s.live then some s else none
      | none => none
    | none => some s

/-- A program: a sequence of the operations above (uni/common.hpp:34-40, list_vector.hpp:58). -/
def run : List Op → St → Option St
  | [], s => some s
  | op :: l, s => (step s op).bind (run l)

end PreCore.Element
