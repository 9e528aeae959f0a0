import Verif.Model.VirtualIter
/-!
# Model of uni/motion.hpp (`Motion::begin`, `Motion::end`) and uni/skeleton.hpp (`Skeleton::begin`, `Skeleton::end`)

Both call a virtual function that returns an `Element` of a list (`Tracks()`, `Bones()`), make an iterator of that list and return it. The
`Element` is a temporary, destroyed at the end of the return statement (it deletes its list if its deleter may, deleter_hybrid.hpp:30-33).
The iterator keeps a plain pointer to the list (virtual_iterator.hpp:26).
-/
namespace PreCore.SceneIter
open PreCore.VirtualIter

/-- The lists alive, by address. (What the pointers of uni/common.hpp:24 point at.) -/
abbrev Lists (α : Type) := Nat → Option (UList α)

/-- What `Tracks()` / `Bones()` of a class returns (uni/common.hpp:24, `Element`): the lists alive afterwards, the address of the list returned
and `canDelete` of the deleter. -/
structure Got (α : Type) where
  lists : Lists α
  ptr : Nat
  canDelete : Bool

/-- An implementation of `Tracks()` / `Bones()`. (motion.hpp:50-64, skeleton.hpp:45-51) -/
abbrev Impl (α : Type) := Lists α → Got α

/-- The implementation that lends the list it has at address `p`: `return {&list, false}` (as `PolyVectorList::At` does, list_vector.hpp:58). -/
def lend {α} (p : Nat) : Impl α := fun h => ⟨h, p, false⟩
/-- The implementation that makes a list and gives it away: `return ToElement(std::make_unique<L>(...))` (uni/common.hpp:34-40). `fresh` is the
allocator: where the new list comes to be. -/
def give {α} (l : UList α) (fresh : Lists α → Nat) : Impl α := fun h => ⟨fun q => if q = fresh h then some l else h q, fresh h, true⟩

/-- Destruction of the temporary `Element` (deleter_hybrid.hpp:30-33). -/
def Got.done {α} (g : Got α) : Lists α := if g.canDelete then (fun q => if q = g.ptr then none else g.lists q) else g.lists

/-- An iterator: `tClass`, `iterPos` (virtual_iterator.hpp:26-27). -/
structure It where
  ptr : Nat
  pos : BitVec 64

/-- `Tracks()->begin()` (motion.hpp:63, skeleton.hpp:50, list.hpp:34). `none`: undefined behaviour, the list is not alive. -/
def begin_ {α} (t : Impl α) (h : Lists α) : Option (Lists α × It) :=
  let g := t h
  (g.lists g.ptr).map fun l => (g.done, ⟨g.ptr, VirtualIter.begin_ l⟩)
/-- `Tracks()->end()` (motion.hpp:64, skeleton.hpp:51, list.hpp:35). -/
def end_ {α} (t : Impl α) (h : Lists α) : Option (Lists α × It) :=
  let g := t h
  (g.lists g.ptr).map fun l => (g.done, ⟨g.ptr, VirtualIter.end_ l⟩)

/-- What a loop has done. (Loops over motion.hpp:63-64, skeleton.hpp:50-51.) -/
inductive Loop (α : Type)
  /-- Ended, after these items. -/
  | ended (xs : List α)
  /-- A list that is not alive was used, after these items. -/
  | undefined (xs : List α)
  /-- Not ended in the rounds given. -/
  | more
deriving DecidableEq, Repr

/-- One item more in front. (virtual_iterator.hpp:56-58) -/
def Loop.cons {α} (x : α) : Loop α → Loop α
  | .ended xs => .ended (x :: xs)
  | .undefined xs => .undefined (x :: xs)
  | .more => .more

/-- The rounds of `for (auto x : motion)`: compare positions only (virtual_iterator.hpp:50-55), read through `tClass` (:56-58), advance (:41-44).
The first argument bounds the rounds. The body does not change the lists. -/
def rounds {α} (h : Lists α) (stop : It) : Nat → It → Loop α
  | 0, _ => .more
  | n + 1, i =>
    if i.pos ≠ stop.pos then
      match h i.ptr with
      | some l => Loop.cons (l.at_ i.pos) (rounds h stop n ⟨i.ptr, i.pos + 1⟩)
      | none => .undefined []
    else .ended []

/-- `for (auto x : motion)`: `begin()`, `end()`, rounds. (motion.hpp:63-64, skeleton.hpp:50-51) -/
def forEach {α} (t : Impl α) (h : Lists α) (n : Nat) : Loop α :=
  match begin_ t h with
  | none => .undefined []
  | some (h1, i) =>
    match end_ t h1 with
    | none => .undefined []
    | some (h2, j) => rounds h2 j n i

end PreCore.SceneIter
