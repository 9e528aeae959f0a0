import Verif.Model.Base
/-!
# Model of the objects behind Python wrappers (uni/python/pylist.hpp, pymotion.inl, pyskeleton.inl, uni/common.hpp)

A wrapper is a Python object with an `Element`: a pointer to a scene object and the mark whether the element deletes it
(datas/deleter_hybrid.hpp:22-33). Scene objects are numbered in the order Python gets them. An object that is lent (an item of a vector, a
list that is a member, `At` of list_vector.hpp:33 and 58, a parent, pyskeleton.inl:155) is a part of another one, which is recorded in `inside`; reading the same
part twice makes two numbers, which is harmless because parts are never deleted alone. Not modelled: lists that are given away and refer to
the object that gave them, wrappers' own memory (C79), changes of the scene by C++ code while Python runs.
-/
namespace PreCore.PyLife

/-- The element of a wrapper: object and `canDelete` (common.hpp:24, deleter_hybrid.hpp:22-33); `held`: Python has a reference. -/
structure Wrap where
  item : Nat
  owns : Bool
  held : Bool
deriving DecidableEq, Repr

/-- `inside[o]`: the object that object `o` is a part of; `deleted`: objects on which `delete` ran, last first; wrappers in the order they were made.
(State behind pylist.hpp:24-122, pymotion.inl:150-320, pyskeleton.inl:115-240.) -/
structure World where
  inside : List (Option Nat)
  deleted : List Nat
  wraps : List Wrap
deriving DecidableEq, Repr

/-- Nothing wrapped yet (pymotion.inl:311-320 and pyskeleton.inl:233-243 make the first wrappers). -/
def World.start : World := ⟨[], [], []⟩

/-- The memory of object `o` is gone when it or something it is a part of was deleted (`delete ptr`, deleter_hybrid.hpp:29-32). Parts have larger numbers,
so `fuel` `o + 1` suffices. -/
def World.goneAux (w : World) : (fuel o : Nat) → Bool
  | 0, _ => false
  | fuel + 1, o => w.deleted.contains o || (match w.inside.getD o none with
    | some p => w.goneAux fuel p
    | none => false)
/-- The memory of an object is gone (deleter_hybrid.hpp:29-32). -/
def World.gone (w : World) (o : Nat) : Bool := w.goneAux (o + 1) o

/-- What a Python program and the C++ program that started it do (pylist.hpp:87-122, pymotion.inl:150-320, pyskeleton.inl:115-243). -/
inductive Op
  /-- C++ gives an object away: `Motion::Create`, `Skeleton::Create` with an owning element (pymotion.inl:311-320, pyskeleton.inl:233-243). -/
  | create
  /-- C++ lends an object it keeps: the same with an element that does not delete. -/
  | borrow
  /-- Python reads `tracks`, `bones`, `list[i]` or `parent` of wrapper `i`, whose class lends the result (pymotion.inl:298-300, pyskeleton.inl:149-160,
  228-230, pylist.hpp:91-101). -/
  | lend (i : Nat)
  /-- The same, the class gives the result away. -/
  | give (i : Nat)
  /-- Python reads a value of wrapper `i` (`name`, `len()`, `get_values`, ...; pymotion.inl:156-222, 285-300, pyskeleton.inl:119-147, 223-226, pylist.hpp:89). -/
  | use (i : Nat)
  /-- The last reference to wrapper `i` goes: `Dealloc` moves the element out and destroys it (pylist.hpp:87, pymotion.inl:152-154, 283,
  pyskeleton.inl:117, 221). -/
  | drop (i : Nat)
deriving DecidableEq, Repr

/-- A new wrapper with a new object (`PyType_GenericNew` or `PyType_GenericAlloc` and `item = ...`, pylist.hpp:96-101, 117-122, pymotion.inl:311-316,
pyskeleton.inl:153-156). -/
def World.add (w : World) (part : Option Nat) (owns : Bool) : World :=
  ⟨w.inside ++ [part], w.deleted, w.wraps ++ [⟨w.inside.length, owns, true⟩]⟩

/-- Wrapper `i`, if Python can still name it (the interpreter's variables; pylist.hpp:87 runs when it cannot). -/
def World.find (w : World) (i : Nat) : Option Wrap := (w.wraps[i]?).filter (·.held)

/-- One step; `none`: memory of a deleted object is read. Operations on wrappers that Python cannot name any more do not exist: nothing happens.
(pylist.hpp:87-122, pymotion.inl:150-320, pyskeleton.inl:115-243) -/
def World.step (w : World) : Op → Option World
  | .create => some (w.add none true)
  | .borrow => some (w.add none false)
  | .lend i => match w.find i with
    | none => some w
    | some x => if w.gone x.item then none else some (w.add (some x.item) false)
  | .give i => match w.find i with
    | none => some w
    | some x => if w.gone x.item then none else some (w.add none true)
  | .use i => match w.find i with
    | none => some w
    | some x => if w.gone x.item then none else some w
  | .drop i => match w.find i with
    | none => some w
    | some x => some ⟨w.inside, if x.owns then x.item :: w.deleted else w.deleted, w.wraps.set i { x with held := false }⟩

/-- A program (pymotion.inl:150-320, pyskeleton.inl:115-243, pylist.hpp:87-122). -/
def World.run : List Op → World → Option World
  | [], w => some w
  | op :: ops, w => (w.step op).bind (World.run ops)

end PreCore.PyLife
