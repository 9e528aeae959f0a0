import Verif.Model.Base
/-!
# Model of datas/flags.hpp (`es::Flags`)

The stored `ValueType` is a `BitVec w`; an enumerator is its integral value (a bit index).
-/
namespace PreCore.Flags

/-- `MakeMask_` (flags.hpp:78-80).  `at >= w` is an out-of-range shift in C++ (undefined for 32/64 bit
storage); the properties quantify over in-range enumerators only. -/
def makeMask (w : Nat) (at_ : Nat) : BitVec w := 1#w <<< at_

/-- `operator[]` (flags.hpp:44-46). -/
def test {w : Nat} (value : BitVec w) (pos : Nat) : Bool := (value &&& makeMask w pos) != 0#w

/-- `Set` (flags.hpp:48-50). -/
def set {w : Nat} (value : BitVec w) (pos : Nat) (val : Bool) : BitVec w :=
  if val then value ||| makeMask w pos else value &&& ~~~ makeMask w pos

/-- `operator+=` (flags.hpp:51-54). -/
def add {w : Nat} (value : BitVec w) (pos : Nat) : BitVec w := set value pos true

/-- `operator-=` (flags.hpp:55-58). -/
def remove {w : Nat} (value : BitVec w) (pos : Nat) : BitVec w := set value pos false

/-- `unpack_` / variadic constructors (flags.hpp:32-40, 82-88). -/
def unpack {w : Nat} (value : BitVec w) : List Nat → BitVec w
  | [] => value
  | e :: es => unpack (value ||| makeMask w e) es

/-- `operator==(const Flags&)` (flags.hpp:60-62). -/
def eq {w : Nat} (a b : BitVec w) : Bool := a == b

/-- The mutating operations of the class (flags.hpp:42, 48, 51, 55). -/
inductive Op (w : Nat) where
  | set (pos : Nat) (val : Bool)
  | add (pos : Nat)
  | remove (pos : Nat)
  | assign (raw : BitVec w)

/-- One operation. (flags.hpp:42-62) -/
def step {w : Nat} (value : BitVec w) : Op w → BitVec w
  | .set p b => set value p b
  | .add p => add value p
  | .remove p => remove value p
  | .assign raw => raw

/-- A history, starting from any word (the default constructor starts from 0, flags.hpp:30). -/
def run {w : Nat} (value : BitVec w) (ops : List (Op w)) : BitVec w := ops.foldl step value

end PreCore.Flags
