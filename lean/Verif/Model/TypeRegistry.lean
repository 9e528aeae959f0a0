import Verif.Model.ReflBin
import Verif.Model.ReflReg
import Verif.Model.EnumReg
import Verif.Model.Jenkins
/-!
# Model of the registries of reflected types

`datas/internal/reflector_reg.hpp` (`RegisterReflectedTypes`), the hashes made by `REFLECTOR_CREATE`
(`reflector_class.hpp`, `reflector_class_reg.hpp`, `reflector_enum.hpp`) and the construction of the two maps
(`reflector.cpp:1045-1046`). A `std::map` is a partial function from keys to values.
-/
namespace PreCore.TypeReg
open Refl ReflBin

/-- A class given to `REFLECTOR_CREATE`: the text of its first argument, whether any of the flags VARNAMES, EXTENDED, TEMPLATE is
given (`numFlags` is not 0), and its tables. (reflector_class.hpp:166-223) -/
structure ClassDecl where
  name : Text
  flagged : Bool
  tab : ClassTab

/-- `ReflectorType<C>::Hash()`: the hash of the name (reflector_class.hpp:105-106) when there are flags
(reflector_class.hpp:175-214); `_REFLECTOR_START_VER0_` (reflector_class.hpp:166-171) defines none, the one of
`ReflectorTypeBase` (reflector_class_reg.hpp:33) is zero. -/
def ClassDecl.hash (c : ClassDecl) : BitVec 32 := if c.flagged then Jenkins.jenHash c.name else 0#32

/-- `GetReflectedClass<C>()` (reflector_class_reg.hpp:55-65, 102-104). -/
def ClassDecl.static (c : ClassDecl) : ClassDef := ⟨c.hash, c.tab⟩

/-- An enum given to `REFLECTOR_CREATE(..., ENUM, ...)`: its name and the text of its enumerators. (reflector_enum.hpp:60-70) -/
structure EnumDecl where
  name : Text
  items : List Text

/-- `_EnumWrap<E>::GetHash()` (reflector_enum.hpp:67). -/
def EnumDecl.hash (e : EnumDecl) : BitVec 32 := Jenkins.jenHash e.name

/-- `ReflectedEnum` (reflector_enum_reg.hpp:57-79): name and table. -/
structure EnumObj where
  name : Text
  tab : EnumTab

/-- `GetReflectedEnum<E>()` (reflector_enum_reg.hpp:67-79, 101-103); `none`: an exception. -/
def EnumDecl.static (e : EnumDecl) : Option EnumObj := (enumTable e.items).map (fun t => ⟨e.name, t⟩)

/-- A type argument of `RegisterReflectedTypes`. (reflector_reg.hpp:48-49) -/
inductive TypeDecl
  | cls (c : ClassDecl)
  | enm (e : EnumDecl)

/-- `REFSubClassStorage` and `REFEnumStorage` (reflector.cpp:1045-1046). -/
structure Store where
  classes : Registry
  enums : BitVec 32 → Option EnumObj

/-- Both maps after their constructors. (reflector.cpp:1045-1046) -/
def Store.empty : Store := ⟨fun _ => none, fun _ => none⟩

/-- `map[key] = value`. (reflector_reg.hpp:33-34, 40) -/
def assign {α : Type} (m : BitVec 32 → Option α) (k : BitVec 32) (v : α) : BitVec 32 → Option α := fun x => if x = k then some v else m x

/-- `RegisterRefClass` (reflector_reg.hpp:29-43); `none`: the exception of the enum table. -/
def register (s : Store) : TypeDecl → Option Store
  | .cls c => some { s with classes := assign s.classes c.hash c.static }
  | .enm e => e.static.map fun o => { s with enums := assign s.enums e.hash o }

/-- `RegisterReflectedTypes<C...>` (reflector_reg.hpp:45-49): the bases are constructed from left to right. Also any sequence of
such objects. -/
def registerTypes (s : Store) : List TypeDecl → Option Store
  | [] => some s
  | t :: ts => match register s t with
    | none => none
    | some s' => registerTypes s' ts

/-- What happens before `main`, in an order the linker chooses: the initialisation of the maps (reflector.cpp:1045-1046, dynamic: the
constructor of `std::map` is not `constexpr`) and that of static `RegisterReflectedTypes` objects of other files. -/
inductive Event
  | construct
  | types (ts : List TypeDecl)

/-- State of the maps: not yet constructed, usable, or the program is lost (a map was used before its constructor, or an exception
left a static constructor). (reflector.cpp:1045-1046) -/
inductive World
  | raw
  | live (s : Store)
  | lost

/-- One event. A map that is used before its construction is undefined behaviour. (reflector.cpp:1045-1046, reflector_reg.hpp:29-43) -/
def step : World → Event → World
  | .raw, .construct => .live Store.empty
  | .raw, .types [] => .raw
  | .raw, .types (_ :: _) => .lost
  | .live s, .types ts => match registerTypes s ts with
    | some s' => .live s'
    | none => .lost
  | .live s, .construct => .live s
  | .lost, _ => .lost

/-- All events up to `main`. (reflector.cpp:1045-1046, reflector_reg.hpp:29-49) -/
def startup (evs : List Event) : World := evs.foldl step .raw

end PreCore.TypeReg
