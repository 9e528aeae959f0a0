import Verif.Model.Reflector
/-!
# Model of enum registration (datas/internal/reflector_enum.hpp, reflector_enum_reg.hpp)

An enumerator is its stringized declaration (`#value`), e.g. `A = 0x10`, without the terminating NUL.
-/
namespace PreCore.Refl
open CNum Supercore

/-- A character ends the name (reflector_enum.hpp:28): '=', ' ' or NUL. -/
def endsName (c : Byte) : Bool := c == 0x3d#8 || c == 0x20#8 || c == 0#8

/-- The registered name: `{#value, _GetReflEnumItemSize(#value)}` (reflector_enum.hpp:23-38): the characters before the
first '=', ' ' or NUL. -/
def enumItemName (t : Text) : Text := t.takeWhile (fun c => !endsName c)

/-- `names[t].end()` as a C string (reflector_enum_reg.hpp:34): the rest of the declaration. -/
def enumItemRest (t : Text) : Text := t.dropWhile (fun c => !endsName c)

/-- `while (cName[0] != '=' && !cName.empty()) cName.remove_prefix(1)` (reflector_enum_reg.hpp:36-37). -/
def toAssign : Text → Text
  | [] => []
  | c :: cs => if c ≠ 0x3d#8 then toAssign cs else c :: cs

/-- One iteration of `_REnumInitializer` (reflector_enum_reg.hpp:33-52): value and the next `lastValue`;
`none` = `substr` throws because nothing but blanks follows the '='. -/
def enumStep (last : BitVec 64) (t : Text) : Option (BitVec 64 × BitVec 64) :=
  let c := toAssign (enumItemRest t)
  if c = [] ∨ (c.head? = some 0x3d#8 ∧ c.length < 2) then some (last, last + 1#64)
  else
    let c := (skipStart false (c.drop 1)).1
    match StringView.substr c 0 2 with
    | none => none
    | some p =>
      let base := if StringView.compare p [0x30#8, 0x78#8] = 0 then 16 else 10
      let v := BitVec.ofNat 64 (strtoull base c)
      some (v, v + 1#64)

/-- `_REnumInitializer` (reflector_enum_reg.hpp:26-53). -/
def enumInit : BitVec 64 → List Text → Option (List (BitVec 64))
  | _, [] => some []
  | last, t :: ts => match enumStep last t with
    | none => none
    | some (v, last') => (enumInit last' ts).map (v :: ·)

/-- The table of a registered enum: `ReflectedEnum` (reflector_enum_reg.hpp:57-99). -/
def enumTable (decls : List Text) : Option EnumTab :=
  (enumInit 0#64 decls).map (fun vs => (decls.map enumItemName).zip vs)

end PreCore.Refl
