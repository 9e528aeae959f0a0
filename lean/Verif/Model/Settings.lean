import Verif.Model.ReflReg
/-!
# Model of datas/settings_manager.hpp (`GetHelp`, the settings part of `CreateLog`)

The text put into the stream. The registries are functions from hashes. The date, the thread count and the file name of
`CreateLog` come from the system and are not modelled.
-/
namespace PreCore.Settings
open PreCore.Refl

/-- What `GetHelp` reads of a `reflectorStatic`. (settings_manager.hpp:81-90) -/
structure Cls where
  types : List RType
  names : NameTab

/-- `REFSubClassStorage` and the names in `REFEnumStorage`. (settings_manager.hpp:96-98) -/
structure Reg where
  classes : BitVec 32 → Option Cls
  enums : BitVec 32 → Option (List Text)

/-- Outcome of `GetHelp` (settings_manager.hpp:71-108). -/
inductive Out
  | text (t : Text)
  /-- a null table is indexed -/
  | ub
  /-- `std::map::at` throws -/
  | throws
deriving DecidableEq, Repr

/-- Statements one after the other (settings_manager.hpp:81-107). -/
def Out.bind (x : Out) (f : Text → Out) : Out :=
  match x with
  | .text t => f t
  | .ub => .ub
  | .throws => .throws

/-- `\t` (settings_manager.hpp:75). -/
def tab : Byte := 0x09#8
/-- `std::endl` (settings_manager.hpp:84). -/
def nl : Byte := 0x0a#8

/-- `fillIndent` (settings_manager.hpp:73-79). -/
def indent (n : Nat) : Text := List.replicate n tab

/-- "Values: ". (settings_manager.hpp:99) -/
def tValues : Text := [0x56, 0x61, 0x6c, 0x75, 0x65, 0x73, 0x3a, 0x20].map (BitVec.ofNat 8)

/-- The condition in settings_manager.hpp:92-95. -/
def hasClass (r : RType) : Bool :=
  r.type == .Class || r.type == .BitFieldClass ||
    ((r.type == .Array || r.type == .ArrayClass) && (r.subType == .Class || r.subType == .BitFieldClass))

/-- Members from index `i` on (settings_manager.hpp:81-107); `sub` is the recursive call. -/
def helpFrom (reg : Reg) (sub : Cls → Nat → Out) (level : Nat) (n : NameTab) : Nat → List RType → Out
  | _, [] => .text []
  | i, r :: rs =>
    match n.names, n.descs with
    | some ns, some ds =>
      match ns[i]?, ds[i]? with
      | some name, some desc =>
        let head := indent level ++ name ++ [nl] ++ (if desc.1 ≠ [] then indent (level + 1) ++ desc.1 ++ [nl] else [])
        let body : Out :=
          if hasClass r then
            match reg.classes r.typeHash with
            | some c => sub c (level + 1)
            | none => .throws
          else if r.type = .Enum then
            match reg.enums r.typeHash with
            | some vs => .text (indent (level + 1) ++ tValues ++ vs.flatMap (fun v => v ++ [0x2c#8, 0x20#8]) ++ [nl])
            | none => .throws
          else .text []
        body.bind fun b => (helpFrom reg sub level n (i + 1) rs).bind fun t => .text (head ++ b ++ t)
      | _, _ => .ub
    | _, _ => .ub

/-- `GetHelp(str, ref, level)` (settings_manager.hpp:71-108); the number bounds the nesting of classes. -/
def help (reg : Reg) : Nat → Cls → Nat → Out
  | 0, _, _ => .ub
  | f + 1, c, level => helpFrom reg (help reg f) level c.names 0 c.types

/-- " settings.". (settings_manager.hpp:112) -/
def tSettings : Text := [0x20, 0x73, 0x65, 0x74, 0x74, 0x69, 0x6e, 0x67, 0x73, 0x2e].map (BitVec.ofNat 8)

/-- `GetHelp(str)` (settings_manager.hpp:110-114). -/
def getHelp (reg : Reg) (fuel : Nat) (className : Text) (c : Cls) : Out :=
  (help reg fuel c 1).bind fun t => .text (className ++ tSettings ++ [nl] ++ t)

/-- The loop of `CreateLog` (settings_manager.hpp:58-66): name and value of every setting, the value as a C string. -/
def logFrom (env : Env) (c : ClassTab) (n : NameTab) (o : Obj) : Nat → Nat → Out
  | 0, _ => .text []
  | k + 1, i =>
    match getPair env c n true false i o with
    | none => .ub
    | some p => (logFrom env c n o k (i + 1)).bind fun t =>
        .text ([tab] ++ p.1 ++ [0x3a#8, 0x20#8] ++ cView p.2 ++ [nl] ++ t)

/-- The settings listed by `CreateLog`. (settings_manager.hpp:58-66) -/
def logSettings (env : Env) (c : ClassTab) (n : NameTab) (o : Obj) : Out := logFrom env c n o c.types.length 0

end PreCore.Settings
