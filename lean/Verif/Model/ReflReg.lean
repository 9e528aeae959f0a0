import Verif.Model.ReflectorPrint
import Verif.Model.BitField
/-!
# Model of the registration of reflected classes

`datas/macroLoop.hpp` (the preprocessor loops), `datas/internal/reflector_class.hpp` (`REFLECTOR_CREATE`),
`datas/internal/reflector_type.hpp` (`_getType`, `BuildReflType`, `BuildBFReflType`) and the pieces of
`datas/internal/reflector.inl` that go through `reflType::ID` or the name/alias/description tables.
-/
namespace PreCore.Refl

/-! ## Preprocessor loops -/

/-- An argument of a macro call: one of the caller's, or one of the numbers appended by `VA_NARGS`. (macroLoop.hpp:21-27, 214) -/
inductive MArg (α : Type) | item (a : α) | num (n : Nat) deriving Repr, DecidableEq

/-- The numbers appended by `VA_NARGS` (macroLoop.hpp:23), in the order of the text: 89, 87, 88, 86, 85, ..., 1. -/
def nargsTail : List Nat := [89, 87, 88] ++ (List.range 86).map (fun i => 86 - i)

/-- `VA_NARGS(...)` (macroLoop.hpp:21-23): the 90th of the caller's arguments followed by the numbers. -/
def vaNArgs {α : Type} (args : List α) : Option (MArg α) := (args.map MArg.item ++ nargsTail.map MArg.num)[89]?

/-- `_StaticFor_ADDn(eval, first, ...)` (macroLoop.hpp:29-119): arguments `eval` is applied to. `none`: an empty argument
(`first` of an empty list). -/
def staticForAdd {α : Type} : Nat → List α → List (Option α)
  | 0, _ => []
  | n + 1, args => args.head? :: staticForAdd n args.tail

/-- `_StaticForArgID_ADDn(eval, classname, _id, first, ...)` (macroLoop.hpp:122-211); there is no `_ADD0`. -/
def staticForArgIDAdd {α : Type} : Nat → Nat → List α → List (Nat × Option α)
  | 0, _, _ => []
  | n + 1, id, args => (id, args.head?) :: staticForArgIDAdd n (id + 1) args.tail

/-- `StaticFor` (macroLoop.hpp:25-27, 214): `none` = the pasted name is no macro (the program is rejected). -/
def staticFor {α : Type} (args : List α) : Option (List (Option α)) :=
  match vaNArgs args with
  | some (.num n) => some (staticForAdd n args)
  | _ => none

/-- `StaticForArgID` (macroLoop.hpp:215). -/
def staticForArgID {α : Type} (args : List α) : Option (List (Nat × Option α)) :=
  match vaNArgs args with
  | some (.num n) => some (staticForArgIDAdd n 0 args)
  | _ => none

/-! ## Types -/

/-- The member types that can be reflected (the specialisations of `_getType`). `BitFieldType`s carry the size of their
word. Vectors: `t_Vector2`, `t_Vector`, `t_Vector4_` have dimension 2, 3, 4. (reflector_type.hpp:82-111) -/
inductive CTy
  | bool | int (bytes : Nat) | uint (bytes : Nat) | flt (bytes : Nat) | enum (bytes : Nat) (hash : BitVec 32)
  | cls (bytes : Nat) (hash : BitVec 32) | bits (bytes : Nat) (hash : BitVec 32) | cstr | str
  | arr (elem : CTy) (n : Nat) | vec (comp : CTy) (dim : Nat) | flags (bytes : Nat) (hash : BitVec 32)
deriving Repr, DecidableEq

/-- `sizeof` on a 64-bit host (`std::string`: 32 bytes, as in libstdc++). (`sizeof` at reflector_type.hpp:88, 108.) -/
def CTy.sizeof : CTy → Nat
  | .bool => 1
  | .int n | .uint n | .flt n | .enum n _ | .cls n _ | .bits n _ | .flags n _ => n
  | .cstr => 8
  | .str => 32
  | .arr e n => n * e.sizeof
  | .vec c d => d * c.sizeof

/-- `_getType<C>::TYPE` (reflector_type.hpp:53-69, 82-111; vectors.hpp:465-491; flags.hpp:95-100; bitfield.inl:68-75;
refl_array.hpp:22-29). -/
def CTy.ty : CTy → RT
  | .bool => .Bool
  | .int _ => .Integer
  | .uint _ => .UnsignedInteger
  | .flt _ => .FloatingPoint
  | .enum _ _ => .Enum
  | .cls _ _ => .Class
  | .bits _ _ => .BitFieldClass
  | .cstr => .CString
  | .str => .String
  | .arr _ _ => .Array
  | .vec _ _ => .Vector
  | .flags _ _ => .EnumFlags

/-- Number of a `REFType` enumerator (reflector_fwd.hpp:26-42). -/
def RT.toByte : RT → Nat
  | .None => 0 | .Integer => 1 | .UnsignedInteger => 2 | .FloatingPoint => 3 | .Class => 4 | .Enum => 5 | .Bool => 6
  | .CString => 7 | .String => 8 | .Array => 9 | .Vector => 10 | .ArrayClass => 11 | .EnumFlags => 12
  | .BitFieldMember => 13 | .BitFieldClass => 14

/-- `_getType<C>::SUBTYPE`: `None` unless a list (reflector_fwd.hpp:47; reflector_type.hpp:109; vectors.hpp:467). -/
def CTy.sub : CTy → RT
  | .arr e _ => e.ty
  | .vec c _ => c.ty
  | _ => .None

/-- `_getType<C>::SUBSIZE`, a `uint8` (reflector_type.hpp:88, 92, 97, 102, 108; vectors.hpp:468; flags.hpp:98;
bitfield.inl:74): larger sizes lose their upper bits. -/
def CTy.subSize : CTy → BitVec 8
  | .bool => 1#8
  | .cstr | .str => 0#8
  | .int n | .uint n | .flt n | .enum n _ | .cls n _ | .bits n _ | .flags n _ => BitVec.ofNat 8 n
  | .arr e _ => BitVec.ofNat 8 e.sizeof
  | .vec c _ => BitVec.ofNat 8 c.sizeof

/-- `_getType<C>::NUMITEMS`, a `uint16` (reflector_fwd.hpp:48; reflector_type.hpp:110; vectors.hpp:469; flags.hpp:99). -/
def CTy.numItems : CTy → BitVec 16
  | .arr _ n => BitVec.ofNat 16 n
  | .vec _ d => BitVec.ofNat 16 d
  | .flags _ _ => 1#16
  | _ => 0#16

/-- `CompileVectorHash_` (vectors.hpp:459-463). -/
def vectorHash (t : RT) (size : BitVec 8) (n : BitVec 16) : BitVec 32 :=
  BitVec.ofNat 32 t.toByte ||| (size.zeroExtend 32 <<< 8) ||| (n.zeroExtend 32 <<< 16)

/-- `_getType<C>::Hash()` (reflector_type.hpp:84-87, 107; vectors.hpp:470; flags.hpp:97; bitfield.inl:71-73): an array has
the hash of its elements. -/
def CTy.hash : CTy → BitVec 32
  | .enum _ h | .cls _ h | .bits _ h | .flags _ h => h
  | .arr e _ => e.hash
  | .vec c d => vectorHash c.ty (BitVec.ofNat 8 c.sizeof) (BitVec.ofNat 16 d)
  | _ => 0#32

/-- A member of a class: hash of its name, its type and `offsetof`. (reflector_class.hpp:87-95) -/
structure Member where
  name : BitVec 32
  ty : CTy
  offset : Nat
deriving Repr, DecidableEq

/-- `BuildReflType` (reflector_type.hpp:122-138): the index arrives as `uint8`, the offset is cut to 16 bits. -/
def buildType (index : Nat) (m : Member) : RType :=
  ⟨m.ty.ty, m.ty.sub, m.ty.subSize, BitVec.ofNat 8 index, m.ty.numItems, BitVec.ofNat 16 m.offset, m.name, m.ty.hash⟩

/-- `Types()` of `_REFLECTOR_MAIN_BODY` (reflector_class.hpp:97-103): `none` = rejected by the compiler (no such macro, or
an empty member name). -/
def buildTable (ms : List Member) : Option (List RType) :=
  match staticForArgID ms with
  | none => none
  | some l => l.mapM (fun p => p.2.map (buildType p.1))

/-- A member of a `BitFieldType` given to `REFLECTOR_CREATE(..., BITFIELD, ...)`: hash of its name and its place in the
declaration of the bit field (`BitMemberDecl::index`). (reflector_class.hpp:225-230) -/
structure BitDecl where
  name : BitVec 32
  index : Nat
deriving Repr, DecidableEq

/-- `BuildBFReflType` (reflector_type.hpp:140-152) for a bit field of members with these sizes: `ID` is the index in the
declaration, not in the table. `none`: no such member (rejected by the compiler). -/
def buildBFType (signed : Bool) (sizes : List Nat) (d : BitDecl) : Option RType :=
  (BitField.get sizes d.index).map fun m =>
    ⟨.BitFieldMember, if signed then .Integer else .UnsignedInteger, BitVec.ofNat 8 m.size, BitVec.ofNat 8 d.index, 0#16,
      BitVec.ofNat 16 m.position, d.name, 0#32⟩

/-- `Types()` for a bit field (reflector_class.hpp:97-103, 225-234). -/
def buildBFTable (signed : Bool) (sizes : List Nat) (ds : List BitDecl) : Option (List RType) :=
  match staticForArgID ds with
  | none => none
  | some l => l.mapM (fun p => p.2.bind (buildBFType signed sizes))

/-! ## Reading by name: through `ID` -/

/-- `GetReflectedValue(JenHash)` (reflector.inl:164-171) as written: the type found is only asked for its `ID`. -/
def getByHash (env : Env) (c : ClassTab) (h : BitVec 32) (o : Obj) : Option Text :=
  match typeOf c h with
  | none => some []
  | some r => getByID env c r.ID.toNat o

/-- `GetReflectedValue(JenHash, size_t)` (reflector.inl:173-181). -/
def getSubByHash (env : Env) (c : ClassTab) (h : BitVec 32) (i : Nat) (o : Obj) : Option Text :=
  match typeOf c h with
  | none => some []
  | some r => getSub env c r.ID.toNat i o

/-- `GetReflectedValue(JenHash, size_t, size_t)` (reflector.inl:183-191). -/
def getElemByHash (env : Env) (c : ClassTab) (h : BitVec 32) (i j : Nat) (o : Obj) : Option Text :=
  match typeOf c h with
  | none => some []
  | some r => getElem env c r.ID.toNat i j o

/-- `IsArray(JenHash)`, `IsArray(size_t)` (reflector.inl:272-288). -/
def isArrayAt (c : ClassTab) (id : Nat) : Bool :=
  match typeAt c id with
  | none => false
  | some r => isArray r

/-- `IsReflectedSubClass(size_t)` (reflector.inl:261-270): the array test goes through `ID`. -/
def isSubClassAt (c : ClassTab) (id : Nat) : Bool :=
  match typeAt c id with
  | none => false
  | some r => r.type == .Class || r.type == .BitFieldClass ||
      (isArrayAt c r.ID.toNat && (r.subType == .Class || r.subType == .BitFieldClass))

/-- `IsReflectedSubClass(JenHash)`, `IsArray(JenHash)` (reflector.inl:252-259, 272-279). -/
def isSubClassByHash (c : ClassTab) (h : BitVec 32) : Bool :=
  match typeOf c h with
  | none => false
  | some r => isSubClassAt c r.ID.toNat
/-- `IsArray(JenHash)` (reflector.inl:272-279). -/
def isArrayByHash (c : ClassTab) (h : BitVec 32) : Bool :=
  match typeOf c h with
  | none => false
  | some r => isArrayAt c r.ID.toNat

/-- `SetReflectedValueInt/UInt(JenHash or size_t, value, subID)` (reflector.inl:96-134) on the type found. -/
def setIntOf (ty : Option RType) (v : BitVec 64) (i : Nat) (o : Obj) : Err × Obj :=
  match ty with
  | none => (.InvalidDestination, o)
  | some r => setValueInt r v i o
/-- `SetReflectedValueUInt` (reflector.inl:116-134). -/
def setUIntOf (ty : Option RType) (v : BitVec 64) (i : Nat) (o : Obj) : Err × Obj :=
  match ty with
  | none => (.InvalidDestination, o)
  | some r => setValueUInt r v i o

/-- `SetReflectedValueFloat(JenHash or size_t, value, subID)` (reflector.inl:136-154). -/
def setFloatOf (narrow : BitVec 64 → BitVec 32) (ty : Option RType) (v : BitVec 64) (i : Nat) (o : Obj) : Err × Obj :=
  match ty with
  | none => (.InvalidDestination, o)
  | some r => setValueFloat narrow r v i o

/-! ## Names, aliases, descriptions -/

/-- `_GetReflDescPart` (reflector_class.hpp:22-38) on the characters of a literal, its terminating NUL included in the
loop. -/
def descPart (part2 : Bool) : Text → Nat
  | [] => 0
  | c :: cs => if c = 0#8 then 0 else if c = 0x25#8 then (if part2 then 1 else 0) else descPart part2 cs + 1

/-- A C string literal as a `string_view`: up to the first NUL (string_view.hpp, `traits::length`). -/
def cView (t : Text) : Text := t.takeWhile (· ≠ 0#8)

/-- `_REFLECTOR_DESCBUILDER` (reflector_class.hpp:64-65). -/
def splitDesc (item : Text) : Text × Text := (item.take (descPart false item), cView (item.drop (descPart true item)))

/-- An entry of an EXTENDED class: `(A, x, alias)`, `(D, x, desc)`, `(AD, x, alias, desc)`, `(, x)`. (reflector_class.hpp:40-84) -/
structure ExtMember where
  text : Text
  alias_ : Option Text
  desc : Option Text
deriving Repr, DecidableEq

/-- `reflectorStatic`'s `typeNames`, `typeAliases`, `typeDescs` (reflector_class_reg.hpp:32-41, 45-65); `none`: null. -/
structure NameTab where
  names : Option (List Text)
  aliases : Option (List (Option Text))
  descs : Option (List (Text × Text))
deriving Repr, DecidableEq

/-- Tables of a class registered without VARNAMES or EXTENDED (reflector_class_reg.hpp:32-41). -/
def plainNames : NameTab := ⟨none, none, none⟩
/-- Tables of a VARNAMES class (reflector_class.hpp:114-119). -/
def varNames (ns : List Text) : NameTab := ⟨some ns, none, none⟩
/-- Tables of an EXTENDED class (reflector_class.hpp:40-84, 122-142): a member without description has two null views. -/
def extNames (ms : List ExtMember) : NameTab :=
  ⟨some (ms.map (·.text)), some (ms.map (·.alias_)),
    some (ms.map (fun m => match m.desc with | some d => splitDesc d | none => ([], [])))⟩

/-- `GetReflectedPair(size_t, settings)` (reflector.inl:208-236). `none` = a null table is indexed (undefined). -/
def getPair (env : Env) (c : ClassTab) (n : NameTab) (aliasName formatValue : Bool) (id : Nat) (o : Obj) :
    Option (Text × Text) :=
  if c.types.length ≤ id then some ([], [])
  else
    let name : Option Text :=
      match n.names with
      | none => some []
      | some ns =>
        if aliasName then
          match n.aliases with
          | none => none
          | some al => match al[id]? with
            | some (some a) => some a
            | _ => ns[id]?
        else ns[id]?
    let value : Option Text :=
      if formatValue then
        match n.descs with
        | none => none
        | some ds => match ds[id]? with
          | none => none
          | some d =>
            if d.1 ≠ [] then
              (getByID env c id o).map fun v => d.1 ++ 0x20#8 :: v ++ (if d.2 ≠ [] then 0x20#8 :: d.2 else [])
            else getByID env c id o
      else getByID env c id o
    match name, value with
    | some a, some v => some (a, v)
    | _, _ => none

/-- `GetReflectedPair(JenHash, settings)` (reflector.inl:238-246). -/
def getPairByHash (env : Env) (c : ClassTab) (n : NameTab) (aliasName formatValue : Bool) (h : BitVec 32) (o : Obj) :
    Option (Text × Text) :=
  match typeOf c h with
  | none => some ([], [])
  | some r => getPair env c n aliasName formatValue r.ID.toNat o

end PreCore.Refl
