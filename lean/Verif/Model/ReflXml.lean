import Verif.Model.ReflectorPrint
import Verif.Model.ReflBin
import Verif.Model.Jenkins
/-!
# Model of `ReflectorXMLUtil` (datas/reflector_xml.cpp)

The DOM of pugixml (not part of /repo) is the tree type `Node`.  Parsing a text as an XML fragment (`append_buffer`) is a
parameter `frag`.  Addresses are byte offsets as in `Model/Reflector`; an instance is a class and an address.
`ID` of a member is its index (reflector_type.hpp:29, 122-140), which is assumed here: `IsArray(fl.ID)` and
`found->ID` (reflector.inl:252-288) then denote the same member.
Recursion is bounded by the first argument; `none` = undefined behaviour or nesting deeper than the bound.
-/
namespace PreCore.ReflXml
open Refl ReflBin CNum

/-- A DOM node: an element with attributes and children, or character data. (Pugixml, used at reflector_xml.cpp:121-158, 276-485.) -/
inductive Node
  | elem (name : Text) (attrs : List (Text × Text)) (kids : List Node)
  | data (t : Text)

/-- `xml_node::name`. (Pugixml, used at reflector_xml.cpp:121-158, 276-485.) -/
def Node.name : Node → Text
  | .elem n _ _ => n
  | .data _ => []
/-- `xml_node::attributes`. (Pugixml, used at reflector_xml.cpp:121-158, 276-485.) -/
def Node.attrs : Node → List (Text × Text)
  | .elem _ a _ => a
  | .data _ => []
/-- `xml_node::children`. (Pugixml, used at reflector_xml.cpp:121-158, 276-485.) -/
def Node.kids : Node → List Node
  | .elem _ _ k => k
  | .data _ => []

/-- Text of the first character data node of a list. (Pugixml, used at reflector_xml.cpp:121-158, 276-485.) -/
def firstData : List Node → Text
  | [] => []
  | .data t :: _ => t
  | .elem _ _ _ :: ns => firstData ns

/-- `xml_node::text().as_string()`. (Pugixml, used at reflector_xml.cpp:121-158, 276-485.) -/
def Node.text : Node → Text
  | .elem _ _ k => firstData k
  | .data t => t

/-- Upper case hexadecimal digits, as `%X` prints them. (C library, `snprintf` at reflector_xml.cpp:100, 115.) -/
def showHex (n : Nat) : Text :=
  let d (k : Nat) : Byte := BitVec.ofNat 8 (if k < 10 then 48 + k else 55 + k)
  if _h : n < 16 then [d n] else showHex (n / 16) ++ [d (n % 16)]
termination_by n
decreasing_by omega

/-- `snprintf(..., 15, "h:%X", hash)` (reflector_xml.cpp:97-101, 112-116). -/
def hexName (h : BitVec 32) : Text := 0x68#8 :: 0x3a#8 :: showHex h.toNat

/-- `MakeHash` (reflector_xml.cpp:289-296, 440-447). `strtoul` returns 64 bits, `JenHash` keeps 32. -/
def nodeHash (name : Text) : BitVec 32 :=
  if name.take 2 = [0x68#8, 0x3a#8] then BitVec.ofNat 32 (strtoull 16 (name.drop 2)) else Jenkins.jenHash name

/-- `atoll`: 0 without digits, saturating. (C library, called at reflector_xml.cpp:304, 467.) -/
def atoll (t : Text) : Int :=
  match parse 10 t with
  | none => 0
  | some (neg, m) => if neg then max (- (m : Int)) (- 2 ^ 63) else min (m : Int) (2 ^ 63 - 1)

/-- Conversion of a `long long` to `size_t`. (reflector_xml.cpp:304, 467) -/
def toSize (z : Int) : Nat := (z % 2 ^ 64).toNat

/-- `className` and `typeNames` of the class with this hash; `none` when compiled without names (reflector.inl:160-162). -/
abbrev Names := BitVec 32 → Option (Text × List Text)

/-- `MakeNode` (reflector_xml.cpp:91-104), the name of the class node. -/
def className (nm : Names) (c : ClassDef) : Text :=
  match nm c.hash with
  | some (n, _) => n
  | none => hexName c.hash

/-- `GetName` (reflector_xml.cpp:106-119). -/
def memberName (nm : Names) (c : ClassDef) (i : Nat) (r : RType) : Text :=
  match nm c.hash with
  | some (_, ns) => ns.getD i []
  | none => hexName r.valueNameHash

/-- `IsReflectedSubClass(size_t)` (reflector.inl:261-270). -/
def isSub (r : RType) : Bool :=
  r.type == .Class || r.type == .BitFieldClass || (isArray r && (r.subType == .Class || r.subType == .BitFieldClass))

/-- Address of a member: `SetReflectedValue` and `GetReflectedValue` (reflector.cpp:495-503, 877-888). -/
def addr (inst : Inst) (r : RType) : Nat := inst.base + (if r.type = .BitFieldMember then 0 else r.offset.toNat)

/-- All results of `g i, g (i+1), ...` (first argument: how many). (Loops at reflector_xml.cpp:129-155, 176-271.) -/
def collect {α : Type} (g : Nat → Option α) : Nat → Nat → Option (List α)
  | 0, _ => some []
  | k + 1, i => match g i with
    | none => none
    | some a => (collect g k (i + 1)).map (a :: ·)

/-- All results over the members of a class, with their index. (Loops at reflector_xml.cpp:129-155, 176-271.) -/
def collectT {α : Type} (g : Nat → RType → Option α) : List RType → Nat → Option (List α)
  | [], _ => some []
  | r :: rs, i => match g i r with
    | none => none
    | some a => (collectT g rs (i + 1)).map (a :: ·)

/-- A loop that may end in undefined behaviour. (Loops at reflector_xml.cpp:321-427, 461-482.) -/
def foldKids {α : Type} (g : α → Obj → Option Obj) : List α → Obj → Option Obj
  | [], o => some o
  | a :: as, o => match g a o with
    | none => none
    | some o => foldKids g as o

/-- What the functions read besides the object: the class registry, the member names, and the parser of `append_buffer`.
(reflector_xml.cpp:121-158, 167-274) -/
structure Ctx where
  env : Env
  reg : Registry
  nm : Names
  frag : Text → List Node

/-- Name of array item `s` in `Save` (reflector_xml.cpp:142). -/
def itemName (s : Nat) : Text := 0x69#8 :: 0x3a#8 :: showNat s

/-- One member in `ReflectorXMLUtil::Save` (reflector_xml.cpp:129-155); `sv` saves a sub class. -/
def saveMember (X : Ctx) (sv : Inst → Option (List Node)) (o : Obj) (inst : Inst) (i : Nat) (r : RType) : Option Node :=
  let name := memberName X.nm inst.cls i r
  if isSub r then
    if isArray r then
      (collect (fun s => ((subClass X.reg inst i s).bind sv).map (Node.elem (itemName s) [])) r.numItems.toNat 0).map
        (Node.elem name [])
    else ((subClass X.reg inst i 0).bind sv).map (Node.elem name [])
  else (printMember X.env r (addr inst r) o).map (fun t => Node.elem name [] (X.frag t))

/-- The nodes `ReflectorXMLUtil::Save` appends for the members of an instance (reflector_xml.cpp:121-158). -/
def saveKids (X : Ctx) (o : Obj) : Nat → Inst → Option (List Node)
  | 0, _ => none
  | f + 1, inst => collectT (saveMember X (saveKids X o f) o inst) inst.cls.tab.types 0

/-- `ReflectorXMLUtil::Save` (reflector_xml.cpp:121-158): the children of the given node afterwards. -/
def save (X : Ctx) (f : Nat) (inst : Inst) (o : Obj) (asNewNode : Bool) (kids : List Node) : Option (List Node) :=
  (saveKids X o f inst).map (fun ks => if asNewNode then kids ++ [Node.elem (className X.nm inst.cls) [] ks] else kids ++ ks)

/-- Loading into the sub class instance found, with an empty instance when there is none: the first access to a child
dereferences a null pointer (reflector_xml.cpp:461-478 with reflector.inl:264). -/
def intoSub (ld : Inst → List Node → Obj → Option Obj) (sub : Option Inst) (kids : List Node) (o : Obj) : Option Obj :=
  match sub with
  | none => if kids.isEmpty then some o else none
  | some s => ld s kids o

/-- One child in `ReflectorXMLUtil::Load` (reflector_xml.cpp:461-482); `sc.name() + 2` must lie inside the name. -/
def loadKid (X : Ctx) (ld : Inst → List Node → Obj → Option Obj) (inst : Inst) (a : Node) (o : Obj) : Option Obj :=
  match lookup inst.cls.tab (nodeHash a.name) with
  | none => some o
  | some i => match inst.cls.tab.types[i]? with
    | none => some o
    | some r =>
      if isSub r then
        if isArray r then
          foldKids (fun sc o => if sc.name.length < 2 then none else
            intoSub ld (subClass X.reg inst i (toSize (atoll (sc.name.drop 2)))) sc.kids o) a.kids o
        else intoSub ld (subClass X.reg inst i 0) a.kids o
      else some (setMember X.env r a.text (addr inst r) o).2

/-- The loop of `ReflectorXMLUtil::Load` over the children of a node (reflector_xml.cpp:461-482). -/
def loadKids (X : Ctx) : Nat → Inst → List Node → Obj → Option Obj
  | 0, _, _, _ => none
  | f + 1, inst, kids, o => foldKids (loadKid X (loadKids X f) inst) kids o

/-- `ReflectorXMLUtil::Load` (reflector_xml.cpp:432-485) on a node with these children. -/
def load (X : Ctx) (f : Nat) (inst : Inst) (lookupClassNode : Bool) (kids : List Node) (o : Obj) : Option Obj :=
  if lookupClassNode then
    match kids.find? (fun n => nodeHash n.name == inst.cls.hash) with
    | none => some o
    | some n => loadKids X f inst n.kids o
  else loadKids X f inst kids o

/-! ## Version 2 -/

/-- `GetReflectedValue(size_t, size_t)` (reflector.cpp:890-934) for the member `r` of an instance at `base`. -/
def getSubAt (env : Env) (base : Nat) (r : RType) (subID : Nat) (o : Obj) : Option Text :=
  match r.type with
  | .Array | .Vector | .ArrayClass =>
    if r.numItems.toNat ≤ subID then some []
    else printMember env (elemType r) (base + r.offset.toNat + r.subSize.toNat * subID) o
  | .EnumFlags =>
    if r.subSize.toNat * 8 ≤ subID then some []
    else printFlagBit o (base + r.offset.toNat) r.subSize.toNat subID
  | _ => some []

/-- `GetReflectedValue(size_t, size_t, size_t)` (reflector.cpp:936-984) likewise. -/
def getElemAt (env : Env) (base : Nat) (r : RType) (subID element : Nat) (o : Obj) : Option Text :=
  if !isArray r then some [] else
  match r.subType with
  | .Vector =>
    if r.numItems.toNat ≤ subID then some []
    else if (decNum r.typeHash).toNat ≤ element then some []
    else printMember env { r with type := decType r.typeHash, numItems := decNum r.typeHash, subSize := decSize r.typeHash }
      (base + r.offset.toNat + r.subSize.toNat * subID + (decSize r.typeHash).toNat * element) o
  | .EnumFlags =>
    if r.subSize.toNat * 8 ≤ element ∨ r.numItems.toNat ≤ subID then some []
    else printFlagBit o (base + r.offset.toNat + r.subSize.toNat * subID) r.subSize.toNat element
  | _ => some []

/-- `set_value(str.data())`: the text up to the first NUL. (reflector_xml.cpp:58, 227) -/
def cstr (t : Text) : Text := t.takeWhile (· ≠ 0#8)

/-- `axes` (reflector_xml.cpp:58, 227). -/
def axis (a : Nat) : Option Text := ([0x78#8, 0x79#8, 0x7a#8, 0x77#8][a]?).map (fun c => [c])

/-- Attributes for the components of a vector (reflector_xml.cpp:61-64, 231-234): more than four read past `axes`. -/
def axisAttrs (get : Nat → Option Text) (n : Nat) : Option (List (Text × Text)) :=
  collect (fun a => match get a, axis a with
    | some t, some x => some (x, cstr t)
    | _, _ => none) n 0

/-- One attribute for every enumerator (reflector_xml.cpp:77-82, 250-255). -/
def flagAttrs (get : Nat → Option Text) : EnumTab → Option (List (Text × Text))
  | [] => some []
  | e :: es => match get e.2.toNat with
    | none => none
    | some t => (flagAttrs get es).map ((e.1, cstr t) :: ·)

/-- `varName + '-' + std::to_string(s)` (reflector_xml.cpp:191, 217, 228, 247): without names `varName` is 15 characters
long with NULs behind the text, and what is appended is cut off by the C string. -/
def nodeName (nm : Names) (c : ClassDef) (name : Text) (s : Nat) : Text :=
  match nm c.hash with
  | some _ => name ++ 0x2d#8 :: showNat s
  | none => name

/-- Attributes and children of a node (`append_attribute`, `append_child`, reflector_xml.cpp:35-89, 176-271). -/
abbrev Parts := List (Text × Text) × List Node

/-- Member types saved as an attribute (reflector_xml.cpp:39-55). -/
def isAttr (strAttr : Bool) : RT → Bool
  | .String => strAttr
  | .Bool | .Enum | .FloatingPoint | .Integer | .UnsignedInteger | .BitFieldMember => true
  | _ => false

/-- Element types of a list saved as attributes (reflector_xml.cpp:208-213). -/
def isAttrItem : RT → Bool
  | .Bool | .Enum | .FloatingPoint | .Integer | .UnsignedInteger | .BitFieldMember => true
  | _ => false

/-- One member in `ReflectorXMLUtil::SaveV2a` (reflector_xml.cpp:35-89, 176-270): attributes and children appended. -/
def saveMember2 (X : Ctx) (strAttr : Bool) (sv : Inst → Option Parts) (o : Obj) (inst : Inst) (i : Nat) (r : RType) : Option Parts :=
  let name := memberName X.nm inst.cls i r
  let item := nodeName X.nm inst.cls name
  let asText : Option Parts := (printMember X.env r (addr inst r) o).map (fun t => ([], [Node.elem name [] (X.frag t)]))
  let sub (n : Text) (s : Nat) : Option Node := ((subClass X.reg inst i s).bind sv).map (fun p => Node.elem n p.1 p.2)
  let rest : Option Parts :=
    if isSub r then
      if isArray r then (collect (fun s => sub (item s) s) r.numItems.toNat 0).map (fun ks => ([], ks))
      else (sub name 0).map (fun k => ([], [k]))
    else if isArray r then
      match r.subType with
      | .Vector => (collect (fun s => (axisAttrs (fun a => getElemAt X.env inst.base r s a o) (decNum r.typeHash).toNat).map
          (fun as => Node.elem (item s) as [])) r.numItems.toNat 0).map (fun ks => ([], ks))
      | .EnumFlags => match X.env.enums r.typeHash with
        | none => some ([], [])
        | some tab => (collect (fun s => (flagAttrs (fun e => getElemAt X.env inst.base r s e o) tab).map
          (fun as => Node.elem (item s) as [])) r.numItems.toNat 0).map (fun ks => ([], ks))
      | t => if isAttrItem t then (collect (fun s => (getSubAt X.env inst.base r s o).map (fun t => (item s, cstr t)))
          r.numItems.toNat 0).map (fun as => (as, [])) else asText
    else asText
  if isAttr strAttr r.type then (printMember X.env r (addr inst r) o).map (fun t => ([(name, cstr t)], []))
  else match r.type with
    | .Vector => (axisAttrs (fun a => getSubAt X.env inst.base r a o) (decNum r.typeHash).toNat).map
        (fun as => ([], [Node.elem name as []]))
    | .EnumFlags => match X.env.enums r.typeHash with
      | none => rest
      | some tab => (flagAttrs (fun e => getSubAt X.env inst.base r e o) tab).map (fun as => ([], [Node.elem name as []]))
    | _ => rest

/-- All members (reflector_xml.cpp:176-271). -/
def saveParts (X : Ctx) (strAttr : Bool) (o : Obj) : Nat → Inst → Option Parts
  | 0, _ => none
  | f + 1, inst => (collectT (saveMember2 X strAttr (saveParts X strAttr o f) o inst) inst.cls.tab.types 0).map
      (fun ps => ((ps.map (·.1)).flatten, (ps.map (·.2)).flatten))

/-- `ReflectorXMLUtil::SaveV2a` (reflector_xml.cpp:167-274) into a new class node: the children of the given node
afterwards. -/
def saveV2 (X : Ctx) (strAttr : Bool) (f : Nat) (inst : Inst) (o : Obj) (kids : List Node) : Option (List Node) :=
  (saveParts X strAttr o f inst).map (fun p => kids ++ [Node.elem (className X.nm inst.cls) p.1 p.2])

/-- `nan_` (reflector_xml.cpp:283). -/
def nan : Nat := 2 ^ 64 - 1

/-- `MakeNode` of `LoadV2` (reflector_xml.cpp:298-311): hash and index. `strtoul` reads on behind the view up to the '-',
which is no digit. -/
def splitName (name : Text) : BitVec 32 × Nat :=
  match StringView.find name [0x2d#8] 0 with
  | .at p =>
    (if name.take 2 = [0x68#8, 0x3a#8] then BitVec.ofNat 32 (strtoull 16 (name.drop 2)) else Jenkins.jenHash (name.take p),
      toSize (atoll (name.drop (p + 1))))
  | _ => (nodeHash name, nan)

/-- `SetReflectedValue(reflType, value, subID)` (reflector.cpp:505-521) behind the type switch of reflector.inl:43-51, 61-69;
addresses wrap at 2^64. -/
def setSubAt (env : Env) (base : Nat) (r : RType) (t : Text) (subID : Nat) (o : Obj) : Obj :=
  match r.type with
  | .Array | .Vector | .ArrayClass | .EnumFlags =>
    (setMember env (elemType r) t ((base + r.offset.toNat + r.subSize.toNat * subID) % 2 ^ 64) o).2
  | _ => o

/-- `SetReflectedValue(size_t, value, subID, element)` (reflector.inl:84-94, reflector.cpp:523-557). -/
def setElemAt (env : Env) (base : Nat) (r : RType) (t : Text) (subID element : Nat) (o : Obj) : Obj :=
  if !isArray r then o
  else if r.subType ≠ .Vector then o
  else if element ≥ (decSize r.typeHash).toNat then o
  else (setMember env { r with subSize := decSize r.typeHash, type := decType r.typeHash } t
    ((base + r.offset.toNat + r.subSize.toNat * subID + (decSize r.typeHash).toNat * element) % 2 ^ 64) o).2

/-- One attribute of the node itself (reflector_xml.cpp:321-328). -/
def loadAttr (X : Ctx) (inst : Inst) (a : Text × Text) (o : Obj) : Obj :=
  let n := splitName a.1
  match typeOf inst.cls.tab n.1 with
  | none => o
  | some r =>
    if n.2 = nan then (setMember X.env r a.2 (addr inst r) o).2 else setSubAt X.env inst.base r a.2 n.2 o

/-- `element` for an attribute name (reflector_xml.cpp:353-368). -/
def axisIndex (name : Text) : Nat :=
  match name.head? with
  | some c => if c = 0x78#8 then 0 else if c = 0x79#8 then 1 else if c = 0x7a#8 then 2 else if c = 0x77#8 then 3 else nan
  | none => nan

/-- `DoVector` (reflector_xml.cpp:351-376). -/
def doVector (X : Ctx) (inst : Inst) (r : RType) (index : Nat) (attrs : List (Text × Text)) (o : Obj) : Obj :=
  attrs.foldl (fun o t =>
    if index = nan then setSubAt X.env inst.base r t.2 (axisIndex t.1) o
    else setElemAt X.env inst.base r t.2 index (axisIndex t.1) o) o

/-- `xml_attribute::as_bool`. (Pugixml, called at reflector_xml.cpp:351-376.) -/
def asBool (t : Text) : Bool :=
  match t.head? with
  | some c => c == 0x31#8 || c == 0x74#8 || c == 0x54#8 || c == 0x79#8 || c == 0x59#8
  | none => false

/-- The text put together by `DoFlags` (reflector_xml.cpp:378-392). -/
def flagsText (attrs : List (Text × Text)) : Text :=
  let s := (attrs.map (fun t => if asBool t.2 then t.1 ++ [0x7c#8] else [])).flatten
  if s = [] then tNULL else s.dropLast

/-- `DoFlags` (reflector_xml.cpp:378-399). -/
def doFlags (X : Ctx) (inst : Inst) (r : RType) (index : Nat) (attrs : List (Text × Text)) (o : Obj) : Obj :=
  if index = nan then (setMember X.env r (flagsText attrs) (addr inst r) o).2
  else setSubAt X.env inst.base r (flagsText attrs) index o

/-- One child in `LoadV2` (reflector_xml.cpp:330-427). A child with attributes and an unknown name dereferences the null
pointer `refType`. -/
def loadKid2 (X : Ctx) (ld : Inst → Node → Obj → Option Obj) (inst : Inst) (a : Node) (o : Obj) : Option Obj :=
  let n := splitName a.name
  match lookup inst.cls.tab n.1 with
  | none => if a.attrs = [] then some o else none
  | some i => match inst.cls.tab.types[i]? with
    | none => some o
    | some r =>
      if isSub r then
        match subClass X.reg inst i (if n.2 = nan then 0 else n.2) with
        | none => if a.attrs = [] ∧ a.kids.isEmpty then some o else none
        | some s => ld s a o
      else if a.attrs = [] then some (setMember X.env r a.text (addr inst r) o).2
      else some (match r.type with
        | .EnumFlags => doFlags X inst r n.2 a.attrs o
        | .Vector => doVector X inst r n.2 a.attrs o
        | .Array => match r.subType with
          | .Vector => doVector X inst r n.2 a.attrs o
          | .EnumFlags => doFlags X inst r n.2 a.attrs o
          | _ => o
        | _ => o)

/-- `LoadV2` on a node (reflector_xml.cpp:321-427). -/
def loadNode2 (X : Ctx) : Nat → Inst → Node → Obj → Option Obj
  | 0, _, _, _ => none
  | f + 1, inst, n, o =>
    foldKids (loadKid2 X (loadNode2 X f) inst) n.kids (n.attrs.foldl (fun o a => loadAttr X inst a o) o)

/-- `LoadV2` with `lookupClassNode` (reflector_xml.cpp:276-430). -/
def loadV2 (X : Ctx) (f : Nat) (inst : Inst) (kids : List Node) (o : Obj) : Option Obj :=
  match kids.find? (fun n => nodeHash n.name == inst.cls.hash) with
  | none => some o
  | some n => loadNode2 X f inst n o

end PreCore.ReflXml
