import Verif.Model.ReflXml
import Verif.Model.Flags
/-!
# Model of datas/pugiex.hpp and of datas/python/reflected_enum.hpp
-/
namespace PreCore.Pugiex
open PreCore.Refl PreCore.ReflXml

/-- `XMLError` (pugiex.hpp:29-71): the names in order; the enumerators have no values of their own, so they count from 0. -/
def xmlErrors : List String :=
  ["status_ok", "status_file_not_found", "status_io_error", "status_out_of_memory", "status_internal_error", "status_unrecognized_tag",
   "status_bad_pi", "status_bad_comment", "status_bad_cdata", "status_bad_doctype", "status_bad_pcdata", "status_bad_start_element",
   "status_bad_attribute", "status_bad_end_element", "status_end_element_mismatch", "status_append_invalid_root",
   "status_no_document_element"]

/-- `XMLParseFlag` (pugiex.hpp:73-120). -/
inductive ParseFlag
  | PI | Comments | CDATA | WhiteSpacePCDATA | Escapes | EOL | WConvAttribute | WNormAttribute | Declaration | DocType
  | WhiteSpavePCDATASingle | TrimPCDATA | Fragment | EmbedPCDATA
deriving DecidableEq, Repr

/-- The value of an enumerator. (pugiex.hpp:29-71) -/
def ParseFlag.index : ParseFlag → Nat
  | .PI => 0 | .Comments => 1 | .CDATA => 2 | .WhiteSpacePCDATA => 3 | .Escapes => 4 | .EOL => 5 | .WConvAttribute => 6
  | .WNormAttribute => 7 | .Declaration => 8 | .DocType => 9 | .WhiteSpavePCDATASingle => 10 | .TrimPCDATA => 11 | .Fragment => 12
  | .EmbedPCDATA => 13

/-- `XMLFormatFlag` (pugiex.hpp:142-166). -/
inductive FormatFlag
  | Indent | WriteBOM | Raw | NoDeclaration | NoEscapes | SaveFileText | IndentAttributes | NoEmptyElementTaggs | SkipControlChars
deriving DecidableEq, Repr

/-- The value of an enumerator (pugiex.hpp:73-120). -/
def FormatFlag.index : FormatFlag → Nat
  | .Indent => 0 | .WriteBOM => 1 | .Raw => 2 | .NoDeclaration => 3 | .NoEscapes => 4 | .SaveFileText => 5 | .IndentAttributes => 6
  | .NoEmptyElementTaggs => 7 | .SkipControlChars => 8

/-- `static_cast<uint32>(XMLParseFlags(flags...))` (pugiex.hpp:122, 228; flags.hpp:32-40). -/
def parseOptions (l : List ParseFlag) : BitVec 32 := Flags.unpack 0#32 (l.map ParseFlag.index)
/-- `static_cast<uint32>(XMLFormatFlags(flags...))` (pugiex.hpp:168, 258). -/
def formatOptions (l : List FormatFlag) : BitVec 32 := Flags.unpack 0#32 (l.map FormatFlag.index)

/-- `XMLDefaultParseFlags` (pugiex.hpp:124-127). -/
def defaultParse : BitVec 32 := parseOptions [.CDATA, .Escapes, .WConvAttribute, .EOL]
/-- `XMLDefaultFormatFlags` (pugiex.hpp:170). -/
def defaultFormat : BitVec 32 := formatOptions [.Indent]

/-- `XMLEncoding` (pugiex.hpp:129-140): its enumerators by value. -/
def encodings : List String := ["Auto", "UTF8", "UTF16_LE", "UTF16_BE", "UFT16", "UTF32_LE", "UTF32_be", "UTF32", "Wchar", "Latin1"]

/-- How `XMLFromFile` ends. (pugiex.hpp:218-246) -/
inductive FromFile
  | document
  | fileNotFound
  | invalidHeader
  /-- `std::runtime_error` with the name of the error. -/
  | error (name : String)
  /-- Access behind the end of the names. -/
  | ub
deriving DecidableEq, Repr

/-- `XMLFromFile` (pugiex.hpp:218-246) by the status pugixml reports. -/
def fromFile (status : Nat) : FromFile :=
  if status = 0 then .document
  else if status = 1 then .fileNotFound
  else if status = 16 then .invalidHeader
  else match xmlErrors[status]? with
    | some n => .error n
    | none => .ub

/-- `XMLCollectChildren` (pugiex.hpp:206-216). -/
def collectChildren (node : Node) (childName : Text) : List Node :=
  node.kids.foldl (fun acc k => if childName = [] ∨ k.name = childName then acc ++ [k] else acc) []

/-! ## datas/python/reflected_enum.hpp -/

/-- Outcomes of the accessors. (reflected_enum.hpp:86-110) -/
inductive EnumPy (α : Type)
  | value (a : α)
  /-- Null without an exception. -/
  | nullNoError
  /-- Access behind the end of the names. -/
  | ub
deriving DecidableEq, Repr

/-- `Len` (reflected_enum.hpp:76). -/
def pyLen (t : EnumTab) : Nat := t.length

/-- `Subscript` (reflected_enum.hpp:86-98): the index as `size_t`; `operator[]` of `std::vector` is not checked. -/
def pySubscript (t : EnumTab) (index : BitVec 64) : EnumPy Text :=
  match t[index.toNat]? with
  | some e => .value e.1
  | none => .ub

/-- `GetAttribute` (reflected_enum.hpp:100-110): the first item of that name, `PyInt_FromSize_t` of its value. -/
def pyAttribute (t : EnumTab) (name : Text) : EnumPy Nat :=
  match t.find? (fun e => e.1 == name) with
  | some e => .value e.2.toNat
  | none => .nullNoError

end PreCore.Pugiex
