import Verif.Model.CNum
/-!
# Model of the exceptions of datas/pugiex.hpp

A node is its name and the position of the name in the parsed document: pugixml parses in place, so the name is a pointer into the text of the
document. Not covered: nodes without a name or added later, whose name is not in that text (the difference of such pointers is not defined).
-/
namespace PreCore.XmlError
open PreCore.CNum

/-- A text literal. (pugiex.hpp:174-203) -/
def lit (s : String) : List Byte := s.toUTF8.data.toList.map (·.toBitVec)

/-- `XMLBaseException::Generate_` (pugiex.hpp:174-180): `name` at `pos`, the name of the first node of the document at `first`; the difference of the
pointers is converted to `size_t` and 25 is added. -/
def generate (name : List Byte) (pos first : Nat) : List Byte :=
  lit "XML node " ++ name ++ lit " at offset " ++ showNat ((BitVec.ofNat 64 pos - BitVec.ofNat 64 first + 25#64).toNat) ++ lit ": "

/-- `XMLBaseException` (pugiex.hpp:183-184). -/
def baseException (expr name : List Byte) (pos first : Nat) : List Byte := generate name pos first ++ expr
/-- `XMLMissingNodeException` (pugiex.hpp:187-192). -/
def missingNode (nodeName name : List Byte) (pos first : Nat) : List Byte := baseException (lit "Missing child " ++ nodeName) name pos first
/-- `XMLMissingNodeAttributeException` (pugiex.hpp:194-199). -/
def missingAttribute (attrName name : List Byte) (pos first : Nat) : List Byte := baseException (lit "Missing attribute " ++ attrName) name pos first
/-- `XMLEmptyData` (pugiex.hpp:201-204). -/
def emptyData (name : List Byte) (pos first : Nat) : List Byte := baseException (lit "Missing data") name pos first

end PreCore.XmlError
