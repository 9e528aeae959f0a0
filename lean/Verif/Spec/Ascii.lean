/-!
# Words of the English properties as bytes
-/
namespace PreCore.Spec

/-- The bytes of an ASCII text. -/
def ascii (t : String) : List (BitVec 8) := t.toList.map (fun c => BitVec.ofNat 8 c.toNat)

end PreCore.Spec
