import Verif.Model.ReflIO
/-!
# Specification for the database of descriptions (C47)

Which databases are meant to survive a round trip, in terms of the objects a user holds.
-/
namespace PreCore.ReflIO
open PreCore

/-- A C string has no NUL inside. -/
def NoNul (t : Text) : Prop := 0#8 ∉ t

/-- A class description as the library builds it: every member has a 16 byte type, the optional tables have one entry per member and
their C strings have no NUL inside. -/
structure WFClass (c : Cls) : Prop where
  types : ∀ t ∈ c.types, t.length = 16
  names : ∀ ns, c.names = some ns → ns.length = c.types.length ∧ ∀ t ∈ ns, NoNul t
  className : ∀ t, c.className = some t → NoNul t
  aliases : ∀ as, c.aliases = some as → as.length = c.types.length ∧ ∀ t, some t ∈ as → NoNul t
  descs : ∀ ds, c.descs = some ds → ds.length = c.types.length

/-- An enum description: its C strings have no NUL inside. -/
structure WFEnum (e : Enm) : Prop where
  items : ∀ i ∈ e.items, NoNul i.1
  name : NoNul e.name

structure WF (db : DB) : Prop where
  classes : ∀ c ∈ db.classes, WFClass c
  enums : ∀ e ∈ db.enums, WFEnum e

/-- What is left of a class when its alias hashes are forgotten. -/
def forget (c : Cls) : Cls := { c with aliasHashes := none }

end PreCore.ReflIO
