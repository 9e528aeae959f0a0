import Verif.Model.ReflXml
/-!
# What a reflected object consists of

Independent of how members are printed, parsed or named: a location is one bit of memory or one `std::string`, and the
members of an instance are sets of locations.
-/
namespace PreCore.ReflXml
open Refl ReflBin

/-- One bit of the object's memory, or one `std::string` (by its address). -/
inductive Loc | bit (k : Nat) | str (a : Nat)

/-- Content of a location. -/
def content (o : Obj) : Loc → Bool × Text
  | .bit k => ((o.mem (k / 8)).getLsbD (k % 8), [])
  | .str a => (false, o.strs a)

/-- The locations of a member that is not a class, lying at address `a`: its bits, or its strings. -/
def leaf (r : RType) (a : Nat) : Loc → Prop
  | .bit k =>
    match r.type with
    | .BitFieldMember => 8 * a + r.offset.toNat ≤ k ∧ k < 8 * a + r.offset.toNat + r.subSize.toNat
    | .Bool => 8 * a ≤ k ∧ k < 8 * (a + 1)
    | .Integer | .UnsignedInteger | .FloatingPoint | .Enum | .EnumFlags => 8 * a ≤ k ∧ k < 8 * (a + r.subSize.toNat)
    | .Array | .Vector | .ArrayClass => r.subType ≠ .String ∧ 8 * a ≤ k ∧ k < 8 * (a + r.subSize.toNat * r.numItems.toNat)
    | _ => False
  | .str x =>
    match r.type with
    | .String => x = a
    | .Array | .Vector | .ArrayClass => r.subType = .String ∧ ∃ i < r.numItems.toNat, x = a + r.subSize.toNat * i
    | _ => False

/-- Number of instances a class member holds. -/
def count (r : RType) : Nat := if isArray r then r.numItems.toNat else 1

/-- The locations of all members of an instance, through all nested classes. -/
inductive Within (reg : Registry) : Inst → Loc → Prop
  | leaf {inst : Inst} {i : Nat} {r : RType} {l : Loc} (h : inst.cls.tab.types[i]? = some r) (hs : isSub r = false) (hl : leaf r (addr inst r) l) : Within reg inst l
  | sub {inst : Inst} {i : Nat} {r : RType} {s : Nat} {sub : Inst} {l : Loc} (h : inst.cls.tab.types[i]? = some r) (hs : isSub r = true) (hc : s < count r)
      (hi : subClass reg inst i s = some sub) (hl : Within reg sub l) : Within reg inst l

/-- After `step`, started in any object, the locations in `S` are as in `o` and all others are as they were. -/
def Restores (step : Obj → Option Obj) (o : Obj) (S : Loc → Prop) : Prop :=
  ∀ o0, ∃ o1, step o0 = some o1 ∧ (∀ l, S l → content o1 l = content o l) ∧ (∀ l, ¬ S l → content o1 l = content o0 l)

/-- `step`, started in any object, changes at most the locations in `S`. -/
def Touches (step : Obj → Option Obj) (S : Loc → Prop) : Prop :=
  ∀ o0 o1, step o0 = some o1 → ∀ l, ¬ S l → content o1 l = content o0 l

/-- A text that an XML parser takes as one piece of character data, unchanged: no markup, no entity, no carriage return, no
NUL, not only white space. -/
def PlainText (t : Text) : Prop :=
  (∀ c ∈ t, c ≠ 0x3c#8 ∧ c ≠ 0x26#8 ∧ c ≠ 0x0d#8 ∧ c ≠ 0#8) ∧ ∃ c ∈ t, c ≠ 0x20#8 ∧ c ≠ 0x09#8 ∧ c ≠ 0x0a#8

/-- What is assumed about pugixml: a plain text becomes one character data node, an empty text nothing. -/
def Parses (frag : Text → List Node) : Prop := frag [] = [] ∧ ∀ t, PlainText t → frag t = [.data t]

/-- Member names are resolved to their member: without names always if the hashes differ; with names if, moreover, the
hash of each name is the registered one and no name looks like `h:...`. -/
def Named (nm : Names) (c : ClassDef) : Prop :=
  (c.tab.types.map (·.valueNameHash)).Nodup ∧
  ∀ cn ns, nm c.hash = some (cn, ns) → ns.length = c.tab.types.length ∧ ∀ (i : Nat) (r : RType) (n : Text), c.tab.types[i]? = some r → ns[i]? = some n →
    Jenkins.jenHash n = r.valueNameHash ∧ n.take 2 ≠ [0x68#8, 0x3a#8]

end PreCore.ReflXml
