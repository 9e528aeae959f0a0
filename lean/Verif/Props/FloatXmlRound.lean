import Verif.Props.FloatPrint
import Verif.Props.ReflXml2Round
/-!
# C61 and C63 with C140: objects of floats and doubles saved as XML and loaded back

The number texts are the real ones of the library (`cEnv`), not a parameter.
-/
namespace PreCore.FloatTextProps
open CNum Refl ReflBin Spec Flt ReflXml

/-- A float or double (`n` is its size) at an address that some text of at most 6 (13) significant digits is read as, without an
error. -/
def ShortAt (o : Obj) (n a : Nat) : Prop :=
  (n = 4 ∧ Short f32 6 (BitVec.ofNat 32 (o.nat a 4))) ∨ (n = 8 ∧ Short f64 13 (BitVec.ofNat 64 (o.nat a 8)))

/-- A member that is such a number, or a non-empty array or vector of them. -/
def ShortMember (o : Obj) (r : RType) (b : Nat) : Prop :=
  (r.type = .FloatingPoint ∧ ShortAt o r.subSize.toNat (b + r.offset.toNat)) ∨
  (IsList r.type ∧ r.subType = .FloatingPoint ∧ 0 < r.numItems.toNat ∧
    ∀ i < r.numItems.toNat, ShortAt o r.subSize.toNat (b + r.offset.toNat + r.subSize.toNat * i))

/-- How many numbers the member has. -/
def numbers (r : RType) : Nat := if r.type = .FloatingPoint then 1 else r.numItems.toNat

/-- Every member of the class is such a number or list. -/
def ShortFloats (o : Obj) (inst : Inst) : Prop := ∀ r ∈ inst.cls.tab.types, ShortMember o r inst.base

theorem shortMember_sub {o : Obj} {r : RType} {b : Nat} (h : ShortMember o r b) : isSub r = false := by
  rcases h with ⟨h, _⟩ | ⟨h, h2, _⟩
  · simp [isSub, isArray, h]
  · rcases h with h | h | h <;> simp [isSub, isArray, h, h2]

theorem shortMember_faithful (enums : BitVec 32 → Option EnumTab) {o : Obj} {r : RType} {b : Nat} (h : ShortMember o r b) :
    Faithful (cEnv enums) o r b := by
  rcases h with ⟨h1, h2⟩ | ⟨h1, h2, h3, h4⟩
  · have := short_faithful enums o r (b + r.offset.toNat) h1 h2
    unfold Faithful
    rw [h1]
    exact this
  · have hl : ListFaithful (cEnv enums) o r b :=
      ⟨h3, (fun h => by rw [h2] at h; cases h), fun i hi => short_faithful enums o { r with type := r.subType } _ h2 (h4 i hi)⟩
    unfold Faithful
    rcases h1 with h | h | h <;> rw [h] <;> simp only [h2, reduceCtorEq, if_false] <;> exact hl

/-- Numbers are equal if their bits are. -/
theorem nat_of_bits (o1 o : Obj) (a n : Nat) (h : ∀ k, 8 * a ≤ k → k < 8 * (a + n) → content o1 (.bit k) = content o (.bit k)) :
    o1.nat a n = o.nat a n := by
  unfold Obj.nat Obj.read
  congr 1
  refine List.map_congr_left (fun i hi => ?_)
  rw [List.mem_range] at hi
  refine BitVec.eq_of_getLsbD_eq (fun j hj => ?_)
  have := h (8 * (a + i) + j) (by omega) (by omega)
  simp only [content, Prod.mk.injEq, and_true] at this
  rwa [show (8 * (a + i) + j) / 8 = a + i by omega, show (8 * (a + i) + j) % 8 = j by omega] at this

theorem shortFloats_savable (X : Ctx) (enums : BitVec 32 → Option EnumTab) (hE : X.env = cEnv enums) (o : Obj) (inst : Inst)
    (hn : Named X.nm inst.cls) (h : ShortFloats o inst) : Savable X o inst := by
  have hsub : ∀ (i : Nat) (r : RType), inst.cls.tab.types[i]? = some r → isSub r = false :=
    fun i r hr => shortMember_sub (h r (List.mem_of_getElem? hr))
  refine .mk hn (fun i r hr _ => ?_) (fun i r s hr hs => ?_) (fun i r s sub hr hs => ?_)
  · rw [hE]; exact shortMember_faithful enums (h r (List.mem_of_getElem? hr))
  · rw [hsub i r hr] at hs; cases hs
  · rw [hsub i r hr] at hs; cases hs

/-- The numbers of a member are among the locations restored. -/
theorem member_restored {reg : Registry} {o o1 : Obj} {inst : Inst} (e : ∀ l, Within reg inst l → content o1 l = content o l)
    {i : Nat} {r : RType} (hi : inst.cls.tab.types[i]? = some r) (hm : ShortMember o r inst.base) (j : Nat) (hj : j < numbers r) :
    o1.nat (inst.base + r.offset.toNat + r.subSize.toNat * j) r.subSize.toNat =
      o.nat (inst.base + r.offset.toNat + r.subSize.toNat * j) r.subSize.toNat := by
  have hs := shortMember_sub hm
  refine nat_of_bits _ _ _ _ (fun k h1 h2 => e _ (.leaf hi hs ?_))
  rcases hm with ⟨ht, _⟩ | ⟨ht, ht2, _⟩
  · simp only [numbers, ht, if_true] at hj
    obtain rfl : j = 0 := by omega
    simp only [leaf, addr, ht, reduceCtorEq, if_false]
    exact ⟨by omega, by omega⟩
  · have hb : r.subSize.toNat * j + r.subSize.toNat ≤ r.subSize.toNat * r.numItems.toNat := by
      rw [← Nat.mul_succ]
      refine Nat.mul_le_mul_left _ ?_
      rcases ht with h | h | h <;> simp only [numbers, h, reduceCtorEq, if_false] at hj <;> omega
    rcases ht with h | h | h <;> simp only [leaf, addr, h, ht2, ne_eq, reduceCtorEq, if_false, not_false_eq_true, true_and] <;>
      exact ⟨by omega, by omega⟩

theorem numbers_restored {reg : Registry} {o o1 : Obj} {inst : Inst} (h : ShortFloats o inst)
    (e : ∀ l, Within reg inst l → content o1 l = content o l) (r : RType) (hr : r ∈ inst.cls.tab.types) (j : Nat) (hj : j < numbers r) :
    o1.nat (inst.base + r.offset.toNat + r.subSize.toNat * j) r.subSize.toNat =
      o.nat (inst.base + r.offset.toNat + r.subSize.toNat * j) r.subSize.toNat := by
  obtain ⟨i, hi⟩ := List.getElem?_of_mem hr
  exact member_restored e hi (h r hr) j hj

/-- **C61, floats.** An object of any number of floats and doubles, and arrays and vectors of them, each number one that some text of at
most 6 (13) digits is read as, is saved behind any other nodes, and loading the document into any other object gives every number the
very bits saved. -/
theorem xml_float_roundtrip (X : Ctx) (enums : BitVec 32 → Option EnumTab) (hE : X.env = cEnv enums) (hX : Parses X.frag) (o : Obj)
    (inst : Inst) (hn : Named X.nm inst.cls) (hc : ClassNamed X.nm inst.cls) (h : ShortFloats o inst) :
    ∃ f0, ∀ f ≥ f0, ∀ kids : List Node, (∀ n ∈ kids, nodeHash n.name ≠ inst.cls.hash) →
      ∃ doc, save X f inst o true kids = some doc ∧ ∀ o0, ∃ o1, load X f inst true doc o0 = some o1 ∧
        ∀ r ∈ inst.cls.tab.types, ∀ j < numbers r,
          o1.nat (inst.base + r.offset.toNat + r.subSize.toNat * j) r.subSize.toNat =
            o.nat (inst.base + r.offset.toNat + r.subSize.toNat * j) r.subSize.toNat := by
  obtain ⟨f0, hf⟩ := xml_roundtrip_partial X hX o inst (shortFloats_savable X enums hE o inst hn h)
  refine ⟨f0, fun f hge kids hk => ?_⟩
  obtain ⟨node, g1, _, g3⟩ := (hf f hge).1 hc kids hk
  refine ⟨_, g1, fun o0 => ?_⟩
  obtain ⟨o1, e1, e2⟩ := g3 o0
  exact ⟨o1, e1, fun r hr j hj => numbers_restored h e2.1 r hr j hj⟩

/-- A member the second format stores as floats: a single number, or a vector of at most four components, as its type says, that lies in
the address space. -/
def Simple2 (r : RType) (b : Nat) : Prop :=
  r.type = .FloatingPoint ∨ (r.type = .Vector ∧ decNum r.typeHash = r.numItems ∧ r.numItems.toNat ≤ 4 ∧ InMem r b)

/-- **C63, floats.** The same for the second XML format, for objects whose members are single floats and doubles and vectors of them. -/
theorem xml2_float_roundtrip (X : Ctx) (enums : BitVec 32 → Option EnumTab) (hE : X.env = cEnv enums) (hX : Parses X.frag) (strAttr : Bool)
    (o : Obj) (inst : Inst) (hn : Named2 X.nm inst.cls) (hc : ClassNamed X.nm inst.cls) (h : ShortFloats o inst)
    (hs : ∀ r ∈ inst.cls.tab.types, Simple2 r inst.base) (kids : List Node) (hk : ∀ n ∈ kids, nodeHash n.name ≠ inst.cls.hash) :
    ∃ f0, ∀ f ≥ f0, ∃ doc, saveV2 X strAttr f inst o kids = some doc ∧ ∀ o0, ∃ o1, loadV2 X f inst doc o0 = some o1 ∧
      ∀ r ∈ inst.cls.tab.types, ∀ j < numbers r,
        o1.nat (inst.base + r.offset.toNat + r.subSize.toNat * j) r.subSize.toNat =
          o.nat (inst.base + r.offset.toNat + r.subSize.toNat * j) r.subSize.toNat := by
  have hsub : ∀ (i : Nat) (r : RType), inst.cls.tab.types[i]? = some r → isSub r = false :=
    fun i r hr => shortMember_sub (h r (List.mem_of_getElem? hr))
  have hsav : Savable2 X strAttr o inst := by
    refine .mk hn (fun i r hr _ => ?_) (fun i r s hr hs => ?_) (fun i r s sub hr hs => ?_)
    · have hm := h r (List.mem_of_getElem? hr)
      have := shortMember_faithful enums hm
      rw [← hE] at this
      unfold Faithful at this
      unfold Faithful2
      rcases hs r (List.mem_of_getElem? hr) with ht | ⟨ht, g1, g2, g3⟩
      · rw [ht] at this ⊢
        exact this
      · rcases hm with ⟨hm, _⟩ | ⟨_, hm, hN, h4⟩
        · rw [ht] at hm; cases hm
        · simp only [ht, hm, reduceCtorEq, if_false] at this ⊢
          refine ⟨this, g1, g2, ?_, g3⟩
          rcases h4 0 hN with ⟨h4, _⟩ | ⟨h4, _⟩ <;> omega
    · rw [hsub i r hr] at hs; cases hs
    · rw [hsub i r hr] at hs; cases hs
  obtain ⟨f0, hf⟩ := xml2_roundtrip_partial X hX strAttr o inst hsav hc kids hk
  refine ⟨f0, fun f hge => ?_⟩
  obtain ⟨node, g1, _, g3⟩ := hf f hge
  refine ⟨_, g1, fun o0 => ?_⟩
  obtain ⟨o1, e1, e2⟩ := g3 o0
  exact ⟨o1, e1, fun r hr j hj => numbers_restored h e2.1 r hr j hj⟩

/-! ## Nested classes -/

/-- An instance and all instances nested in it, as members and as items of lists. -/
inductive Inside (reg : Registry) : Inst → Inst → Prop
  | here (inst : Inst) : Inside reg inst inst
  | sub {inst sub x : Inst} {i : Nat} {r : RType} {s : Nat} (h : inst.cls.tab.types[i]? = some r) (hs : isSub r = true) (hc : s < count r)
      (hi : subClass reg inst i s = some sub) (hx : Inside reg sub x) : Inside reg inst x

/-- Classes nested to any finite depth, all registered and with resolved names, whose other members are short floats and lists of them. -/
inductive ShortTree (X : Ctx) (o : Obj) : Inst → Prop
  | mk {inst : Inst} (hn : Named X.nm inst.cls)
      (hl : ∀ (i : Nat) (r : RType), inst.cls.tab.types[i]? = some r → isSub r = false → ShortMember o r inst.base)
      (hd : ∀ (i : Nat) (r : RType) (s : Nat), inst.cls.tab.types[i]? = some r → isSub r = true → s < count r →
        ∃ sub, subClass X.reg inst i s = some sub)
      (hs : ∀ (i : Nat) (r : RType) (s : Nat) (sub : Inst), inst.cls.tab.types[i]? = some r → isSub r = true → s < count r →
        subClass X.reg inst i s = some sub → ShortTree X o sub) : ShortTree X o inst

theorem shortTree_savable (X : Ctx) (enums : BitVec 32 → Option EnumTab) (hE : X.env = cEnv enums) (o : Obj) (inst : Inst)
    (h : ShortTree X o inst) : Savable X o inst := by
  induction h with
  | mk hn hl hd hs ih =>
    refine .mk hn (fun i r hr hb => ?_) hd ih
    rw [hE]; exact shortMember_faithful enums (hl i r hr hb)

theorem within_inside {reg : Registry} {inst x : Inst} (h : Inside reg inst x) (l : Loc) (hl : Within reg x l) : Within reg inst l := by
  induction h with
  | here => exact hl
  | sub h hs hc hi _ ih => exact .sub h hs hc hi (ih hl)

theorem shortTree_inside {X : Ctx} {o : Obj} {inst x : Inst} (h : Inside X.reg inst x) (ht : ShortTree X o inst) : ShortTree X o x := by
  induction h with
  | here => exact ht
  | sub h hs hc hi _ ih =>
    cases ht with
    | mk hn hl hd hs' => exact ih (hs' _ _ _ _ h hs hc hi)

/-- **C61, floats in nested classes.** Saved and loaded into any other object, every float and double of the instance and of all
instances nested in it, at any depth, has the very bits saved, when each is one that some text of at most 6 (13) digits is read as. -/
theorem xml_float_tree_roundtrip (X : Ctx) (enums : BitVec 32 → Option EnumTab) (hE : X.env = cEnv enums) (hX : Parses X.frag) (o : Obj)
    (inst : Inst) (hc : ClassNamed X.nm inst.cls) (h : ShortTree X o inst) :
    ∃ f0, ∀ f ≥ f0, ∀ kids : List Node, (∀ n ∈ kids, nodeHash n.name ≠ inst.cls.hash) →
      ∃ doc, save X f inst o true kids = some doc ∧ ∀ o0, ∃ o1, load X f inst true doc o0 = some o1 ∧
        ∀ x, Inside X.reg inst x → ∀ r ∈ x.cls.tab.types, isSub r = false → ∀ j < numbers r,
          o1.nat (x.base + r.offset.toNat + r.subSize.toNat * j) r.subSize.toNat =
            o.nat (x.base + r.offset.toNat + r.subSize.toNat * j) r.subSize.toNat := by
  obtain ⟨f0, hf⟩ := xml_roundtrip_partial X hX o inst (shortTree_savable X enums hE o inst h)
  refine ⟨f0, fun f hge kids hk => ?_⟩
  obtain ⟨node, g1, _, g3⟩ := (hf f hge).1 hc kids hk
  refine ⟨_, g1, fun o0 => ?_⟩
  obtain ⟨o1, e1, e2⟩ := g3 o0
  refine ⟨o1, e1, fun x hx r hr hb j hj => ?_⟩
  obtain ⟨i, hi⟩ := List.getElem?_of_mem hr
  have hm : ShortMember o r x.base := by
    cases shortTree_inside hx h with
    | mk _ hl _ _ => exact hl i r hi hb
  exact member_restored (reg := X.reg) (fun l hl => e2.1 l (within_inside hx l hl)) hi hm j hj

/-! ## A float that is changed, end to end -/

/-- A program with `cEnv` and no names. -/
def fxCtx : Ctx := ⟨cEnv fun _ => none, fun _ => none, fun _ => none, fun t => if t = [] then [] else [.data t]⟩
/-- A class of one float and one double. -/
def fxClass : ClassDef := ⟨0x77#32, exFloats⟩

theorem fxCtx_parses : Parses fxCtx.frag := by
  refine ⟨rfl, fun t ht => ?_⟩
  obtain ⟨_, c, hc, _⟩ := ht
  have : t ≠ [] := by rintro rfl; cases hc
  simp [fxCtx, this]

/-- **C61, violated.** The float next to the one nearest to 0.1 is saved and loaded as the one nearest to 0.1: the loaded object differs
from the saved one, and nothing reports it. -/
theorem xml_float_lossy_violated :
    ∃ doc, save fxCtx 5 ⟨fxClass, 0⟩ (objOf 0x3dccccce) true [] = some doc ∧
      (load fxCtx 5 ⟨fxClass, 0⟩ true doc exZero).map (fun o => o.nat 0 4) = some 0x3dcccccd := by
  have h : ((save fxCtx 5 ⟨fxClass, 0⟩ (objOf 0x3dccccce) true []).bind (fun doc =>
      (load fxCtx 5 ⟨fxClass, 0⟩ true doc exZero).map (fun o => o.nat 0 4))) = some 0x3dcccccd := by decide +kernel
  cases hs : save fxCtx 5 ⟨fxClass, 0⟩ (objOf 0x3dccccce) true [] with
  | none => rw [hs] at h; cases h
  | some doc => rw [hs] at h; exact ⟨doc, rfl, h⟩

/-! ## Concrete cases: 0.1 as a float, a double that is zero, a vector of two floats that are 0.1 -/

theorem short_tenth : Short f32 6 0x3dcccccd#32 :=
  ⟨tTenth, false, _, tTenth_decimal, ⟨1, -1, by decide, by norm_num⟩, by decide +kernel⟩

example : Parses fxCtx.frag ∧ Named fxCtx.nm fxClass ∧ Named2 fxCtx.nm fxClass ∧ ClassNamed fxCtx.nm fxClass ∧
    ShortFloats (objOf 0x3dcccccd) ⟨fxClass, 0⟩ ∧ ∀ r ∈ fxClass.tab.types, Simple2 r 0 := by
  have hn : Named fxCtx.nm fxClass := ⟨by decide +kernel, fun _ _ h => by cases h⟩
  refine ⟨fxCtx_parses, hn, ⟨hn, (fun _ _ h => by cases h), by decide⟩, (fun _ _ h => by cases h), ?_, fun r hr => .inl ?_⟩
  rotate_left
  · revert r; decide
  intro r hr
  simp only [fxClass, exFloats, List.mem_cons, List.not_mem_nil, or_false] at hr
  rcases hr with rfl | rfl
  · exact .inl ⟨rfl, .inl ⟨rfl, short_tenth⟩⟩
  · exact .inl ⟨rfl, .inr ⟨rfl, [0x30#8], false, 0, number_decimal (zero_number false), ⟨0, 0, by decide, by simp⟩, by decide +kernel⟩⟩

/-- A class of one vector of two floats. -/
def fxVector : ClassDef := ⟨0x78#32, ⟨[⟨.Vector, .FloatingPoint, 4, 0, 2, 0, 1, 0x00020403⟩], none⟩⟩

example : Named fxCtx.nm fxVector ∧ Named2 fxCtx.nm fxVector ∧ ClassNamed fxCtx.nm fxVector ∧
    ShortFloats (objOf 0x3dcccccd3dcccccd) ⟨fxVector, 0⟩ ∧ ∀ r ∈ fxVector.tab.types, Simple2 r 0 := by
  have hn : Named fxCtx.nm fxVector := ⟨by decide +kernel, fun _ _ h => by cases h⟩
  refine ⟨hn, ⟨hn, (fun _ _ h => by cases h), by decide⟩, (fun _ _ h => by cases h), ?_, fun r hr => .inr ?_⟩
  rotate_left
  · revert r; unfold InMem; decide
  intro r hr
  simp only [fxVector, List.mem_cons, List.not_mem_nil, or_false] at hr
  subst hr
  refine .inr ⟨.inr (.inl rfl), rfl, by decide, fun i hi => .inl ⟨rfl, ?_⟩⟩
  have hi : i < 2 := hi
  match i with
  | 0 => exact short_tenth
  | 1 => exact short_tenth
  | i + 2 => omega

/-- A class of two items of `fxVector` in a list, in a program that has `fxVector` registered. -/
def fxNested : ClassDef := ⟨0x79#32, ⟨[⟨.Array, .Class, 8, 0, 2, 0, 1, 0x78⟩], none⟩⟩
def fxCtx2 : Ctx := { fxCtx with reg := fun h => if h = 0x78#32 then some fxVector else none }

example : ShortTree fxCtx2 (objOf 0x3dcccccd3dcccccd3dcccccd3dcccccd) ⟨fxNested, 0⟩ := by
  have hsub : ∀ s < 2, subClass fxCtx2.reg ⟨fxNested, 0⟩ 0 s = some ⟨fxVector, 0 + 0 + s * 8⟩ := by
    intro s hs
    match s with
    | 0 => rfl
    | 1 => rfl
    | s + 2 => omega
  refine .mk ⟨by decide +kernel, fun _ _ h => by cases h⟩ ?_ ?_ ?_
  · intro i r hr hs
    match i with
    | 0 => cases hr; cases hs
    | i + 1 => cases hr
  · intro i r s hr hs hc
    match i with
    | 0 => cases hr; exact ⟨_, hsub s hc⟩
    | i + 1 => cases hr
  · intro i r s sub hr hs hc he
    match i with
    | i + 1 => cases hr
    | 0 =>
      cases hr
      have hc : s < 2 := hc
      rw [hsub s hc] at he
      cases he
      have hn : Named fxCtx2.nm fxVector := ⟨by decide +kernel, fun _ _ h => by cases h⟩
      refine .mk hn ?_ ?_ ?_
      · intro i r hr _
        match i with
        | i + 1 => cases hr
        | 0 =>
          cases hr
          refine .inr ⟨.inr (.inl rfl), rfl, by decide, fun j hj => .inl ⟨rfl, ?_⟩⟩
          have hj : j < 2 := hj
          match s, j with
          | 0, 0 => exact short_tenth
          | 0, 1 => exact short_tenth
          | 1, 0 => exact short_tenth
          | 1, 1 => exact short_tenth
          | s + 2, _ => omega
          | _, j + 2 => omega
      · intro i r s hr hs
        match i with
        | 0 => cases hr; cases hs
        | i + 1 => cases hr
      · intro i r s sub hr hs
        match i with
        | 0 => cases hr; cases hs
        | i + 1 => cases hr

end PreCore.FloatTextProps
