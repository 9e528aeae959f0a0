import Verif.Props.ReflXml2Flags
import Verif.Props.StringView
/-!
# C63: saving with `SaveV2` and loading with `LoadV2`
-/
namespace PreCore.ReflXml
open Refl ReflBin CNum Spec Supercore

/-! ## Nodes that each restore a part -/

/-- Each node restores a part of the object; together they restore `S`. -/
inductive Cover {α : Type} (g : α → Obj → Option Obj) (o : Obj) : List α → (Loc → Prop) → Prop
  | nil {S : Loc → Prop} (h : ∀ l, ¬ S l) : Cover g o [] S
  | cons {a : α} {as : List α} {S T U : Loc → Prop} (h1 : Restores (g a) o S) (h2 : Cover g o as T) (h : ∀ l, U l ↔ (S l ∨ T l)) :
      Cover g o (a :: as) U

theorem Cover.congr {α : Type} {g : α → Obj → Option Obj} {o : Obj} {as : List α} {S T : Loc → Prop} (h : Cover g o as S)
    (he : ∀ l, S l ↔ T l) : Cover g o as T := by
  cases h with
  | nil h => exact .nil (fun l hl => h l ((he l).2 hl))
  | cons h1 h2 h => exact .cons h1 h2 (fun l => (he l).symm.trans (h l))

theorem Cover.append {α : Type} {g : α → Obj → Option Obj} {o : Obj} {as bs : List α} {S T : Loc → Prop} (h : Cover g o as S)
    (h' : Cover g o bs T) : Cover g o (as ++ bs) (fun l => S l ∨ T l) := by
  induction h with
  | nil h => exact h'.congr (fun l => ⟨.inr, fun hl => hl.resolve_left (h l)⟩)
  | cons h1 _ h ih => exact .cons h1 ih (fun l => by rw [h l, or_assoc])

theorem Cover.restores {α : Type} {g : α → Obj → Option Obj} {o : Obj} {as : List α} {S : Loc → Prop} (h : Cover g o as S) :
    Restores (foldKids g as) o S := by
  induction h with
  | nil h => exact (Restores.nothing o).congr (fun l => ⟨False.elim, h l⟩)
  | @cons a as S T U h1 _ h ih =>
    have he : foldKids g (a :: as) = fun o0 => (g a o0).bind (foldKids g as) := by
      funext o0; exact foldKids_cons g a as o0
    rw [he]
    exact (h1.union ih).congr (fun l => (h l).symm)

theorem Cover.one {α : Type} {g : α → Obj → Option Obj} {o : Obj} {a : α} {S : Loc → Prop} (h : Restores (g a) o S) : Cover g o [a] S :=
  .cons h (.nil (S := fun _ => False) (fun _ h => h)) (fun l => ⟨.inl, fun hl => hl.resolve_right id⟩)

theorem collect_cover {α : Type} (get : Nat → Option α) (g : α → Obj → Option Obj) (o : Obj) (S : Nat → Loc → Prop) :
    ∀ k i, (∀ j, i ≤ j → j < i + k → ∃ n, get j = some n ∧ Restores (g n) o (S j)) →
      ∃ ns, collect get k i = some ns ∧ Cover g o ns (fun l => ∃ j, i ≤ j ∧ j < i + k ∧ S j l) ∧ ns.length = k := by
  intro k
  induction k with
  | zero =>
    intro i _
    exact ⟨[], rfl, .nil (by rintro l ⟨j, h1, h2, _⟩; omega), rfl⟩
  | succ k ih =>
    intro i h
    obtain ⟨n, hn, hr⟩ := h i (by omega) (by omega)
    obtain ⟨ns, hns, hrs, hlen⟩ := ih (i + 1) (fun j h1 h2 => h j (by omega) (by omega))
    refine ⟨n :: ns, by unfold collect; rw [hn, hns]; rfl, .cons hr hrs (fun l => ?_), by simp [hlen]⟩
    constructor
    · rintro ⟨j, h1, h2, h3⟩
      by_cases hj : j = i
      · left; rw [← hj]; exact h3
      · right; exact ⟨j, by omega, by omega, h3⟩
    · rintro (h | ⟨j, h1, h2, h3⟩)
      · exact ⟨i, by omega, by omega, h⟩
      · exact ⟨j, by omega, by omega, h3⟩

/-! ## Names -/

theorem split_plain {name : Text} (h : 0x2d#8 ∉ name) : splitName name = (nodeHash name, nan) := by
  unfold splitName
  rcases StringView.find_char_partial name 0x2d#8 0 with ⟨r, h1, _, _, h4, _⟩ | ⟨h1, _⟩
  · exact absurd (List.mem_of_getElem? h4) h
  · rw [h1]

theorem split_item {name : Text} (h : 0x2d#8 ∉ name) (h2 : name.take 2 ≠ [0x68#8, 0x3a#8]) (s : Nat) (hs : s < 2 ^ 63) :
    splitName (name ++ 0x2d#8 :: showNat s) = (Jenkins.jenHash name, s) := by
  have hne : showNat s ≠ [] := showNat_ne s
  have hlen : 0 < (showNat s).length := List.length_pos_iff.2 hne
  have hf : StringView.find (name ++ 0x2d#8 :: showNat s) [0x2d#8] 0 = .at name.length := by
    rcases StringView.find_char_partial (name ++ 0x2d#8 :: showNat s) 0x2d#8 0 with ⟨r, h1, _, _, h4, h5⟩ | ⟨_, h2⟩
    · rw [h1]
      congr 1
      by_cases hr : r < name.length
      · rw [List.getElem?_append_left hr] at h4
        exact absurd (List.mem_of_getElem? h4) h
      · by_cases hr2 : r = name.length
        · exact hr2
        · exact absurd (by simp) (h5 name.length (by omega) (by omega))
    · refine absurd ?_ (h2 name.length (by omega) ?_)
      · simp
      · simp only [List.length_append, List.length_cons]; omega
  unfold splitName
  rw [hf]
  simp only
  have ht : (name ++ 0x2d#8 :: showNat s).take 2 ≠ [0x68#8, 0x3a#8] := by
    match name, h2 with
    | [], _ => intro h; simp at h
    | [c], _ => intro h; simp at h
    | c :: d :: cs, h2 => simpa using h2
  have hd : (name ++ 0x2d#8 :: showNat s).drop (name.length + 1) = showNat s := by
    rw [← List.drop_drop, List.drop_left]
    rfl
  rw [if_neg ht, List.take_left, hd, atoll_show s hs]
  unfold toSize
  congr 1
  omega

theorem hex_nodash (h : BitVec 32) : 0x2d#8 ∉ hexName h := by
  unfold hexName
  intro hm
  simp only [List.mem_cons] at hm
  rcases hm with h | h | hm
  · simp at h
  · simp at h
  · obtain ⟨ds, h1, h1'⟩ := showHex_digits h.toNat
    clear h1'
    generalize showHex h.toNat = x at h1 hm
    induction h1 with
    | nil => cases hm
    | cons hd _ ih =>
      rcases List.mem_cons.1 hm with hm | hm
      · subst hm
        obtain ⟨_, hd⟩ := hd
        simp at hd
        omega
      · exact ih hm

/-- Names as in `Named`; none contains `-`; lists need names. -/
def Named2 (nm : Names) (c : ClassDef) : Prop :=
  Named nm c ∧ (∀ cn ns, nm c.hash = some (cn, ns) → ∀ n ∈ ns, 0x2d#8 ∉ n) ∧
  (nm c.hash = none → ∀ r ∈ c.tab.types, isArray r = false)

theorem lookup_hash {nm : Names} {c : ClassDef} (h : Named nm c) {i : Nat} {r : RType} (hr : c.tab.types[i]? = some r) :
    lookup c.tab r.valueNameHash = some i := by
  unfold lookup
  rw [findHash_first _ 0 i r h.1 hr]
  simp

theorem typeOf_hash {nm : Names} {c : ClassDef} (h : Named nm c) {i : Nat} {r : RType} (hr : c.tab.types[i]? = some r) :
    typeOf c.tab r.valueNameHash = some r := by
  unfold typeOf
  rw [lookup_hash h hr]
  exact hr

theorem named2_member {nm : Names} {c : ClassDef} (h : Named2 nm c) {i : Nat} {r : RType} (hr : c.tab.types[i]? = some r) :
    splitName (memberName nm c i r) = (r.valueNameHash, nan) := by
  unfold memberName
  cases hc : nm c.hash with
  | none => rw [split_plain (hex_nodash _), nodeHash_hex]
  | some p =>
    obtain ⟨cn, ns⟩ := p
    obtain ⟨h1, h2⟩ := h.1.2 cn ns hc
    have hi : i < ns.length := by rw [h1]; exact (List.getElem?_eq_some_iff.mp hr).1
    obtain ⟨g1, g2⟩ := h2 i r ns[i] hr (List.getElem?_eq_getElem hi)
    simp only
    rw [List.getD_eq_getElem?_getD, List.getElem?_eq_getElem hi, Option.getD_some,
      split_plain (h.2.1 cn ns hc _ (List.getElem_mem hi))]
    unfold nodeHash
    rw [if_neg g2, g1]

theorem named2_item {nm : Names} {c : ClassDef} (h : Named2 nm c) {i : Nat} {r : RType} (hr : c.tab.types[i]? = some r)
    (ha : isArray r = true) (s : Nat) (hs : s < r.numItems.toNat) :
    splitName (nodeName nm c (memberName nm c i r) s) = (r.valueNameHash, s) := by
  unfold nodeName memberName
  cases hc : nm c.hash with
  | none =>
    have := h.2.2 hc r (List.mem_of_getElem? hr)
    rw [ha] at this; cases this
  | some p =>
    obtain ⟨cn, ns⟩ := p
    obtain ⟨h1, h2⟩ := h.1.2 cn ns hc
    have hi : i < ns.length := by rw [h1]; exact (List.getElem?_eq_some_iff.mp hr).1
    obtain ⟨g1, g2⟩ := h2 i r ns[i] hr (List.getElem?_eq_getElem hi)
    simp only
    rw [List.getD_eq_getElem?_getD, List.getElem?_eq_getElem hi, Option.getD_some,
      split_item (h.2.1 cn ns hc _ (List.getElem_mem hi)) g2 s (by have := r.numItems.isLt; omega), g1]

/-! ## Values -/

/-- The member lies inside the address space. -/
def InMem (r : RType) (b : Nat) : Prop := b + r.offset.toNat + r.subSize.toNat * r.numItems.toNat ≤ 2 ^ 64

/-- Lists that `SaveV2` writes and `LoadV2` reads back: vectors (no more components than the component has bytes), flags of a
registered enumeration, strings without commas, brackets and markup, or items as in `ListFaithful`. -/
def ListFaithful2 (env : Env) (o : Obj) (r : RType) (b : Nat) : Prop :=
  0 < r.numItems.toNat ∧ 0 < r.subSize.toNat ∧ InMem r b ∧
  (r.subType = .Vector → r.type = .Array ∧ 0 < (decNum r.typeHash).toNat ∧ (decNum r.typeHash).toNat ≤ 4 ∧
    (decNum r.typeHash).toNat ≤ (decSize r.typeHash).toNat ∧
    (decSize r.typeHash).toNat * (decNum r.typeHash).toNat = r.subSize.toNat ∧
    (decType r.typeHash = .Bool → decSize r.typeHash = 1#8) ∧
    ∀ i < r.numItems.toNat, ∀ j < (decNum r.typeHash).toNat,
      ScalarFaithful env o { r with type := decType r.typeHash, subSize := decSize r.typeHash }
        (b + r.offset.toNat + r.subSize.toNat * i + (decSize r.typeHash).toNat * j)) ∧
  (r.subType = .EnumFlags → r.type = .Array ∧ ∃ tab, tab ≠ [] ∧ ∀ i < r.numItems.toNat,
    FlagsFaithful env o { r with type := .EnumFlags } (b + r.offset.toNat + r.subSize.toNat * i) tab) ∧
  (r.subType = .String → ∀ i < r.numItems.toNat, Clean (o.strs (b + r.offset.toNat + r.subSize.toNat * i))) ∧
  (r.subType ≠ .Vector → r.subType ≠ .EnumFlags → r.subType ≠ .String → ListFaithful env o r b)

/-- Values that `SaveV2` writes and `LoadV2` reads back: as `Faithful`, with flags below 31 of a registered enumeration,
vectors of at most four components, lists as in `ListFaithful2`. -/
def Faithful2 (env : Env) (strAttr : Bool) (o : Obj) (r : RType) (b : Nat) : Prop :=
  match r.type with
  | .BitFieldMember => Faithful env o r b
  | .String =>
    if strAttr then 0#8 ∉ o.strs (b + r.offset.toNat) ∧ ∀ c, (o.strs (b + r.offset.toNat)).head? = some c → ¬ IsBlank false c
    else Faithful env o r b
  | .EnumFlags => ∃ tab, tab ≠ [] ∧ FlagsFaithful env o r (b + r.offset.toNat) tab
  | .Vector => ListFaithful env o r b ∧ decNum r.typeHash = r.numItems ∧ r.numItems.toNat ≤ 4 ∧ 0 < r.subSize.toNat ∧ InMem r b
  | .Array | .ArrayClass => ListFaithful2 env o r b
  | _ => ScalarFaithful env o r (b + r.offset.toNat)

theorem cstr_id {t : Text} (h : 0#8 ∉ t) : cstr t = t := by
  unfold cstr
  induction t with
  | nil => rfl
  | cons c cs ih =>
    simp only [List.mem_cons, not_or] at h
    rw [List.takeWhile_cons_of_pos (by simpa using fun h' => h.1 h'.symm), ih h.2]

theorem Clean.cstr {t : Text} (h : Clean t) : cstr t = t := cstr_id (fun hm => (h.1 _ hm).2.2.2.2.2.2 rfl)

/-- Loading one attribute. -/
def la (X : Ctx) (inst : Inst) : Text × Text → Obj → Option Obj := fun a o => some (loadAttr X inst a o)

/-- What saving a member that is not a class writes restores it. -/
def Part2Ok (X : Ctx) (strAttr : Bool) (o : Obj) (inst : Inst) (i : Nat) (r : RType) : Prop :=
  ∃ as ks, (∀ sv, saveMember2 X strAttr sv o inst i r = some (as, ks)) ∧ ∃ S1 S2, Cover (la X inst) o as S1 ∧
    (∀ ld, Cover (loadKid2 X ld inst) o ks S2) ∧ ∀ l, leaf r (addr inst r) l ↔ (S1 l ∨ S2 l)

theorem la_member {X : Ctx} {inst : Inst} {i : Nat} {r : RType} (hn : Named2 X.nm inst.cls) (hr : inst.cls.tab.types[i]? = some r) (t : Text) :
    la X inst (memberName X.nm inst.cls i r, t) = fun o0 => some (setMember X.env r t (addr inst r) o0).2 := by
  funext o0
  unfold la loadAttr
  simp only [named2_member hn hr, typeOf_hash hn.1 hr, if_true]

theorem la_item {X : Ctx} {inst : Inst} {i : Nat} {r : RType} (hn : Named2 X.nm inst.cls) (hr : inst.cls.tab.types[i]? = some r)
    (ha : isArray r = true) (s : Nat) (hs : s < r.numItems.toNat) (t : Text) :
    la X inst (nodeName X.nm inst.cls (memberName X.nm inst.cls i r) s, t) = fun o0 => some (setSubAt X.env inst.base r t s o0) := by
  funext o0
  unfold la loadAttr
  simp only [named2_item hn hr ha s hs, typeOf_hash hn.1 hr]
  rw [if_neg (by have := r.numItems.isLt; unfold nan; omega)]

theorem inMem_elem {r : RType} {b s : Nat} (h : InMem r b) (hs : s < r.numItems.toNat) (hz : 0 < r.subSize.toNat) :
    b + r.offset.toNat + r.subSize.toNat * s < 2 ^ 64 := by
  unfold InMem at h
  have : r.subSize.toNat * (s + 1) ≤ r.subSize.toNat * r.numItems.toNat := Nat.mul_le_mul_left _ hs
  rw [Nat.mul_succ] at this
  omega

theorem setSubAt_eq (env : Env) (b : Nat) (r : RType) (t : Text) (s : Nat) (o : Obj)
    (hl : IsList r.type) (hm : b + r.offset.toNat + r.subSize.toNat * s < 2 ^ 64) :
    setSubAt env b r t s o = (setMember env (elemType r) t (b + r.offset.toNat + r.subSize.toNat * s) o).2 := by
  unfold setSubAt
  rcases hl with h | h | h <;> simp only [h] <;> rw [Nat.mod_eq_of_lt hm]

/-- One attribute. -/
theorem part_attr (X : Ctx) (strAttr : Bool) (o : Obj) (inst : Inst) (i : Nat) (r : RType) (hn : Named2 X.nm inst.cls)
    (hr : inst.cls.tab.types[i]? = some r) (ha : isAttr strAttr r.type = true) (t : Text) (hp : printMember X.env r (addr inst r) o = some t)
    (hc : 0#8 ∉ t) (hres : Restores (fun o0 => some (setMember X.env r t (addr inst r) o0).2) o (leaf r (addr inst r))) :
    Part2Ok X strAttr o inst i r := by
  refine ⟨[(memberName X.nm inst.cls i r, t)], [], fun sv => ?_, leaf r (addr inst r), fun _ => False, .one ?_, fun ld => .nil (fun _ h => h), fun l => ⟨.inl, fun h => h.resolve_right id⟩⟩
  · unfold saveMember2
    simp only [ha, if_true, hp, Option.map_some, cstr_id hc]
  · rw [la_member hn hr]
    exact hres

theorem part_scalar (X : Ctx) (strAttr : Bool) (o : Obj) (inst : Inst) (i : Nat) (r : RType) (hn : Named2 X.nm inst.cls)
    (hr : inst.cls.tab.types[i]? = some r) (ha : isAttr strAttr r.type = true) (hb : r.type ≠ .BitFieldMember)
    (h : ScalarFaithful X.env o r (inst.base + r.offset.toNat)) : Part2Ok X strAttr o inst i r := by
  obtain ⟨t, h1, h2, h3⟩ := scalar_ok X.env o r inst.base h
  have hA : addr inst r = inst.base + r.offset.toNat := by unfold addr; rw [if_neg hb]
  refine part_attr X strAttr o inst i r hn hr ha t (by rw [hA]; exact h1) (fun hm => (h2.1 _ hm).2.2.2.2.2.2 rfl) ?_
  rw [hA]
  exact h3.congr (fun l => leaf_scalar h _ l)

theorem elemType_plain {r : RType} (h : r.subType ≠ .Vector) : elemType r = { r with type := r.subType } := by
  unfold elemType; rw [if_neg h]

/-- Facts about the elements of a faithful list. -/
theorem elem_ok {env : Env} {o : Obj} {r : RType} {b : Nat} (h : ListFaithful env o r b) :
    r.subType ≠ .Vector ∧ IsScalar r.subType ∧ size (elemType r) = r.subSize.toNat ∧
    (r.subType = .Bool ∨ r.subType = .Integer ∨ r.subType = .UnsignedInteger ∨ r.subType = .FloatingPoint ∨ r.subType = .Enum ∨ r.subType = .EnumFlags) ∧
    ∀ i < r.numItems.toNat, ScalarOk env o (elemType r) (b + r.offset.toNat + r.subSize.toNat * i) := by
  obtain ⟨hN, hbool, hall⟩ := h
  obtain ⟨t1, t2, t3⟩ := scalarFaithful_type (hall 0 hN)
  have he := elemType_plain (r := r) t3
  refine ⟨t3, t1, ?_, ?_, fun i hi => ?_⟩
  · rw [he]
    rcases t2 with h | h
    · exact h
    · have h' : r.subType = .Bool := h
      simp [size, h', hbool h']
  · have := hall 0 hN
    unfold ScalarFaithful at this
    revert this
    cases r.subType <;> simp
  · have := hall i hi
    rw [he]
    rw [show b + r.offset.toNat + r.subSize.toNat * i = b + r.subSize.toNat * i + r.offset.toNat by omega] at this ⊢
    exact scalar_ok env o { r with type := r.subType } (b + r.subSize.toNat * i) this

/-- Reading and assigning one element. -/
theorem getSubAt_list (env : Env) (b : Nat) (r : RType) (s : Nat) (o : Obj) (hl : IsList r.type) (hs : s < r.numItems.toNat) :
    getSubAt env b r s o = printMember env (elemType r) (b + r.offset.toNat + r.subSize.toNat * s) o := by
  unfold getSubAt
  rcases hl with h | h | h <;> simp only [h] <;> rw [if_neg (by omega)]

/-- A list whose elements are attributes `name-0`, `name-1`, ... -/
theorem part_items (X : Ctx) (strAttr : Bool) (o : Obj) (inst : Inst) (i : Nat) (r : RType) (hn : Named2 X.nm inst.cls)
    (hr : inst.cls.tab.types[i]? = some r) (ha : isArray r = true) (hz : 0 < r.subSize.toNat) (hm : InMem r inst.base)
    (hf : r.subType ≠ .EnumFlags) (h : ListFaithful X.env o r inst.base) : Part2Ok X strAttr o inst i r := by
  obtain ⟨e1, e2, e3, e4, e5⟩ := elem_ok h
  have hl : IsList r.type := by
    unfold isArray at ha
    simp at ha
    rcases ha with h | h
    · exact .inl h
    · exact .inr (.inr h)
  have hA : addr inst r = inst.base + r.offset.toNat := by
    unfold addr; rw [if_neg]; rcases hl with h | h | h <;> rw [h] <;> simp
  obtain ⟨as, c1, c2, _⟩ := collect_cover
    (fun s => (getSubAt X.env inst.base r s o).map (fun t => (nodeName X.nm inst.cls (memberName X.nm inst.cls i r) s, cstr t)))
    (la X inst) o (fun s => bytes (inst.base + r.offset.toNat + r.subSize.toNat * s) r.subSize.toNat) r.numItems.toNat 0 (by
      intro s _ hs
      have hs : s < r.numItems.toNat := by omega
      obtain ⟨t, t1, t2, t3⟩ := e5 s hs
      refine ⟨_, by rw [getSubAt_list _ _ _ _ _ hl hs, t1]; rfl, ?_⟩
      simp only [t2.cstr]
      rw [la_item hn hr ha s hs]
      have : (fun o0 => some (setSubAt X.env inst.base r t s o0)) =
          fun o0 => some (setMember X.env (elemType r) t (inst.base + r.offset.toNat + r.subSize.toNat * s) o0).2 := by
        funext o0; rw [setSubAt_eq _ _ _ _ _ _ hl (inMem_elem hm hs hz)]
      rw [this]
      rw [e3] at t3
      exact t3)
  have hsub : isSub r = false := by
    unfold isSub
    rcases hl with h' | h' | h' <;> rcases e4 with h | h | h | h | h | h <;> rw [h, h'] <;> simp
  refine ⟨as, [], fun sv => ?_, _, fun _ => False, c2, fun ld => .nil (fun _ h => h), fun l => ?_⟩
  · unfold saveMember2
    have hna : isAttr strAttr r.type = false := by
      rcases hl with h | h | h <;> rw [h] <;> rfl
    have hty : r.type = .Array ∨ r.type = .ArrayClass := by unfold isArray at ha; simpa using ha
    simp only [hna, hsub, ha]
    rcases hty with hty | hty <;> rcases e4 with h | h | h | h | h | h <;>
      first
        | exact absurd h hf
        | (simp only [hty, h, isAttrItem, if_true, Bool.false_eq_true, if_false, c1]; rfl)
  · rw [hA, ← leaf_list hl (listFaithful_sub h), ← bytes_split]
    constructor
    · rintro ⟨s, h1, h2⟩; exact .inl ⟨s, by omega, by omega, h2⟩
    · rintro (⟨s, _, h1, h2⟩ | h)
      · exact ⟨s, by omega, h2⟩
      · exact h.elim

theorem foldKids_total {α : Type} (g : α → Obj → Obj) : ∀ (as : List α) (o : Obj), foldKids (fun a o => some (g a o)) as o = some (as.foldl (fun o a => g a o) o) := by
  intro as
  induction as with
  | nil => intro o; rfl
  | cons a as ih => intro o; rw [foldKids_cons]; exact ih _

theorem axis_cover (get : Nat → Option Text) (set : Text → Nat → Obj → Obj) (o : Obj) (S : Nat → Loc → Prop) (n : Nat) (hn : n ≤ 4)
    (h : ∀ j < n, ∃ t, get j = some t ∧ 0#8 ∉ t ∧ Restores (fun o0 => some (set t j o0)) o (S j)) :
    ∃ as, axisAttrs get n = some as ∧ as.length = n ∧
      Restores (fun o0 => some (as.foldl (fun o t => set t.2 (axisIndex t.1) o) o0)) o (fun l => ∃ j < n, S j l) := by
  obtain ⟨as, h1, h2, h3⟩ := collect_cover
    (fun a => match get a, axis a with
      | some t, some x => some (x, cstr t)
      | _, _ => none)
    (fun (t : Text × Text) o => some (set t.2 (axisIndex t.1) o)) o S n 0 (by
      intro j _ hj
      obtain ⟨t, t1, t2, t3⟩ := h j (by omega)
      have hx : ∃ x, axis j = some x ∧ axisIndex x = j := by
        match j, hj with
        | 0, _ => exact ⟨_, rfl, rfl⟩
        | 1, _ => exact ⟨_, rfl, rfl⟩
        | 2, _ => exact ⟨_, rfl, rfl⟩
        | 3, _ => exact ⟨_, rfl, rfl⟩
        | j + 4, hj => omega
      obtain ⟨x, x1, x2⟩ := hx
      refine ⟨(x, cstr t), by simp only [t1, x1], ?_⟩
      simp only [cstr_id t2, x2]
      exact t3)
  refine ⟨as, h1, h3, ?_⟩
  have := h2.restores
  have he : foldKids (fun (t : Text × Text) o => some (set t.2 (axisIndex t.1) o)) as =
      fun o0 => some (as.foldl (fun o t => set t.2 (axisIndex t.1) o) o0) := by
    funext o0; exact foldKids_total _ as o0
  rw [he] at this
  refine this.congr (fun l => ?_)
  constructor
  · rintro ⟨j, _, h1, h2⟩; exact ⟨j, by omega, h2⟩
  · rintro ⟨j, h1, h2⟩; exact ⟨j, by omega, by omega, h2⟩

/-- A vector: a child with attributes `x`, `y`, `z`, `w`. -/
theorem part_vector (X : Ctx) (strAttr : Bool) (o : Obj) (inst : Inst) (i : Nat) (r : RType) (hn : Named2 X.nm inst.cls)
    (hr : inst.cls.tab.types[i]? = some r) (ht : r.type = .Vector) (hz : 0 < r.subSize.toNat) (hm : InMem r inst.base)
    (hd : decNum r.typeHash = r.numItems) (h4 : r.numItems.toNat ≤ 4) (h : ListFaithful X.env o r inst.base) : Part2Ok X strAttr o inst i r := by
  obtain ⟨e1, e2, e3, e4, e5⟩ := elem_ok h
  have hl : IsList r.type := .inr (.inl ht)
  have hA : addr inst r = inst.base + r.offset.toNat := by
    unfold addr; rw [if_neg]; rw [ht]; simp
  obtain ⟨as, a1, a2, a3⟩ := axis_cover (fun a => getSubAt X.env inst.base r a o) (fun t j o0 => setSubAt X.env inst.base r t j o0) o
    (fun s => bytes (inst.base + r.offset.toNat + r.subSize.toNat * s) r.subSize.toNat) (decNum r.typeHash).toNat (by rw [hd]; exact h4) (by
      intro s hs
      rw [hd] at hs
      obtain ⟨t, t1, t2, t3⟩ := e5 s hs
      refine ⟨t, by rw [getSubAt_list _ _ _ _ _ hl hs, t1], fun hm => (t2.1 _ hm).2.2.2.2.2.2 rfl, ?_⟩
      have : (fun o0 => some (setSubAt X.env inst.base r t s o0)) =
          fun o0 => some (setMember X.env (elemType r) t (inst.base + r.offset.toNat + r.subSize.toNat * s) o0).2 := by
        funext o0; rw [setSubAt_eq _ _ _ _ _ _ hl (inMem_elem hm hs hz)]
      rw [this]
      rw [e3] at t3
      exact t3)
  have hne : as ≠ [] := by
    intro he; rw [he, hd] at a2; have := h.1; simp at a2; omega
  have hsub : isSub r = false := by unfold isSub isArray; rw [ht]; simp
  refine ⟨[], [.elem (memberName X.nm inst.cls i r) as []], fun sv => ?_, fun _ => False, leaf r (addr inst r), .nil (fun _ h => h),
    fun ld => .one ?_, fun l => ⟨.inr, fun h => h.resolve_left id⟩⟩
  · unfold saveMember2
    simp only [ht, isAttr, a1, Bool.false_eq_true, if_false, Option.map_some]
  · have he : loadKid2 X ld inst (.elem (memberName X.nm inst.cls i r) as []) =
        fun o0 => some (as.foldl (fun o t => setSubAt X.env inst.base r t.2 (axisIndex t.1) o) o0) := by
      funext o0
      unfold loadKid2 doVector
      simp only [Node.name, named2_member hn hr, lookup_hash hn.1 hr, hr, hsub, Node.attrs, if_neg hne, ht, if_true]
      rfl
    rw [he, hA]
    refine a3.congr (fun l => ?_)
    rw [← leaf_list hl (listFaithful_sub h), ← bytes_split, hd]

/-- Reading and assigning one component of an element. -/
theorem getElemAt_vec (env : Env) (b : Nat) (r : RType) (s e : Nat) (o : Obj) (ha : isArray r = true) (hv : r.subType = .Vector)
    (hs : s < r.numItems.toNat) (he : e < (decNum r.typeHash).toNat) (hsc : IsScalar (decType r.typeHash)) :
    getElemAt env b r s e o = printMember env { r with type := decType r.typeHash, subSize := decSize r.typeHash }
      (b + r.offset.toNat + r.subSize.toNat * s + (decSize r.typeHash).toNat * e) o := by
  unfold getElemAt
  simp only [ha, Bool.not_true, Bool.false_eq_true, if_false, hv, if_neg (Nat.not_le.2 hs), if_neg (Nat.not_le.2 he)]
  unfold printMember print
  cases h : decType r.typeHash <;> (rw [h] at hsc) <;> first | rfl | exact hsc.elim

theorem setElemAt_vec (env : Env) (b : Nat) (r : RType) (t : Text) (s e : Nat) (o : Obj) (ha : isArray r = true) (hv : r.subType = .Vector)
    (he : e < (decSize r.typeHash).toNat) (hm : b + r.offset.toNat + r.subSize.toNat * s + (decSize r.typeHash).toNat * e < 2 ^ 64) :
    setElemAt env b r t s e o = (setMember env { r with type := decType r.typeHash, subSize := decSize r.typeHash } t
      (b + r.offset.toNat + r.subSize.toNat * s + (decSize r.typeHash).toNat * e) o).2 := by
  unfold setElemAt
  simp only [ha, Bool.not_true, Bool.false_eq_true, if_false, hv, ne_eq, not_true, if_neg (Nat.not_le.2 he), ge_iff_le]
  rw [Nat.mod_eq_of_lt hm]

/-- A list of vectors: children `name-0`, `name-1`, ... with attributes `x`, `y`, `z`, `w`. -/
theorem part_vectors (X : Ctx) (strAttr : Bool) (o : Obj) (inst : Inst) (i : Nat) (r : RType) (hn : Named2 X.nm inst.cls)
    (hr : inst.cls.tab.types[i]? = some r) (ht : r.type = .Array) (hv : r.subType = .Vector) (hm : InMem r inst.base)
    (hd0 : 0 < (decNum r.typeHash).toNat) (h4 : (decNum r.typeHash).toNat ≤ 4) (hds : (decNum r.typeHash).toNat ≤ (decSize r.typeHash).toNat)
    (hsz : (decSize r.typeHash).toNat * (decNum r.typeHash).toNat = r.subSize.toNat) (hb : decType r.typeHash = .Bool → decSize r.typeHash = 1#8)
    (h : ∀ i < r.numItems.toNat, ∀ j < (decNum r.typeHash).toNat,
          ScalarFaithful X.env o { r with type := decType r.typeHash, subSize := decSize r.typeHash }
            (inst.base + r.offset.toNat + r.subSize.toNat * i + (decSize r.typeHash).toNat * j)) : Part2Ok X strAttr o inst i r := by
  have ha : isArray r = true := by unfold isArray; rw [ht]; rfl
  have hl : IsList r.type := .inl ht
  have hA : addr inst r = inst.base + r.offset.toNat := by
    unfold addr; rw [if_neg]; rw [ht]; simp
  have hsub : isSub r = false := by unfold isSub isArray; rw [ht, hv]; simp
  have item : ∀ s < r.numItems.toNat, ∃ as, axisAttrs (fun a => getElemAt X.env inst.base r s a o) (decNum r.typeHash).toNat = some as ∧ as ≠ [] ∧
      Restores (fun o0 => some (as.foldl (fun o t => setElemAt X.env inst.base r t.2 s (axisIndex t.1) o) o0)) o
        (bytes (inst.base + r.offset.toNat + r.subSize.toNat * s) r.subSize.toNat) := by
    intro s hs
    obtain ⟨q1, q2, _⟩ := scalarFaithful_type (h s hs 0 hd0)
    have hsize : size { r with type := decType r.typeHash, subSize := decSize r.typeHash } = (decSize r.typeHash).toNat := by
      rcases q2 with h | h
      · exact h
      · have h' : decType r.typeHash = .Bool := h
        simp [size, h', hb h']
    obtain ⟨as, a1, a2, a3⟩ := axis_cover (fun a => getElemAt X.env inst.base r s a o) (fun t j o0 => setElemAt X.env inst.base r t s j o0) o
      (fun j => bytes (inst.base + r.offset.toNat + r.subSize.toNat * s + (decSize r.typeHash).toNat * j) (decSize r.typeHash).toNat)
      (decNum r.typeHash).toNat h4 (by
        intro j hj
        have hf := h s hs j hj
        have hadd : inst.base + r.offset.toNat + r.subSize.toNat * s + (decSize r.typeHash).toNat * j =
          (inst.base + r.subSize.toNat * s + (decSize r.typeHash).toNat * j) + r.offset.toNat := by omega
        rw [hadd] at hf
        obtain ⟨t, t1, t2, t3⟩ := scalar_ok X.env o { r with type := decType r.typeHash, subSize := decSize r.typeHash } _ hf
        rw [show RType.offset { r with type := decType r.typeHash, subSize := decSize r.typeHash } = r.offset from rfl, ← hadd] at t1 t3
        refine ⟨t, by rw [getElemAt_vec _ _ _ _ _ _ ha hv hs hj q1]; exact t1, fun hm => (t2.1 _ hm).2.2.2.2.2.2 rfl, ?_⟩
        have hmem : inst.base + r.offset.toNat + r.subSize.toNat * s + (decSize r.typeHash).toNat * j < 2 ^ 64 := by
          have h1 : r.subSize.toNat * (s + 1) ≤ r.subSize.toNat * r.numItems.toNat := Nat.mul_le_mul_left _ hs
          have h2 : (decSize r.typeHash).toNat * (j + 1) ≤ (decSize r.typeHash).toNat * (decNum r.typeHash).toNat := Nat.mul_le_mul_left _ hj
          rw [Nat.mul_succ] at h1 h2
          unfold InMem at hm
          have : 0 < (decSize r.typeHash).toNat := by omega
          omega
        have he : (fun o0 => some (setElemAt X.env inst.base r t s j o0)) =
            fun o0 => some (setMember X.env { r with type := decType r.typeHash, subSize := decSize r.typeHash } t
              (inst.base + r.offset.toNat + r.subSize.toNat * s + (decSize r.typeHash).toNat * j) o0).2 := by
          funext o0; rw [setElemAt_vec _ _ _ _ _ _ _ ha hv (by omega) hmem]
        rw [he]
        rw [hsize] at t3
        exact t3)
    refine ⟨as, a1, fun he => by rw [he] at a2; simp at a2; omega, a3.congr (fun l => ?_)⟩
    rw [bytes_split, hsz]
  have key : ∀ ld, ∃ ks, collect (fun s => (axisAttrs (fun a => getElemAt X.env inst.base r s a o) (decNum r.typeHash).toNat).map
      (fun as => Node.elem (nodeName X.nm inst.cls (memberName X.nm inst.cls i r) s) as [])) r.numItems.toNat 0 = some ks ∧
      Cover (loadKid2 X ld inst) o ks (leaf r (addr inst r)) := by
    intro ld
    obtain ⟨ks, c1, c2, _⟩ := collect_cover
      (fun s => (axisAttrs (fun a => getElemAt X.env inst.base r s a o) (decNum r.typeHash).toNat).map
        (fun as => Node.elem (nodeName X.nm inst.cls (memberName X.nm inst.cls i r) s) as []))
      (loadKid2 X ld inst) o (fun s => bytes (inst.base + r.offset.toNat + r.subSize.toNat * s) r.subSize.toNat) r.numItems.toNat 0 (by
        intro s _ hs
        have hs : s < r.numItems.toNat := by omega
        obtain ⟨as, a1, a2, a3⟩ := item s hs
        refine ⟨_, by rw [a1]; rfl, ?_⟩
        have he : loadKid2 X ld inst (.elem (nodeName X.nm inst.cls (memberName X.nm inst.cls i r) s) as []) =
            fun o0 => some (as.foldl (fun o t => setElemAt X.env inst.base r t.2 s (axisIndex t.1) o) o0) := by
          funext o0
          have hnan : ¬ s = nan := by have := r.numItems.isLt; unfold nan; omega
          unfold loadKid2 doVector
          simp only [Node.name, named2_item hn hr ha s hs, lookup_hash hn.1 hr, hr, hsub, Node.attrs, if_neg a2, ht, hv, if_neg hnan]
          rfl
        rw [he]
        exact a3)
    refine ⟨ks, c1, c2.congr (fun l => ?_)⟩
    rw [hA, ← leaf_list hl (by rw [hv]; simp), ← bytes_split]
    constructor
    · rintro ⟨s, _, h1, h2⟩; exact ⟨s, by omega, h2⟩
    · rintro ⟨s, h1, h2⟩; exact ⟨s, by omega, by omega, h2⟩
  obtain ⟨ks, k1, _⟩ := key (fun _ _ _ => none)
  refine ⟨[], ks, fun sv => ?_, fun _ => False, leaf r (addr inst r), .nil (fun _ h => h), fun ld => ?_, fun l => ⟨.inr, fun h => h.resolve_left id⟩⟩
  · unfold saveMember2
    simp only [ht, isAttr, Bool.false_eq_true, if_false, hsub, ha, if_true, hv, k1, Option.map_some]
  · obtain ⟨ks', e1, e2⟩ := key ld
    rw [k1] at e1
    cases e1
    exact e2

/-! ## Flags -/

theorem flags_read (env : Env) (o : Obj) (r : RType) (a : Nat) (tab : EnumTab) (h : FlagsFaithful env o r a tab) (e : Text × BitVec 64) (he : e ∈ tab) :
    printFlagBit o a r.subSize.toNat e.2.toNat = some (if (o.nat a r.subSize.toNat).testBit e.2.toNat then tTrue else tFalse) := by
  unfold printFlagBit flagBit
  rw [if_pos (h.low e he)]
  have hlt : o.nat a r.subSize.toNat < 2 ^ 64 :=
    Nat.lt_of_lt_of_le (nat_lt o a _) (Nat.pow_le_pow_right (by omega) (by have := h.size; omega))
  have : (BitVec.ofNat 64 (leNat (o.read a r.subSize.toNat))).getLsbD e.2.toNat = (o.nat a r.subSize.toNat).testBit e.2.toNat := by
    rw [BitVec.getLsbD, BitVec.toNat_ofNat]
    unfold Obj.nat at hlt ⊢
    rw [Nat.mod_eq_of_lt hlt]
  rw [this]
  rfl

theorem flags_beyond (o : Obj) (a n j : Nat) (h : 8 * n ≤ j) : (o.nat a n).testBit j = false :=
  Nat.testBit_lt_two_pow (Nat.lt_of_lt_of_le (nat_lt o a n) (Nat.pow_le_pow_right (by omega) h))

theorem part_flags (X : Ctx) (strAttr : Bool) (o : Obj) (inst : Inst) (i : Nat) (r : RType) (hn : Named2 X.nm inst.cls)
    (hr : inst.cls.tab.types[i]? = some r) (ht : r.type = .EnumFlags) (tab : EnumTab) (hne : tab ≠ [])
    (h : FlagsFaithful X.env o r (inst.base + r.offset.toNat) tab) : Part2Ok X strAttr o inst i r := by
  have hA : addr inst r = inst.base + r.offset.toNat := by
    unfold addr; rw [if_neg]; rw [ht]; simp
  have hsub : isSub r = false := by unfold isSub isArray; rw [ht]; simp
  obtain ⟨as, a1, a2, a3⟩ := flagAttrs_eq (o.nat (inst.base + r.offset.toNat) r.subSize.toNat) (fun e => getSubAt X.env inst.base r e o) tab (by
    intro e he
    unfold getSubAt
    simp only [ht]
    split
    · rename_i hb
      exact .inr ⟨rfl, flags_beyond _ _ _ _ (by omega)⟩
    · exact .inl (flags_read X.env o r _ tab h e he))
  refine ⟨[], [.elem (memberName X.nm inst.cls i r) as []], fun sv => ?_, fun _ => False, leaf r (addr inst r), .nil (fun _ h => h),
    fun ld => .one ?_, fun l => ⟨.inr, fun h => h.resolve_left id⟩⟩
  · unfold saveMember2
    simp only [ht, isAttr, Bool.false_eq_true, if_false, h.env, a1, Option.map_some]
  · have he : loadKid2 X ld inst (.elem (memberName X.nm inst.cls i r) as []) =
        fun o0 => some (setMember X.env r (flagsText (flagTexts (o.nat (inst.base + r.offset.toNat) r.subSize.toNat) tab)) (inst.base + r.offset.toNat) o0).2 := by
      funext o0
      unfold loadKid2 doFlags
      simp only [Node.name, named2_member hn hr, lookup_hash hn.1 hr, hr, hsub, Node.attrs, if_neg (a3 hne), ht, if_true, a2, hA]
      rfl
    rw [he, hA]
    refine (flags_set X.env o r _ tab ht h).congr (fun l => ?_)
    cases l <;> simp [leaf, bytes, ht]

theorem part_flagsList (X : Ctx) (strAttr : Bool) (o : Obj) (inst : Inst) (i : Nat) (r : RType) (hn : Named2 X.nm inst.cls)
    (hr : inst.cls.tab.types[i]? = some r) (ht : r.type = .Array) (hv : r.subType = .EnumFlags) (hz : 0 < r.subSize.toNat) (hm : InMem r inst.base)
    (hN : 0 < r.numItems.toNat) (tab : EnumTab) (hne : tab ≠ [])
    (h : ∀ i < r.numItems.toNat, FlagsFaithful X.env o { r with type := .EnumFlags } (inst.base + r.offset.toNat + r.subSize.toNat * i) tab) :
    Part2Ok X strAttr o inst i r := by
  have ha : isArray r = true := by unfold isArray; rw [ht]; rfl
  have hl : IsList r.type := .inl ht
  have hA : addr inst r = inst.base + r.offset.toNat := by
    unfold addr; rw [if_neg]; rw [ht]; simp
  have hsub : isSub r = false := by unfold isSub isArray; rw [ht, hv]; simp
  have he : elemType r = { r with type := .EnumFlags } := by rw [elemType_plain (by rw [hv]; simp), hv]
  have henv : X.env.enums r.typeHash = some tab := (h 0 hN).env
  have key : ∀ ld, ∃ ks, collect (fun s => (flagAttrs (fun e => getElemAt X.env inst.base r s e o) tab).map
      (fun as => Node.elem (nodeName X.nm inst.cls (memberName X.nm inst.cls i r) s) as [])) r.numItems.toNat 0 = some ks ∧
      Cover (loadKid2 X ld inst) o ks (leaf r (addr inst r)) := by
    intro ld
    obtain ⟨ks, c1, c2, _⟩ := collect_cover
      (fun s => (flagAttrs (fun e => getElemAt X.env inst.base r s e o) tab).map
        (fun as => Node.elem (nodeName X.nm inst.cls (memberName X.nm inst.cls i r) s) as []))
      (loadKid2 X ld inst) o (fun s => bytes (inst.base + r.offset.toNat + r.subSize.toNat * s) r.subSize.toNat) r.numItems.toNat 0 (by
        intro s _ hs
        have hs : s < r.numItems.toNat := by omega
        obtain ⟨as, a1, a2, a3⟩ := flagAttrs_eq (o.nat (inst.base + r.offset.toNat + r.subSize.toNat * s) r.subSize.toNat)
          (fun e => getElemAt X.env inst.base r s e o) tab (by
            intro e he
            unfold getElemAt
            simp only [ha, Bool.not_true, Bool.false_eq_true, if_false, hv]
            split
            · rename_i hb
              exact .inr ⟨rfl, flags_beyond _ _ _ _ (by omega)⟩
            · exact .inl (flags_read X.env o _ _ tab (h s hs) e he))
        refine ⟨_, by rw [a1]; rfl, ?_⟩
        have hk : loadKid2 X ld inst (.elem (nodeName X.nm inst.cls (memberName X.nm inst.cls i r) s) as []) =
            fun o0 => some (setMember X.env { r with type := .EnumFlags }
              (flagsText (flagTexts (o.nat (inst.base + r.offset.toNat + r.subSize.toNat * s) r.subSize.toNat) tab))
              (inst.base + r.offset.toNat + r.subSize.toNat * s) o0).2 := by
          funext o0
          have hnan : ¬ s = nan := by have := r.numItems.isLt; unfold nan; omega
          unfold loadKid2 doFlags
          simp only [Node.name, named2_item hn hr ha s hs, lookup_hash hn.1 hr, hr, hsub, Node.attrs, if_neg (a3 hne), ht, hv, if_neg hnan, a2,
            setSubAt_eq _ _ _ _ _ _ hl (inMem_elem hm hs hz), he]
          rfl
        rw [hk]
        exact flags_set X.env o _ _ tab rfl (h s hs))
    refine ⟨ks, c1, c2.congr (fun l => ?_)⟩
    rw [hA, ← leaf_list hl (by rw [hv]; simp), ← bytes_split]
    constructor
    · rintro ⟨s, _, h1, h2⟩; exact ⟨s, by omega, h2⟩
    · rintro ⟨s, h1, h2⟩; exact ⟨s, by omega, by omega, h2⟩
  obtain ⟨ks, k1, _⟩ := key (fun _ _ _ => none)
  refine ⟨[], ks, fun sv => ?_, fun _ => False, leaf r (addr inst r), .nil (fun _ h => h), fun ld => ?_, fun l => ⟨.inr, fun h => h.resolve_left id⟩⟩
  · unfold saveMember2
    simp only [ht, isAttr, Bool.false_eq_true, if_false, hsub, ha, if_true, hv, henv, k1, Option.map_some]
  · obtain ⟨ks', e1, e2⟩ := key ld
    rw [k1] at e1
    cases e1
    exact e2

end PreCore.ReflXml
