import Verif.Props.ReflXmlLoad2
import Verif.Props.ReflXml2Ex
import Verif.Props.ReflBinFrame
/-!
# C147: loading a version 2 document changes only members of the object
-/
namespace PreCore.ReflXml
open Refl ReflBin

/-! ## Specification -/

/-- A location in the address space. -/
def Addressable : Loc → Prop
  | .bit k => k < 8 * 2 ^ 64
  | .str a => a < 2 ^ 64

/-- The object lies in the address space. -/
def InSpace (reg : Registry) (inst : Inst) : Prop := ∀ l, Within reg inst l → Addressable l

/-- Text `t` may be given for element `idx` of the list `r`: there is such an element, it is a scalar or a vector of scalars that
fits into the space of an element, and a vector can take the text (see C24). -/
def SlotOk (r : RType) (t : Text) (idx : Nat) : Prop :=
  IsList r.type ∧ idx < r.numItems.toNat ∧ size (elemType r) ≤ r.subSize.toNat ∧
  (IsScalar r.subType ∨ (r.subType = .Vector ∧ decType r.typeHash ≠ .String ∧ SoundFor (elemType r) t))

/-- Component `ax` of vector `idx` of the list of vectors `r` exists (or is refused), and components are scalars. -/
def ComponentOk (r : RType) (idx ax : Nat) : Prop :=
  IsList r.type ∧ idx < r.numItems.toNat ∧ IsScalar (decType r.typeHash) ∧ decType r.typeHash ≠ .String ∧
  size { r with subSize := decSize r.typeHash, type := decType r.typeHash } ≤ (decSize r.typeHash).toNat ∧
  (decSize r.typeHash).toNat * (decNum r.typeHash).toNat ≤ r.subSize.toNat ∧
  (ax < (decNum r.typeHash).toNat ∨ (decSize r.typeHash).toNat ≤ ax)

/-- An attribute of a class node is for a plain member, without an index and with a text the member takes, or with the index of
an element. -/
def AttrFits (c : ClassDef) (a : Text × Text) : Prop :=
  ∀ r, typeOf c.tab (splitName a.1).1 = some r → isSub r = false ∧
    if (splitName a.1).2 = nan then SoundFor r a.2 else SlotOk r a.2 (splitName a.1).2

/-- A child of a class node for a plain member has a text the member takes, or attributes for components or flags that exist. -/
def KidFits (c : ClassDef) (n : Node) : Prop :=
  ∀ r, typeOf c.tab (splitName n.name).1 = some r → isSub r = false →
    if n.attrs = [] then SoundFor r n.text
    else if r.type = .EnumFlags then (splitName n.name).2 = nan
    else if r.type = .Vector ∨ (r.type = .Array ∧ r.subType = .Vector) then
      ∀ a ∈ n.attrs, if (splitName n.name).2 = nan then SlotOk r a.2 (axisIndex a.1)
        else isArray r = true → ComponentOk r (splitName n.name).2 (axisIndex a.1)
    else if r.type = .Array ∧ r.subType = .EnumFlags then
      if (splitName n.name).2 = nan then SoundFor r (flagsText n.attrs) else SlotOk r (flagsText n.attrs) (splitName n.name).2
    else True

/-- Members of class type that are no lists count for at most one item; lists of classes are not empty. -/
def Counted (c : ClassDef) : Prop := ∀ r ∈ c.tab.types, isSub r = true → if isArray r then 0 < r.numItems.toNat else r.numItems.toNat ≤ 1

/-- Loading node `n` for class `c` loads node `n'` for class `c'`. -/
inductive Reach (reg : Registry) (c : ClassDef) (n : Node) : ClassDef → Node → Prop
  | here : Reach reg c n c n
  | deeper {c' : ClassDef} {n' k : Node} {r : RType} {c'' : ClassDef} (h : Reach reg c n c' n') (hk : k ∈ n'.kids)
      (hr : typeOf c'.tab (splitName k.name).1 = some r) (hs : isSub r = true) (hc : reg r.typeHash = some c'') : Reach reg c n c'' k

/-- Everything in the node is meant for something that exists. -/
def Meant (reg : Registry) (c : ClassDef) (n : Node) : Prop :=
  ∀ c' n', Reach reg c n c' n' → Counted c' ∧ (∀ a ∈ n'.attrs, AttrFits c' a) ∧ ∀ k ∈ n'.kids, KidFits c' k

/-! ## Proof -/

theorem touch_at (X : Ctx) (e : RType) (t : Text) (A : Nat) (o : Obj) (hb : e.type ≠ .BitFieldMember)
    (h : SoundFor e t) (l : Loc) (hl : ¬ leaf e A l) : content (setMember X.env e t A o).2 l = content o l := by
  rcases h with (h | h) | h
  · exact leaf_touch_wf X A e t o h l hl
  · exact absurd h.1 hb
  · exact leaf_touch_list X A e t o h.1 h.2 l hl

/-- If anything of `e` exists at some address, then its first location exists at any. -/
theorem leaf_first {e : RType} {A A' : Nat} {l : Loc} (hb : e.type ≠ .BitFieldMember) (h : leaf e A' l) : leaf e A (.bit (8 * A)) ∨ leaf e A (.str A) := by
  cases l with
  | bit k =>
    left
    unfold leaf at h ⊢
    cases ht : e.type <;> rw [ht] at h <;> simp only at h ⊢
    case BitFieldMember => exact absurd ht hb
    case Array | Vector | ArrayClass => refine ⟨h.1, Nat.le_refl _, ?_⟩; omega
    case Bool => omega
    all_goals first | (refine ⟨Nat.le_refl _, ?_⟩; omega) | cases h
  | str x =>
    right
    unfold leaf at h ⊢
    cases ht : e.type <;> rw [ht] at h <;> simp only at h ⊢
    case Array | Vector | ArrayClass =>
      obtain ⟨h1, i, h2, _⟩ := h
      exact ⟨h1, 0, by omega, by simp⟩
    all_goals cases h

theorem mul_slot {n i k : Nat} (h : i < k) : n * i + n ≤ n * k := by
  have := Nat.mul_le_mul_left n h
  simpa [Nat.mul_succ] using this

/-- The locations of an element are locations of the list. -/
theorem slot_leaf {r : RType} {t : Text} {idx a : Nat} (h : SlotOk r t idx) {l : Loc} (hl : leaf (elemType r) (a + r.subSize.toNat * idx) l) : leaf r a l := by
  obtain ⟨h1, h2, h3, h4⟩ := h
  have hm := mul_slot (n := r.subSize.toNat) h2
  have key : (∀ k, l = .bit k → r.subType ≠ .String ∧ 8 * a ≤ k ∧ k < 8 * (a + r.subSize.toNat * r.numItems.toNat)) →
      (∀ x, l = .str x → r.subType = .String ∧ ∃ i < r.numItems.toNat, x = a + r.subSize.toNat * i) → leaf r a l := by
    intro ha hb
    unfold leaf
    cases l with
    | bit k => rcases h1 with h | h | h <;> rw [h] <;> exact ha k rfl
    | str x => rcases h1 with h | h | h <;> rw [h] <;> exact hb x rfl
  rcases h4 with hs | ⟨hv, hd, _⟩
  · have ht := elemType_scalar hs
    have hsz : (elemType r).subSize = r.subSize := by
      unfold elemType
      rw [if_neg]
      intro hv; rw [hv] at hs; exact hs
    unfold leaf at hl
    unfold size at h3
    rw [ht] at hl h3
    rw [hsz] at hl h3
    refine key (fun k e => ?_) (fun x e => ?_)
    · subst e
      cases hst : r.subType <;> rw [hst] at hl h3 hs <;> simp only at hl h3
      all_goals first | exact absurd hs id | (refine ⟨by simp, ?_, ?_⟩ <;> omega)
    · subst e
      cases hst : r.subType <;> rw [hst] at hl hs <;> simp only at hl
      all_goals first | exact absurd hs id | exact ⟨rfl, idx, h2, hl⟩
  · have he : elemType r = { r with type := .Vector, subType := decType r.typeHash, numItems := decNum r.typeHash, subSize := decSize r.typeHash } := by
      unfold elemType; rw [if_pos hv]
    rw [he] at hl h3
    unfold size at h3
    simp only at h3
    unfold leaf at hl
    refine key (fun k e => ?_) (fun x e => ?_)
    · subst e
      simp only at hl
      refine ⟨by rw [hv]; simp, ?_, ?_⟩ <;> omega
    · subst e
      simp only at hl
      exact absurd hl.1 hd

theorem list_not_bit {r : RType} (h : IsList r.type) : r.type ≠ .BitFieldMember := by rcases h with h | h | h <;> rw [h] <;> simp

theorem addr_list (inst : Inst) {r : RType} (h : r.type ≠ .BitFieldMember) : addr inst r = inst.base + r.offset.toNat := by
  unfold addr; rw [if_neg h]

/-- Locations of a plain member of an instance lie in the address space. -/
theorem space_leaf {reg : Registry} {inst : Inst} (h : InSpace reg inst) {i : Nat} {r : RType} (hr : inst.cls.tab.types[i]? = some r)
    (hs : isSub r = false) {l : Loc} (hl : leaf r (addr inst r) l) : Addressable l :=
  h l (.leaf hr hs hl)

/-- Writing an element through a wrapped address. -/
theorem wrapped_touch (X : Ctx) (inst : Inst) (hsp : InSpace X.reg inst) {i : Nat} {r : RType} (hr : inst.cls.tab.types[i]? = some r)
    (hs : isSub r = false) (e : RType) (t : Text) (A : Nat) (o : Obj) (hb : e.type ≠ .BitFieldMember) (hf : SoundFor e t)
    (hin : ∀ l, leaf e A l → leaf r (addr inst r) l) (l : Loc) (hl : ¬ leaf r (addr inst r) l) :
    content (setMember X.env e t (A % 2 ^ 64) o).2 l = content o l := by
  by_cases h64 : A < 2 ^ 64
  · rw [Nat.mod_eq_of_lt h64]
    exact touch_at X e t A o hb hf l (fun h => hl (hin l h))
  · refine touch_at X e t _ o hb hf l (fun h => ?_)
    rcases leaf_first (A := A) hb h with h1 | h1
    · have := space_leaf hsp hr hs (hin _ h1)
      simp only [Addressable] at this
      omega
    · have := space_leaf hsp hr hs (hin _ h1)
      simp only [Addressable] at this
      omega

theorem scalar_sound {e : RType} (h : IsScalar e.type) (t : Text) : SoundFor e t := .inl (.inl (.inl h))

theorem setSubAt_touch (X : Ctx) (inst : Inst) (hsp : InSpace X.reg inst) {i : Nat} {r : RType} (hr : inst.cls.tab.types[i]? = some r)
    (hs : isSub r = false) (t : Text) (idx : Nat) (o : Obj) (h : SlotOk r t idx) (l : Loc) (hl : ¬ leaf r (addr inst r) l) :
    content (setSubAt X.env inst.base r t idx o) l = content o l := by
  have hnb := list_not_bit h.1
  have he : (elemType r).type ≠ .BitFieldMember ∧ SoundFor (elemType r) t := by
    rcases h.2.2.2 with h4 | ⟨h4, _, h5⟩
    · have ht := elemType_scalar h4
      exact ⟨by rw [ht]; intro hb; rw [hb] at h4; exact h4, scalar_sound (by rw [ht]; exact h4) t⟩
    · refine ⟨?_, h5⟩
      unfold elemType
      rw [if_pos h4]
      simp
  have key := wrapped_touch X inst hsp hr hs (elemType r) t (inst.base + r.offset.toNat + r.subSize.toNat * idx) o he.1 he.2
    (fun l hl => by rw [addr_list inst hnb]; exact slot_leaf h hl) l hl
  unfold setSubAt
  rcases h.1 with h | h | h <;> rw [h] <;> exact key

theorem setElemAt_touch (X : Ctx) (inst : Inst) (hsp : InSpace X.reg inst) {i : Nat} {r : RType} (hr : inst.cls.tab.types[i]? = some r)
    (hs : isSub r = false) (t : Text) (idx ax : Nat) (o : Obj) (h : isArray r = true → ComponentOk r idx ax) (l : Loc) (hl : ¬ leaf r (addr inst r) l) :
    content (setElemAt X.env inst.base r t idx ax o) l = content o l := by
  unfold setElemAt
  split
  · rfl
  · rename_i ha
    simp only [Bool.not_eq_true', Bool.not_eq_false] at ha
    split
    · rfl
    · rename_i hv
      split
      · rfl
      · rename_i hax
        simp only [ne_eq, Decidable.not_not] at hv
        obtain ⟨h1, h2, h3, h4, h5, h6, h7⟩ := h ha
        have hnb := list_not_bit h1
        have h7 : ax < (decNum r.typeHash).toNat := by omega
        have hm := mul_slot (n := r.subSize.toNat) h2
        have hm2 := mul_slot (n := (decSize r.typeHash).toNat) h7
        refine wrapped_touch X inst hsp hr hs _ t _ o ?_ (scalar_sound (by exact h3) t) (fun l hl => ?_) l hl
        · simp only
          intro hb; rw [hb] at h3; exact h3
        · rw [addr_list inst hnb]
          generalize inst.base + r.offset.toNat = a at *
          unfold leaf at hl ⊢
          unfold size at h5
          simp only at hl h5
          cases l with
          | str x =>
            exfalso
            cases hd : decType r.typeHash <;> rw [hd] at hl h3 h4 <;> simp only at hl
            all_goals first | exact h4 rfl | exact h3
          | bit k =>
            have : 8 * a ≤ k ∧ k < 8 * (a + r.subSize.toNat * r.numItems.toNat) := by
              cases hd : decType r.typeHash <;> rw [hd] at hl h3 h5 <;> simp only at hl h5
              all_goals first | exact absurd h3 id | (constructor <;> omega)
            have hv' : r.subType ≠ .String := by rw [hv]; simp
            rcases h1 with h | h | h <;> rw [h] <;> exact ⟨hv', this⟩

theorem foldl_touch {α : Type} (g : Obj → α → Obj) (l : Loc) : ∀ (as : List α), (∀ a ∈ as, ∀ o, content (g o a) l = content o l) →
    ∀ o, content (as.foldl g o) l = content o l := by
  intro as
  induction as with
  | nil => intro _ o; rfl
  | cons a as ih =>
    intro h o
    rw [List.foldl_cons, ih (fun b hb => h b (List.mem_cons_of_mem _ hb)), h a List.mem_cons_self]

theorem typeOf_at {c : ClassDef} {h : BitVec 32} {r : RType} (he : typeOf c.tab h = some r) : ∃ i, lookup c.tab h = some i ∧ c.tab.types[i]? = some r := by
  unfold typeOf at he
  cases hl : lookup c.tab h with
  | none => rw [hl] at he; cases he
  | some i => rw [hl] at he; exact ⟨i, rfl, he⟩

theorem loadAttr_touch (X : Ctx) (inst : Inst) (hsp : InSpace X.reg inst) (a : Text × Text) (h : AttrFits inst.cls a) (o : Obj) (l : Loc)
    (hl : ¬ Within X.reg inst l) : content (loadAttr X inst a o) l = content o l := by
  unfold loadAttr
  simp only
  split
  · rfl
  · rename_i r hr
    obtain ⟨i, _, hi⟩ := typeOf_at hr
    obtain ⟨hs, hf⟩ := h r hr
    have hl' : ¬ leaf r (addr inst r) l := fun h => hl (.leaf hi hs h)
    split at hf
    · rename_i hn
      rw [if_pos hn]
      exact leaf_touch_for X inst r _ o hf l hl'
    · rename_i hn
      rw [if_neg hn]
      exact setSubAt_touch X inst hsp hi hs _ _ o hf l hl'

theorem doFlags_touch (X : Ctx) (inst : Inst) (hsp : InSpace X.reg inst) {i : Nat} {r : RType} (hr : inst.cls.tab.types[i]? = some r)
    (hs : isSub r = false) (idx : Nat) (attrs : List (Text × Text)) (o : Obj)
    (h : if idx = nan then SoundFor r (flagsText attrs) else SlotOk r (flagsText attrs) idx) (l : Loc) (hl : ¬ leaf r (addr inst r) l) :
    content (doFlags X inst r idx attrs o) l = content o l := by
  unfold doFlags
  split
  · rename_i hn
    rw [if_pos hn] at h
    exact leaf_touch_for X inst r _ o h l hl
  · rename_i hn
    rw [if_neg hn] at h
    exact setSubAt_touch X inst hsp hr hs _ _ o h l hl

theorem doVector_touch (X : Ctx) (inst : Inst) (hsp : InSpace X.reg inst) {i : Nat} {r : RType} (hr : inst.cls.tab.types[i]? = some r)
    (hs : isSub r = false) (idx : Nat) (attrs : List (Text × Text)) (o : Obj)
    (h : ∀ a ∈ attrs, if idx = nan then SlotOk r a.2 (axisIndex a.1) else isArray r = true → ComponentOk r idx (axisIndex a.1)) (l : Loc)
    (hl : ¬ leaf r (addr inst r) l) : content (doVector X inst r idx attrs o) l = content o l := by
  unfold doVector
  refine foldl_touch _ l attrs (fun a ha o => ?_) o
  have := h a ha
  split
  · rename_i hn
    rw [if_pos hn] at this
    exact setSubAt_touch X inst hsp hr hs _ _ o this l hl
  · rename_i hn
    rw [if_neg hn] at this
    exact setElemAt_touch X inst hsp hr hs _ _ _ o this l hl

theorem node_touch (X : Ctx) : ∀ (f : Nat) (inst : Inst) (n : Node), InSpace X.reg inst → Meant X.reg inst.cls n →
    Touches (loadNode2 X f inst n) (Within X.reg inst) := by
  intro f
  induction f with
  | zero => intro inst n _ _ o0 o1 he; cases he
  | succ f ih =>
    intro inst n hsp hm o0 o1 he l hl
    obtain ⟨hcnt, hat, hkid⟩ := hm _ _ .here
    unfold loadNode2 at he
    have h0 : content (n.attrs.foldl (fun o a => loadAttr X inst a o) o0) l = content o0 l :=
      foldl_touch _ l n.attrs (fun a ha o => loadAttr_touch X inst hsp a (hat a ha) o l hl) o0
    rw [← h0]
    refine foldKids_touch_mem _ (Within X.reg inst) n.kids (fun k hk => ?_) _ o1 he l hl
    clear he h0 o0 o1 hl l
    intro o0 o1 he l hl
    unfold loadKid2 at he
    simp only at he
    split at he
    · split at he
      · cases he; rfl
      · cases he
    · rename_i i hi
      split at he
      · cases he; rfl
      · rename_i r hr
        have ht : typeOf inst.cls.tab (splitName k.name).1 = some r := by
          unfold typeOf; rw [hi]; exact hr
        split at he
        · rename_i hsub
          split at he
          · split at he
            · cases he; rfl
            · cases he
          · rename_i s hsc
            obtain ⟨q1, q2, _⟩ := subClass_of hr hsc
            have hc := hcnt r (List.mem_of_getElem? hr) hsub
            have hcount : (if (splitName k.name).2 = nan then 0 else (splitName k.name).2) < count r := by
              unfold count
              split at hc
              · rename_i ha
                rw [if_pos ha]
                rcases q1 with q1 | q1
                · rw [q1]; exact hc
                · exact q1
              · rename_i ha
                rw [if_neg ha]
                omega
            exact ih s k (fun l hl => hsp l (.sub hr hsub hcount hsc hl))
              (fun c' n' hreach => hm c' n' (by
                clear he hl
                induction hreach with
                | here => exact .deeper .here hk ht hsub q2
                | deeper _ hk hr hs hc ih => exact .deeper ih hk hr hs hc)) o0 o1 he l
              (fun hw => hl (.sub hr hsub hcount hsc hw))
        · rename_i hsub
          have hsub : isSub r = false := by simpa using hsub
          have hl' : ¬ leaf r (addr inst r) l := fun h => hl (.leaf hr hsub h)
          have hf := hkid k hk r ht hsub
          split at he
          · rename_i ha
            rw [if_pos ha] at hf
            cases he
            exact leaf_touch_for X inst r _ o0 hf l hl'
          · rename_i ha
            rw [if_neg ha] at hf
            cases he
            cases hty : r.type <;> try rfl
            case EnumFlags =>
              rw [if_pos hty] at hf
              exact doFlags_touch X inst hsp hr hsub _ _ o0 (by rw [if_pos hf]; exact scalar_sound (by rw [hty]; trivial) _) l hl'
            case Vector =>
              rw [if_neg (by rw [hty]; simp), if_pos (.inl hty)] at hf
              exact doVector_touch X inst hsp hr hsub _ _ o0 hf l hl'
            case Array =>
              rw [if_neg (by rw [hty]; simp)] at hf
              cases hst : r.subType <;> try rfl
              case Vector =>
                rw [if_pos (.inr ⟨hty, hst⟩)] at hf
                exact doVector_touch X inst hsp hr hsub _ _ o0 hf l hl'
              case EnumFlags =>
                rw [if_neg (by rw [hty, hst]; simp), if_pos ⟨hty, hst⟩] at hf
                exact doFlags_touch X inst hsp hr hsub _ _ o0 hf l hl'

/-- **C147.** Loading a version 2 document in which every name with an index, every axis and every text is meant for something
that exists changes only members of the instance and of the instances in it, whatever else the document holds.
Missing for the full statement: item numbers and axes that do not exist (`xml2_index_violated`, `xml2_axis_violated`), texts
longer than a list of bools, flags or strings (`Refl.array_overrun_violated`). -/
theorem xml2_load_frame_partial (X : Ctx) (f : Nat) (inst : Inst) (hsp : InSpace X.reg inst) (doc : List Node)
    (h : ∀ n, doc.find? (fun n => nodeHash n.name == inst.cls.hash) = some n → Meant X.reg inst.cls n) :
    Touches (loadV2 X f inst doc) (Within X.reg inst) := by
  intro o0 o1 he
  unfold loadV2 at he
  split at he
  · cases he; exact fun _ _ => rfl
  · rename_i n hn
    exact node_touch X f inst n hsp (h n hn) o0 o1 he

/-! The hypotheses are met by the outer class of the examples (a list of classes, a list of vectors, lists, strings) at address 0
and a document with plain and indexed attributes, a vector in a list, a class in a list, and an attribute of no member. -/

/-- `<O i="5" l-2="7" zz="1"><v-1 x="3" y="4"/><c-1 a="3"/></O>` -/
def exNode2 : Node := .elem [0x4f#8] [([0x69#8], [0x35#8]), ([0x6c#8, 0x2d#8, 0x32#8], [0x37#8]), ([0x7a#8, 0x7a#8], [0x31#8])]
  [.elem [0x76#8, 0x2d#8, 0x31#8] [([0x78#8], [0x33#8]), ([0x79#8], [0x34#8])] [], .elem [0x63#8, 0x2d#8, 0x31#8] [([0x61#8], [0x33#8])] []]

theorem ex_reach {c : ClassDef} {n : Node} (h : Reach exCtx2.reg exOut2 exNode2 c n) :
    (c = exOut2 ∧ n = exNode2) ∨ (c = exIn2 ∧ n = .elem [0x63#8, 0x2d#8, 0x31#8] [([0x61#8], [0x33#8])] []) := by
  induction h with
  | here => exact .inl ⟨rfl, rfl⟩
  | deeper _ hk hr hs hc ih =>
    rcases ih with ⟨rfl, rfl⟩ | ⟨rfl, rfl⟩
    · simp only [exNode2, Node.kids, List.mem_cons, List.not_mem_nil, or_false] at hk
      rcases hk with rfl | rfl
      · have : (typeOf exOut2.tab (splitName [0x76#8, 0x2d#8, 0x31#8]).1).any isSub = false := by decide +kernel
        simp only [Node.name] at hr
        rw [hr] at this
        simp only [Option.any_some, hs] at this
        cases this
      · simp only [exCtx2] at hc
        split at hc
        · cases hc; exact .inr ⟨rfl, rfl⟩
        · cases hc
    · cases hk

theorem ex_meant : Meant exCtx2.reg exOut2 exNode2 := by
  intro c n h
  rcases ex_reach h with ⟨rfl, rfl⟩ | ⟨rfl, rfl⟩
  · have hcnt : Counted exOut2 := by
      intro r hr
      simp only [exOut2, List.mem_cons, List.not_mem_nil, or_false] at hr
      rcases hr with rfl | rfl | rfl | rfl | rfl | rfl | rfl | rfl <;> intro hs <;> first | exact absurd hs (by decide) | (rw [if_pos (by rfl)]; decide)
    refine ⟨hcnt, ?_, ?_⟩
    · intro a ha r hr
      simp only [exNode2, Node.attrs, List.mem_cons, List.not_mem_nil, or_false] at ha
      rcases ha with rfl | rfl | rfl
      · have e : typeOf exOut2.tab (splitName [0x69#8]).1 = some exOut2.tab.types[0] := by decide +kernel
        rw [e] at hr; cases hr
        refine ⟨rfl, ?_⟩
        rw [if_pos (by decide +kernel)]
        exact .inl (.inl (.inl trivial))
      · have e : typeOf exOut2.tab (splitName [0x6c#8, 0x2d#8, 0x32#8]).1 = some exOut2.tab.types[5] := by decide +kernel
        have e2 : (splitName [0x6c#8, 0x2d#8, 0x32#8]).2 = 2 := by decide +kernel
        rw [e] at hr; cases hr
        refine ⟨rfl, ?_⟩
        simp only
        rw [e2, if_neg (by decide)]
        exact ⟨.inl rfl, by decide, by decide, .inl trivial⟩
      · have e : typeOf exOut2.tab (splitName [0x7a#8, 0x7a#8]).1 = none := by decide +kernel
        rw [e] at hr; cases hr
    · intro k hk r hr hs
      simp only [exNode2, Node.kids, List.mem_cons, List.not_mem_nil, or_false] at hk
      rcases hk with rfl | rfl
      · have e : typeOf exOut2.tab (splitName [0x76#8, 0x2d#8, 0x31#8]).1 = some exOut2.tab.types[2] := by decide +kernel
        have e2 : (splitName [0x76#8, 0x2d#8, 0x31#8]).2 = 1 := by decide +kernel
        simp only [Node.name] at hr
        rw [e] at hr; cases hr
        simp only [Node.attrs, Node.name, e2]
        rw [if_neg (by simp), if_neg (by decide), if_pos (by decide)]
        intro a ha
        rw [if_neg (by decide)]
        intro _
        simp only [List.mem_cons, List.not_mem_nil, or_false] at ha
        rcases ha with rfl | rfl <;>
          exact ⟨.inl rfl, by decide, by have : decType 0x00020202 = .UnsignedInteger := rfl; exact trivial, by decide, by decide, by decide, .inl (by decide)⟩
      · have : (typeOf exOut2.tab (splitName [0x63#8, 0x2d#8, 0x31#8]).1).all isSub = true := by decide +kernel
        simp only [Node.name] at hr
        rw [hr] at this
        simp only [Option.all_some, hs] at this
        cases this
  · have hcnt : Counted exIn2 := by
      intro r hr
      simp only [exIn2, List.mem_cons, List.not_mem_nil, or_false] at hr
      rcases hr with rfl | rfl <;> intro hs <;> exact absurd hs (by decide)
    refine ⟨hcnt, ?_, fun k hk => by cases hk⟩
    intro a ha r hr
    simp only [Node.attrs, List.mem_cons, List.not_mem_nil, or_false] at ha
    subst ha
    have e : typeOf exIn2.tab (splitName [0x61#8]).1 = some exIn2.tab.types[0] := by decide +kernel
    rw [e] at hr; cases hr
    refine ⟨rfl, ?_⟩
    rw [if_pos (by decide +kernel)]
    exact .inl (.inl (.inl trivial))

theorem ex_space : InSpace exCtx2.reg ⟨exOut2, 0⟩ := by
  have hin : ∀ b l, b ≤ 1000 → Within exCtx2.reg ⟨exIn2, b⟩ l → Addressable l := by
    intro b l hb h
    cases h with
    | leaf hr hs hl =>
      rename_i i r
      match i with
      | 0 | 1 => cases hr; cases l <;> simp [leaf, addr] at hl <;> simp only [Addressable] <;> omega
      | i + 2 => cases hr
    | @sub _ i _ _ _ _ hr hs => match i with
      | 0 | 1 => cases hr; cases hs
      | i + 2 => cases hr
  intro l h
  cases h with
  | leaf hr hs hl =>
    rename_i i r
    match i with
    | 0 | 1 | 2 | 3 | 4 | 5 | 6 | 7 => cases hr; cases l <;> simp [leaf, addr] at hl <;> simp only [Addressable] <;> omega
    | i + 8 => cases hr
  | sub hr hs hc hsc hl =>
    rename_i i r s sub
    match i with
    | 0 | 2 | 3 | 4 | 5 | 6 | 7 => cases hr; cases hs
    | 1 =>
      obtain ⟨h1, h2, h3⟩ := subClass_of hr hsc
      cases hr
      have : s < 2 := hc
      obtain ⟨cl, b⟩ := sub
      have hcl : cl = exIn2 := by
        simp only [exCtx2] at h2
        split at h2
        · exact (Option.some.inj h2).symm
        · cases h2
      subst hcl
      refine hin b l ?_ hl
      simp only at h3
      rw [h3]
      simp
      omega
    | i + 8 => cases hr

/-- The document is loaded: the members and the elements named are assigned, nothing else is. -/
example : (loadV2 exCtx2 3 ⟨exOut2, 0⟩ [exNode2] exObj2).any (fun o => (o.mem 0, o.mem 62, o.mem 16, o.mem 18, o.mem 8) == (5#8, 7#8, 3#8, 4#8, 3#8) &&
    (o.mem 61, o.mem 12, o.mem 20) == (exObj2.mem 61, exObj2.mem 12, exObj2.mem 20)) = true := by decide +kernel

end PreCore.ReflXml
