import Verif.Props.ReflXmlRound
/-!
# C62: loading any document changes only members
-/
namespace PreCore.ReflXml
open Refl ReflBin CNum Spec Supercore

/-! ## One member -/

theorem setItems_strs (assign : Text → Nat → Obj → Err × Obj) (h : ∀ t a o, (assign t a o).2.strs = o.strs) (n sz b : Nat) :
    ∀ (items : List Text) (i : Nat) (o : Obj), (setItems assign n sz b items i o).2.strs = o.strs := by
  intro items
  induction items with
  | nil => intro i o; rfl
  | cons t ts ih =>
    intro i o
    unfold setItems
    generalize (skipStart false t).1 = s
    simp only
    split
    · rfl
    · split
      · rfl
      · rw [ih, h]

theorem setArray_strs (assign : Text → Nat → Obj → Err × Obj) (h : ∀ t a o, (assign t a o).2.strs = o.strs) (op cl t) (r : RType) (a : Nat) (o : Obj) :
    (setArray assign op cl t r a o).2.strs = o.strs := by
  unfold setArray
  split
  · split
    · rfl
    · simp only
      split
      · rfl
      · exact setItems_strs assign h _ _ _ _ _ _
  · rfl

theorem list_strs (env : Env) (f : Nat) (r : RType) (t : Text) (a : Nat) (o : Obj) (hl : IsList r.type)
    (h : ∀ t a o, (member env f (elemType r) t a o).2.strs = o.strs) : (member env (f + 1) r t a o).2.strs = o.strs := by
  unfold member
  simp only
  rcases hl with h' | h' | h' <;> simp only [h'] <;> exact setArray_strs _ h _ _ _ _ _ _

theorem scalarList_strs (env : Env) (f : Nat) (r : RType) (t : Text) (a : Nat) (o : Obj) (h : ScalarList r) :
    (member env f r t a o).2.strs = o.strs := by
  obtain ⟨h1, h2, h3, _⟩ := h
  cases f with
  | zero => rfl
  | succ f =>
    have ht := elemType_scalar h2
    exact list_strs env f r t a o h1 (fun t a o => member_strs env f _ t a o (by rw [ht]; exact h2) (by rw [ht]; intro hs; rw [hs] at h3; exact h3))

/-- The member descriptions for which an assignment stays inside the member: those of `frame_partial`, and bit-field members
of at most 30 bits. -/
def Sound (r : RType) : Prop :=
  WF r ∨ (r.type = .BitFieldMember ∧ r.subSize.toNat ≤ 30 ∧ r.offset.toNat + r.subSize.toNat ≤ 64)

theorem leaf_touch_wf (X : Ctx) (A : Nat) (r : RType) (t : Text) (o : Obj) (hw : WF r) (l : Loc) (hl : ¬ leaf r A l) :
    content (setMember X.env r t A o).2 l = content o l := by
  unfold setMember
  have hf := member_frame X.env (t.length + 1) r t (A) o hw
  have bit : ∀ k, ¬ (8 * A ≤ k ∧ k < 8 * (A + size r)) →
      content (member X.env (t.length + 1) r t (A) o).2 (.bit k) = content o (.bit k) := by
    intro k hk
    show ((_ : Byte).getLsbD _, _) = ((_ : Byte).getLsbD _, _)
    rw [(hf (k / 8) (by omega)).1]
  by_cases hstr : r.type = .String
  · cases l with
    | str x =>
      have : ¬ x = A := fun hx => hl (by simp only [leaf, hstr]; exact hx)
      show (false, _) = (false, _)
      unfold member
      simp only [hstr, Obj.writeStr, if_neg this]
    | bit k =>
      show ((_ : Byte).getLsbD _, _) = ((_ : Byte).getLsbD _, _)
      unfold member
      simp only [hstr, Obj.writeStr]
  · have hstrs : (member X.env (t.length + 1) r t (A) o).2.strs = o.strs := by
      rcases hw with h | h | ⟨h1, h2, h3, h4⟩
      · exact member_strs _ _ _ _ _ _ h hstr
      · exact scalarList_strs _ _ _ _ _ _ h
      · exact list_strs _ _ _ _ _ _ h1 (fun t a o => scalarList_strs _ _ _ _ _ _ h3)
    cases l with
    | str x => show (false, _) = (false, _); rw [hstrs]
    | bit k =>
      apply bit
      intro hk
      apply hl
      have hnb : r.type ≠ .BitFieldMember := by
        intro hb
        rcases hw with h | h | h
        · rw [hb] at h; exact h
        · have := h.1; rw [hb] at this; rcases this with h | h | h <;> cases h
        · have := h.1; rw [hb] at this; rcases this with h | h | h <;> cases h
      have hns : IsList r.type → r.subType ≠ .String := by
        intro hl hs'
        rcases hw with h | h | h
        · revert h; rcases hl with hl | hl | hl <;> rw [hl] <;> exact id
        · have := h.2.2.1; rw [hs'] at this; exact this
        · have := h.2.1; rw [hs'] at this; cases this
      unfold size at hk
      unfold leaf
      revert hk
      cases ht : r.type <;> simp only <;> first | exact id | (intro hk; exact ⟨hns (by rw [ht]; simp [IsList]), hk⟩) | (intro hk; exact absurd ht hstr) | (intro hk; exact absurd ht hnb) | (intro hk; omega)

theorem leaf_touch (X : Ctx) (inst : Inst) (r : RType) (t : Text) (o : Obj) (h : Sound r) (l : Loc) (hl : ¬ leaf r (addr inst r) l) :
    content (setMember X.env r t (addr inst r) o).2 l = content o l := by
  rcases h with hw | ⟨ht, hs, h64⟩
  · exact leaf_touch_wf X _ r t o hw l hl
  · have ha : addr inst r = inst.base := by unfold addr; rw [if_pos ht]; rfl
    rw [ha] at hl ⊢
    obtain ⟨s, hs'⟩ : ∃ s, Indented t s := by
      obtain ⟨pre, h1, h2, h3⟩ := skipStart_spec false t
      exact ⟨_, pre, h1, h2, h3⟩
    obtain ⟨_, h2, h3⟩ := setMember_shift X.env r t inst.base 0 o
    have e : setByName X.env (one r) r.valueNameHash t (o.shift inst.base) = setMember X.env r t 0 (o.shift inst.base) := by
      unfold setByName typeOf
      rw [one_lookup]
      simp only [Option.bind_some, typeAt, one, List.getElem?_cons_zero, setValue, ht, if_true]
    obtain ⟨_, _, b3, b4, b5⟩ := bitmember_partial X.env (one r) r.valueNameHash r t s (o.shift inst.base) _ _
      (by unfold typeOf; rw [one_lookup]; rfl) ht rfl rfl hs h64 hs'
    rw [e] at b3 b4 b5
    rw [Nat.add_zero] at h2 h3
    generalize (setMember X.env r t inst.base o).2 = p at *
    rw [← h2] at b3 b4 b5
    cases l with
    | str x =>
      show (false, p.strs x) = (false, o.strs x)
      by_cases hx : x < inst.base
      · rw [(h3 x hx).2]
      · have : (p.shift inst.base).strs (x - inst.base) = (o.shift inst.base).strs (x - inst.base) := by rw [b5]
        simp only [Obj.shift, show inst.base + (x - inst.base) = x by omega] at this
        rw [this]
    | bit k =>
      simp only [leaf, ht] at hl
      show ((p.mem (k / 8)).getLsbD (k % 8), ([] : Text)) = ((o.mem (k / 8)).getLsbD (k % 8), [])
      by_cases hk : k / 8 < inst.base
      · rw [(h3 _ hk).1]
      · by_cases hk2 : k / 8 < inst.base + 8
        · rw [mem_testBit p inst.base 8 k (by omega) (by omega), mem_testBit o inst.base 8 k (by omega) (by omega)]
          have := b3 (k - 8 * inst.base) (by omega)
          rw [shift_nat, shift_nat, Nat.add_zero] at this
          rw [this]
        · have := b4 (k / 8 - inst.base) (by omega)
          simp only [Obj.shift, show inst.base + (k / 8 - inst.base) = k / 8 by omega] at this
          rw [this]

/-! ## Documents -/

/-- All members of a class can be assigned; lists of classes are not empty. -/
def SoundClass (c : ClassDef) : Prop :=
  ∀ r ∈ c.tab.types, (isSub r = false → Sound r) ∧ (isArray r = true → isSub r = true → 0 < r.numItems.toNat)

theorem foldKids_touch {α : Type} (g : α → Obj → Option Obj) (S : Loc → Prop) (h : ∀ a, Touches (g a) S) : ∀ as, Touches (foldKids g as) S := by
  intro as
  induction as with
  | nil => intro o0 o1 he l _; cases he; rfl
  | cons a as ih =>
    intro o0 o1 he l hl
    rw [foldKids_cons] at he
    cases ha : g a o0 with
    | none => rw [ha] at he; cases he
    | some o2 =>
      rw [ha] at he
      rw [ih o2 o1 he l hl, h a o0 o2 ha l hl]

theorem intoSub_touch (ld : Inst → List Node → Obj → Option Obj) (S : Loc → Prop) (sub : Option Inst) (kids : List Node)
    (h : ∀ s, sub = some s → Touches (ld s kids) S) : Touches (intoSub ld sub kids) S := by
  intro o0 o1 he l hl
  unfold intoSub at he
  cases sub with
  | none =>
    simp only at he
    split at he
    · cases he; rfl
    · cases he
  | some s => exact h s rfl o0 o1 he l hl

theorem subClass_count {reg : Registry} {inst : Inst} {i s : Nat} {r : RType} {sub : Inst} (hr : inst.cls.tab.types[i]? = some r)
    (h : subClass reg inst i s = some sub) (ha : isArray r = true → 0 < r.numItems.toNat) (hs : isArray r = false → s = 0) :
    s < count r ∧ reg r.typeHash = some sub.cls := by
  unfold subClass at h
  rw [hr] at h
  cases hreg : reg r.typeHash with
  | none =>
    simp only [hreg, Option.map_none, ite_self] at h
    cases h
  | some c =>
    simp only [hreg, Option.map_some] at h
    split at h
    · cases h
    · rename_i hc
      refine ⟨?_, ?_⟩
      · unfold count
        cases hb : isArray r with
        | true =>
          have := ha hb
          simp only [if_true]
          omega
        | false =>
          have := hs hb
          simp only [Bool.false_eq_true, if_false]
          omega
      · have key : ∀ (q : Prop) [Decidable q] (x : Inst), (if q then some x else none) = some sub → x = sub := by
          intro q _ x hx
          split at hx
          · exact Option.some.inj hx
          · cases hx
        have := key _ _ h
        rw [← this]

theorem kids_touch (X : Ctx) (hreg : ∀ h c, X.reg h = some c → SoundClass c) : ∀ (f : Nat) (inst : Inst), SoundClass inst.cls →
    ∀ kids, Touches (loadKids X f inst kids) (Within X.reg inst) := by
  intro f
  induction f with
  | zero => intro inst _ kids o0 o1 he; cases he
  | succ f ih =>
    intro inst hc kids
    refine foldKids_touch _ _ (fun a => ?_) kids
    intro o0 o1 he l hl
    unfold loadKid at he
    split at he
    · cases he; rfl
    · rename_i i _
      split at he
      · cases he; rfl
      · rename_i r hr
        obtain ⟨hleaf, harr⟩ := hc r (List.mem_of_getElem? hr)
        have into : ∀ s kids, (isArray r = false → s = 0) → isSub r = true → Touches (intoSub (loadKids X f) (subClass X.reg inst i s) kids) (Within X.reg inst) := by
          intro s kids hs hsub
          refine intoSub_touch _ _ _ _ (fun sub hsb => ?_)
          obtain ⟨h1, h2⟩ := subClass_count hr hsb (fun h => harr h hsub) hs
          intro p0 p1 hp l hl
          exact ih sub (hreg _ _ h2) kids p0 p1 hp l (fun hw => hl (.sub hr hsub h1 hsb hw))
        split at he
        · rename_i hsub
          split at he
          · rename_i ha
            refine foldKids_touch _ (Within X.reg inst) (fun sc => ?_) _ o0 o1 he l hl
            intro p0 p1 hp
            split at hp
            · cases hp
            · exact into _ _ (fun h => by rw [ha] at h; cases h) hsub p0 p1 hp
          · exact into _ _ (fun _ => rfl) hsub o0 o1 he l hl
        · rename_i hsub
          cases he
          have hsub : isSub r = false := by simpa using hsub
          exact leaf_touch X inst r _ o0 (hleaf hsub) l (fun h => hl (.leaf hr hsub h))

/-- **C62 (frame).** Loading any document whatsoever changes only members of the instance and of the instances in it. -/
theorem xml_load_frame (X : Ctx) (hreg : ∀ h c, X.reg h = some c → SoundClass c) (f : Nat) (inst : Inst) (hc : SoundClass inst.cls)
    (lookup : Bool) (doc : List Node) : Touches (load X f inst lookup doc) (Within X.reg inst) := by
  unfold load
  cases lookup with
  | false => exact kids_touch X hreg f inst hc doc
  | true =>
    simp only [if_true]
    cases doc.find? (fun n => nodeHash n.name == inst.cls.hash) with
    | none => intro o0 o1 he l _; cases he; rfl
    | some n => exact kids_touch X hreg f inst hc n.kids

/-- **C62 (ignored nodes).** A document without a node of the class changes nothing; a child whose name is that of no member has
no effect wherever it stands. -/
theorem xml_load_ignores (X : Ctx) (f : Nat) (inst : Inst) :
    (∀ doc o, (∀ n ∈ doc, nodeHash n.name ≠ inst.cls.hash) → load X f inst true doc o = some o) ∧
    (∀ before n after o, (∀ r ∈ inst.cls.tab.types, r.valueNameHash ≠ nodeHash n.name) → inst.cls.tab.aliases = none →
      load X (f + 1) inst false (before ++ n :: after) o = load X (f + 1) inst false (before ++ after) o) := by
  refine ⟨fun doc o h => ?_, fun before n after o h hal => ?_⟩
  · unfold load
    rw [List.find?_eq_none.2 (fun n hn => by simpa using h n hn)]
    rfl
  · show foldKids _ _ o = foldKids _ _ o
    have hn : ∀ o, loadKid X (loadKids X f) inst n o = some o := by
      intro o
      have : lookup inst.cls.tab (nodeHash n.name) = none := by
        have : ∀ (l : List RType) k, (∀ r ∈ l, r.valueNameHash ≠ nodeHash n.name) → findHash (nodeHash n.name) (l.map (·.valueNameHash)) k = none := by
          intro l
          induction l with
          | nil => intro k _; rfl
          | cons x xs ih =>
            intro k hx
            rw [List.map_cons]
            unfold findHash
            rw [if_neg (hx x (by simp)), ih _ (fun r hr => hx r (by simp [hr]))]
        unfold lookup
        rw [this _ 0 h, hal]
      unfold loadKid
      rw [this]
    induction before generalizing o with
    | nil => simp only [List.nil_append]; rw [foldKids_cons, hn]; rfl
    | cons b bs ih =>
      simp only [List.cons_append]
      rw [foldKids_cons, foldKids_cons]
      cases loadKid X (loadKids X f) inst b o with
      | none => rfl
      | some o => exact ih o

/-- Member classes are registered and not in lists. -/
def Direct (reg : Registry) (c : ClassDef) : Prop :=
  ∀ r ∈ c.tab.types, isSub r = true → isArray r = false ∧ ∃ c', reg r.typeHash = some c'

theorem sub_direct {reg : Registry} {inst : Inst} {i : Nat} {r : RType} (hr : inst.cls.tab.types[i]? = some r) (hs : isSub r = true)
    (ha : isArray r = false) {c : ClassDef} (hreg : reg r.typeHash = some c) : ∃ sub, subClass reg inst i 0 = some sub ∧ sub.cls = c := by
  have ht : r.type = .Class ∨ r.type = .BitFieldClass := by
    unfold isSub at hs
    rw [ha] at hs
    simpa using hs
  refine ⟨⟨c, inst.base + r.offset.toNat⟩, ?_, rfl⟩
  unfold subClass
  rw [hr]
  rcases ht with h | h <;> simp [h, hreg]

theorem foldKids_some {α : Type} (g : α → Obj → Option Obj) : ∀ as : List α, (∀ a ∈ as, ∀ o, g a o ≠ none) → ∀ o, foldKids g as o ≠ none := by
  intro as
  induction as with
  | nil => intro _ o h; cases h
  | cons a as ih =>
    intro h o
    rw [foldKids_cons]
    cases ha : g a o with
    | none => exact absurd ha (h a (by simp) o)
    | some o' => exact ih (fun b hb => h b (by simp [hb])) o'

theorem kids_size (n : Node) : sizeOf n.kids < sizeOf n := by
  cases n with
  | elem a b k => simp [Node.kids]; omega
  | data t => cases t <;> simp [Node.kids] <;> omega

theorem kids_defined (X : Ctx) (hreg : ∀ h c, X.reg h = some c → Direct X.reg c) : ∀ (f : Nat) (inst : Inst), Direct X.reg inst.cls →
    ∀ kids : List Node, sizeOf kids < f → ∀ o, loadKids X f inst kids o ≠ none := by
  intro f
  induction f with
  | zero => intro _ _ kids h; omega
  | succ f ih =>
    intro inst hd kids hk o
    refine foldKids_some _ kids (fun a ha o h => ?_) o
    have hsz := List.sizeOf_lt_of_mem ha
    have hks := kids_size a
    unfold loadKid at h
    split at h
    · cases h
    · rename_i i _
      split at h
      · cases h
      · rename_i r hr
        split at h
        · rename_i hsub
          obtain ⟨h1, c, h2⟩ := hd r (List.mem_of_getElem? hr) hsub
          rw [h1] at h
          simp only [Bool.false_eq_true, if_false] at h
          obtain ⟨sub, h3, h4⟩ := sub_direct hr hsub h1 h2
          rw [h3] at h
          exact ih sub (by rw [h4]; exact hreg _ _ h2) a.kids (by omega) o h
        · cases h

/-- **C62 (definedness).** For a class whose member classes are registered and not in lists, loading is defined for every
document and every object. -/
theorem xml_load_defined_partial (X : Ctx) (hreg : ∀ h c, X.reg h = some c → Direct X.reg c) (inst : Inst) (hd : Direct X.reg inst.cls)
    (lookup : Bool) (doc : List Node) : ∃ f0, ∀ f ≥ f0, ∀ o, load X f inst lookup doc o ≠ none := by
  cases lookup with
  | false => exact ⟨sizeOf doc + 1, fun f hf o => kids_defined X hreg f inst hd doc (by omega) o⟩
  | true =>
    refine ⟨sizeOf doc + 1, fun f hf o => ?_⟩
    unfold load
    simp only [if_true]
    cases hn : doc.find? (fun n => nodeHash n.name == inst.cls.hash) with
    | none => simp
    | some n =>
      have h1 := List.sizeOf_lt_of_mem (List.mem_of_find?_eq_some hn)
      have h2 := kids_size n
      exact kids_defined X hreg f inst hd n.kids (by omega) o

/-- With a list of classes, a document with an item number behind the end dereferences a null instance, at any depth bound:
here `<h:6><i:5><x/></i:5></h:6>` for a list of two. -/
theorem xml_load_item_violated (f : Nat) (o : Obj) :
    load exCtx f ⟨exOuter, 0⟩ false [.elem (hexName 6#32) [] [.elem (itemName 5) [] [.elem [0x78#8] [] []]]] o = none := by
  match f with
  | 0 => rfl
  | f + 1 =>
    show foldKids _ _ o = none
    rw [foldKids_cons]
    have hl : lookup exOuter.tab (nodeHash (hexName 6#32)) = some 1 := by rw [nodeHash_hex]; rfl
    have : loadKid exCtx (loadKids exCtx f) ⟨exOuter, 0⟩ (.elem (hexName 6#32) [] [.elem (itemName 5) [] [.elem [0x78#8] [] []]]) o = none := by
      obtain ⟨r, hr, hs, ha⟩ : ∃ r, exOuter.tab.types[1]? = some r ∧ isSub r = true ∧ isArray r = true := ⟨_, rfl, rfl, rfl⟩
      have he : loadKid exCtx (loadKids exCtx f) ⟨exOuter, 0⟩ (.elem (hexName 6#32) [] [.elem (itemName 5) [] [.elem [0x78#8] [] []]]) o =
          foldKids (fun (sc : Node) o => if sc.name.length < 2 then none else
            intoSub (loadKids exCtx f) (subClass exCtx.reg ⟨exOuter, 0⟩ 1 (toSize (atoll (sc.name.drop 2)))) sc.kids o)
            [Node.elem (itemName 5) [] [.elem [0x78#8] [] []]] o := by
        unfold loadKid
        simp only [Node.name, hl, hr, hs, ha, Node.kids]
        rfl
      rw [he]
      rw [foldKids_cons]
      show Option.bind (if (itemName 5).length < 2 then none else intoSub _ (subClass exCtx.reg ⟨exOuter, 0⟩ 1 (toSize (atoll ((itemName 5).drop 2)))) _ o) _ = none
      rw [item_index 5 (by omega)]
      rfl
    rw [this]
    rfl

example : SoundClass exInner ∧ (∀ h c, exCtx.reg h = some c → SoundClass c) ∧ Direct exCtx.reg exInner := by
  have h : SoundClass exInner := by
    intro r hr
    simp only [exInner, List.mem_cons, List.not_mem_nil, or_false] at hr
    rcases hr with rfl | rfl
    · exact ⟨fun _ => .inl (.inl trivial), fun h => by cases h⟩
    · exact ⟨fun _ => .inl (.inl trivial), fun h => by cases h⟩
  refine ⟨h, ?_, ?_⟩
  · intro hh c hc
    simp only [exCtx] at hc
    split at hc
    · cases hc; exact h
    · cases hc
  · intro r hr hs
    simp only [exInner, List.mem_cons, List.not_mem_nil, or_false] at hr
    rcases hr with rfl | rfl <;> cases hs

/-- The frame theorem applies to the outer class of the example, too, without its list of strings. -/
example : SoundClass ⟨0x22#32, ⟨exOuter.tab.types.take 4, none⟩⟩ := by
  intro r hr
  simp only [exOuter, List.take_succ_cons, List.take_zero, List.mem_cons, List.not_mem_nil, or_false] at hr
  rcases hr with rfl | rfl | rfl | rfl
  · exact ⟨fun _ => .inl (.inl trivial), fun h => by cases h⟩
  · exact ⟨fun h => (by cases h), fun _ _ => by decide⟩
  · refine ⟨fun _ => .inl (.inr (.inr ⟨.inl rfl, rfl, ⟨.inr (.inl rfl), trivial, trivial, ?_⟩, ?_⟩)), fun _ h => by cases h⟩ <;> decide
  · exact ⟨fun _ => .inl (.inl trivial), fun h => by cases h⟩

end PreCore.ReflXml
