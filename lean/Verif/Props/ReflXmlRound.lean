import Verif.Props.ReflXmlList
/-!
# C61: an object saved as XML is loaded back
-/
namespace PreCore.ReflXml
open Refl ReflBin CNum Spec Supercore

/-! ## What must hold of the values -/

/-- A scalar at address `a` whose text denotes it: any integer; a `bool` that is 0 or 1; a registered enumerator; a set of
registered flags; a floating point number that its own decimal text denotes. -/
def ScalarFaithful (env : Env) (o : Obj) (r : RType) (a : Nat) : Prop :=
  match r.type with
  | .Integer | .UnsignedInteger => IsWidth r.subSize.toNat
  | .Bool => o.mem a = 0#8 ∨ o.mem a = 1#8
  | .Enum => r.subSize.toNat ≤ 8 ∧ ∃ tab, env.enums r.typeHash = some tab ∧ GoodTab tab ∧ (∀ e ∈ tab, Clean e.1) ∧
      ∃ e ∈ tab, e.2.toNat = o.nat a r.subSize.toNat
  | .EnumFlags => r.subSize.toNat ≤ 8 ∧ ∃ tab, env.enums r.typeHash = some tab ∧ GoodTab tab ∧ tNULL ∉ tab.map (·.1) ∧
      (∀ e ∈ tab, Clean e.1 ∧ e.1.length ≤ 1000) ∧ ∀ j, (o.nat a r.subSize.toNat).testBit j = true → Registered tab j
  | .FloatingPoint =>
      (r.subSize.toNat = 4 ∧ Clean (env.showFloat (BitVec.ofNat 32 (o.nat a 4))) ∧
        (env.float (env.showFloat (BitVec.ofNat 32 (o.nat a 4)))).2 = some (BitVec.ofNat 32 (o.nat a 4))) ∨
      (r.subSize.toNat = 8 ∧ Clean (env.showDouble (BitVec.ofNat 64 (o.nat a 8))) ∧
        (env.double (env.showDouble (BitVec.ofNat 64 (o.nat a 8)))).2 = some (BitVec.ofNat 64 (o.nat a 8)))
  | _ => False

/-- A non-empty list of such scalars, the element size being the size of the scalar. -/
def ListFaithful (env : Env) (o : Obj) (r : RType) (b : Nat) : Prop :=
  0 < r.numItems.toNat ∧ (r.subType = .Bool → r.subSize = 1#8) ∧ ∀ i < r.numItems.toNat,
    ScalarFaithful env o { r with type := r.subType } (b + r.offset.toNat + r.subSize.toNat * i)

/-- A member of an instance at `b` that is not a class: a scalar, a list of scalars, a list of vectors, a list of
strings without commas, brackets and markup, a string that
survives XML and does not start with a blank, an unsigned (or non-negative) bit-field member of at most 30 bits. -/
def Faithful (env : Env) (o : Obj) (r : RType) (b : Nat) : Prop :=
  match r.type with
  | .BitFieldMember => 0 < r.subSize.toNat ∧ r.subSize.toNat ≤ 30 ∧ r.offset.toNat + r.subSize.toNat ≤ 64 ∧
      (r.subType = .UnsignedInteger ∨ (o.shift b).bits r.offset.toNat r.subSize.toNat < 2 ^ (r.subSize.toNat - 1))
  | .String => o.strs (b + r.offset.toNat) = [] ∨
      (PlainText (o.strs (b + r.offset.toNat)) ∧ ∀ c, (o.strs (b + r.offset.toNat)).head? = some c → ¬ IsBlank false c)
  | .Array | .Vector | .ArrayClass =>
    if r.subType = .Vector then
      0 < r.numItems.toNat ∧ (decSize r.typeHash).toNat * (decNum r.typeHash).toNat = r.subSize.toNat ∧
      ∀ i < r.numItems.toNat, ListFaithful env o
        { r with type := .Vector, subType := decType r.typeHash, numItems := decNum r.typeHash, subSize := decSize r.typeHash }
        (b + r.subSize.toNat * i)
    else if r.subType = .String then
      0 < r.numItems.toNat ∧ ∀ i < r.numItems.toNat, Clean (o.strs (b + r.offset.toNat + r.subSize.toNat * i))
    else ListFaithful env o r b
  | _ => ScalarFaithful env o r (b + r.offset.toNat)

/-- Every member of the instance, and of the instances in it, has such a value; member classes are registered and nested
finitely deep; names are resolved to their member. -/
inductive Savable (X : Ctx) (o : Obj) : Inst → Prop
  | mk {inst : Inst} (hn : Named X.nm inst.cls)
      (hl : ∀ (i : Nat) (r : RType), inst.cls.tab.types[i]? = some r → isSub r = false → Faithful X.env o r inst.base)
      (hd : ∀ (i : Nat) (r : RType) (s : Nat), inst.cls.tab.types[i]? = some r → isSub r = true → s < count r →
        ∃ sub, subClass X.reg inst i s = some sub)
      (hs : ∀ (i : Nat) (r : RType) (s : Nat) (sub : Inst), inst.cls.tab.types[i]? = some r → isSub r = true → s < count r →
        subClass X.reg inst i s = some sub → Savable X o sub) : Savable X o inst

/-! ## From values to texts -/

theorem scalar_ok (env : Env) (o : Obj) (r : RType) (b : Nat) (h : ScalarFaithful env o r (b + r.offset.toNat)) :
    ScalarOk env o r (b + r.offset.toNat) := by
  unfold ScalarFaithful at h
  cases ht : r.type <;> simp only [ht] at h
  case Bool => exact bool_ok env o r b ht h
  case Integer => exact int_ok env o r b (.inl ht) h
  case UnsignedInteger => exact int_ok env o r b (.inr ht) h
  case FloatingPoint => exact float_ok env o r b ht h
  case Enum =>
    obtain ⟨h1, tab, h2, h3, h4, h5⟩ := h
    exact enum_ok env o r b tab ht h1 h2 h3 h4 h5
  case EnumFlags =>
    obtain ⟨h1, tab, h2, h3, h4, h5, h6⟩ := h
    exact flags_ok env o r b tab ht h1 h2 h3 h4 h5 h6

theorem scalarFaithful_type {env : Env} {o : Obj} {r : RType} {a : Nat} (h : ScalarFaithful env o r a) :
    IsScalar r.type ∧ (size r = r.subSize.toNat ∨ r.type = .Bool) ∧ r.type ≠ .Vector := by
  unfold ScalarFaithful at h
  cases ht : r.type <;> simp only [ht] at h <;> simp [IsScalar, size, ht]

theorem list_faithful_ok (env : Env) (o : Obj) (f : Nat) (r : RType) (b : Nat) (hl : IsList r.type) (h : ListFaithful env o r b) :
    ∃ body, print env (f + 2) r (b + r.offset.toNat) o = some ((brackets r.type).1 :: body ++ [(brackets r.type).2]) ∧
      (∀ c ∈ body, ListChar c) ∧ body ≠ [] ∧ body.length ≤ 2 ^ 38 ∧
      Restores (fun o0 => some (setMember env r ((brackets r.type).1 :: body ++ [(brackets r.type).2]) (b + r.offset.toNat) o0).2) o
        (bytes (b + r.offset.toNat) (r.subSize.toNat * r.numItems.toNat)) := by
  obtain ⟨hN, hbool, hall⟩ := h
  obtain ⟨t1, t2, t3⟩ := scalarFaithful_type (hall 0 hN)
  have he : elemType r = { r with type := r.subType } := by unfold elemType; rw [if_neg t3]
  refine scalar_list_ok env o f r b hl hN (by rw [he]; exact t1) ?_ (fun i hi => ?_)
  · rw [he]
    rcases t2 with h | h
    · exact h
    · have h' : r.subType = .Bool := h
      simp [size, h', hbool h']
  · have := hall i hi
    rw [he]
    rw [show b + r.offset.toNat + r.subSize.toNat * i = b + r.subSize.toNat * i + r.offset.toNat by omega] at this ⊢
    exact scalar_ok env o { r with type := r.subType } (b + r.subSize.toNat * i) this

theorem leaf_scalar {env : Env} {o : Obj} {r : RType} {a : Nat} (h : ScalarFaithful env o r a) (b : Nat) (l : Loc) :
    bytes b (size r) l ↔ leaf r b l := by
  unfold ScalarFaithful at h
  cases ht : r.type <;> simp only [ht] at h <;> cases l <;> simp [leaf, bytes, size, ht]

theorem listFaithful_sub {env : Env} {o : Obj} {r : RType} {b : Nat} (h : ListFaithful env o r b) : r.subType ≠ .String := by
  intro hs
  have := h.2.2 0 h.1
  simp [ScalarFaithful, hs] at this

theorem leaf_list {r : RType} (h : IsList r.type) (hs : r.subType ≠ .String) (b : Nat) (l : Loc) : bytes b (r.subSize.toNat * r.numItems.toNat) l ↔ leaf r b l := by
  rcases h with h | h | h <;> cases l <;> simp [leaf, bytes, h, hs]

theorem doc_list (X : Ctx) (hX : Parses X.frag) (o : Obj) (r : RType) (a : Nat) (body : Text)
    (hp : print X.env 3 r a o = some ((brackets r.type).1 :: body ++ [(brackets r.type).2])) (hc : ∀ c ∈ body, DocChar c)
    (hr : Restores (fun o0 => some (setMember X.env r ((brackets r.type).1 :: body ++ [(brackets r.type).2]) a o0).2) o
      (leaf r a)) : TextOk X o r a := by
  refine ⟨_, hp, ?_, hr⟩
  obtain ⟨_, _, h3, h4, h5⟩ := bracket_facts r.type
  rw [hX.2 _ (plain_of_chars (fun c hc' => ?_) ⟨_, rfl, h3⟩)]
  · rfl
  · simp only [List.cons_append, List.mem_cons, List.mem_append, List.not_mem_nil, or_false] at hc'
    rcases hc' with rfl | hc' | rfl
    · exact h4
    · exact hc c hc'
    · exact h5

theorem faithful_ok (X : Ctx) (hX : Parses X.frag) (o : Obj) (inst : Inst) (r : RType) (h : Faithful X.env o r inst.base) :
    TextOk X o r (addr inst r) := by
  have scalar : ScalarFaithful X.env o r (inst.base + r.offset.toNat) → TextOk X o r (inst.base + r.offset.toNat) := by
    intro h
    obtain ⟨t, h1, h2, h3⟩ := scalar_ok X.env o r inst.base h
    exact ⟨t, h1, by rw [hX.2 _ h2.plain]; rfl, h3.congr (fun l => leaf_scalar h _ l)⟩
  have list : IsList r.type → (if r.subType = .Vector then
      0 < r.numItems.toNat ∧ (decSize r.typeHash).toNat * (decNum r.typeHash).toNat = r.subSize.toNat ∧
      ∀ i < r.numItems.toNat, ListFaithful X.env o
        { r with type := .Vector, subType := decType r.typeHash, numItems := decNum r.typeHash, subSize := decSize r.typeHash }
        (inst.base + r.subSize.toNat * i)
    else if r.subType = .String then
      0 < r.numItems.toNat ∧ ∀ i < r.numItems.toNat, Clean (o.strs (inst.base + r.offset.toNat + r.subSize.toNat * i))
    else ListFaithful X.env o r inst.base) → TextOk X o r (inst.base + r.offset.toNat) := by
    intro hl h
    by_cases hv : r.subType = .Vector
    · rw [if_pos hv] at h
      obtain ⟨hN, hsz, hall⟩ := h
      have he : elemType r = { r with type := .Vector, subType := decType r.typeHash, numItems := decNum r.typeHash, subSize := decSize r.typeHash } := by
        unfold elemType; rw [if_pos hv]
      let txt : Nat → Text := fun i => (print X.env 2 (elemType r) (inst.base + r.offset.toNat + r.subSize.toNat * i) o).getD []
      obtain ⟨body, g1, g2, g3, g4, g5⟩ := list_ok X.env o 2 r inst.base DocChar (2 ^ 39) txt
        (fun i => bytes (inst.base + r.offset.toNat + r.subSize.toNat * i) r.subSize.toNat) hl hN (by omega) (by simp [DocChar]) (by
          intro i hi
          obtain ⟨bd, e1, e2, e3, e4, e5⟩ := list_faithful_ok X.env o 0 _ _ (.inr (.inl rfl)) (hall i hi)
          rw [← he] at e1 e5
          rw [show (elemType r).offset.toNat = r.offset.toNat by rw [he],
            show inst.base + r.subSize.toNat * i + r.offset.toNat = inst.base + r.offset.toNat + r.subSize.toNat * i by omega] at e1 e5
          have et : txt i = (brackets (elemType r).type).1 :: bd ++ [(brackets (elemType r).type).2] := by
            show Option.getD _ _ = _; rw [e1]; rfl
          rw [et]
          refine ⟨e1, list_elem _ e2 e4, ?_⟩
          rw [show (elemType r).subSize.toNat * (elemType r).numItems.toNat = r.subSize.toNat by rw [he]; exact hsz] at e5
          exact e5)
      exact doc_list X hX o r _ body g1 g2 (g5.congr (fun l => (bytes_split _ _ _ l).trans (leaf_list hl (by rw [hv]; simp) _ l)))
    · rw [if_neg hv] at h
      by_cases hstr : r.subType = .String
      · rw [if_pos hstr] at h
        obtain ⟨body, g1, g2, _, g5⟩ := string_list_ok X.env o 1 r inst.base hl h.1 hstr h.2
        exact doc_list X hX o r _ body g1 (fun c hc => (g2 c hc).2) g5
      rw [if_neg hstr] at h
      obtain ⟨body, g1, g2, _, _, g5⟩ := list_faithful_ok X.env o 1 r inst.base hl h
      exact doc_list X hX o r _ body g1 (fun c hc => (g2 c hc).2) (g5.congr (fun l => leaf_list hl (listFaithful_sub h) _ l))
  unfold Faithful at h
  unfold addr
  cases ht : r.type <;> simp only [ht] at h <;> simp only [reduceCtorEq, if_false, if_true]
  case BitFieldMember => exact bits_ok X hX o r _ ht h.1 h.2.1 h.2.2.1 h.2.2.2
  case String => exact string_ok X hX o r _ ht h
  case Array => exact list (.inl ht) h
  case Vector => exact list (.inr (.inl ht)) h
  case ArrayClass => exact list (.inr (.inr ht)) h
  all_goals exact scalar h

/-! ## Nesting depth -/

theorem readable_mono (X : Ctx) (o : Obj) : ∀ (f : Nat) (inst : Inst), Readable X o f inst → Readable X o (f + 1) inst := by
  intro f
  induction f with
  | zero => intro inst h; exact h.elim
  | succ f ih =>
    intro inst ⟨h1, h2⟩
    refine ⟨h1, fun i r hr => ?_⟩
    have := h2 i r hr
    split
    · rename_i hs
      rw [if_pos hs] at this
      intro s hc
      obtain ⟨sub, h3, h4⟩ := this s hc
      exact ⟨sub, h3, ih sub h4⟩
    · rename_i hs
      rw [if_neg hs] at this
      exact this

theorem readable_le (X : Ctx) (o : Obj) (inst : Inst) {f g : Nat} (hfg : f ≤ g) (h : Readable X o f inst) : Readable X o g inst := by
  induction hfg with
  | refl => exact h
  | step _ ih => exact readable_mono X o _ inst ih

theorem bounded_max (P : Nat → Nat → Prop) (mono : ∀ n m i, n ≤ m → P n i → P m i) : ∀ N, (∀ i < N, ∃ n, P n i) → ∃ n, ∀ i < N, P n i := by
  intro N
  induction N with
  | zero => intro _; exact ⟨0, fun i hi => by omega⟩
  | succ N ih =>
    intro h
    obtain ⟨n, hn⟩ := ih (fun i hi => h i (by omega))
    obtain ⟨m, hm⟩ := h N (by omega)
    refine ⟨max n m, fun i hi => ?_⟩
    by_cases hi' : i = N
    · rw [hi']; exact mono m _ N (by omega) hm
    · exact mono n _ i (by omega) (hn i (by omega))

theorem savable_readable (X : Ctx) (hX : Parses X.frag) (o : Obj) (inst : Inst) (h : Savable X o inst) : ∃ f, Readable X o f inst := by
  induction h with
  | @mk inst hn hl hd hs ih =>
    have key := bounded_max (fun n i => ∀ (r : RType), inst.cls.tab.types[i]? = some r → isSub r = true → ∀ s < count r, ∀ sub,
      subClass X.reg inst i s = some sub → Readable X o n sub) (by
        intro n m i hnm h r hr hsub s hc sub he
        exact readable_le X o sub hnm (h r hr hsub s hc sub he)) inst.cls.tab.types.length (by
        intro i hi
        obtain ⟨r, hr⟩ : ∃ r, inst.cls.tab.types[i]? = some r := ⟨_, List.getElem?_eq_getElem hi⟩
        cases hsub : isSub r with
        | false =>
          refine ⟨0, fun r' hr' hs' => ?_⟩
          rw [hr] at hr'; cases hr'
          rw [hsub] at hs'; cases hs'
        | true =>
          obtain ⟨n, hn'⟩ := bounded_max (fun n s => ∀ sub, subClass X.reg inst i s = some sub → Readable X o n sub) (by
            intro n m s hnm h sub he
            exact readable_le X o sub hnm (h sub he)) (count r) (by
            intro s hc
            obtain ⟨sub, he⟩ := hd i r s hr hsub hc
            obtain ⟨f, hf⟩ := ih i r s sub hr hsub hc he
            exact ⟨f, fun sub' he' => by rw [he] at he'; cases he'; exact hf⟩)
          refine ⟨n, fun r' hr' _ => ?_⟩
          rw [hr] at hr'; cases hr'
          exact hn')
    obtain ⟨n, hn'⟩ := key
    refine ⟨n + 1, hn, fun i r hr => ?_⟩
    split
    · rename_i hsub
      intro s hc
      obtain ⟨sub, he⟩ := hd i r s hr hsub hc
      exact ⟨sub, he, hn' i (List.getElem?_eq_some_iff.1 hr).1 r hr hsub s hc sub he⟩
    · rename_i hsub
      exact faithful_ok X hX o inst r (hl i r hr (by simpa using hsub))

/-! ## The theorem -/

/-- The name of the class node leads to the class. -/
def ClassNamed (nm : Names) (c : ClassDef) : Prop :=
  ∀ cn ns, nm c.hash = some (cn, ns) → Jenkins.jenHash cn = c.hash ∧ cn.take 2 ≠ [0x68#8, 0x3a#8]

theorem classNamed_hash {nm : Names} {c : ClassDef} (h : ClassNamed nm c) : nodeHash (className nm c) = c.hash := by
  unfold className
  cases hc : nm c.hash with
  | none => exact nodeHash_hex _
  | some p =>
    obtain ⟨cn, ns⟩ := p
    obtain ⟨h1, h2⟩ := h cn ns hc
    simp only
    unfold nodeHash
    rw [if_neg h2, h1]

/-- **C61.** An object whose values are faithful is saved, and loading the resulting document into any object, whatever it
held, gives every member (also of nested classes) the value saved and changes nothing else. This holds for saving into a
new class node behind any other nodes of the document that are not nodes of this class, and for saving into a node that has
no child named like a member; nodes that were there stay there. -/
theorem xml_roundtrip_partial (X : Ctx) (hX : Parses X.frag) (o : Obj) (inst : Inst) (h : Savable X o inst) :
    ∃ f0, ∀ f ≥ f0,
      (ClassNamed X.nm inst.cls → ∀ kids : List Node, (∀ n ∈ kids, nodeHash n.name ≠ inst.cls.hash) →
        ∃ node, save X f inst o true kids = some (kids ++ [node]) ∧ node.name = className X.nm inst.cls ∧
          Restores (load X f inst true (kids ++ [node])) o (Within X.reg inst)) ∧
      (∀ kids : List Node, (∀ n ∈ kids, lookup inst.cls.tab (nodeHash n.name) = none) →
        ∃ ks, save X f inst o false kids = some (kids ++ ks) ∧
          Restores (load X f inst false (kids ++ ks)) o (Within X.reg inst)) := by
  obtain ⟨f0, h0⟩ := savable_readable X hX o inst h
  refine ⟨f0 + 1, fun f hf => ?_⟩
  obtain ⟨ks, h1, h2⟩ := kids_rt X o f inst (readable_le X o inst (by omega) h0)
  refine ⟨fun hc kids hk => ?_, fun kids hk => ⟨ks, by unfold save; rw [h1]; rfl, ?_⟩⟩
  · refine ⟨Node.elem (className X.nm inst.cls) [] ks, by unfold save; rw [h1]; rfl, rfl, ?_⟩
    have hf : (kids ++ [Node.elem (className X.nm inst.cls) [] ks]).find? (fun n => nodeHash n.name == inst.cls.hash) =
        some (Node.elem (className X.nm inst.cls) [] ks) := by
      rw [List.find?_append, List.find?_eq_none.2 (fun n hn => by simpa using hk n hn)]
      simp [Node.name, classNamed_hash hc]
    have he : load X f inst true (kids ++ [Node.elem (className X.nm inst.cls) [] ks]) = loadKids X f inst ks := by
      funext o0
      unfold load
      simp only [if_true, hf, Node.kids]
    rw [he]
    exact h2
  · have he : load X f inst false (kids ++ ks) = loadKids X f inst ks := by
      funext o0
      unfold load
      simp only [Bool.false_eq_true, if_false]
      obtain ⟨f, rfl⟩ : ∃ g, f = g + 1 := ⟨f - 1, by omega⟩
      unfold loadKids
      clear h1 h2
      induction kids with
      | nil => rfl
      | cons n ns ih =>
        have : loadKid X (loadKids X f) inst n o0 = some o0 := by
          unfold loadKid
          rw [hk n (List.mem_cons_self ..)]
        rw [List.cons_append]
        show (match loadKid X (loadKids X f) inst n o0 with | none => none | some o => foldKids _ (ns ++ ks) o) = _
        rw [this]
        exact ih (fun m hm => hk m (List.mem_cons_of_mem _ hm))
    rw [he]
    exact h2

/-! ## A concrete case: two items of a member class, an integer, a string, a list of vectors and a list of strings -/
section Example

/-- 16-bit number and `bool`. -/
def exInner : ClassDef := ⟨0x11#32, ⟨[
  { type := .UnsignedInteger, subType := .None, subSize := 2, ID := 0, numItems := 1, offset := 0, valueNameHash := 1, typeHash := 0 },
  { type := .Bool, subType := .None, subSize := 1, ID := 1, numItems := 1, offset := 2, valueNameHash := 2, typeHash := 0 }], none⟩⟩

/-- `int`, two `exInner`, three vectors of two 16-bit numbers, a string, two strings. -/
def exOuter : ClassDef := ⟨0x22#32, ⟨[
  { type := .Integer, subType := .None, subSize := 4, ID := 0, numItems := 1, offset := 0, valueNameHash := 5, typeHash := 0 },
  { type := .Array, subType := .Class, subSize := 4, ID := 1, numItems := 2, offset := 4, valueNameHash := 6, typeHash := 0x11 },
  { type := .Array, subType := .Vector, subSize := 4, ID := 2, numItems := 3, offset := 12, valueNameHash := 7, typeHash := 0x00020202 },
  { type := .String, subType := .None, subSize := 32, ID := 3, numItems := 1, offset := 24, valueNameHash := 8, typeHash := 0 },
  { type := .Array, subType := .String, subSize := 32, ID := 4, numItems := 2, offset := 56, valueNameHash := 9, typeHash := 0 }], none⟩⟩

def exCtx : Ctx where
  env := ⟨fun _ => none, fun _ => (.None, none), fun _ => (.None, none), fun _ => [], fun _ => []⟩
  reg := fun h => if h = 0x11#32 then some exInner else none
  nm := fun _ => none
  frag := fun t => if t = [] then [] else [.data t]

def exObj : Obj := ⟨fun a => if a = 6 ∨ a = 10 then 1#8 else BitVec.ofNat 8 a, fun _ => [0x61#8, 0x20#8, 0x62#8]⟩

theorem exCtx_parses : Parses exCtx.frag := by
  refine ⟨rfl, fun t ht => ?_⟩
  obtain ⟨_, c, hc, _⟩ := ht
  have : t ≠ [] := by rintro rfl; cases hc
  simp [exCtx, this]

theorem exInner_savable (b : Nat) (h : exObj.mem (b + 2) = 0#8 ∨ exObj.mem (b + 2) = 1#8) : Savable exCtx exObj ⟨exInner, b⟩ := by
  refine .mk ⟨by simp [exInner], fun _ _ h => by cases h⟩ ?_ ?_ ?_
  · intro i r hr _
    match i with
    | 0 => cases hr; exact .inr (.inl rfl)
    | 1 => cases hr; exact h
    | i + 2 => cases hr
  · intro i r s hr hs
    match i with
    | 0 => cases hr; cases hs
    | 1 => cases hr; cases hs
    | i + 2 => cases hr
  · intro i r s sub hr hs
    match i with
    | 0 => cases hr; cases hs
    | 1 => cases hr; cases hs
    | i + 2 => cases hr

theorem exOuter_savable : Savable exCtx exObj ⟨exOuter, 0⟩ := by
  have sub : ∀ s < 2, subClass exCtx.reg ⟨exOuter, 0⟩ 1 s = some ⟨exInner, 4 + s * 4⟩ := by
    intro s hs
    match s with
    | 0 => rfl
    | 1 => rfl
    | s + 2 => omega
  refine .mk ⟨by decide +kernel, fun _ _ h => by cases h⟩ ?_ ?_ ?_
  · intro i r hr hs
    match i with
    | 0 => cases hr; exact .inr (.inr (.inl rfl))
    | 1 => cases hr; cases hs
    | 2 => cases hr; exact ⟨by decide, by decide, fun i hi => ⟨by decide, by decide, fun j hj => .inr (.inl rfl)⟩⟩
    | 3 =>
      cases hr
      refine .inr ⟨⟨?_, 0x61#8, by simp [exObj], by decide⟩, ?_⟩
      · intro c hc
        simp [exObj] at hc
        rcases hc with rfl | rfl | rfl <;> decide
      · intro c hc
        simp [exObj] at hc
        subst hc
        simp [IsBlank]
    | 4 =>
      cases hr
      refine ⟨by decide, fun i hi => ⟨?_, ⟨0x61#8, rfl, by decide⟩, by simp [exObj]⟩⟩
      intro c hc
      simp [exObj] at hc
      rcases hc with rfl | rfl | rfl <;> decide
    | i + 5 => cases hr
  · intro i r s hr hs hc
    match i with
    | 0 => cases hr; cases hs
    | 1 => cases hr; exact ⟨_, sub s hc⟩
    | 2 => cases hr; cases hs
    | 3 => cases hr; cases hs
    | 4 => cases hr; cases hs
    | i + 5 => cases hr
  · intro i r s sub' hr hs hc he
    match i with
    | 0 => cases hr; cases hs
    | 1 =>
      cases hr
      rw [sub s hc] at he
      cases he
      have hc : s < 2 := hc
      refine exInner_savable _ (.inr ?_)
      match s with
      | 0 => rfl
      | 1 => rfl
      | s + 2 => omega
    | 2 => cases hr; cases hs
    | 3 => cases hr; cases hs
    | 4 => cases hr; cases hs
    | i + 5 => cases hr

/-- The theorem applies to it. -/
example : ∃ f0, ∀ f ≥ f0, ∃ doc, save exCtx f ⟨exOuter, 0⟩ exObj true [] = some doc ∧
    Restores (load exCtx f ⟨exOuter, 0⟩ true doc) exObj (Within exCtx.reg ⟨exOuter, 0⟩) := by
  obtain ⟨f0, h⟩ := xml_roundtrip_partial exCtx exCtx_parses exObj _ exOuter_savable
  refine ⟨f0, fun f hf => ?_⟩
  obtain ⟨n, h1, _, h2⟩ := (h f hf).1 (fun _ _ h => by cases h) [] (by intro n hn; cases hn)
  exact ⟨_, h1, h2⟩

/-- Also into a node that has a child named `x`. -/
example : ∃ f0, ∀ f ≥ f0, ∃ ks, save exCtx f ⟨exOuter, 0⟩ exObj false [.elem [0x78#8] [] []] = some (.elem [0x78#8] [] [] :: ks) ∧
    Restores (load exCtx f ⟨exOuter, 0⟩ false (.elem [0x78#8] [] [] :: ks)) exObj (Within exCtx.reg ⟨exOuter, 0⟩) := by
  obtain ⟨f0, h⟩ := xml_roundtrip_partial exCtx exCtx_parses exObj _ exOuter_savable
  exact ⟨f0, fun f hf => (h f hf).2 [.elem [0x78#8] [] []] (by intro n hn; simp at hn; subst hn; decide +kernel)⟩

end Example

/-! ## What cannot be read back -/

/-- A string, and a signed bit-field member of four bits. -/
def exBad : ClassDef := ⟨0x33#32, ⟨[
  { type := .String, subType := .None, subSize := 32, ID := 0, numItems := 1, offset := 0, valueNameHash := 5, typeHash := 0 }], none⟩⟩
def exBits : ClassDef := ⟨0x34#32, ⟨[
  { type := .BitFieldMember, subType := .Integer, subSize := 4, ID := 0, numItems := 1, offset := 0, valueNameHash := 5, typeHash := 0 }], none⟩⟩

/-- The object that holds the string `t`. -/
def exStr (t : Text) : Obj := ⟨fun _ => 0#8, fun _ => t⟩

/-- C61 is violated for every string that starts with a blank: saved and loaded back (by any parser that keeps plain text),
its leading blanks are gone. -/
theorem xml_leading_blank_violated (X : Ctx) (hX : Parses X.frag) (hn : X.nm 0x33#32 = none) (t : Text) (ht : PlainText t) (o0 : Obj)
    (hb : ∃ c, t.head? = some c ∧ (c = 0x20#8 ∨ c = 0x09#8)) :
    ∃ doc o1, save X 1 ⟨exBad, 0⟩ (exStr t) false [] = some doc ∧ load X 1 ⟨exBad, 0⟩ false doc o0 = some o1 ∧
      o1.strs 0 ≠ (exStr t).strs 0 := by
  refine ⟨[.elem (hexName 5#32) [] [.data t]], o0.writeStr 0 (skipStart false t).1, ?_, ?_, ?_⟩
  · simp [save, saveKids, collectT, saveMember, exBad, isSub, isArray, memberName, hn, printMember, print, exStr, hX.2 t ht]
  · have hl : lookup exBad.tab (nodeHash (hexName 5#32)) = some 0 := by rw [nodeHash_hex]; decide
    simp only [load, loadKids, foldKids, loadKid, Node.name, hl, Bool.false_eq_true, if_false]
    simp only [exBad, List.getElem?_cons_zero, isSub, isArray, Node.text, firstData, setMember, member, addr]
    rfl
  · obtain ⟨c, hc, hc2⟩ := hb
    cases t with
    | nil => cases hc
    | cons a s =>
      cases hc
      simp only [Obj.writeStr, if_true, exStr]
      intro he
      obtain ⟨pre, h1, _, h3⟩ := skipStart_spec false (c :: s)
      rw [he] at h3
      have := h3 _ rfl
      rcases hc2 with rfl | rfl
      · exact this (.inl rfl)
      · exact this (.inr (.inl rfl))

/-- C61 is violated for a string with markup: `a<b/>` is inserted as XML, and what is loaded is the text before the
element (`append_buffer`, reflector_xml.cpp:153). -/
theorem xml_markup_violated (X : Ctx) (hn : X.nm 0x33#32 = none)
    (hf : X.frag [0x61#8, 0x3c#8, 0x62#8, 0x2f#8, 0x3e#8] = [.data [0x61#8], .elem [0x62#8] [] []]) (o0 : Obj) :
    ∃ doc o1, save X 1 ⟨exBad, 0⟩ (exStr [0x61#8, 0x3c#8, 0x62#8, 0x2f#8, 0x3e#8]) false [] = some doc ∧
      load X 1 ⟨exBad, 0⟩ false doc o0 = some o1 ∧ o1.strs 0 = [0x61#8] := by
  refine ⟨[.elem (hexName 5#32) [] [.data [0x61#8], .elem [0x62#8] [] []]], o0.writeStr 0 [0x61#8], ?_, ?_, by simp [Obj.writeStr]⟩
  · simp [save, saveKids, collectT, saveMember, exBad, isSub, isArray, memberName, hn, printMember, print, exStr, hf]
  · have hl : lookup exBad.tab (nodeHash (hexName 5#32)) = some 0 := by rw [nodeHash_hex]; decide
    simp only [load, loadKids, foldKids, loadKid, Node.name, hl, Bool.false_eq_true, if_false]
    simp only [exBad, List.getElem?_cons_zero, isSub, isArray, Node.text, firstData, setMember, member, addr]
    rfl

/-- C61 is violated for a signed bit-field member below zero: -2 is saved as `-2` and loaded as -1. -/
theorem xml_signed_bits_violated : ∃ doc o1, save exCtx 1 ⟨exBits, 0⟩ ⟨fun _ => 0x0e#8, fun _ => []⟩ false [] = some doc ∧
    load exCtx 1 ⟨exBits, 0⟩ false doc ⟨fun _ => 0#8, fun _ => []⟩ = some o1 ∧ o1.mem 0 = 0x0f#8 := by
  have hl : lookup exBits.tab (nodeHash (hexName 5#32)) = some 0 := by rw [nodeHash_hex]; decide
  refine ⟨[.elem (hexName 5#32) [] [.data [0x2d#8, 0x32#8]]],
    (setMember exCtx.env { type := .BitFieldMember, subType := .Integer, subSize := 4, ID := 0, numItems := 1, offset := 0, valueNameHash := 5, typeHash := 0 }
      [0x2d#8, 0x32#8] 0 ⟨fun _ => 0#8, fun _ => []⟩).2, ?_, ?_, by decide +kernel⟩
  · have hp : printMember exCtx.env { type := .BitFieldMember, subType := .Integer, subSize := 4, ID := 0, numItems := 1, offset := 0, valueNameHash := 5, typeHash := 0 }
        0 ⟨fun _ => 0x0e#8, fun _ => []⟩ = some [0x2d#8, 0x32#8] := by
      unfold printMember print printBitMember
      simp only
      rw [if_neg (by decide)]
      have : (BitVec.ofNat 64 (leNat ((⟨fun _ => 0x0e#8, fun _ => []⟩ : Obj).read 0 8))) = 0x0e0e0e0e0e0e0e0e#64 := by decide +kernel
      rw [this]
      have h2 : ∀ z : Int, z = -2 → showInt z = [0x2d#8, 0x32#8] := by rintro z rfl; simp [showInt, showNat]
      exact congrArg some (h2 _ (by decide))
    simp only [save, saveKids, collectT, saveMember, exBits, isSub, isArray, memberName, addr]
    rw [show exCtx.nm 0x34#32 = none from rfl]
    simp only [if_true, Nat.add_zero]
    rw [hp]
    simp [exCtx]
  · simp only [load, loadKids, foldKids, loadKid, Node.name, hl, Bool.false_eq_true, if_false]
    simp only [exBits, List.getElem?_cons_zero, isSub, isArray, Node.text, firstData, addr]
    rfl

end PreCore.ReflXml
