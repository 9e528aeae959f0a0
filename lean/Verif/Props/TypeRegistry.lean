import Verif.Model.TypeRegistry
import Verif.Props.ReflReg
/-!
# C142: registered types are found, whatever the order of registration
-/
namespace PreCore.TypeReg
open Refl ReflBin

/-! ## Specification -/

/-- Two registered types get in each other's way: two classes, or two enums, with the same hash. -/
def Clash : TypeDecl → TypeDecl → Prop
  | .cls a, .cls b => a.hash = b.hash
  | .enm a, .enm b => a.hash = b.hash
  | _, _ => False

/-- The enum tables of all of these types can be made (C45). -/
def TablesOk (ts : List TypeDecl) : Prop := ∀ e, TypeDecl.enm e ∈ ts → ∃ t, enumTable e.items = some t

/-- The last class of the list with this hash. -/
inductive LastClass (h : BitVec 32) (c : ClassDecl) : List TypeDecl → Prop
  | here {ts} : c.hash = h → (∀ d, TypeDecl.cls d ∈ ts → d.hash ≠ h) → LastClass h c (.cls c :: ts)
  | there {t ts} : LastClass h c ts → LastClass h c (t :: ts)

/-- The last enum of the list with this hash. -/
inductive LastEnum (h : BitVec 32) (e : EnumDecl) : List TypeDecl → Prop
  | here {ts} : e.hash = h → (∀ d, TypeDecl.enm d ∈ ts → d.hash ≠ h) → LastEnum h e (.enm e :: ts)
  | there {t ts} : LastEnum h e ts → LastEnum h e (t :: ts)

/-! ## Sequences of registrations -/

theorem tables_cons {t ts} : TablesOk (t :: ts) ↔ TablesOk [t] ∧ TablesOk ts := by
  constructor
  · intro h
    exact ⟨fun e he => h e (by simp only [List.mem_singleton] at he; simp [he]), fun e he => h e (by simp [he])⟩
  · rintro ⟨h1, h2⟩ e he
    rcases List.mem_cons.1 he with rfl | he
    · exact h1 _ (by simp)
    · exact h2 _ he

theorem register_some (s : Store) (t : TypeDecl) : (register s t).isSome = true ↔ TablesOk [t] := by
  cases t with
  | cls c => simp [register, TablesOk]
  | enm e =>
    simp only [register, EnumDecl.static]
    rw [Option.map_map, Option.isSome_map, Option.isSome_iff_exists]
    constructor
    · intro h e' he
      rw [List.mem_singleton] at he
      injection he with he
      subst he; exact h
    · intro h; exact h e (by simp)

/-- C142: registering ends with an exception only when an enum table cannot be made. -/
theorem registration_succeeds (s : Store) (ts : List TypeDecl) : (∃ s', registerTypes s ts = some s') ↔ TablesOk ts := by
  induction ts generalizing s with
  | nil => simp [registerTypes, TablesOk]
  | cons t ts ih =>
    rw [tables_cons, ← register_some s t]
    unfold registerTypes
    cases h : register s t with
    | none => simp
    | some s1 => simpa using ih s1

theorem classes_of (s : Store) (ts : List TypeDecl) (s' : Store) (h : registerTypes s ts = some s') (k : BitVec 32) :
    ((∀ d, TypeDecl.cls d ∈ ts → d.hash ≠ k) → s'.classes k = s.classes k) ∧
    (∀ c, LastClass k c ts → s'.classes k = some c.static) := by
  induction ts generalizing s with
  | nil =>
    unfold registerTypes at h
    injection h with h
    subst h
    exact ⟨fun _ => rfl, fun c hc => nomatch hc⟩
  | cons t ts ih =>
    unfold registerTypes at h
    cases hr : register s t with
    | none => rw [hr] at h; simp at h
    | some s1 =>
      rw [hr] at h
      obtain ⟨h1, h2⟩ := ih s1 h
      constructor
      · intro hd
        rw [h1 (fun d hm => hd d (by simp [hm]))]
        cases t with
        | cls c =>
          unfold register at hr
          injection hr with hr
          subst hr
          exact if_neg (fun e => hd c (by simp) e.symm)
        | enm e =>
          simp only [register] at hr
          cases he : e.static with
          | none => rw [he] at hr; simp at hr
          | some o => rw [he] at hr; simp only [Option.map_some, Option.some.injEq] at hr; subst hr; rfl
      · intro c hc
        cases hc with
        | here hk hd =>
          rw [h1 hd]
          unfold register at hr
          injection hr with hr
          subst hr
          exact if_pos hk.symm
        | there hc => exact h2 c hc

theorem enums_of (s : Store) (ts : List TypeDecl) (s' : Store) (h : registerTypes s ts = some s') (k : BitVec 32) :
    ((∀ d, TypeDecl.enm d ∈ ts → d.hash ≠ k) → s'.enums k = s.enums k) ∧
    (∀ e, LastEnum k e ts → s'.enums k = e.static) := by
  induction ts generalizing s with
  | nil =>
    unfold registerTypes at h
    injection h with h
    subst h
    exact ⟨fun _ => rfl, fun c hc => nomatch hc⟩
  | cons t ts ih =>
    unfold registerTypes at h
    cases hr : register s t with
    | none => rw [hr] at h; simp at h
    | some s1 =>
      rw [hr] at h
      obtain ⟨h1, h2⟩ := ih s1 h
      have he : ∀ e, t = .enm e → ∃ o, e.static = some o ∧ s1.enums = assign s.enums e.hash o := by
        rintro e rfl
        simp only [register] at hr
        cases he : e.static with
        | none => rw [he] at hr; simp at hr
        | some o => rw [he] at hr; simp only [Option.map_some, Option.some.injEq] at hr; subst hr; exact ⟨o, rfl, rfl⟩
      constructor
      · intro hd
        rw [h1 (fun d hm => hd d (by simp [hm]))]
        cases t with
        | cls c =>
          unfold register at hr
          injection hr with hr
          subst hr; rfl
        | enm e =>
          obtain ⟨o, -, h4⟩ := he e rfl
          rw [h4]
          exact if_neg (fun e' => hd e (by simp) e'.symm)
      · intro c hc
        cases hc with
        | here hk hd =>
          rw [h1 hd]
          obtain ⟨o, h3, h4⟩ := he c rfl
          rw [h4, h3]
          exact if_pos hk.symm
        | there hc => exact h2 c hc

/-- C142: for every sequence of registrations, a hash is answered with the class (enum) registered last under it; without one, the
answer is "not registered". -/
theorem last_registered (ts : List TypeDecl) (s : Store) (h : registerTypes .empty ts = some s) (k : BitVec 32) :
    (∀ c, LastClass k c ts → s.classes k = some c.static) ∧
    (s.classes k = none ↔ ∀ d, TypeDecl.cls d ∈ ts → d.hash ≠ k) ∧
    (∀ e t, LastEnum k e ts → enumTable e.items = some t → s.enums k = some ⟨e.name, t⟩) ∧
    (s.enums k = none ↔ ∀ d, TypeDecl.enm d ∈ ts → d.hash ≠ k) := by
  have hc := classes_of _ ts s h k
  have he := enums_of _ ts s h k
  have exC : ∀ l : List TypeDecl, (∃ d, TypeDecl.cls d ∈ l ∧ d.hash = k) → ∃ c, LastClass k c l := by
    intro l
    induction l with
    | nil => rintro ⟨d, hm, -⟩; simp at hm
    | cons t l ih =>
      intro hx
      by_cases hl : ∃ d, TypeDecl.cls d ∈ l ∧ d.hash = k
      · obtain ⟨c, hc⟩ := ih hl; exact ⟨c, .there hc⟩
      · obtain ⟨d, hm, hk⟩ := hx
        rcases List.mem_cons.1 hm with rfl | hm
        · exact ⟨d, .here hk (fun d' hm' hk' => hl ⟨d', hm', hk'⟩)⟩
        · exact absurd ⟨d, hm, hk⟩ hl
  have exE : ∀ l : List TypeDecl, (∃ d, TypeDecl.enm d ∈ l ∧ d.hash = k) → ∃ c, LastEnum k c l ∧ TypeDecl.enm c ∈ l := by
    intro l
    induction l with
    | nil => rintro ⟨d, hm, -⟩; simp at hm
    | cons t l ih =>
      intro hx
      by_cases hl : ∃ d, TypeDecl.enm d ∈ l ∧ d.hash = k
      · obtain ⟨c, hc, hm⟩ := ih hl; exact ⟨c, .there hc, by simp [hm]⟩
      · obtain ⟨d, hm, hk⟩ := hx
        rcases List.mem_cons.1 hm with rfl | hm
        · exact ⟨d, .here hk (fun d' hm' hk' => hl ⟨d', hm', hk'⟩), by simp⟩
        · exact absurd ⟨d, hm, hk⟩ hl
  refine ⟨hc.2, ⟨fun hn d hm hk => ?_, fun hd => hc.1 hd⟩, fun e t hl ht => ?_, ⟨fun hn d hm hk => ?_, fun hd => he.1 hd⟩⟩
  · obtain ⟨c, hl⟩ := exC ts ⟨d, hm, hk⟩
    rw [hc.2 c hl] at hn; simp at hn
  · rw [he.2 e hl]; unfold EnumDecl.static; rw [ht]; rfl
  · obtain ⟨c, hl, hmem⟩ := exE ts ⟨d, hm, hk⟩
    obtain ⟨t, ht⟩ := (registration_succeeds _ ts).1 ⟨s, h⟩ c hmem
    rw [he.2 c hl] at hn; unfold EnumDecl.static at hn; rw [ht] at hn; simp at hn

theorem lastClass_of {ts : List TypeDecl} (hp : ts.Pairwise (fun a b => ¬ Clash a b)) {c : ClassDecl} (hm : TypeDecl.cls c ∈ ts) :
    LastClass c.hash c ts := by
  induction ts with
  | nil => simp at hm
  | cons t ts ih =>
    obtain ⟨h1, h2⟩ := List.pairwise_cons.1 hp
    rcases List.mem_cons.1 hm with rfl | hm
    · exact .here rfl (fun d hd hk => h1 _ hd hk.symm)
    · exact .there (ih h2 hm)

theorem lastEnum_of {ts : List TypeDecl} (hp : ts.Pairwise (fun a b => ¬ Clash a b)) {c : EnumDecl} (hm : TypeDecl.enm c ∈ ts) :
    LastEnum c.hash c ts := by
  induction ts with
  | nil => simp at hm
  | cons t ts ih =>
    obtain ⟨h1, h2⟩ := List.pairwise_cons.1 hp
    rcases List.mem_cons.1 hm with rfl | hm
    · exact .here rfl (fun d hd hk => h1 _ hd hk.symm)
    · exact .there (ih h2 hm)

theorem clash_symm : ∀ {a b : TypeDecl}, ¬ Clash a b → ¬ Clash b a
  | .cls _, .cls _, h => fun e => h (Eq.symm e)
  | .enm _, .enm _, h => fun e => h (Eq.symm e)
  | .cls _, .enm _, _ => id
  | .enm _, .cls _, _ => id

/-- C142: types without clashes: every one of them is found under its hash with its own description, and the order of registration
does not matter. -/
theorem registered_found_partial (ts : List TypeDecl) (hok : TablesOk ts) (hp : ts.Pairwise (fun a b => ¬ Clash a b)) :
    ∃ s, registerTypes .empty ts = some s ∧
      (∀ c, TypeDecl.cls c ∈ ts → s.classes c.hash = some c.static) ∧
      (∀ e t, TypeDecl.enm e ∈ ts → enumTable e.items = some t → s.enums e.hash = some ⟨e.name, t⟩) ∧
      ∀ ts', ts.Perm ts' → registerTypes .empty ts' = some s := by
  obtain ⟨s, hs⟩ := (registration_succeeds .empty ts).2 hok
  refine ⟨s, hs, fun c hm => (last_registered ts s hs c.hash).1 c (lastClass_of hp hm),
    fun e t hm ht => (last_registered ts s hs e.hash).2.2.1 e t (lastEnum_of hp hm) ht, fun ts' perm => ?_⟩
  obtain ⟨s', hs'⟩ := (registration_succeeds .empty ts').2 (fun e he => hok e (perm.mem_iff.2 he))
  have hp' : ts'.Pairwise (fun a b => ¬ Clash a b) := (perm.pairwise_iff clash_symm).1 hp
  rw [hs']
  have hC : s'.classes = s.classes := by
    funext k
    by_cases hx : ∃ d, TypeDecl.cls d ∈ ts ∧ d.hash = k
    · obtain ⟨d, hm, rfl⟩ := hx
      rw [(last_registered ts s hs _).1 d (lastClass_of hp hm), (last_registered ts' s' hs' _).1 d (lastClass_of hp' (perm.mem_iff.1 hm))]
    · have h1 : ∀ d, TypeDecl.cls d ∈ ts → d.hash ≠ k := fun d hm hk => hx ⟨d, hm, hk⟩
      rw [(last_registered ts s hs k).2.1.2 h1, (last_registered ts' s' hs' k).2.1.2 (fun d hm => h1 d (perm.mem_iff.2 hm))]
  have hE : s'.enums = s.enums := by
    funext k
    by_cases hx : ∃ d, TypeDecl.enm d ∈ ts ∧ d.hash = k
    · obtain ⟨d, hm, rfl⟩ := hx
      obtain ⟨t, ht⟩ := hok d hm
      rw [(last_registered ts s hs _).2.2.1 d t (lastEnum_of hp hm) ht,
        (last_registered ts' s' hs' _).2.2.1 d t (lastEnum_of hp' (perm.mem_iff.1 hm)) ht]
    · have h1 : ∀ d, TypeDecl.enm d ∈ ts → d.hash ≠ k := fun d hm hk => hx ⟨d, hm, hk⟩
      rw [(last_registered ts s hs k).2.2.2.2 h1, (last_registered ts' s' hs' k).2.2.2.2 (fun d hm => h1 d (perm.mem_iff.2 hm))]
  cases s; cases s'
  simp only at hC hE
  rw [hC, hE]

/-! ## Member classes -/

/-- A member of class type, or an array of `n` of them: the class, its size, the number of elements. -/
inductive OfClass (c : ClassDecl) : CTy → Nat → Nat → Prop
  | one (size : Nat) : OfClass c (.cls size c.hash) size 1
  | bits (size : Nat) : OfClass c (.bits size c.hash) size 1
  | arr (size n : Nat) : size < 256 → n < 65536 → OfClass c (.arr (.cls size c.hash) n) size n
  | arrBits (size n : Nat) : size < 256 → n < 65536 → OfClass c (.arr (.bits size c.hash) n) size n

/-- C142: when the classes of a program are registered without a clash, `GetReflectedSubClass` of a member that is a class or an array
of classes gives the description of that class and the address of the element asked for. -/
theorem member_class_partial (ts : List TypeDecl) (hp : ts.Pairwise (fun a b => ¬ Clash a b)) (s : Store)
    (hs : registerTypes .empty ts = some s) (ms : List Member) (hcount : GoodCount ms.length) (tab : List RType)
    (htab : buildTable ms = some tab) (c : ClassDecl) (hm : TypeDecl.cls c ∈ ts) (i : Nat) (m : Member) (hi : ms[i]? = some m)
    (hoff : m.offset < 65536) (size n sub : Nat) (ht : OfClass c m.ty size n) (hsub : sub < n) (hash : BitVec 32)
    (al : Option (List (BitVec 32))) (base : Nat) :
    subClass s.classes ⟨⟨hash, ⟨tab, al⟩⟩, base⟩ i sub = some ⟨c.static, base + m.offset + sub * size⟩ := by
  have hreg := (last_registered ts s hs c.hash).1 c (lastClass_of hp hm)
  rw [buildTable_eq ms hcount] at htab
  injection htab with htab
  subst htab
  have hr : (ms.mapIdx buildType)[i]? = some (buildType i m) := by simp [hi]
  have ho : (buildType i m).offset.toNat = m.offset := by
    show (BitVec.ofNat 16 m.offset).toNat = _
    rw [BitVec.toNat_ofNat, Nat.mod_eq_of_lt hoff]
  unfold subClass
  simp only [hr, ho]
  obtain ⟨name, ty, off⟩ := m
  cases ht with
  | one size =>
    obtain rfl : sub = 0 := by omega
    simp [buildType, CTy.ty, CTy.hash, hreg]
  | bits size =>
    obtain rfl : sub = 0 := by omega
    simp [buildType, CTy.ty, CTy.hash, hreg]
  | arr size n h1 h2 =>
    have e2 : size % 256 = size := Nat.mod_eq_of_lt h1
    simp only [buildType, CTy.ty, CTy.sub, CTy.hash, CTy.numItems, CTy.subSize, CTy.sizeof, hreg, BitVec.toNat_ofNat]
    rw [if_neg (by omega)]
    simp [e2]
  | arrBits size n h1 h2 =>
    have e2 : size % 256 = size := Nat.mod_eq_of_lt h1
    simp only [buildType, CTy.ty, CTy.sub, CTy.hash, CTy.numItems, CTy.subSize, CTy.sizeof, hreg, BitVec.toNat_ofNat]
    rw [if_neg (by omega)]
    simp [e2]

/-! ## Clashes -/

/-- C142 VIOLATED: `REFLECTOR_CREATE` without flags gives every class the hash 0, so of all registered classes of this kind only the last
one is found: a member of type `a` is described as a `b`. -/
theorem plain_classes_violated (a b : ClassDecl) (ha : a.flagged = false) (hb : b.flagged = false) :
    ∃ s, registerTypes .empty [.cls a, .cls b] = some s ∧ s.classes a.hash = some b.static ∧ s.classes 0#32 = some ⟨0#32, b.tab⟩ := by
  have e : a.hash = b.hash := by simp [ClassDecl.hash, ha, hb]
  have z : b.hash = 0#32 := by simp [ClassDecl.hash, hb]
  have z' : b.static = ⟨0#32, b.tab⟩ := by rw [← z]; rfl
  exact ⟨_, rfl, if_pos e, (if_pos z.symm).trans (by rw [z'])⟩

/-- "ChunkLayer", "ChunkRoomColor". -/
def chunkLayer : Text := [0x43, 0x68, 0x75, 0x6e, 0x6b, 0x4c, 0x61, 0x79, 0x65, 0x72].map (BitVec.ofNat 8)
def chunkRoomColor : Text :=
  [0x43, 0x68, 0x75, 0x6e, 0x6b, 0x52, 0x6f, 0x6f, 0x6d, 0x43, 0x6f, 0x6c, 0x6f, 0x72].map (BitVec.ofNat 8)

/-- C142 VIOLATED: the names ChunkLayer and ChunkRoomColor have the same hash; of two such classes (enums) only the one registered last is
found, and nothing reports the clash. -/
theorem names_clash_violated (t u : ClassTab) (x y : List Text) (ty : EnumTab) (hx : ∃ tx, enumTable x = some tx) (hy : enumTable y = some ty) :
    chunkLayer ≠ chunkRoomColor ∧
    (∃ s, registerTypes .empty [.cls ⟨chunkLayer, true, t⟩, .cls ⟨chunkRoomColor, true, u⟩] = some s ∧
      s.classes (Jenkins.jenHash chunkLayer) = some ⟨Jenkins.jenHash chunkRoomColor, u⟩) ∧
    ∃ s, registerTypes .empty [.enm ⟨chunkLayer, x⟩, .enm ⟨chunkRoomColor, y⟩] = some s ∧
      s.enums (Jenkins.jenHash chunkLayer) = some ⟨chunkRoomColor, ty⟩ := by
  have e : Jenkins.jenHash chunkLayer = Jenkins.jenHash chunkRoomColor := by decide +kernel
  refine ⟨by decide, ?_, ?_⟩
  · obtain ⟨s, hs⟩ := (registration_succeeds .empty [.cls ⟨chunkLayer, true, t⟩, .cls ⟨chunkRoomColor, true, u⟩]).2 (by simp [TablesOk])
    refine ⟨s, hs, ?_⟩
    have h2 : (⟨chunkRoomColor, true, u⟩ : ClassDecl).hash = Jenkins.jenHash chunkRoomColor := if_pos rfl
    have := (last_registered _ s hs _).1 ⟨chunkRoomColor, true, u⟩ (.there (.here (h2.trans e.symm) (by simp)))
    rw [this]; unfold ClassDecl.static; rw [h2]
  obtain ⟨tx, hx⟩ := hx
  have hok : TablesOk [.enm ⟨chunkLayer, x⟩, .enm ⟨chunkRoomColor, y⟩] := by
    intro d hd
    simp only [List.mem_cons, TypeDecl.enm.injEq, List.not_mem_nil, or_false] at hd
    rcases hd with rfl | rfl
    · exact ⟨tx, hx⟩
    · exact ⟨ty, hy⟩
  obtain ⟨s, hs⟩ := (registration_succeeds .empty _).2 hok
  exact ⟨s, hs, (last_registered _ s hs _).2.2.1 ⟨chunkRoomColor, y⟩ ty (.there (.here e.symm (by simp))) hy⟩

/-! ## Before `main` -/

/-- All types of the events, in order. -/
def Event.list : Event → List TypeDecl
  | .construct => []
  | .types ts => ts

theorem registerTypes_append (s : Store) (a b : List TypeDecl) : registerTypes s (a ++ b) = (registerTypes s a).bind (registerTypes · b) := by
  induction a generalizing s with
  | nil => rfl
  | cons t a ih =>
    simp only [List.cons_append, registerTypes]
    cases register s t with
    | none => rfl
    | some s1 => exact ih s1

theorem live_fold (evs : List Event) (s s' : Store) (h : registerTypes s (evs.flatMap Event.list) = some s') :
    evs.foldl step (.live s) = .live s' := by
  induction evs generalizing s with
  | nil => simp only [List.flatMap_nil, registerTypes, Option.some.injEq] at h; subst h; rfl
  | cons ev evs ih =>
    rw [List.flatMap_cons, registerTypes_append] at h
    cases h1 : registerTypes s ev.list with
    | none => rw [h1] at h; simp at h
    | some s1 =>
      rw [h1] at h
      rw [List.foldl_cons]
      have : step (.live s) ev = .live s1 := by
        cases ev with
        | construct => simp only [Event.list, registerTypes, Option.some.injEq] at h1; subst h1; rfl
        | types ts => simp only [Event.list] at h1; simp [step, h1]
      rw [this]
      exact ih s1 h

/-- C142: static registration objects, in whatever order the linker puts them behind the initialisation of the maps: `main` finds every
type with its own description. -/
theorem static_registration_partial (evs perm : List Event) (hperm : evs.Perm perm) (hok : TablesOk (evs.flatMap Event.list))
    (hp : (evs.flatMap Event.list).Pairwise (fun a b => ¬ Clash a b)) :
    ∃ s, startup (.construct :: perm) = .live s ∧
      (∀ c, TypeDecl.cls c ∈ evs.flatMap Event.list → s.classes c.hash = some c.static) ∧
      (∀ e t, TypeDecl.enm e ∈ evs.flatMap Event.list → enumTable e.items = some t → s.enums e.hash = some ⟨e.name, t⟩) := by
  obtain ⟨s, -, h1, h2, h3⟩ := registered_found_partial _ hok hp
  exact ⟨s, live_fold perm .empty s (h3 _ (hperm.flatMap_right _)), h1, h2⟩

/-- C142 VIOLATED: when the linker puts a static registration object in front of the initialisation of the maps, the maps are used before
they are constructed, whatever follows. -/
theorem static_registration_violated (t : TypeDecl) (ts : List TypeDecl) (rest : List Event) :
    startup (.types (t :: ts) :: rest) = .lost := by
  unfold startup
  rw [List.foldl_cons]
  show rest.foldl step .lost = .lost
  induction rest with
  | nil => rfl
  | cons e r ih => exact ih

/-! ## The hypotheses can be met -/

/-- A class with flags, another one, and an enum with the name of the first. -/
def exTypes : List TypeDecl :=
  [.cls ⟨chunkLayer, true, ⟨[], none⟩⟩, .cls ⟨[0x41#8], true, ⟨[], none⟩⟩, .enm ⟨chunkLayer, [[0x42#8]]⟩]

example : TablesOk exTypes ∧ exTypes.Pairwise (fun a b => ¬ Clash a b) := by
  refine ⟨fun e he => ?_, ?_⟩
  · simp only [exTypes, List.mem_cons, TypeDecl.enm.injEq, List.not_mem_nil, or_false, reduceCtorEq, false_or] at he
    subst he
    exact ⟨[([0x42#8], 0#64)], by decide +kernel⟩
  · simp only [exTypes, List.pairwise_cons, List.mem_cons, List.not_mem_nil, or_false, forall_eq_or_imp, forall_eq, Clash, not_false_eq_true,
      and_self, and_true, false_imp_iff, implies_true, List.Pairwise.nil]
    decide +kernel

/-- A member that is an array of three objects of the first class, and a bit field. -/
example : OfClass ⟨chunkLayer, true, ⟨[], none⟩⟩ (.arr (.cls 16 (Jenkins.jenHash chunkLayer)) 3) 16 3 ∧
    OfClass ⟨[0x41#8], true, ⟨[], none⟩⟩ (.bits 4 (Jenkins.jenHash [0x41#8])) 4 1 :=
  ⟨.arr 16 3 (by omega) (by omega), .bits 4⟩

end PreCore.TypeReg
