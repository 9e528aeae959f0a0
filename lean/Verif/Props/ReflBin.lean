import Verif.Model.ReflBin
import Verif.Props.Base128
import Verif.Props.ReflectorFrame
/-!
# C28, C29: saving and loading reflected objects in binary form
-/
namespace PreCore.ReflBin
open Refl Base128

/-! ## Specification -/

/-- Two objects agree at `x`: on the string stored there (`b`), or on the byte. -/
def Same (b : Bool) (x : Nat) (o o' : Obj) : Prop := if b then o.strs x = o'.strs x else o.mem x = o'.mem x

theorem Same.refl (b x) (o : Obj) : Same b x o o := by unfold Same; split <;> rfl
theorem Same.trans {b x} {o p q : Obj} (h : Same b x o p) (h' : Same b x p q) : Same b x o q := by
  unfold Same at *; split <;> simp_all

/-- `Covers f reg inst r a b x`: the field described by `r` at address `a` covers byte `x` (or, with `b`, the string at
`x`); lists cover what their elements cover, classes what their fields cover. -/
def Covers (reg : Registry) : Nat → Inst → RType → Nat → Bool → Nat → Prop
  | 0, _, _, _, _, _ => False
  | f + 1, inst, r, a, b, x =>
    match r.type with
    | .Integer | .Enum | .UnsignedInteger | .EnumFlags | .BitFieldClass | .Bool | .FloatingPoint =>
      b = false ∧ a ≤ x ∧ x < a + r.subSize.toNat
    | .String => b = true ∧ x = a
    | .Array | .ArrayClass | .Vector => ∃ i, i < r.numItems.toNat ∧ Covers reg f inst (elem r i) (a + r.subSize.toNat * i) b x
    | .Class => ∃ sub, subClass reg inst r.ID.toNat r.numItems.toNat = some sub ∧
        ∃ t ∈ sub.cls.tab.types, Covers reg f sub t (sub.base + t.offset.toNat) b x
    | _ => False

/-- What the fields of an instance cover. -/
def CoversClass (reg : Registry) (f : Nat) (inst : Inst) (b : Bool) (x : Nat) : Prop :=
  ∃ t ∈ inst.cls.tab.types, Covers reg f inst t (inst.base + t.offset.toNat) b x

def Disjoint (S T : Bool → Nat → Prop) : Prop := ∀ b x, S b x → ¬ T b x

/-- Neither a class nor a list of classes. -/
def classFree : Nat → RType → Prop
  | 0, _ => True
  | f + 1, r => r.type ≠ .Class ∧
    ((r.type = .Array ∨ r.type = .ArrayClass ∨ r.type = .Vector) → ∀ i, i < r.numItems.toNat → classFree f (elem r i))

/-- The classes inside a field are resolved alike through `root` and through `inst` (`Save` uses the former, `Load` the
latter). Trivial when they are the same, or when there are none. -/
def SameSub (reg : Registry) (root inst : Inst) : Nat → RType → Prop
  | 0, _ => True
  | f + 1, r => (r.type = .Class → subClass reg root r.ID.toNat r.numItems.toNat = subClass reg inst r.ID.toNat r.numItems.toNat) ∧
    ((r.type = .Array ∨ r.type = .ArrayClass ∨ r.type = .Vector) → ∀ i, i < r.numItems.toNat → SameSub reg root inst f (elem r i))

theorem SameSub.refl (reg inst) : ∀ f r, SameSub reg inst inst f r
  | 0, _ => trivial
  | f + 1, r => ⟨fun _ => rfl, fun _ i _ => SameSub.refl reg inst f (elem r i)⟩

theorem SameSub.of_classFree (reg root inst) : ∀ f r, classFree f r → SameSub reg root inst f r
  | 0, _, _ => trivial
  | f + 1, r, h => ⟨fun e => absurd e h.1, fun ht i hi => SameSub.of_classFree reg root inst f (elem r i) (h.2 ht i hi)⟩

/-- The reflected field names of a class are distinct, and its fields and list elements do not overlap;
strings are shorter than 4 GiB and 8 byte integers at least `-2^55` (see `bin_int64_violated`).
Classes inside the class contain no further classes (see `bin_nested_violated`). -/
def Fine (reg : Registry) (o : Obj) : Nat → Inst → RType → Nat → Prop
  | 0, _, _, _ => True
  | f + 1, inst, r, a =>
    match r.type with
    | .Integer | .Enum => r.subSize.toNat = 8 → -(2 ^ 55 : Int) ≤ o.int a 8
    | .String => (o.strs a).length < 2 ^ 32
    | .Array | .ArrayClass | .Vector =>
      (∀ i, i < r.numItems.toNat → Fine reg o f inst (elem r i) (a + r.subSize.toNat * i)) ∧
      ∀ i j, i < j → j < r.numItems.toNat → Disjoint (Covers reg f inst (elem r i) (a + r.subSize.toNat * i))
        (Covers reg f inst (elem r j) (a + r.subSize.toNat * j))
    | .Class => ∀ sub, subClass reg inst r.ID.toNat r.numItems.toNat = some sub →
        sub.cls.tab.types.length < 2 ^ 32 ∧
        (∀ t ∈ sub.cls.tab.types, typeOf sub.cls.tab t.valueNameHash = some t) ∧
        (∀ t ∈ sub.cls.tab.types, Fine reg o f sub t (sub.base + t.offset.toNat) ∧ classFree f t) ∧
        sub.cls.tab.types.Pairwise (fun t u => Disjoint (Covers reg f sub t (sub.base + t.offset.toNat))
          (Covers reg f sub u (sub.base + u.offset.toNat)))
    | _ => True

/-- The same for the root class, whose fields may be classes. -/
def FineRoot (reg : Registry) (o : Obj) (f : Nat) (c : ClassDef) : Prop :=
  c.tab.types.length < 2 ^ 32 ∧
  (∀ t ∈ c.tab.types, typeOf c.tab t.valueNameHash = some t) ∧
  (∀ t ∈ c.tab.types, Fine reg o f ⟨c, 0⟩ t t.offset.toNat) ∧
  c.tab.types.Pairwise (fun t u => Disjoint (Covers reg f ⟨c, 0⟩ t t.offset.toNat) (Covers reg f ⟨c, 0⟩ u u.offset.toNat))

/-! ## Proof -/

/-- A writer and a reader fit: reading back what was written consumes exactly that and makes the target agree with the
source on `T`, leaving the rest alone. -/
def RT (o : Obj) (w : WRes) (l : List Byte → Obj → RRes) (T : Bool → Nat → Prop) : Prop :=
  ∀ bs, w = some (0, bs) → ∀ rest o0, ∃ o1, l (bs ++ rest) o0 = some (0, rest, o1) ∧
    (∀ b x, T b x → Same b x o1 o) ∧ (∀ b x, ¬ T b x → Same b x o1 o0)

theorem takeN_append (a rest : List Byte) : takeN a.length (a ++ rest) = some (a, rest) := by
  unfold takeN
  rw [if_pos (by simp)]
  simp

theorem takeN_toLE (n v : Nat) (rest : List Byte) : takeN n (toLE n v ++ rest) = some (toLE n v, rest) := by
  have := takeN_append (toLE n v) rest
  rwa [toLE_length] at this

theorem write_same (o o0 : Obj) (a : Nat) (bs : List Byte) (h : bs = o.read a bs.length) :
    (∀ b x, (b = false ∧ a ≤ x ∧ x < a + bs.length) → Same b x (o0.write a bs) o) ∧
    (∀ b x, ¬ (b = false ∧ a ≤ x ∧ x < a + bs.length) → Same b x (o0.write a bs) o0) := by
  constructor
  · rintro b x ⟨rfl, h1, h2⟩
    unfold Same Obj.write
    simp only [Bool.false_eq_true, if_false]
    rw [if_pos ⟨h1, h2⟩, List.getD_eq_getElem?_getD, h]
    rw [Refl.read_getElem? _ _ _ _ (by omega), show a + (x - a) = x by omega]
    rfl
  · intro b x hx
    unfold Same
    cases b with
    | true => rfl
    | false =>
      simp only [Bool.false_eq_true, if_false]
      exact write_mem_out _ _ _ _ (by simp at hx; omega)

theorem elems_rt (o : Obj) (wi : Nat → WRes) (li : Nat → List Byte → Obj → RRes) (T : Nat → Bool → Nat → Prop) :
    ∀ k i, (∀ j, i ≤ j → j < i + k → RT o (wi j) (li j) (T j)) →
      (∀ j j', i ≤ j → j < j' → j' < i + k → Disjoint (T j) (T j')) →
      RT o (writeElems wi k i) (loadElems li k i) (fun b x => ∃ j, i ≤ j ∧ j < i + k ∧ T j b x) := by
  intro k
  induction k with
  | zero =>
    intro i _ _ bs hw rest o0
    simp only [writeElems, Option.some.injEq, Prod.mk.injEq, true_and] at hw
    subst hw
    exact ⟨o0, rfl, fun b x ⟨j, h1, h2, _⟩ => by omega, fun b x _ => Same.refl _ _ _⟩
  | succ k ih =>
    intro i hrt hd bs hw rest o0
    simp only [writeElems] at hw
    split at hw
    · cases hw
    · rename_i e b1 hwi
      split at hw
      · simp at hw
      · rename_i he
        have he : e = 0 := by simpa using he
        subst he
        split at hw
        · cases hw
        · rename_i e b2 hwr
          simp only [Option.some.injEq, Prod.mk.injEq] at hw
          obtain ⟨rfl, rfl⟩ := hw
          obtain ⟨o1, r1, s1, f1⟩ := hrt i (by omega) (by omega) b1 hwi (b2 ++ rest) o0
          obtain ⟨o2, r2, s2, f2⟩ := ih (i + 1) (fun j h1 h2 => hrt j (by omega) (by omega))
            (fun j j' h1 h2 h3 => hd j j' (by omega) h2 (by omega)) b2 hwr rest o1
          refine ⟨o2, ?_, ?_, ?_⟩
          · rw [loadElems, List.append_assoc, r1]
            simp only [ne_eq, not_true_eq_false, if_false]
            exact r2
          · rintro b x ⟨j, h1, h2, h3⟩
            by_cases hj : j = i
            · subst hj
              refine (f2 b x ?_).trans (s1 b x h3)
              rintro ⟨j', g1, g2, g3⟩
              exact hd j j' (by omega) (by omega) (by omega) b x h3 g3
            · exact s2 b x ⟨j, by omega, by omega, h3⟩
          · intro b x hx
            refine (f2 b x ?_).trans (f1 b x ?_)
            · rintro ⟨j, g1, g2, g3⟩; exact hx ⟨j, by omega, by omega, g3⟩
            · intro h; exact hx ⟨i, by omega, by omega, h⟩

/-- Fields the target class knows (with the same description) are read back, fields it does not know are skipped. -/
theorem fields_rt (o : Obj) (tab : ClassTab) (wi : RType → WRes) (li : RType → List Byte → Obj → RRes) (T : RType → Bool → Nat → Prop) :
    ∀ ts : List RType,
      (∀ t ∈ ts, (typeOf tab t.valueNameHash = some t ∧ RT o (wi t) (li t) (T t)) ∨
        (typeOf tab t.valueNameHash = none ∧ ∀ bs, wi t = some (0, bs) → bs.length < 2 ^ 31)) →
      ts.Pairwise (fun t u => Disjoint (T t) (T u)) →
      ∀ bs, saveFields wi ts = some (0, bs) → ∀ rest o0, ∃ o1,
        loadFields tab li ts.length 0 (bs ++ rest) o0 = some (0, rest, o1) ∧
        (∀ b x, (∃ t ∈ ts, typeOf tab t.valueNameHash = some t ∧ T t b x) → Same b x o1 o) ∧
        (∀ b x, ¬ (∃ t ∈ ts, typeOf tab t.valueNameHash = some t ∧ T t b x) → Same b x o1 o0) := by
  intro ts
  induction ts with
  | nil =>
    intro _ _ bs hs rest o0
    simp only [saveFields, Option.some.injEq, Prod.mk.injEq, true_and] at hs
    subst hs
    exact ⟨o0, rfl, by simp, fun b x _ => Same.refl _ _ _⟩
  | cons t ts ih =>
    intro hk hp bs hs rest o0
    rw [List.pairwise_cons] at hp
    simp only [saveFields] at hs
    split at hs
    · cases hs
    · rename_i e b1 hwi
      split at hs
      · rename_i he
        simp only [Option.some.injEq, Prod.mk.injEq] at hs
        exact absurd hs.1 he
      · rename_i he
        have he : e = 0 := by simpa using he
        subst he
        split at hs
        · cases hs
        · rename_i e b2 hwr
          simp only [Option.some.injEq, Prod.mk.injEq] at hs
          obtain ⟨rfl, rfl⟩ := hs
          have ih' := ih (fun u hu => hk u (by simp [hu])) hp.2 b2 hwr rest
          have hh : BitVec.ofNat 32 (leNat (toLE 4 t.valueNameHash.toNat)) = t.valueNameHash := by
            rw [leNat_toLE]
            apply BitVec.eq_of_toNat_eq
            rw [BitVec.toNat_ofNat]
            have := t.valueNameHash.isLt
            omega
          simp only [List.append_assoc, List.length_cons, loadFields, takeN_toLE, (buint128_roundtrip _ _).1, hh]
          rcases hk t (by simp) with ⟨k1, k2⟩ | ⟨k1, k2⟩
          · obtain ⟨o1, r1, s1, f1⟩ := k2 b1 hwi (b2 ++ rest) o0
            obtain ⟨o2, r2, s2, f2⟩ := ih' o1
            refine ⟨o2, ?_, ?_, ?_⟩
            · simp only [k1, r1]
              exact r2
            · rintro b x ⟨u, hu, h1, h2⟩
              rcases List.mem_cons.1 hu with rfl | hu
              · refine (f2 b x ?_).trans (s1 b x h2)
                rintro ⟨v, hv, _, g2⟩
                exact hp.1 v hv b x h2 g2
              · exact s2 b x ⟨u, hu, h1, h2⟩
            · intro b x hx
              refine (f2 b x ?_).trans (f1 b x ?_)
              · rintro ⟨v, hv, g1, g2⟩; exact hx ⟨v, by simp [hv], g1, g2⟩
              · intro h; exact hx ⟨t, by simp, k1, h⟩
          · obtain ⟨o2, r2, s2, f2⟩ := ih' o0
            have hlt : (BitVec.ofNat 64 b1.length).toNat = b1.length := by
              rw [BitVec.toNat_ofNat]
              have := k2 b1 hwi
              omega
            refine ⟨o2, ?_, ?_, ?_⟩
            · simp only [k1, skip, hlt, k2 b1 hwi, if_true, List.drop_left]
              exact r2
            · rintro b x ⟨u, hu, h1, h2⟩
              rcases List.mem_cons.1 hu with rfl | hu
              · rw [k1] at h1; cases h1
              · exact s2 b x ⟨u, hu, h1, h2⟩
            · intro b x hx
              refine f2 b x ?_
              rintro ⟨v, hv, g1, g2⟩; exact hx ⟨v, by simp [hv], g1, g2⟩

theorem class_rt (o : Obj) (wi : RType → Nat → WRes) (li : RType → Nat → List Byte → Obj → RRes) (T : RType → Bool → Nat → Prop)
    (inst : Inst) (hlen : inst.cls.tab.types.length < 2 ^ 32)
    (hn : ∀ t ∈ inst.cls.tab.types, typeOf inst.cls.tab t.valueNameHash = some t)
    (hk : ∀ t ∈ inst.cls.tab.types, RT o (wi t (inst.base + t.offset.toNat)) (li t (inst.base + t.offset.toNat)) (T t))
    (hp : inst.cls.tab.types.Pairwise (fun t u => Disjoint (T t) (T u))) :
    RT o (saveClass wi inst) (loadClass li inst) (fun b x => ∃ t ∈ inst.cls.tab.types, T t b x) := by
  intro bs hs rest o0
  unfold saveClass at hs
  split at hs
  · cases hs
  · rename_i e b1 hsf
    split at hs
    · rename_i he
      simp only [Option.some.injEq, Prod.mk.injEq] at hs
      exact absurd hs.1 he
    · rename_i he
      have he : e = 0 := by simpa using he
      subst he
      simp only [Option.some.injEq, Prod.mk.injEq, true_and] at hs
      subst hs
      obtain ⟨o1, r1, s1, f1⟩ := fields_rt o inst.cls.tab _ (fun t => li t (inst.base + t.offset.toNat)) T _
        (fun t ht => Or.inl ⟨hn t ht, hk t ht⟩) hp b1 hsf rest o0
      refine ⟨o1, ?_, ?_, ?_⟩
      · unfold loadClass
        simp only [List.append_assoc, (buint128_roundtrip _ _).1]
        rw [if_neg]
        · exact r1
        · simp only [ne_eq, Decidable.not_not, BitVec.toNat_ofNat]
          omega
      · rintro b x ⟨t, ht, h⟩
        exact s1 b x ⟨t, ht, hn t ht, h⟩
      · intro b x hx
        refine f1 b x ?_
        rintro ⟨t, ht, _, h⟩; exact hx ⟨t, ht, h⟩

theorem signedVar_low (bs : List Byte) (h : bs.length ≤ 8) : toLE bs.length (signedVar bs).toNat = bs := by
  have hl := leNat_lt bs
  rw [pow_256_8] at hl
  unfold signedVar
  have key : (((BitVec.ofNat (8 * bs.length) (leNat bs)).signExtend 64).toNat) % 256 ^ bs.length = leNat bs := by
    have e : ((BitVec.ofNat (8 * bs.length) (leNat bs)).signExtend 64).setWidth (8 * bs.length) = BitVec.ofNat (8 * bs.length) (leNat bs) := by
      apply BitVec.eq_of_getLsbD_eq
      intro i hi
      rw [BitVec.getLsbD_setWidth, BitVec.getLsbD_signExtend]
      simp [hi]
      omega
    have := congrArg BitVec.toNat e
    rw [BitVec.toNat_setWidth, BitVec.toNat_ofNat, Nat.mod_eq_of_lt hl] at this
    rwa [pow_256_8]
  rw [← toLE_mod, key, toLE_leNat]

theorem signedVar_int (o : Obj) (a n : Nat) : (signedVar (o.read a n)).toInt = if n ≤ 8 then o.int a n else (signedVar (o.read a n)).toInt := by
  split
  · unfold signedVar Obj.int Obj.nat
    rw [BitVec.toInt_signExtend_of_le (by rw [read_length]; omega)]
    rw [read_length]
  · rfl

theorem signed_ge (o : Obj) (a n : Nat) (hn : n ≤ 8) (h8 : n = 8 → -(2 ^ 55 : Int) ≤ o.int a 8) :
    -(2 ^ 55 : Int) ≤ (signedVar (o.read a n)).toInt := by
  rw [signedVar_int, if_pos hn]
  by_cases h : n = 8
  · subst h; exact h8 rfl
  · have := (int_range o a n).1
    have e : (2 : Int) ^ (8 * n - 1) ≤ 2 ^ 55 := by
      have : (2 : Nat) ^ (8 * n - 1) ≤ 2 ^ 55 := Nat.pow_le_pow_right (by omega) (by omega)
      exact_mod_cast this
    omega

theorem raw_rt (o : Obj) (a n : Nat) (l : List Byte → Obj → RRes)
    (hl : ∀ s o0, l s o0 = match takeN n s with | none => none | some (bs, s) => some (0, s, o0.write a bs)) :
    RT o (some (0, o.read a n)) l (fun b x => b = false ∧ a ≤ x ∧ x < a + n) := by
  intro bs hb rest o0
  simp only [Option.some.injEq, Prod.mk.injEq, true_and] at hb
  have hlen : bs.length = n := by rw [← hb, read_length]
  have hw := write_same o o0 a bs (by rw [hlen, hb])
  rw [hlen] at hw
  refine ⟨o0.write a bs, ?_, hw.1, hw.2⟩
  rw [hl]
  have := takeN_append bs rest
  rw [hlen] at this
  rw [this]

theorem var_rt (o : Obj) (a n : Nat) (enc : List Byte) (v : BitVec 64) (l : List Byte → Obj → RRes)
    (hv : toLE n v.toNat = o.read a n)
    (hl : ∀ rest o0, l (enc ++ rest) o0 = some (0, rest, o0.write a (toLE n v.toNat))) :
    RT o (some (0, enc)) l (fun b x => b = false ∧ a ≤ x ∧ x < a + n) := by
  intro bs hb rest o0
  simp only [Option.some.injEq, Prod.mk.injEq, true_and] at hb
  subst hb
  have hw := write_same o o0 a (o.read a n) (by rw [read_length])
  rw [read_length] at hw
  refine ⟨_, hl rest o0, ?_, ?_⟩
  · rw [hv]; exact hw.1
  · rw [hv]; exact hw.2

theorem none_rt (o : Obj) (l T) : RT o none l T := by intro bs h; cases h

theorem item_rt (reg : Registry) (o : Obj) (root : Inst) : ∀ (f : Nat) (inst : Inst) (r : RType) (a : Nat),
    SameSub reg root inst f r → Fine reg o f inst r a →
    RT o (writeItem reg root o f r a) (loadItem reg f inst r a) (Covers reg f inst r a) := by
  intro f
  induction f with
  | zero => intro inst r a _ _; exact none_rt _ _ _
  | succ f ih =>
    intro inst r a hcf hfine
    have hlist : (r.type = .Array ∨ r.type = .ArrayClass ∨ r.type = .Vector) →
        RT o (writeElems (fun i => writeItem reg root o f (elem r i) (a + r.subSize.toNat * i)) r.numItems.toNat 0)
          (fun s o => loadElems (fun i => loadItem reg f inst (elem r i) (a + r.subSize.toNat * i)) r.numItems.toNat 0 s o)
          (fun b x => ∃ i, i < r.numItems.toNat ∧ Covers reg f inst (elem r i) (a + r.subSize.toNat * i) b x) := by
      intro hty
      have hf : (∀ i, i < r.numItems.toNat → Fine reg o f inst (elem r i) (a + r.subSize.toNat * i)) ∧
          ∀ i j, i < j → j < r.numItems.toNat → Disjoint (Covers reg f inst (elem r i) (a + r.subSize.toNat * i))
            (Covers reg f inst (elem r j) (a + r.subSize.toNat * j)) := by
        unfold Fine at hfine
        rcases hty with h | h | h <;> rw [h] at hfine <;> exact hfine
      have := elems_rt o (fun i => writeItem reg root o f (elem r i) (a + r.subSize.toNat * i))
        (fun i => loadItem reg f inst (elem r i) (a + r.subSize.toNat * i))
        (fun i => Covers reg f inst (elem r i) (a + r.subSize.toNat * i)) r.numItems.toNat 0
        (fun j _ hj => ih inst (elem r j) _ (hcf.2 hty j (by omega)) (hf.1 j (by omega)))
        (fun j j' _ h1 h2 => hf.2 j j' h1 (by omega))
      intro bs hb rest o0
      obtain ⟨o1, q1, q2, q3⟩ := this bs hb rest o0
      refine ⟨o1, q1, ?_, ?_⟩
      · rintro b x ⟨i, h1, h2⟩; exact q2 b x ⟨i, by omega, by omega, h2⟩
      · intro b x hx
        refine q3 b x ?_
        rintro ⟨i, h1, h2, h3⟩; exact hx ⟨i, by omega, h3⟩
    have huns : RT o (if r.subSize.toNat > 1 then (if r.subSize.toNat ≤ 8 then
          some (0, buWrite (BitVec.ofNat 64 (leNat (o.read a r.subSize.toNat)))) else none) else some (0, o.read a r.subSize.toNat))
        (fun s o => if r.subSize.toNat > 1 then (match buRead s with
          | none => none
          | some (v, s) => if r.subSize.toNat ≤ 8 then some (0, s, o.write a (toLE r.subSize.toNat v.toNat)) else none)
          else match takeN r.subSize.toNat s with
            | none => none
            | some (bs, s) => some (0, s, o.write a bs))
        (fun b x => b = false ∧ a ≤ x ∧ x < a + r.subSize.toNat) := by
      generalize r.subSize.toNat = n
      by_cases h1 : n > 1
      · simp only [h1, if_true]
        by_cases h8 : n ≤ 8
        · simp only [h8, if_true]
          have hl := leNat_lt (o.read a n)
          rw [read_length] at hl
          have hp : 256 ^ n ≤ 256 ^ 8 := Nat.pow_le_pow_right (by omega) h8
          have hv : (BitVec.ofNat 64 (leNat (o.read a n))).toNat = leNat (o.read a n) := by
            rw [BitVec.toNat_ofNat]; exact Nat.mod_eq_of_lt (by omega)
          refine var_rt o a n _ (BitVec.ofNat 64 (leNat (o.read a n))) _ ?_ ?_
          · rw [hv]
            have := toLE_leNat (o.read a n)
            rwa [read_length] at this
          · intro rest o0
            simp only [(buint128_roundtrip _ _).1]
        · simp only [h8, if_false]; exact none_rt _ _ _
      · simp only [h1, if_false]
        exact raw_rt o a n _ (fun _ _ => rfl)
    have hsig : (r.type = .Integer ∨ r.type = .Enum) → RT o (if r.subSize.toNat > 1 then (if r.subSize.toNat ≤ 8 then
          some (0, biWrite (signedVar (o.read a r.subSize.toNat))) else none) else some (0, o.read a r.subSize.toNat))
        (fun s o => if r.subSize.toNat > 1 then (match biRead s with
          | none => none
          | some (v, s) => if r.subSize.toNat ≤ 8 then some (0, s, o.write a (toLE r.subSize.toNat v.toNat)) else none)
          else match takeN r.subSize.toNat s with
            | none => none
            | some (bs, s) => some (0, s, o.write a bs))
        (fun b x => b = false ∧ a ≤ x ∧ x < a + r.subSize.toNat) := by
      intro hty
      have h55 : r.subSize.toNat = 8 → -(2 ^ 55 : Int) ≤ o.int a 8 := by
        unfold Fine at hfine
        rcases hty with h | h <;> rw [h] at hfine <;> exact hfine
      revert h55
      generalize r.subSize.toNat = n
      intro h55
      by_cases h1 : n > 1
      · simp only [h1, if_true]
        by_cases h8 : n ≤ 8
        · simp only [h8, if_true]
          refine var_rt o a n _ (signedVar (o.read a n)) _ ?_ ?_
          · have := signedVar_low (o.read a n) (by rw [read_length]; exact h8)
            rwa [read_length] at this
          · intro rest o0
            have := (bint128_roundtrip_partial (signedVar (o.read a n)) rest).2 (signed_ge o a n h8 h55)
            simp only [this]
        · simp only [h8, if_false]; exact none_rt _ _ _
      · simp only [h1, if_false]
        exact raw_rt o a n _ (fun _ _ => rfl)
    have hclass : r.type = .Class → RT o (match subClass reg root r.ID.toNat r.numItems.toNat with
          | none => none
          | some inst => saveClass (writeItem reg root o f) inst)
        (fun s o => match subClass reg inst r.ID.toNat r.numItems.toNat with
          | none => none
          | some sub => loadClass (loadItem reg f sub) sub s o)
        (fun b x => ∃ sub, subClass reg inst r.ID.toNat r.numItems.toNat = some sub ∧
          ∃ t ∈ sub.cls.tab.types, Covers reg f sub t (sub.base + t.offset.toNat) b x) := by
      intro hty
      rw [hcf.1 hty]
      unfold Fine at hfine
      rw [hty] at hfine
      simp only at hfine
      cases hs : subClass reg inst r.ID.toNat r.numItems.toNat with
      | none => exact none_rt _ _ _
      | some sub =>
        obtain ⟨g1, g2, g3, g4⟩ := hfine sub hs
        have := class_rt o (writeItem reg root o f) (loadItem reg f sub)
          (fun t => Covers reg f sub t (sub.base + t.offset.toNat)) sub g1 g2
          (fun t ht => ih sub t _ (SameSub.of_classFree _ _ _ _ _ (g3 t ht).2) (g3 t ht).1) g4
        intro bs hb rest o0
        obtain ⟨o1, q1, q2, q3⟩ := this bs hb rest o0
        refine ⟨o1, q1, ?_, ?_⟩
        · rintro b x ⟨sub', h1, h2⟩
          cases h1
          exact q2 b x h2
        · intro b x hx
          exact q3 b x (fun h => hx ⟨sub, rfl, h⟩)
    unfold writeItem
    have hL : loadItem reg (f + 1) inst r a = fun s o => loadItem reg (f + 1) inst r a s o := rfl
    rw [hL]
    have hC : Covers reg (f + 1) inst r a = fun b x => Covers reg (f + 1) inst r a b x := rfl
    rw [hC]
    unfold loadItem Covers
    cases hty : r.type <;> simp only
    case Integer => exact hsig (Or.inl hty)
    case Enum => exact hsig (Or.inr hty)
    case UnsignedInteger => exact huns
    case EnumFlags => exact huns
    case BitFieldClass => exact huns
    case Bool => exact raw_rt o a _ _ (fun _ _ => rfl)
    case FloatingPoint => exact raw_rt o a _ _ (fun _ _ => rfl)
    case Array => exact hlist (Or.inl hty)
    case ArrayClass => exact hlist (Or.inr (Or.inl hty))
    case Vector => exact hlist (Or.inr (Or.inr hty))
    case Class => exact hclass hty
    case String =>
      intro bs hb rest o0
      simp only [Option.some.injEq, Prod.mk.injEq, true_and] at hb
      subst hb
      have hl : (o.strs a).length < 2 ^ 32 := by
        unfold Fine at hfine
        rw [hty] at hfine
        exact hfine
      have h4 : leNat (toLE 4 (o.strs a).length) = (o.strs a).length := by
        rw [leNat_toLE]; exact Nat.mod_eq_of_lt (by omega)
      refine ⟨o0.writeStr a (o.strs a), ?_, ?_, ?_⟩
      · simp only [List.append_assoc, takeN_toLE, h4, takeN_append]
      · rintro b x ⟨rfl, rfl⟩
        simp [Same, Obj.writeStr]
      · intro b x hx
        unfold Same
        cases b with
        | false => rfl
        | true =>
          simp only [if_true, Obj.writeStr]
          rw [if_neg]
          intro h; exact hx ⟨rfl, h⟩
    all_goals (intro bs hb; simp at hb)

/-- C28: whatever `Save` wrote for an object, `Load` into any object of the same class accepts (result 0), consumes
exactly those bytes, makes the target agree with the source on everything the reflected fields cover — integers, floats,
bools, enums, flags, strings, lists, vectors, classes — and leaves everything else alone.
Missing for the full statement (`FineRoot`): 8 byte integers below `-2^55`, classes nested two or more levels
deep, and arrays of arrays (nothing of which is stored, so `Covers` excludes them). -/
theorem bin_roundtrip_partial (f : Nat) (reg : Registry) (c : ClassDef) (o : Obj) (bs : List Byte)
    (hs : save f reg c o = some (0, bs)) (hf : FineRoot reg o f c) (rest : List Byte) (o0 : Obj) :
    ∃ o1, load f reg c (bs ++ rest) o0 = some (0, rest, o1) ∧
      (∀ b x, CoversClass reg f ⟨c, 0⟩ b x → Same b x o1 o) ∧
      (∀ b x, ¬ CoversClass reg f ⟨c, 0⟩ b x → Same b x o1 o0) := by
  obtain ⟨h1, h2, h3, h4⟩ := hf
  have hrt := class_rt o (writeItem reg ⟨c, 0⟩ o f) (loadItem reg f ⟨c, 0⟩)
    (fun t => Covers reg f ⟨c, 0⟩ t (0 + t.offset.toNat)) ⟨c, 0⟩ h1 h2
    (fun t ht => item_rt reg o ⟨c, 0⟩ f ⟨c, 0⟩ t _ (SameSub.refl _ _ _ _) (by simpa using h3 t ht)) (by simpa using h4)
  unfold save at hs
  split at hs
  · cases hs
  · rename_i e b1 hsc
    simp only [Option.some.injEq, Prod.mk.injEq] at hs
    obtain ⟨rfl, rfl⟩ := hs
    obtain ⟨o1, q1, q2, q3⟩ := hrt b1 hsc rest o0
    refine ⟨o1, ?_, q2, q3⟩
    unfold load
    simp only [List.append_assoc, takeN_toLE]
    rw [if_neg]
    · exact q1
    · simp only [ne_eq, Decidable.not_not]
      rw [leNat_toLE]
      exact Nat.mod_eq_of_lt (by have := c.hash.isLt; omega)


/-! ### Non-vacuity: `struct A { int64 a; std::string s; int16 l[3]; B b; }`, `struct B { int32 x; uint16 y; }` -/

def exB : ClassDef := ⟨0xb, ⟨[⟨.Integer, .None, 4, 0, 0, 0, 11, 0⟩, ⟨.UnsignedInteger, .None, 2, 1, 0, 4, 12, 0⟩], none⟩⟩
def exA : ClassDef := ⟨0xa, ⟨[⟨.Integer, .None, 8, 0, 0, 0, 1, 0⟩, ⟨.String, .None, 0, 1, 0, 8, 2, 0⟩,
  ⟨.Array, .Integer, 2, 2, 3, 40, 3, 0⟩, ⟨.Class, .None, 8, 3, 0, 48, 4, 0xb⟩], none⟩⟩
def exReg : Registry := fun h => if h = 0xa then some exA else if h = 0xb then some exB else none
def exO : Obj := ⟨fun x => BitVec.ofNat 8 (x % 8 + 1), fun x => if x = 8 then [0x68#8, 0x69#8] else []⟩
def exO0 : Obj := ⟨fun _ => 0xaa#8, fun _ => [0x7a#8]⟩

theorem exA_fine : FineRoot exReg exO 3 exA := by
  have hsub : subClass exReg ⟨exA, 0⟩ 3 0 = some ⟨exB, 48⟩ := rfl
  refine ⟨by decide, by decide, ?_, ?_⟩
  · intro t ht
    simp only [exA, List.mem_cons, List.not_mem_nil, or_false] at ht
    rcases ht with rfl | rfl | rfl | rfl
    · simp only [Fine]; intro _; decide +kernel
    · simp only [Fine]; decide +kernel
    · simp only [Fine]
      refine ⟨fun i _ => by simp [Fine, elem], ?_⟩
      intro i j h1 h2 b x hx hy
      simp [Covers, elem] at hx hy
      omega
    · simp only [Fine]
      intro sub hs
      have : sub = ⟨exB, 48⟩ := by
        have e : subClass exReg ⟨exA, 0⟩ (3#8).toNat (0#16).toNat = some ⟨exB, 48⟩ := rfl
        exact Option.some.inj (hs.symm.trans e)
      subst this
      refine ⟨by decide, by decide, ?_, ?_⟩
      · intro t ht
        simp only [exB, List.mem_cons, List.not_mem_nil, or_false] at ht
        rcases ht with rfl | rfl <;> simp [Fine, classFree]
      · simp only [exB, List.pairwise_cons, List.mem_cons, List.not_mem_nil, or_false]
        refine ⟨?_, ?_, List.Pairwise.nil⟩
        · rintro t rfl b x hx hy
          simp [Covers] at hx hy
          omega
        · intro t ht; exact absurd ht (by simp)
  · have hc : ∀ b x, Covers exReg 3 ⟨exA, 0⟩ ⟨.Class, .None, 8, 3, 0, 48, 4, 0xb⟩ 48 b x → b = false ∧ 48 ≤ x := by
      intro b x h
      simp only [Covers] at h
      obtain ⟨sub, h1, t, ht, h2⟩ := h
      have : sub = ⟨exB, 48⟩ := by
        have e : subClass exReg ⟨exA, 0⟩ (3#8).toNat (0#16).toNat = some ⟨exB, 48⟩ := rfl
        exact Option.some.inj (h1.symm.trans e)
      subst this
      simp only [exB, List.mem_cons, List.not_mem_nil, or_false] at ht
      rcases ht with rfl | rfl <;> simp [Covers] at h2 <;> exact ⟨h2.1, by omega⟩
    simp only [exA, List.pairwise_cons, List.mem_cons, List.not_mem_nil, or_false]
    refine ⟨?_, ?_, ?_, ?_, List.Pairwise.nil⟩
    · rintro t (rfl | rfl | rfl) b x hx hy
      · simp [Covers] at hx hy; simp_all
      · simp [Covers, elem] at hx hy; omega
      · have := hc b x hy
        simp [Covers] at hx; omega
    · rintro t (rfl | rfl) b x hx hy
      · simp [Covers, elem] at hx hy; simp_all
      · have := hc b x hy
        simp [Covers] at hx; simp_all
    · rintro t rfl b x hx hy
      have := hc b x hy
      simp [Covers, elem] at hx; omega
    · intro t ht; exact absurd ht (by simp)

/-- The hypotheses of `bin_roundtrip_partial` are met by that class; the loaded object has the source's values. -/
example : ∃ bs o1, save 3 exReg exA exO = some (0, bs) ∧ load 3 exReg exA (bs ++ [0x55#8]) exO0 = some (0, [0x55#8], o1) ∧
    o1.strs 8 = [0x68#8, 0x69#8] ∧ o1.mem 42 = 3#8 ∧ o1.mem 53 = 6#8 := by
  have h : ∃ bs, save 3 exReg exA exO = some (0, bs) := ⟨_, rfl⟩
  obtain ⟨bs, hs⟩ := h
  obtain ⟨o1, h1, h2, _⟩ := bin_roundtrip_partial 3 exReg exA exO bs hs exA_fine [0x55#8] exO0
  refine ⟨bs, o1, hs, h1, ?_, ?_, ?_⟩
  · exact h2 true 8 ⟨⟨.String, .None, 0, 1, 0, 8, 2, 0⟩, by simp [exA], ⟨rfl, rfl⟩⟩
  · exact h2 false 42 ⟨⟨.Array, .Integer, 2, 2, 3, 40, 3, 0⟩, by simp [exA], ⟨1, by decide, by simp [Covers, elem]⟩⟩
  · exact h2 false 53 ⟨⟨.Class, .None, 8, 3, 0, 48, 4, 0xb⟩, by simp [exA], ⟨⟨exB, 48⟩, rfl,
      ⟨.UnsignedInteger, .None, 2, 1, 0, 4, 12, 0⟩, by simp [exB], by simp [Covers]⟩⟩

/-! ### Where the full statement of C28 fails -/

/-- `struct { int64 a; }` -/
def exI : ClassDef := ⟨7, ⟨[⟨.Integer, .None, 8, 0, 0, 0, 1, 0⟩], none⟩⟩
def oInt (v : BitVec 64) : Obj := ⟨fun x => (toLE 8 v.toNat).getD x 0, fun _ => []⟩

/-- An `int64` of `-2^55-1` comes back as another number although both calls report success. -/
theorem bin_int64_violated : ∃ bs rest o1, save 2 exReg exI (oInt (BitVec.ofInt 64 (-2 ^ 55 - 1))) = some (0, bs) ∧
    load 2 exReg exI bs exO0 = some (0, rest, o1) ∧ o1.int 0 8 ≠ -2 ^ 55 - 1 := by
  refine ⟨_, _, _, rfl, rfl, ?_⟩
  decide +kernel

/-- `struct C { D middle; }` -/
def exC : ClassDef := ⟨0xc, ⟨[⟨.Class, .None, 8, 0, 0, 0, 1, 0xd⟩], none⟩⟩
/-- `struct D { B inner; }` with `inner` the first field. -/
def exD : ClassDef := ⟨0xd, ⟨[⟨.Class, .None, 8, 0, 0, 0, 1, 0xb⟩], none⟩⟩
def exReg2 : Registry := fun h => if h = 0xb then some exB else if h = 0xd then some exD else none

/-- A class inside a class inside a class: `Save` looks the inner class up in the table of the outermost object. Here the
lookup finds the middle class again and saving recurses without end (no depth bound suffices). -/
theorem bin_nested_diverges : ∀ f, save f exReg2 exC exO = none := by
  have hsub : subClass exReg2 ⟨exC, 0⟩ 0 0 = some ⟨exD, 0⟩ := rfl
  have key : ∀ f h th, writeItem exReg2 ⟨exC, 0⟩ exO f ⟨.Class, .None, 8, 0, 0, 0, h, th⟩ 0 = none := by
    intro f
    induction f with
    | zero => intro h th; rfl
    | succ f ih =>
      intro h th
      simp only [writeItem]
      have e : subClass exReg2 ⟨exC, 0⟩ (0#8).toNat (0#16).toNat = some ⟨exD, 0⟩ := rfl
      erw [e]
      simp only [saveClass, exD, saveFields]
      have := ih 1 0xb
      erw [this]
  intro f
  unfold save saveClass
  simp only [exC, saveFields]
  have := key f 1 0xd
  erw [this]

/-- `struct E { int32 n[2][3]; }`: an array of arrays is "saved" without any of its values, and success is reported. -/
theorem bin_array_of_arrays_violated : ∃ bs, ∀ o, save 3 exReg ⟨9, ⟨[⟨.Array, .Array, 12, 0, 2, 0, 1, 0⟩], none⟩⟩ o = some (0, bs) :=
  ⟨_, fun _ => rfl⟩

/-! ## C29 -/

/-- Data of another class: error, nothing read, nothing changed. -/
theorem load_class_mismatch (f : Nat) (reg : Registry) (c : ClassDef) (h : BitVec 32) (rest : List Byte) (o : Obj)
    (hne : h ≠ c.hash) : load f reg c (toLE 4 h.toNat ++ rest) o = some (1, toLE 4 h.toNat ++ rest, o) := by
  unfold load
  rw [takeN_toLE]
  simp only
  rw [if_pos]
  rw [leNat_toLE, Nat.mod_eq_of_lt (by have := h.isLt; omega)]
  intro e
  exact hne (BitVec.eq_of_toNat_eq e)

/-- An item of a class chunk: name hash, length, value. -/
def encItem (i : BitVec 32 × List Byte) : List Byte := toLE 4 i.1.toNat ++ buWrite (BitVec.ofNat 64 i.2.length) ++ i.2

/-- A saved class: hash, length of what follows, number of items, items. -/
def file (h : BitVec 32) (items : List (BitVec 32 × List Byte)) : List Byte :=
  let body := buWrite (BitVec.ofNat 64 items.length) ++ items.flatMap encItem
  toLE 4 h.toNat ++ buWrite (BitVec.ofNat 64 body.length) ++ body

/-- Data with another number of fields: error, the chunk is skipped, nothing is changed. -/
theorem load_count_mismatch (f : Nat) (reg : Registry) (c : ClassDef) (items : List (BitVec 32 × List Byte)) (rest : List Byte)
    (o : Obj) (hn : items.length ≠ c.tab.types.length) (hs : (file c.hash items).length < 2 ^ 31) :
    load f reg c (file c.hash items ++ rest) o = some (1, rest, o) := by
  have hle : items.length ≤ (items.flatMap encItem).length := by
    clear hs hn
    induction items with
    | nil => simp
    | cons i l ih =>
      have : 4 ≤ (encItem i).length := by simp only [encItem, List.length_append, toLE_length]; omega
      simp only [List.flatMap_cons, List.length_append, List.length_cons]
      omega
  unfold file at hs ⊢
  simp only [List.length_append, toLE_length] at hs
  unfold load
  simp only [List.append_assoc, takeN_toLE]
  rw [if_neg]
  · unfold loadClass
    simp only [(buint128_roundtrip _ _).1]
    rw [if_pos]
    · unfold skip
      rw [if_pos]
      · have key : ∀ (n : Nat) (l m : List Byte), n = l.length → (some ((l ++ m).drop n)).map (fun s => ((1 : Nat), s, o)) = some (1, m, o) := by
          rintro n l m rfl; simp
        have := key (BitVec.ofNat 64 (buWrite (BitVec.ofNat 64 items.length) ++ items.flatMap encItem).length).toNat
          (buWrite (BitVec.ofNat 64 items.length) ++ items.flatMap encItem) rest
          (by rw [BitVec.toNat_ofNat]; exact Nat.mod_eq_of_lt (by simp only [List.length_append]; omega))
        rwa [List.append_assoc] at this
      · rw [BitVec.toNat_ofNat]
        simp only [List.length_append]
        omega
    · rw [BitVec.toNat_ofNat]
      omega
  · rw [leNat_toLE, Nat.mod_eq_of_lt (by have := c.hash.isLt; omega)]
    simp

/-- What the items do to the object, one after the other, ending with an error code: items of unknown names nothing,
the others what loading that field from its own bytes does (a field that reports an error may have stopped anywhere). -/
def Applied (tab : ClassTab) (li : RType → List Byte → Obj → RRes) : List (BitVec 32 × List Byte) → Nat × Obj → Nat × Obj → Prop
  | [], x, y => x = y
  | (h, p) :: l, (e, o), y => match typeOf tab h with
    | none => p.length < 2 ^ 31 ∧ Applied tab li l (e, o) y
    | some t => ∃ e' o', (∀ rest, (e' = 0 → li t (p ++ rest) o = some (0, rest, o')) ∧
        (e' ≠ 0 → p.length < 2 ^ 31 ∧ ∃ s', li t (p ++ rest) o = some (e', s', o'))) ∧ Applied tab li l (e', o') y

theorem loadFields_applied (tab : ClassTab) (li : RType → List Byte → Obj → RRes) : ∀ items e o e' o' rest,
    Applied tab li items (e, o) (e', o') →
    loadFields tab li items.length e (items.flatMap encItem ++ rest) o = some (e', rest, o') := by
  intro items
  induction items with
  | nil =>
    intro e o e' o' rest h
    simp only [Applied, Prod.mk.injEq] at h
    obtain ⟨rfl, rfl⟩ := h
    rfl
  | cons i l ih =>
    obtain ⟨h, p⟩ := i
    intro e o e' o' rest ha
    simp only [List.flatMap_cons, encItem, List.append_assoc, List.length_cons, loadFields, takeN_toLE,
      (buint128_roundtrip _ _).1]
    have hh : BitVec.ofNat 32 (leNat (toLE 4 h.toNat)) = h := by
      apply BitVec.eq_of_toNat_eq
      rw [BitVec.toNat_ofNat, leNat_toLE]
      have := h.isLt
      omega
    rw [hh]
    have hskip : p.length < 2 ^ 31 → skip (BitVec.ofNat 64 p.length) (p ++ (l.flatMap encItem ++ rest)) = some (l.flatMap encItem ++ rest) := by
      intro hp
      have : (BitVec.ofNat 64 p.length).toNat = p.length := by rw [BitVec.toNat_ofNat]; omega
      unfold skip
      rw [this, if_pos hp]
      simp
    simp only [Applied] at ha
    cases ht : typeOf tab h with
    | none =>
      rw [ht] at ha
      simp only at ha ⊢
      rw [hskip ha.1]
      exact ih _ _ _ _ _ ha.2
    | some t =>
      rw [ht] at ha
      simp only at ha ⊢
      obtain ⟨e1, o1, h1, h2⟩ := ha
      obtain ⟨hz, hnz⟩ := h1 (l.flatMap encItem ++ rest)
      by_cases he : e1 = 0
      · subst he
        rw [hz rfl]
        exact ih _ _ _ _ _ h2
      · obtain ⟨hp, s', h3⟩ := hnz he
        rw [h3]
        cases e1 with
        | zero => exact absurd rfl he
        | succ e1 =>
          simp only
          rw [hskip hp]
          exact ih _ _ _ _ _ h2

/-- C29: loading any data with the right class and number of items leaves the stream right behind the data and does to
the object what the items of known names do, whatever unknown items stand before, between and after them. -/
theorem load_items (f : Nat) (reg : Registry) (c : ClassDef) (items : List (BitVec 32 × List Byte)) (rest : List Byte)
    (o o' : Obj) (e : Nat) (hn : items.length = c.tab.types.length) (h32 : items.length < 2 ^ 32)
    (ha : Applied c.tab (fun t => loadItem reg f ⟨c, 0⟩ t t.offset.toNat) items (0, o) (e, o')) :
    load f reg c (file c.hash items ++ rest) o = some (e, rest, o') := by
  unfold file load
  simp only [List.append_assoc, takeN_toLE]
  rw [if_neg]
  · unfold loadClass
    simp only [(buint128_roundtrip _ _).1]
    rw [if_neg]
    · simp only [Nat.zero_add]
      rw [← hn]
      exact loadFields_applied _ _ _ _ _ _ _ _ ha
    · rw [BitVec.toNat_ofNat]
      omega
  · rw [leNat_toLE, Nat.mod_eq_of_lt (by have := c.hash.isLt; omega)]
    simp

/-- C29, from the writer's side: an object of class `c` saved, then loaded into an object of another version `c'` of the
class with as many fields, of which some are the same and the others unknown: success, the shared fields get the
source's values, everything else stays. -/
theorem load_other_version (f : Nat) (reg : Registry) (c c' : ClassDef) (o : Obj) (bs : List Byte)
    (hs : save f reg c o = some (0, bs)) (hh : c'.hash = c.hash) (hn : c'.tab.types.length = c.tab.types.length)
    (hf : FineRoot reg o f c)
    (hv : ∀ t ∈ c.tab.types,
      (typeOf c'.tab t.valueNameHash = some t ∧ SameSub reg ⟨c, 0⟩ ⟨c', 0⟩ f t ∧ Fine reg o f ⟨c', 0⟩ t t.offset.toNat) ∨
      (typeOf c'.tab t.valueNameHash = none ∧ ∀ b, writeItem reg ⟨c, 0⟩ o f t t.offset.toNat = some (0, b) → b.length < 2 ^ 31))
    (hp : c.tab.types.Pairwise (fun t u => Disjoint (Covers reg f ⟨c', 0⟩ t t.offset.toNat) (Covers reg f ⟨c', 0⟩ u u.offset.toNat)))
    (rest : List Byte) (o0 : Obj) :
    ∃ o1, load f reg c' (bs ++ rest) o0 = some (0, rest, o1) ∧
      (∀ b x, (∃ t ∈ c.tab.types, typeOf c'.tab t.valueNameHash = some t ∧ Covers reg f ⟨c', 0⟩ t t.offset.toNat b x) → Same b x o1 o) ∧
      (∀ b x, ¬ (∃ t ∈ c.tab.types, typeOf c'.tab t.valueNameHash = some t ∧ Covers reg f ⟨c', 0⟩ t t.offset.toNat b x) → Same b x o1 o0) := by
  obtain ⟨h1, _, _, _⟩ := hf
  unfold save at hs
  split at hs
  · cases hs
  · rename_i e b0 hsc
    simp only [Option.some.injEq, Prod.mk.injEq] at hs
    obtain ⟨rfl, rfl⟩ := hs
    unfold saveClass at hsc
    split at hsc
    · cases hsc
    · rename_i e b1 hsf
      split at hsc
      · rename_i he
        simp only [Option.some.injEq, Prod.mk.injEq] at hsc
        exact absurd hsc.1 he
      · rename_i he
        have he : e = 0 := by simpa using he
        subst he
        simp only [Option.some.injEq, Prod.mk.injEq, true_and] at hsc
        subst hsc
        simp only [Nat.zero_add] at hsf
        obtain ⟨o1, r1, s1, f1⟩ := fields_rt o c'.tab _ (fun t => loadItem reg f ⟨c', 0⟩ t t.offset.toNat)
          (fun t => Covers reg f ⟨c', 0⟩ t t.offset.toNat) _
          (fun t ht => (hv t ht).imp (fun h => ⟨h.1, item_rt reg o ⟨c, 0⟩ f ⟨c', 0⟩ t _ h.2.1 h.2.2⟩) id) hp b1 hsf rest o0
        refine ⟨o1, ?_, s1, f1⟩
        unfold load
        simp only [List.append_assoc, takeN_toLE]
        rw [if_neg]
        · unfold loadClass
          simp only [(buint128_roundtrip _ _).1]
          rw [if_neg]
          · simp only [Nat.zero_add]
            rw [hn]
            exact r1
          · simp only [ne_eq, Decidable.not_not, BitVec.toNat_ofNat]
            omega
        · rw [leNat_toLE, hh]
          simp only [ne_eq, Decidable.not_not]
          exact Nat.mod_eq_of_lt (by have := c.hash.isLt; omega)

/-- Non-vacuity of `load_items`: an unknown item, then a known one, into `B`. -/
example : ∃ o', load 1 exReg exB (file 0xb [(99, [1#8, 2#8, 3#8]), (12, [5#8])] ++ [7#8]) exO0 = some (0, [7#8], o') ∧ o'.nat 4 2 = 5 := by
  refine ⟨exO0.write 4 (toLE 2 5), load_items 1 exReg exB _ _ _ _ 0 rfl (by decide) ⟨by decide, ?_⟩, by decide +kernel⟩
  refine ⟨0, _, fun rest => ⟨fun _ => ?_, fun h => absurd rfl h⟩, rfl⟩
  have := (buint128_roundtrip 5#64 rest).1
  have e : buWrite 5#64 = [5#8] := by decide +kernel
  rw [e] at this
  simp only [loadItem, this]
  rfl

/-- The error of a field is forgotten when a later field loads: here the second field's data are those of another class
version, yet `Load` reports success. -/
theorem load_error_lost_violated :
    ∃ rest o', load 3 exReg ⟨0xe, ⟨[⟨.Class, .None, 8, 0, 0, 0, 1, 0xb⟩, ⟨.UnsignedInteger, .None, 1, 1, 0, 8, 2, 0⟩], none⟩⟩
      (file 0xe [(1, buWrite 1 ++ buWrite 0), (2, [9#8])]) exO0 = some (0, rest, o') ∧ o'.nat 0 8 = exO0.nat 0 8 := by
  refine ⟨_, _, rfl, ?_⟩
  decide +kernel

end PreCore.ReflBin
