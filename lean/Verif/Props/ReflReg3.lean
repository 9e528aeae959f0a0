import Verif.Props.ReflReg2
import Verif.Props.ReflectorBits
import Verif.Props.BitField
/-!
# C66: typed setters. C67: name/value pairs. C68: registered bit fields
-/
namespace PreCore.Refl
open CNum

/-! ## C66 -/

theorem write_int_print (env : Env) (r : RType) (a : Nat) (v : BitVec 64) (o : Obj) (hn : IsWidth r.subSize.toNat) (f : Nat) :
    (r.type = .Integer → -2 ^ (8 * r.subSize.toNat - 1) ≤ v.toInt → v.toInt < 2 ^ (8 * r.subSize.toNat - 1) →
      print env (f + 1) r a (o.write a (u64Bytes v r.subSize.toNat)) = some (showInt v.toInt)) ∧
    (r.type = .UnsignedInteger → v.toNat < 2 ^ (8 * r.subSize.toNat) →
      print env (f + 1) r a (o.write a (u64Bytes v r.subSize.toNat)) = some (showNat v.toNat)) := by
  have hnum : leNat ((o.write a (u64Bytes v r.subSize.toNat)).read a r.subSize.toNat) = v.toNat % 2 ^ (8 * r.subSize.toNat) := by
    unfold u64Bytes
    rw [read_write_toLE, leNat_toLE, pow_256_8]
  constructor
  · intro hty h1 h2
    rw [print]
    simp only [hty]
    rw [if_pos (show _ ∨ _ from hn), hnum]
    congr 2
    have hw : 1 ≤ 8 * r.subSize.toNat ∧ 8 * r.subSize.toNat ≤ 64 := by
      rcases hn with h | h | h | h <;> rw [h] <;> decide
    have e : BitVec.ofNat (8 * r.subSize.toNat) (v.toNat % 2 ^ (8 * r.subSize.toNat)) = BitVec.ofInt (8 * r.subSize.toNat) v.toInt := by
      have e0 : BitVec.ofNat (8 * r.subSize.toNat) (v.toNat % 2 ^ (8 * r.subSize.toNat)) = v.setWidth (8 * r.subSize.toNat) := by
        apply BitVec.eq_of_toNat_eq; simp
      rw [e0, ← BitVec.signExtend_eq_setWidth_of_le _ hw.2]
      rfl
    rw [e]
    exact ofInt_toInt_fit _ hw.1 _ h1 (by omega)
  · intro hty h1
    rw [print]
    simp only [hty]
    rw [if_pos (show _ ∨ _ from hn), hnum, Nat.mod_eq_of_lt h1]

/-- C66: `SetReflectedValueInt/UInt/Float` on a member of that kind (or on element `i > 0` of a list of it) succeed, and the
member (element) reads back as the number given, if it fits the member; on members of other kinds they report an invalid
destination and change nothing; an unknown member likewise.
Missing: element 0 of a list (`typed_first_violated`), numbers that do not fit (`typed_overflow_violated`). -/
theorem typed_roundtrip_partial (env : Env) (c : ClassTab) (id : Nat) (r : RType) (hr : typeAt c id = some r) (v : BitVec 64) (o : Obj)
    (narrow : BitVec 64 → BitVec 32) :
    (IsWidth r.subSize.toNat → r.type = .Integer → -2 ^ (8 * r.subSize.toNat - 1) ≤ v.toInt → v.toInt < 2 ^ (8 * r.subSize.toNat - 1) →
      (setIntOf (typeAt c id) v 0 o).1 = .None ∧ getByID env c id (setIntOf (typeAt c id) v 0 o).2 = some (showInt v.toInt)) ∧
    (IsWidth r.subSize.toNat → r.type = .UnsignedInteger → v.toNat < 2 ^ (8 * r.subSize.toNat) →
      (setUIntOf (typeAt c id) v 0 o).1 = .None ∧ getByID env c id (setUIntOf (typeAt c id) v 0 o).2 = some (showNat v.toNat)) ∧
    (r.type = .FloatingPoint → r.subSize.toNat = 8 →
      (setFloatOf narrow (typeAt c id) v 0 o).1 = .None ∧ getByID env c id (setFloatOf narrow (typeAt c id) v 0 o).2 = some (env.showDouble v)) ∧
    (r.type = .FloatingPoint → r.subSize.toNat = 4 →
      (setFloatOf narrow (typeAt c id) v 0 o).1 = .None ∧
      getByID env c id (setFloatOf narrow (typeAt c id) v 0 o).2 = some (env.showFloat (narrow v))) ∧
    (∀ i, 0 < i → i < r.numItems.toNat → IsList r.type → IsWidth r.subSize.toNat →
      (r.subType = .Integer → -2 ^ (8 * r.subSize.toNat - 1) ≤ v.toInt → v.toInt < 2 ^ (8 * r.subSize.toNat - 1) →
        (setIntOf (typeAt c id) v i o).1 = .None ∧ getSub env c id i (setIntOf (typeAt c id) v i o).2 = some (showInt v.toInt)) ∧
      (r.subType = .UnsignedInteger → v.toNat < 2 ^ (8 * r.subSize.toNat) →
        (setUIntOf (typeAt c id) v i o).1 = .None ∧ getSub env c id i (setUIntOf (typeAt c id) v i o).2 = some (showNat v.toNat))) ∧
    (r.type ≠ .Integer → setIntOf (typeAt c id) v 0 o = (.InvalidDestination, o)) ∧
    (r.type ≠ .UnsignedInteger → setUIntOf (typeAt c id) v 0 o = (.InvalidDestination, o)) ∧
    (r.type ≠ .FloatingPoint → setFloatOf narrow (typeAt c id) v 0 o = (.InvalidDestination, o)) ∧
    (∀ i, setIntOf none v i o = (.InvalidDestination, o) ∧ setUIntOf none v i o = (.InvalidDestination, o) ∧
      setFloatOf narrow none v i o = (.InvalidDestination, o)) := by
  have h0 : typedDest r 0 = .ok (r.offset.toNat, r.type) := rfl
  have hi : ∀ i, 0 < i → i < r.numItems.toNat → IsList r.type → typedDest r i = .ok (r.offset.toNat + i * r.subSize.toNat, r.subType) := by
    intro i h1 h2 h3
    unfold typedDest
    rw [if_neg (by omega)]
    rcases h3 with h | h | h <;> rw [h] <;> simp only <;> rw [if_neg (by omega)]
  have hget : ∀ q, getByID env c id q = printMember env r (if r.type = .BitFieldMember then 0 else r.offset.toNat) q := by
    intro q; unfold getByID; rw [hr]
  have hsub : ∀ i q, i < r.numItems.toNat → IsList r.type → getSub env c id i q = printMember env (elemType r) (r.offset.toNat + r.subSize.toNat * i) q := by
    intro i q h1 h2
    unfold getSub; rw [hr]
    rcases h2 with h | h | h <;> simp only [h] <;> rw [if_neg (by omega)]
  refine ⟨?_, ?_, ?_, ?_, ?_, ?_, ?_, ?_, ?_⟩
  · intro hw hty h1 h2
    have e : setIntOf (typeAt c id) v 0 o = (.None, o.write r.offset.toNat (u64Bytes v r.subSize.toNat)) := by
      rw [hr]; simp only [setIntOf, setValueInt, h0, hty]; rfl
    rw [e, hget, if_neg (by rw [hty]; decide)]
    exact ⟨rfl, (write_int_print env r _ v o hw 2).1 hty h1 h2⟩
  · intro hw hty h1
    have e : setUIntOf (typeAt c id) v 0 o = (.None, o.write r.offset.toNat (u64Bytes v r.subSize.toNat)) := by
      rw [hr]; simp only [setUIntOf, setValueUInt, h0, hty]; rfl
    rw [e, hget, if_neg (by rw [hty]; decide)]
    exact ⟨rfl, (write_int_print env r _ v o hw 2).2 hty h1⟩
  · intro hty hs
    have e : setFloatOf narrow (typeAt c id) v 0 o = (.None, o.write r.offset.toNat (toLE 8 v.toNat)) := by
      rw [hr]; simp only [setFloatOf, setValueFloat, h0, hty, hs]; rfl
    rw [e, hget, if_neg (by rw [hty]; decide)]
    refine ⟨rfl, ?_⟩
    unfold printMember print
    simp only [hty, hs]
    rw [read_write_toLE, leNat_toLE, Nat.mod_eq_of_lt (by have := v.isLt; omega)]
    simp
  · intro hty hs
    have e : setFloatOf narrow (typeAt c id) v 0 o = (.None, o.write r.offset.toNat (toLE 4 (narrow v).toNat)) := by
      rw [hr]; simp only [setFloatOf, setValueFloat, h0, hty, hs]; rfl
    rw [e, hget, if_neg (by rw [hty]; decide)]
    refine ⟨rfl, ?_⟩
    unfold printMember print
    simp only [hty, hs]
    rw [read_write_toLE, leNat_toLE, Nat.mod_eq_of_lt (by have := (narrow v).isLt; omega)]
    simp
  · intro i hi0 hin hl hw
    have helem : r.subType ≠ .Vector → elemType r = { r with type := r.subType } := by
      intro h; unfold elemType; rw [if_neg h]
    constructor
    · intro hty h1 h2
      have e : setIntOf (typeAt c id) v i o = (.None, o.write (r.offset.toNat + i * r.subSize.toNat) (u64Bytes v r.subSize.toNat)) := by
        rw [hr]; simp only [setIntOf, setValueInt, hi i hi0 hin hl, hty]; rfl
      rw [e, hsub i _ hin hl, helem (by rw [hty]; decide), Nat.mul_comm]
      exact ⟨rfl, (write_int_print env { r with type := r.subType } _ v o hw 2).1 hty h1 h2⟩
    · intro hty h1
      have e : setUIntOf (typeAt c id) v i o = (.None, o.write (r.offset.toNat + i * r.subSize.toNat) (u64Bytes v r.subSize.toNat)) := by
        rw [hr]; simp only [setUIntOf, setValueUInt, hi i hi0 hin hl, hty]; rfl
      rw [e, hsub i _ hin hl, helem (by rw [hty]; decide), Nat.mul_comm]
      exact ⟨rfl, (write_int_print env { r with type := r.subType } _ v o hw 2).2 hty h1⟩
  · intro h; rw [hr]; simp only [setIntOf, setValueInt, h0]; rw [if_pos h]
  · intro h; rw [hr]; simp only [setUIntOf, setValueUInt, h0]; rw [if_pos h]
  · intro h; rw [hr]; simp only [setFloatOf, setValueFloat, h0]; rw [if_pos h]
  · intro i; exact ⟨rfl, rfl, rfl⟩

/-- C66 is violated for the first element of every list: it is refused, while the others are stored. -/
theorem typed_first_violated (r : RType) (h : IsList r.type) (v : BitVec 64) (o : Obj) (narrow : BitVec 64 → BitVec 32) :
    setValueInt r v 0 o = (.InvalidDestination, o) ∧ setValueUInt r v 0 o = (.InvalidDestination, o) ∧
    setValueFloat narrow r v 0 o = (.InvalidDestination, o) := by
  have h0 : typedDest r 0 = .ok (r.offset.toNat, r.type) := rfl
  unfold setValueInt setValueUInt setValueFloat
  rw [h0]
  rcases h with h | h | h <;> rw [h] <;> exact ⟨rfl, rfl, rfl⟩

/-- C66 is violated for numbers that do not fit: 300 given to an `uint8` member reads back as 44, with success reported. -/
theorem typed_overflow_violated :
    let c : ClassTab := ⟨[⟨.UnsignedInteger, .None, 1, 0, 0, 2, 1, 0⟩], none⟩
    (setUIntOf (typeOf c 1) 300#64 0 exObj).1 = .None ∧
    getByHash exEnv c 1 (setUIntOf (typeOf c 1) 300#64 0 exObj).2 = some [0x34#8, 0x34#8] := by
  decide +kernel

example : typeAt ⟨[⟨.Array, .Integer, 2, 0, 3, 4, 1, 0⟩], none⟩ 0 = some ⟨.Array, .Integer, 2, 0, 3, 4, 1, 0⟩ ∧
    IsList RT.Array ∧ IsWidth 2 ∧ (setIntOf (typeAt ⟨[⟨.Array, .Integer, 2, 0, 3, 4, 1, 0⟩], none⟩ 0) (-5#64) 2 exObj).2.int 8 2 = -5 :=
  ⟨rfl, Or.inl rfl, Or.inr (Or.inl rfl), by decide +kernel⟩

/-! ## C67 -/

theorem takeWhile_all : ∀ (l : Text) (c : Byte), c ∉ l → l.takeWhile (· ≠ c) = l
  | [], _, _ => rfl
  | x :: l, c, h => by
    have hx : x ≠ c := by rintro rfl; simp at h
    rw [List.takeWhile_cons, if_pos (by simp [hx]), takeWhile_all l c (by intro hh; exact h (by simp [hh]))]

theorem descPart_eq : ∀ (t : Text), 0#8 ∉ t →
    t.take (descPart false t) = t.takeWhile (· ≠ 0x25#8) ∧
    t.drop (descPart true t) = (t.dropWhile (· ≠ 0x25#8)).drop 1
  | [], _ => ⟨rfl, rfl⟩
  | x :: t, h => by
    have hx : x ≠ 0#8 := by rintro rfl; simp at h
    have := descPart_eq t (by intro hh; exact h (by simp [hh]))
    unfold descPart
    rw [if_neg hx, if_neg hx]
    by_cases hp : x = 0x25#8
    · subst hp; simp
    · rw [if_neg hp, if_neg hp]
      simp [hp, this.1, this.2]

/-- C67: the description of a member is cut at its first '%' character: the first part is everything before it, the second
everything after it (nothing if there is none). -/
theorem desc_split (t : Text) (h : 0#8 ∉ t) :
    (0x25#8 ∉ t → splitDesc t = (t, [])) ∧
    (∀ a b, 0x25#8 ∉ a → t = a ++ 0x25#8 :: b → splitDesc t = (a, b)) := by
  obtain ⟨h1, h2⟩ := descPart_eq t h
  unfold splitDesc
  rw [h1, h2]
  have tw : ∀ l : Text, 0#8 ∉ l → cView l = l := by
    intro l hl
    exact takeWhile_all l 0#8 hl
  constructor
  · intro hp
    have e1 : t.takeWhile (· ≠ 0x25#8) = t := takeWhile_all t _ hp
    have e2 : t.dropWhile (· ≠ 0x25#8) = [] := by
      have := List.takeWhile_append_dropWhile (p := fun x : Byte => decide (x ≠ 0x25#8)) (l := t)
      rw [e1] at this
      simpa using this
    rw [e1, e2]; rfl
  · intro a b ha ht
    have hb : 0#8 ∉ b := by intro hh; exact h (by rw [ht]; simp [hh])
    have ea : ∀ x ∈ a, decide (x ≠ 0x25#8) = true := by
      intro x hx; simp only [decide_eq_true_eq]; intro hh; subst hh; exact ha hx
    have e1 : t.takeWhile (· ≠ 0x25#8) = a := by
      rw [ht, List.takeWhile_append_of_pos ea]; simp
    have e2 : t.dropWhile (· ≠ 0x25#8) = 0x25#8 :: b := by
      rw [ht, List.dropWhile_append_of_pos ea]; simp
    rw [e1, e2]
    simp only [List.drop_succ_cons, List.drop_zero, tw b hb]

/-- C67: the name/value pair of member `i` of an EXTENDED class: the name is its alias when aliases are asked for and it has
one, else its own name; the value is its printed value, between the two parts of its description (set off by a blank each)
when formatting is asked for and the first part is not empty. A member number out of range gives an empty pair. -/
theorem pair_extended (env : Env) (c : ClassTab) (ms : List ExtMember) (hl : ms.length = c.types.length) (al fmt : Bool) (o : Obj) (i : Nat) :
    (∀ m v, ms[i]? = some m → getByID env c i o = some v →
      getPair env c (extNames ms) al fmt i o = some (if al then m.alias_.getD m.text else m.text,
        match fmt, m.desc with
        | true, some d => if (splitDesc d).1 = [] then v
            else (splitDesc d).1 ++ [0x20#8] ++ v ++ (if (splitDesc d).2 = [] then [] else [0x20#8] ++ (splitDesc d).2)
        | _, _ => v)) ∧
    (ms.length ≤ i → getPair env c (extNames ms) al fmt i o = some ([], [])) := by
  constructor
  · intro m v hm hv
    have hi : i < ms.length := (List.getElem?_eq_some_iff.mp hm).1
    unfold getPair
    rw [if_neg (by omega)]
    simp only [extNames, List.getElem?_map, hm, Option.map_some, hv]
    cases al <;> cases fmt <;> simp only [Bool.false_eq_true, if_false, if_true] <;> cases ha : m.alias_ <;> cases hd : m.desc <;>
      simp only [ne_eq, not_true_eq_false, if_false, Option.getD] <;>
      first
        | rfl
        | (by_cases e1 : (splitDesc ‹Text›).1 = []
           · simp [e1]
           · by_cases e2 : (splitDesc ‹Text›).2 = [] <;> simp [e1, e2])
        | trivial
  · intro h
    unfold getPair
    rw [if_pos (by omega)]

/-- A class without EXTENDED has no alias or description tables: asking for aliases of a VARNAMES class (as
`SettingsManager::CreateLog` does), or for formatted values of any such class, indexes a null table for every member. -/
theorem pair_null_violated (env : Env) (c : ClassTab) (ns : List Text) (i : Nat) (hi : i < c.types.length) (b : Bool) (o : Obj) :
    getPair env c (varNames ns) true b i o = none ∧ getPair env c (varNames ns) b true i o = none ∧
    getPair env c plainNames b true i o = none := by
  unfold getPair
  have hn : ¬ c.types.length ≤ i := by omega
  rw [if_neg hn, if_neg hn, if_neg hn]
  refine ⟨rfl, ?_, ?_⟩
  · cases b <;> simp [varNames]
  · simp [plainNames]

/-- Without aliases or formatting a VARNAMES class gives name and value. -/
theorem pair_varnames (env : Env) (c : ClassTab) (ns : List Text) (i : Nat) (n v : Text) (o : Obj) (hn : ns[i]? = some n)
    (hi : i < c.types.length) (hv : getByID env c i o = some v) :
    getPair env c (varNames ns) false false i o = some (n, v) := by
  unfold getPair
  rw [if_neg (by omega)]
  simp [varNames, hn, hv]

def exExt : List ExtMember := [⟨[0x61#8], some [0x41#8, 0x41#8], some [0x78#8, 0x25#8, 0x79#8]⟩, ⟨[0x62#8], none, none⟩]

example : getPair exEnv ⟨[⟨.Bool, .None, 1, 0, 0, 0, 1, 0⟩, ⟨.Bool, .None, 1, 1, 0, 1, 2, 0⟩], none⟩ (extNames exExt) true true 0 exObj =
    some ([0x41#8, 0x41#8], [0x78#8, 0x20#8, 0x74#8, 0x72#8, 0x75#8, 0x65#8, 0x20#8, 0x79#8]) := by decide +kernel

/-! ## C68 -/

theorem buildBF_eq (signed : Bool) (sizes : List Nat) (ok : BitField.LayoutOk 64 sizes) (ds : List BitDecl) (hc : GoodCount ds.length)
    (hi : ∀ d ∈ ds, d.index < sizes.length) :
    ∃ tab : List RType, buildBFTable signed sizes ds = some tab ∧ tab.length = ds.length ∧
      ∀ (i : Nat) (d : BitDecl), ds[i]? = some d → ∃ r : RType, tab[i]? = some r ∧ buildBFType signed sizes d = some r := by
  unfold buildBFTable staticForArgID
  rw [vaNArgs_good ds hc]
  simp only [staticForArgIDAdd_eq]
  have hb : ∀ d ∈ ds, ∃ r, buildBFType signed sizes d = some r := by
    intro d hd
    obtain ⟨m, hm, _⟩ := BitField.get_layout ok d.index (hi d hd)
    exact ⟨_, by unfold buildBFType; rw [hm]; rfl⟩
  have key : ∀ (l : List BitDecl) (k : Nat), (∀ d ∈ l, d ∈ ds) →
      ∃ tab : List RType, ((l.map some).mapIdx (fun i a => (k + i, a))).mapM (fun p : Nat × Option BitDecl => p.2.bind (buildBFType signed sizes)) = some tab ∧
        tab.length = l.length ∧ ∀ (i : Nat) (d : BitDecl), l[i]? = some d → ∃ r : RType, tab[i]? = some r ∧ buildBFType signed sizes d = some r := by
    intro l
    induction l with
    | nil => intro k _; exact ⟨[], rfl, rfl, by simp⟩
    | cons a l ih =>
      intro k hsub
      obtain ⟨ra, hra⟩ := hb a (hsub a (by simp))
      obtain ⟨tab, h1, h2, h3⟩ := ih (k + 1) (fun d hd => hsub d (by simp [hd]))
      refine ⟨ra :: tab, ?_, by simp [h2], ?_⟩
      · simp only [List.map_cons, List.mapIdx_cons, List.mapM_cons, Option.bind_some, hra]
        have e1 : (fun (i : Nat) (a : Option BitDecl) => (k + (i + 1), a)) = fun i a => (k + 1 + i, a) := by
          funext i a; congr 1; omega
        rw [e1, h1]
        rfl
      · intro i d hid
        cases i with
        | zero => simp at hid; subst hid; exact ⟨ra, by simp, hra⟩
        | succ i => simp only [List.getElem?_cons_succ] at hid ⊢; exact h3 i d hid
  exact key ds 0 (fun _ h => h)

/-- C68: a bit field registered with all of its members from the first on in the order of their declaration: every member
reads by name as the number in its bits (two's complement if the word type is signed), the position being the sum of the
widths declared before it. Members of at most 30 bits.
Missing: registering members in another order or leaving out some in front (`bitfield_order_violated`). -/
theorem bitfield_by_name_partial (env : Env) (signed : Bool) (sizes : List Nat) (ok : BitField.LayoutOk 64 sizes)
    (h30 : ∀ s ∈ sizes, s ≤ 30) (ds : List BitDecl) (hc : GoodCount ds.length) (hlen : ds.length ≤ sizes.length)
    (hn : (ds.map (·.name)).Nodup) (hord : ∀ (i : Nat) (d : BitDecl), ds[i]? = some d → d.index = i) (al : Option (List (BitVec 32))) :
    ∃ tab : List RType, buildBFTable signed sizes ds = some tab ∧ tab.length = ds.length ∧
      ∀ d ∈ ds, ∀ size, sizes[d.index]? = some size → ∀ o : Obj,
        let number := o.bits (sizes.take d.index).sum size
        getByHash env ⟨tab, al⟩ d.name o = some (if signed then showInt (BitVec.ofNat size number).toInt else showNat number) := by
  have hidx : ∀ d ∈ ds, d.index < sizes.length := by
    intro d hd
    obtain ⟨i, hi⟩ := List.mem_iff_getElem?.mp hd
    have := (List.getElem?_eq_some_iff.mp hi).1
    rw [hord i d hi]; omega
  obtain ⟨tab, h1, h2, h3⟩ := buildBF_eq signed sizes ok ds hc hidx
  refine ⟨tab, h1, h2, ?_⟩
  intro d hd size hsize o number
  obtain ⟨i, hi⟩ := List.mem_iff_getElem?.mp hd
  obtain ⟨r, hr, hbr⟩ := h3 i d hi
  have hname : tab.map (·.valueNameHash) = ds.map (·.name) := by
    apply List.ext_getElem?
    intro j
    simp only [List.getElem?_map]
    cases hj : ds[j]? with
    | none =>
      have := List.getElem?_eq_none_iff.mp hj
      rw [List.getElem?_eq_none (by omega)]; rfl
    | some e =>
      obtain ⟨r', hr', hb'⟩ := h3 j e hj
      rw [hr']
      unfold buildBFType at hb'
      obtain ⟨m, hm⟩ := Option.map_eq_some_iff.mp hb'
      rw [← hm.2]; rfl
  have hlk : lookup ⟨tab, al⟩ d.name = some i := by
    unfold lookup
    simp only [hname]
    have : findHash d.name (ds.map (·.name)) 0 = some i := by
      refine ((findHash_spec d.name (ds.map (·.name)) 0).1 i).mpr ⟨by omega, by simp [hi], ?_⟩
      intro j hj hj2
      rw [Nat.sub_zero] at hj
      have hlt := (List.getElem?_eq_some_iff.mp hi).1
      have e1 : (ds.map (·.name))[j]? = (ds.map (·.name))[i]? := by rw [hj2]; simp [hi]
      have := (List.getElem?_inj (by simp; omega) hn).mp e1
      omega
    rw [this]
  obtain ⟨m, hm, ⟨hs, hp⟩, hfit⟩ := BitField.get_layout ok d.index (hidx d hd)
  have hms : m.size = size := by rw [hsize] at hs; exact (Option.some.inj hs).symm
  have hmem : size ∈ sizes := List.mem_of_getElem? hsize
  have hs30 := h30 size hmem
  have hs0 := ok.pos size hmem
  have hrr : r = ⟨.BitFieldMember, if signed then .Integer else .UnsignedInteger, BitVec.ofNat 8 m.size, BitVec.ofNat 8 d.index, 0#16,
      BitVec.ofNat 16 m.position, d.name, 0#32⟩ := by
    unfold buildBFType at hbr
    rw [hm] at hbr
    exact (Option.some.inj hbr).symm
  have hty : typeOf ⟨tab, al⟩ d.name = some r := by unfold typeOf; rw [hlk]; exact hr
  have hid : r.ID.toNat = i := by
    rw [hrr]
    have := hord i d hi
    have := (List.getElem?_eq_some_iff.mp hi).1
    have := hc.2.1
    simp; omega
  unfold getByHash
  rw [hty]
  simp only [hid]
  unfold getByID
  have hta : typeAt ⟨tab, al⟩ i = some r := hr
  rw [hta]
  simp only
  have hbf : r.type = .BitFieldMember := by rw [hrr]
  rw [if_pos hbf, bitmember_print env r 0 o size (sizes.take d.index).sum hbf (by rw [hrr]; simp; omega) (by rw [hrr, ← hp]; simp; omega)
    hs0 hs30 (by rw [← hp, ← hms]; exact hfit) rfl]
  congr 1
  rw [hrr]
  cases signed <;> simp [number]

/-- C68 is violated when members are registered in another order, or the first ones are left out: the members are then read
by their position in the declaration within the shorter table. Word 0b10_101_01 with members of 2, 3 and 2 bits (names 1, 2,
3) registered as (2, 3) only: name 2 reads the third member and name 3 reads nothing; assigning goes to the right member. -/
theorem bitfield_order_violated :
    let tab := buildBFTable false [2, 3, 2] [⟨2#32, 1⟩, ⟨3#32, 2⟩]
    let o : Obj := ⟨fun _ => 0x55#8, fun _ => []⟩
    tab.map (fun tab => (getByHash exEnv ⟨tab, none⟩ 2 o, getByHash exEnv ⟨tab, none⟩ 3 o)) = some (some [0x32#8], some []) ∧
    o.bits 2 3 = 5 ∧ o.bits 5 2 = 2 ∧
    tab.map (fun tab => ((setByName exEnv ⟨tab, none⟩ 2 [0x36#8] o).2.bits 2 3)) = some 6 := by
  decide +kernel

example : BitField.LayoutOk 64 [2, 3, 2] ∧ GoodCount 3 ∧
    ∀ (i : Nat) (d : BitDecl), [(⟨1#32, 0⟩ : BitDecl), ⟨2#32, 1⟩, ⟨3#32, 2⟩][i]? = some d → d.index = i := by
  refine ⟨⟨by decide, by decide, by decide⟩, ⟨by decide, by decide, by decide, by decide⟩, ?_⟩
  intro i d h
  match i, h with
  | 0, h => simp at h; subst h; rfl
  | 1, h => simp at h; subst h; rfl
  | 2, h => simp at h; subst h; rfl
  | _ + 3, h => simp at h

end PreCore.Refl
