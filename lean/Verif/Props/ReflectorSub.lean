import Verif.Props.ReflectorArray
import Verif.Props.ReflectorFlags
import Verif.Model.ReflBin
/-!
# C59: reading and assigning one element of a list, one component of a list of vectors, one flag;
C25/C26: bool and enum texts with blanks and in any case
-/
namespace PreCore.Refl
open CNum Spec Supercore

/-! ## Bool and enum texts -/

/-- `w` is the lower case word `l` written in any case. -/
inductive AnyCase : Text → Text → Prop
  | nil : AnyCase [] []
  | cons {a b : Byte} {w l : Text} : (a = b ∨ a.toNat + 32 = b.toNat) → AnyCase w l → AnyCase (a :: w) (b :: l)

theorem lower_letter : ∀ b : Byte, 97 ≤ b.toNat → b.toNat ≤ 122 → ∀ a : Byte, toLower a = b ↔ (a = b ∨ a.toNat + 32 = b.toNat) := by
  decide +kernel

theorem lower_prefix (l : Text) (hl : ∀ b ∈ l, 97 ≤ b.toNat ∧ b.toNat ≤ 122) : ∀ t : Text,
    ((t.map toLower).take l.length = l ↔ ∃ w rest, t = w ++ rest ∧ AnyCase w l) := by
  induction l with
  | nil => intro t; exact ⟨fun _ => ⟨[], t, rfl, .nil⟩, fun _ => by simp⟩
  | cons b l ih =>
    intro t
    have hb := hl b (by simp)
    have ih' := ih (fun x hx => hl x (by simp [hx]))
    cases t with
    | nil =>
      constructor
      · intro h; simp at h
      · rintro ⟨w, rest, h, hw⟩
        cases hw with
        | cons _ _ => simp at h
    | cons a t =>
      simp only [List.map_cons, List.length_cons, List.take_succ_cons, List.cons.injEq, lower_letter b hb.1 hb.2 a, ih' t]
      constructor
      · rintro ⟨h1, w, rest, h2, h3⟩
        exact ⟨a :: w, rest, by simp [h2], .cons h1 h3⟩
      · rintro ⟨w, rest, h1, h2⟩
        cases h2 with
        | cons g1 g2 =>
          simp only [List.cons_append, List.cons.injEq] at h1
          obtain ⟨rfl, h1⟩ := h1
          exact ⟨g1, _, rest, h1, g2⟩

/-- C26: assigning a bool field. The field becomes true exactly when the text (after blanks) starts with "true" in any
case, otherwise false; the assignment succeeds exactly when the text starts with "true" or "false" in any case and
reports an invalid format otherwise. -/
theorem bool_set_text (env : Env) (c : ClassTab) (h : BitVec 32) (r : RType) (t s : Text) (o : Obj)
    (hr : typeOf c h = some r) (hty : r.type = .Bool) (hi : Indented t s) :
    let yes := ∃ w rest, s = w ++ rest ∧ AnyCase w (ascii "true")
    let no := ∃ w rest, s = w ++ rest ∧ AnyCase w (ascii "false")
    let res := setByName env c h t o
    (yes → res.1 = .None ∧ res.2.mem r.offset.toNat = 1#8) ∧
    (no → res.1 = .None ∧ res.2.mem r.offset.toNat = 0#8) ∧
    (¬ yes → ¬ no → res.1 = .InvalidFormat ∧ res.2.mem r.offset.toNat = 0#8) := by
  rw [show ascii "true" = tTrue by decide, show ascii "false" = tFalse by decide]
  have p1 := lower_prefix tTrue (by decide) s
  have p2 := lower_prefix tFalse (by decide) s
  rw [show tTrue.length = 4 from rfl] at p1
  rw [show tFalse.length = 5 from rfl] at p2
  have e : setByName env c h t o = ((setBoolean s).1, o.write r.offset.toNat [if (setBoolean s).2 then 1#8 else 0#8]) := by
    unfold setByName
    rw [hr]
    simp only [setValue, setMember, member, hty, indented_skip hi]
    rfl
  simp only [e]
  have hm : ∀ b : Byte, (o.write r.offset.toNat [b]).mem r.offset.toNat = b := by intro b; simp [Obj.write]
  rw [hm]
  unfold setBoolean
  simp only
  refine ⟨fun y => ?_, fun n => ?_, fun y n => ?_⟩
  · have := p1.2 y
    simp [this]
  · have hn := p2.2 n
    have hy : (s.map toLower).take 4 ≠ tTrue := by
      intro hy
      have : ((s.map toLower).take 5).take 4 = tFalse.take 4 := by rw [hn]
      rw [List.take_take, show min 4 5 = 4 from rfl, hy] at this
      exact absurd this (by decide)
    have hy' : ((s.map toLower).take 4 == tTrue) = false := by rw [beq_eq_false_iff_ne]; exact hy
    simp only [hy', hn]
    decide
  · have hy : (s.map toLower).take 4 ≠ tTrue := fun hy => y (p1.1 hy)
    have hn : (s.map toLower).take 5 ≠ tFalse := fun hn => n (p2.1 hn)
    have hy' : ((s.map toLower).take 4 == tTrue) = false := by rw [beq_eq_false_iff_ne]; exact hy
    have hn' : ((s.map toLower).take 5 != tFalse) = true := by rw [bne_iff_ne]; exact hn
    simp only [hy', hn']
    decide

/-- " TrUe!" is true, "FALSE" is false, "yes" is neither. -/
example : Indented [0x20#8, 0x54#8, 0x72#8, 0x55#8, 0x65#8, 0x21#8] [0x54#8, 0x72#8, 0x55#8, 0x65#8, 0x21#8] ∧
    (∃ w rest, ([0x54#8, 0x72#8, 0x55#8, 0x65#8, 0x21#8] : Text) = w ++ rest ∧ AnyCase w tTrue) ∧
    (¬ ∃ w rest, ([0x79#8, 0x65#8, 0x73#8] : Text) = w ++ rest ∧ AnyCase w tTrue) ∧
    typeOf ⟨[⟨.Bool, .None, 1, 0, 0, 0, 5, 0⟩], none⟩ 5 = some ⟨.Bool, .None, 1, 0, 0, 0, 5, 0⟩ := by
  refine ⟨⟨[0x20#8], rfl, by simp [IsBlank], by simp [IsBlank]⟩, (lower_prefix tTrue (by decide) _).1 (by decide), ?_, by decide⟩
  rw [← lower_prefix tTrue (by decide) [0x79#8, 0x65#8, 0x73#8]]
  decide

theorem skipEnd_padded {t post : Text} (h : IsName t) (hp : ∀ c ∈ post, IsBlank false c) : (skipEnd false (t ++ post)).1 = t := by
  obtain ⟨q, h1, h2, h3⟩ := skipEnd_spec false (t ++ post)
  generalize (skipEnd false (t ++ post)).1 = x at h1 h3
  rcases List.append_eq_append_iff.1 h1 with ⟨a, e1, e2⟩ | ⟨a, e1, e2⟩
  · rcases List.eq_nil_or_concat a with rfl | ⟨a, c, rfl⟩
    · simpa using e1
    · exfalso
      refine h3 c (by rw [e1, List.concat_eq_append, ← List.append_assoc, List.getLast?_concat]) (hp c ?_)
      rw [e2]; simp
  · cases a with
    | nil => simpa using e1.symm
    | cons c a =>
      exfalso
      refine (h.2 c (by rw [e1]; simp)).1 (h2 c ?_)
      rw [e2]; simp

/-- C25: blanks around an enumerator's name are ignored when it is assigned, for every name, every amount of blanks. -/
theorem enum_set_padded (env : Env) (c : ClassTab) (h : BitVec 32) (r : RType) (n : Nat) (tab : EnumTab)
    (hr : typeOf c h = some r) (hty : r.type = .Enum) (hn : r.subSize.toNat = n)
    (henv : env.enums r.typeHash = some tab) (hg : GoodTab tab) (o : Obj) (pre post : Text)
    (hpre : ∀ x ∈ pre, IsBlank false x) (hpost : ∀ x ∈ post, IsBlank false x) :
    (∀ e, e ∈ tab → e.2.toNat < 256 ^ n → (setByName env c h (pre ++ e.1 ++ post) o).1 = .None ∧
      (setByName env c h (pre ++ e.1 ++ post) o).2.nat r.offset.toNat n = e.2.toNat) ∧
    (∀ t, IsName t → t ∉ tab.map (·.1) → setByName env c h (pre ++ t ++ post) o = (.InvalidFormat, o)) := by
  have hind : ∀ t, IsName t → Indented (pre ++ t ++ post) (t ++ post) := by
    intro t ht
    refine ⟨pre, by simp, hpre, ?_⟩
    intro x hx
    match t, ht with
    | [], ht => exact absurd rfl ht.1
    | y :: ys, ht =>
      simp only [List.cons_append, List.head?_cons, Option.some.injEq] at hx
      subst hx
      exact (ht.2 y (by simp)).1
  refine ⟨?_, ?_⟩
  · intro e he hv
    have hnm := hg.1 e he
    unfold setByName
    rw [hr]
    simp only [setValue, setMember, member, hty, indented_skip (hind _ hnm), setEnum, skipEnd_padded hnm hpost, hn]
    rw [if_neg hnm.1]
    unfold enumValue
    rw [henv]
    simp only [find_name tab hg e he, storeBytes]
    exact ⟨trivial, u64Bytes_nat _ _ _ _ hv⟩
  · intro t hnm hnot
    unfold setByName
    rw [hr]
    simp only [setValue, setMember, member, hty, indented_skip (hind _ hnm), setEnum, skipEnd_padded hnm hpost, hn]
    rw [if_neg hnm.1]
    unfold enumValue
    rw [henv]
    simp only [find_name_none tab t hnot, storeBytes]

example : typeOf exEnumTab 7 = some ⟨.Enum, .None, 4, 0, 0, 0, 7, 9⟩ ∧ exNegEnv.enums 9 = some exNegTab ∧
    (setByName exNegEnv exEnumTab 7 [0x20#8, 0x41#8, 0x09#8] exObj).1 = .None := by decide +kernel

/-! ## One element -/

theorem print_elem (env : Env) (r : RType) (ty : RT) (n a : Nat) (o : Obj) (f : Nat) (h1 : r.type = ty) (h2 : r.subSize.toNat = n)
    (ht : ty = .Integer ∨ ty = .UnsignedInteger) (hw : IsWidth n) : print env (f + 1) r a o = some (elemText ty o a n) := by
  have hw' : n = 1 ∨ n = 2 ∨ n = 4 ∨ n = 8 := hw
  subst h2
  unfold print elemText
  simp only [h1]
  rcases ht with rfl | rfl
  · simp only [if_pos hw', if_true]; rfl
  · simp only [if_pos hw']
    rw [if_neg (by simp)]; rfl

/-- C59: reading element `i` of a list of integers gives the text of exactly that element, the empty text when there is no
element `i`. -/
theorem sub_get (env : Env) (c : ClassTab) (id i : Nat) (r : RType) (ty : RT) (n : Nat) (o : Obj)
    (hr : c.types[id]? = some r) (hl : IntList r ty n) (ht : ty = .Integer ∨ ty = .UnsignedInteger) :
    (i < r.numItems.toNat → getSub env c id i o = some (elemText ty o (r.offset.toNat + n * i) n)) ∧
    (r.numItems.toNat ≤ i → getSub env c id i o = some []) := by
  obtain ⟨h1, hty, hn, hw⟩ := hl
  obtain ⟨e1, e2, _⟩ := elem_int hty ht
  have hg : getSub env c id i o = if r.numItems.toNat ≤ i then some [] else
      printMember env (elemType r) (r.offset.toNat + r.subSize.toNat * i) o := by
    unfold getSub typeAt
    rw [hr]
    rcases h1 with h | h | h <;> simp only [h]
  rw [hg]
  refine ⟨fun hi => ?_, fun hi => by rw [if_pos hi]⟩
  rw [if_neg (by omega), ← hn]
  exact print_elem env _ _ _ _ _ 2 e1 (by rw [e2]) ht (by rw [hn]; exact hw)

/-- C59: assigning a literal that fits to element `i` succeeds, stores it, and afterwards reading the element gives the number's
text, while no byte outside the element has changed (in particular every other element reads as before). -/
theorem sub_set_get (env : Env) (c : ClassTab) (h : BitVec 32) (id i : Nat) (r : RType) (ty : RT) (n : Nat) (o : Obj) (t s : Text)
    (hlk : lookup c h = some id) (hr : c.types[id]? = some r) (hl : IntList r ty n) (ht : ty = .Integer ∨ ty = .UnsignedInteger)
    (hi : i < r.numItems.toNat) (hind : Indented t s) :
    (∀ neg m, ty = .Integer → Literal s neg m → -2 ^ (8 * n - 1) ≤ signedVal neg m → signedVal neg m ≤ 2 ^ (8 * n - 1) - 1 →
      (setSubByName env c h t i o).1 = .None ∧ getSub env c id i (setSubByName env c h t i o).2 = some (showInt (signedVal neg m))) ∧
    (∀ m, ty = .UnsignedInteger → Literal s false m → m < 2 ^ (8 * n) →
      (setSubByName env c h t i o).1 = .None ∧ getSub env c id i (setSubByName env c h t i o).2 = some (showNat m)) ∧
    (∀ j, j ≠ i → getSub env c id j (setSubByName env c h t i o).2 = getSub env c id j o) := by
  have hto : typeOf c h = some r := by unfold typeOf; rw [hlk]; exact hr
  have hset : setSubByName env c h t i o = setValueSub env r t i o := by
    unfold setSubByName setSubOf
    rw [hto]
    rcases hl.1 with h | h | h <;> simp only [h]
  rw [hset]
  have hl' := hl
  obtain ⟨h1, hty, hn, hw⟩ := hl
  obtain ⟨e1, e2, hs⟩ := elem_int hty ht
  have hn1 : 1 ≤ 8 * n := by rcases hw with rfl | rfl | rfl | rfl <;> decide
  have hn2 : 8 * n ≤ 64 := by rcases hw with rfl | rfl | rfl | rfl <;> decide
  have hadr : ∀ p, r.offset.toNat + r.subSize.toNat * p = r.offset.toNat + n * p := by intro p; rw [hn]
  refine ⟨?_, ?_, ?_⟩
  · rintro neg m rfl hl1 l1 l2
    have e : setValueSub env r t i o = storeBits o (r.offset.toNat + n * i) n (setSigned (8 * n) s) := by
      unfold setValueSub
      rw [hadr]
      exact setSigned_member env _ n t s _ o hind e1 (by rw [e2, hn]) hw
    obtain ⟨g, _⟩ := setSigned_spec (8 * n) hn1 hn2 s
    rw [e, ((g neg m hl1).1 l1 l2)]
    refine ⟨rfl, ?_⟩
    rw [(sub_get env c id i r _ n _ hr hl' ht).1 hi]
    unfold elemText
    rw [if_pos rfl, store_int, ofInt_toInt_fit _ hn1 _ l1 l2]
  · rintro m rfl hl1 l1
    have e : setValueSub env r t i o = storeBits o (r.offset.toNat + n * i) n (setUnsigned (8 * n) s) := by
      unfold setValueSub
      rw [hadr]
      exact setUnsigned_member env _ n t s _ o hind e1 (by rw [e2, hn]) hw
    obtain ⟨g, _⟩ := setUnsigned_spec (8 * n) hn1 hn2 s
    rw [e, ((g m hl1).1 (by omega))]
    refine ⟨rfl, ?_⟩
    rw [(sub_get env c id i r _ n _ hr hl' ht).1 hi]
    unfold elemText
    rw [if_neg (by simp), store_nat, BitVec.toNat_ofNat, Nat.mod_eq_of_lt l1]
  · intro j hj
    have hsame : SameOutside (r.offset.toNat + n * i) (r.offset.toNat + n * i + n) o (setValueSub env r t i o).2 := by
      rcases ht with rfl | rfl
      · have e : setValueSub env r t i o = storeBits o (r.offset.toNat + n * i) n (setSigned (8 * n) s) := by
          unfold setValueSub
          rw [hadr]
          exact setSigned_member env _ n t s _ o hind e1 (by rw [e2, hn]) hw
        rw [e]; exact storeBits_same _ _ _ _
      · have e : setValueSub env r t i o = storeBits o (r.offset.toNat + n * i) n (setUnsigned (8 * n) s) := by
          unfold setValueSub
          rw [hadr]
          exact setUnsigned_member env _ n t s _ o hind e1 (by rw [e2, hn]) hw
        rw [e]; exact storeBits_same _ _ _ _
    generalize (setValueSub env r t i o).2 = o' at hsame
    by_cases hjn : j < r.numItems.toNat
    · rw [(sub_get env c id j r _ n o hr hl' ht).1 hjn, (sub_get env c id j r _ n o' hr hl' ht).1 hjn]
      have hrd : o'.read (r.offset.toNat + n * j) n = o.read (r.offset.toNat + n * j) n := by
        unfold Obj.read
        apply List.map_congr_left
        intro k hk
        rw [List.mem_range] at hk
        apply (hsame _ _).1
        rcases Nat.lt_or_gt_of_ne hj with hji | hji
        · left
          have : n * (j + 1) ≤ n * i := Nat.mul_le_mul_left _ hji
          rw [Nat.mul_add] at this
          omega
        · right
          have : n * (i + 1) ≤ n * j := Nat.mul_le_mul_left _ hji
          rw [Nat.mul_add] at this
          omega
      simp only [elemText, Obj.int, Obj.nat, hrd]
    · rw [(sub_get env c id j r _ n o hr hl' ht).2 (by omega), (sub_get env c id j r _ n o' hr hl' ht).2 (by omega)]

/-- C59: component `e` of element `i` of a list of integer vectors. -/
theorem elem_get (env : Env) (c : ClassTab) (id i e : Nat) (r : RType) (n : Nat) (o : Obj)
    (hr : c.types[id]? = some r) (hty : r.type = .Array ∨ r.type = .ArrayClass) (hsub : r.subType = .Vector)
    (ht : decType r.typeHash = .Integer ∨ decType r.typeHash = .UnsignedInteger) (hn : (decSize r.typeHash).toNat = n) (hw : IsWidth n) :
    (i < r.numItems.toNat → e < (decNum r.typeHash).toNat →
      getElem env c id i e o = some (elemText (decType r.typeHash) o (r.offset.toNat + r.subSize.toNat * i + n * e) n)) ∧
    (r.numItems.toNat ≤ i ∨ (decNum r.typeHash).toNat ≤ e → getElem env c id i e o = some []) := by
  have ha : isArray r = true := by unfold isArray; rcases hty with h | h <;> rw [h] <;> rfl
  unfold getElem typeAt
  rw [hr]
  simp only [ha, Bool.not_true, Bool.false_eq_true, if_false, hsub]
  refine ⟨fun h1 h2 => ?_, fun h => ?_⟩
  · rw [if_neg (by omega), if_neg (by omega), hn]
    exact print_elem env _ _ n _ o 2 rfl hn ht hw
  · by_cases h1 : r.numItems.toNat ≤ i
    · rw [if_pos h1]
    · rw [if_neg h1, if_pos (by omega)]

/-- C59 (partial: flags 0 to 30, see `flag31_violated` and `flag_bit_violated`): reading one flag of a flags field says whether that
bit of the field is set; there are as many flags as bits. -/
theorem flag_get_partial (env : Env) (c : ClassTab) (id i : Nat) (r : RType) (n : Nat) (o : Obj)
    (hr : c.types[id]? = some r) (hty : r.type = .EnumFlags) (hn : r.subSize.toNat = n) (hn8 : n ≤ 8) :
    (i < 8 * n → i < 31 → getSub env c id i o = some (if (o.nat r.offset.toNat n).testBit i then tTrue else tFalse)) ∧
    (8 * n ≤ i → getSub env c id i o = some []) := by
  unfold getSub typeAt
  rw [hr]
  simp only [hty, hn]
  refine ⟨fun h1 h2 => ?_, fun h => by rw [if_pos (by omega)]⟩
  rw [if_neg (by omega)]
  unfold printFlagBit flagBit
  rw [if_pos h2]
  have hv : o.nat r.offset.toNat n < 2 ^ 64 := by
    have := nat_lt o r.offset.toNat n
    have h3 : (2 : Nat) ^ (8 * n) ≤ 2 ^ 64 := Nat.pow_le_pow_right (by omega) (by omega)
    omega
  simp only [Option.map_some, Option.some.injEq, BitVec.getLsbD_ofNat, Obj.nat]
  simp only [show decide (i < 64) = true by simp; omega, Bool.true_and]
  congr

/-- C59 (partial: flags 0 to 30): one flag of element `j` of a list of flags. -/
theorem flag_elem_get_partial (env : Env) (c : ClassTab) (id j i : Nat) (r : RType) (n : Nat) (o : Obj)
    (hr : c.types[id]? = some r) (hty : r.type = .Array ∨ r.type = .ArrayClass) (hsub : r.subType = .EnumFlags)
    (hn : r.subSize.toNat = n) :
    (j < r.numItems.toNat → i < 8 * n → i < 31 →
      getElem env c id j i o = some (if (o.nat (r.offset.toNat + n * j) n).testBit i then tTrue else tFalse)) ∧
    (r.numItems.toNat ≤ j ∨ 8 * n ≤ i → getElem env c id j i o = some []) := by
  have ha : isArray r = true := by unfold isArray; rcases hty with h | h <;> rw [h] <;> rfl
  unfold getElem typeAt
  rw [hr]
  simp only [ha, Bool.not_true, Bool.false_eq_true, if_false, hsub, hn]
  refine ⟨fun h0 h1 h2 => ?_, fun h => by rw [if_pos (by omega)]⟩
  rw [if_neg (by omega)]
  unfold printFlagBit flagBit
  rw [if_pos h2]
  simp only [Option.map_some, Option.some.injEq, BitVec.getLsbD_ofNat, Obj.nat]
  simp only [show decide (i < 64) = true by simp; omega, Bool.true_and]
  congr

/-- C59 violated: with an 8 byte flags field flag 31 reads as set when any of the flags 31 to 63 is (here flag 40); with a smaller
field it has no determined value. -/
theorem flag31_violated :
    getSub exEnv ⟨[⟨.EnumFlags, .None, 8, 0, 0, 0, 7, 9⟩], none⟩ 0 31 ⟨fun x => if x = 5 then 1#8 else 0#8, fun _ => []⟩ = some tTrue ∧
    getSub exEnv ⟨[⟨.EnumFlags, .None, 4, 0, 0, 0, 7, 9⟩], none⟩ 0 31 ⟨fun _ => 0#8, fun _ => []⟩ = none := by
  decide +kernel

/-- C59 violated, in general: flag 31 of an 8 byte flags field reads as set exactly when the field holds 2^31 or more, that is when any of
the flags 31 to 63 is set. -/
theorem flag31_any_violated (env : Env) (c : ClassTab) (id : Nat) (r : RType) (o : Obj)
    (hr : c.types[id]? = some r) (hty : r.type = .EnumFlags) (hn : r.subSize.toNat = 8) :
    getSub env c id 31 o = some (if 2 ^ 31 ≤ o.nat r.offset.toNat 8 then tTrue else tFalse) := by
  have hv := nat_lt o r.offset.toNat 8
  unfold getSub typeAt
  rw [hr]
  simp only [hty, hn]
  rw [if_neg (by omega)]
  unfold printFlagBit flagBit
  rw [if_neg (by omega), if_pos ⟨rfl, rfl⟩]
  have h64 : ∀ x : BitVec 64, (x &&& 0xffffffff80000000#64 != 0#64) = decide (2 ^ 31 ≤ x.toNat) := by
    intro x
    have e : x &&& 0xffffffff80000000#64 = (x >>> 31) <<< 31 := by
      apply BitVec.eq_of_getLsbD_eq
      intro i hi
      have hm : ∀ i : Fin 64, (0xffffffff80000000#64).getLsbD i.val = !decide (i.val < 31) := by decide
      simp only [BitVec.getLsbD_and, BitVec.getLsbD_shiftLeft, BitVec.getLsbD_ushiftRight, hm ⟨i, hi⟩, hi, decide_true, Bool.true_and]
      by_cases h : i < 31
      · simp [h]
      · simp only [h, decide_false, Bool.not_false, Bool.and_true, Bool.true_and]
        congr 1; omega
    have hz : (x &&& 0xffffffff80000000#64 = 0#64) ↔ x.toNat < 2 ^ 31 := by
      rw [e]
      constructor
      · intro h
        have := congrArg BitVec.toNat h
        simp only [BitVec.toNat_shiftLeft, BitVec.toNat_ushiftRight, Nat.shiftLeft_eq, Nat.shiftRight_eq_div_pow, BitVec.toNat_ofNat] at this
        have := x.isLt
        omega
      · intro h
        apply BitVec.eq_of_toNat_eq
        simp only [BitVec.toNat_shiftLeft, BitVec.toNat_ushiftRight, Nat.shiftLeft_eq, Nat.shiftRight_eq_div_pow, BitVec.toNat_ofNat]
        omega
    by_cases hx : x &&& 0xffffffff80000000#64 = 0#64
    · have := hz.1 hx
      simp only [hx, bne_self_eq_false]
      exact (decide_eq_false (by omega)).symm
    · rw [bne_iff_ne.2 hx |> (fun h => h)]
      exact (decide_eq_true (by have := mt hz.2 hx; omega)).symm
  rw [h64]
  simp only [Option.map_some, BitVec.toNat_ofNat]
  have h3 : leNat (o.read r.offset.toNat 8) = o.nat r.offset.toNat 8 := rfl
  rw [h3, Nat.mod_eq_of_lt (by simpa using hv)]
  simp only [decide_eq_true_eq]

/-- A list of three 2 byte integers at offset 4. -/
example : IntList ⟨.Array, .Integer, 2, 0, 3, 4, 7, 9⟩ .Integer 2 ∧
    getSub exEnv ⟨[⟨.Array, .Integer, 2, 0, 3, 4, 7, 9⟩], none⟩ 0 2 ⟨fun x => if x = 8 then 5#8 else 0#8, fun _ => []⟩ = some [0x35#8] ∧
    decType 0x00030403#32 = decType 0x00030403#32 ∧ (decSize 0x00030403#32).toNat = 4 := by
  refine ⟨⟨Or.inl rfl, rfl, rfl, Or.inr (Or.inl rfl)⟩, by decide +kernel, rfl, by decide⟩

/-! ## Sub classes -/

/-- C59: the sub class handed out for element `i` of a list of classes is the registered class of the member at the address of exactly
that element; there is none beyond the last element (an element 0 is handed out even of an empty list). -/
theorem subclass_elem (reg : ReflBin.Registry) (inst : ReflBin.Inst) (id i : Nat) (r : RType) (cd : ReflBin.ClassDef)
    (hr : inst.cls.tab.types[id]? = some r) (hl : IsList r.type) (hc : r.subType = .Class ∨ r.subType = .BitFieldClass)
    (hreg : reg r.typeHash = some cd) :
    (i < r.numItems.toNat → ReflBin.subClass reg inst id i = some ⟨cd, inst.base + r.offset.toNat + r.subSize.toNat * i⟩) ∧
    (r.numItems.toNat ≤ i → i ≠ 0 → ReflBin.subClass reg inst id i = none) := by
  unfold ReflBin.subClass
  rw [hr]
  refine ⟨fun h => ?_, fun h h0 => by simp only; rw [if_pos ⟨h0, h⟩]⟩
  simp only
  rw [if_neg (by omega)]
  rcases hl with h | h | h <;> simp only [h, hc, if_true, hreg, Option.map_some, Nat.mul_comm]

/-- C59: a single class member. -/
theorem subclass_member (reg : ReflBin.Registry) (inst : ReflBin.Inst) (id : Nat) (r : RType) (cd : ReflBin.ClassDef)
    (hr : inst.cls.tab.types[id]? = some r) (hc : r.type = .Class ∨ r.type = .BitFieldClass)
    (hreg : reg r.typeHash = some cd) : ReflBin.subClass reg inst id 0 = some ⟨cd, inst.base + r.offset.toNat⟩ := by
  unfold ReflBin.subClass
  rw [hr]
  simp only
  rw [if_neg (by omega)]
  rcases hc with h | h <;> simp [h, hreg]

/-- C59: nothing is handed out for members of other types, unknown members and unregistered classes. -/
theorem subclass_none (reg : ReflBin.Registry) (inst : ReflBin.Inst) (id i : Nat) :
    (inst.cls.tab.types[id]? = none → ReflBin.subClass reg inst id i = none) ∧
    (∀ r, inst.cls.tab.types[id]? = some r → reg r.typeHash = none → ReflBin.subClass reg inst id i = none) ∧
    (∀ r, inst.cls.tab.types[id]? = some r → r.type ≠ .Class → r.type ≠ .BitFieldClass → ¬ (IsList r.type ∧ (r.subType = .Class ∨ r.subType = .BitFieldClass)) →
      ReflBin.subClass reg inst id i = none) := by
  unfold ReflBin.subClass
  refine ⟨fun h => by rw [h], fun r h h' => ?_, fun r h h1 h2 h3 => ?_⟩
  · rw [h]; simp [h']
  · rw [h]
    simp only
    split
    · rfl
    · rw [if_neg]
      intro hp
      unfold IsList at h3
      cases ht : r.type <;> simp only [ht] at hp h1 h2 h3 <;> simp_all

example : ReflBin.subClass (fun _ => some ⟨1, ⟨[], none⟩⟩) ⟨⟨2, ⟨[⟨.ArrayClass, .Class, 12, 0, 3, 4, 7, 9⟩], none⟩⟩, 100⟩ 0 2 =
    some ⟨⟨1, ⟨[], none⟩⟩, 128⟩ := by rfl

end PreCore.Refl
