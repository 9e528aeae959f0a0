import Verif.Props.ReflectorNum
import Verif.Props.StringView
/-!
# C23 (round trip), C25, C26: printing a field and assigning the printed text
-/
namespace PreCore.Refl
open CNum Spec Supercore

/-! ## Integers -/

theorem positional_append (base : Nat) (a b : List Nat) :
    positional base (a ++ b) = positional base a * base ^ b.length + positional base b := by
  induction a with
  | nil => simp [positional]
  | cons d ds ih =>
    simp only [List.cons_append, positional, ih, List.length_append, Nat.pow_add, Nat.add_mul]
    rw [Nat.mul_assoc, Nat.add_assoc]

theorem digitChars_append {base a b da db} (h1 : DigitChars base a da) (h2 : DigitChars base b db) :
    DigitChars base (a ++ b) (da ++ db) := by
  induction h1 with
  | nil => exact h2
  | cons h _ ih => exact .cons h ih

theorem digit_char (d : Nat) (h : d < 10) : IsDigit 10 (BitVec.ofNat 8 (48 + d)) d := by
  refine ⟨h, Or.inl ⟨h, ?_⟩⟩
  rw [BitVec.toNat_ofNat]
  omega

theorem showNat_digits (n : Nat) : ∃ ds, DigitChars 10 (showNat n) ds ∧ ds ≠ [] ∧ positional 10 ds = n := by
  induction n using Nat.strongRecOn with
  | ind n ih =>
    unfold showNat
    by_cases h : n < 10
    · rw [dif_pos h]
      exact ⟨[n], .cons (digit_char n h) .nil, by simp, by simp [positional]⟩
    · rw [dif_neg h]
      obtain ⟨ds, h1, h2, h3⟩ := ih (n / 10) (by omega)
      refine ⟨ds ++ [n % 10], digitChars_append h1 (.cons (digit_char _ (by omega)) .nil), by simp, ?_⟩
      rw [positional_append, h3]
      simp [positional]
      omega

theorem not_hex_digits {cs ds} (h : DigitChars 10 cs ds) : ¬ HexText cs := by
  have x : ∀ d, ¬ IsDigit 10 0x78#8 d := by
    intro d hd
    have := (digitVal_iff 10 (by omega) 0x78#8 d).2 hd
    simp [digitVal] at this
  have m : ∀ d, ¬ IsDigit 10 0x2d#8 d := by
    intro d hd
    exact (digit_not_sign hd).1 rfl
  rintro (⟨r, rfl⟩ | ⟨r, rfl⟩)
  · cases h with
    | cons h1 h2 =>
      cases h2 with
      | cons h3 _ => exact x _ h3
  · cases h with
    | cons h1 _ => exact m _ h1

theorem not_hex_neg_digits {cs ds} (h : DigitChars 10 cs ds) : ¬ HexText (0x2d#8 :: cs) := by
  have x : ∀ d, ¬ IsDigit 10 0x78#8 d := by
    intro d hd
    have := (digitVal_iff 10 (by omega) 0x78#8 d).2 hd
    simp [digitVal] at this
  rintro (⟨r, hr⟩ | ⟨r, hr⟩)
  · simp [hexMark] at hr
  · simp only [hexMark, List.cons_append, List.nil_append, List.cons.injEq, true_and] at hr
    subst hr
    cases h with
    | cons h1 h2 =>
      cases h2 with
      | cons h3 _ => exact x _ h3

theorem stops_nil (base : Nat) : Stops base [] := by intro c h; cases h

theorem showNat_literal (n : Nat) : Literal (showNat n) false n := by
  obtain ⟨ds, h1, h2, h3⟩ := showNat_digits n
  have := Literal.dec (ws := []) (sg := []) (by simp) .none h1 h2 (stops_nil 10) (by simpa using not_hex_digits h1)
  simpa [h3] using this

theorem showInt_literal (z : Int) : Literal (showInt z) (decide (z < 0)) z.natAbs := by
  unfold showInt
  by_cases hz : z < 0
  · rw [if_pos hz]
    obtain ⟨ds, h1, h2, h3⟩ := showNat_digits z.natAbs
    have := Literal.dec (ws := []) (by simp) .minus h1 h2 (stops_nil 10) (by simpa using not_hex_neg_digits h1)
    simpa [h3, hz] using this
  · rw [if_neg hz]
    simpa [hz] using showNat_literal z.natAbs

theorem signedVal_showInt (z : Int) : signedVal (decide (z < 0)) z.natAbs = z := by
  unfold signedVal
  by_cases hz : z < 0 <;> simp [hz] <;> omega

theorem digit_not_blank {c : Byte} {d} (h : IsDigit 10 c d) : ¬ IsBlank false c := by
  intro hb
  have hw := digit_not_white h
  apply hw
  rcases hb with h1 | h1 | h1
  · exact Or.inl h1
  · right; subst h1; decide
  · simp at h1

theorem showNat_head (n : Nat) : ∀ c, (showNat n).head? = some c → ¬ IsBlank false c := by
  obtain ⟨ds, h1, h2, _⟩ := showNat_digits n
  generalize showNat n = cs at h1
  cases h1 with
  | nil => exact absurd rfl h2
  | cons h _ =>
    intro c hc
    simp only [List.head?_cons, Option.some.injEq] at hc
    subst hc
    exact digit_not_blank h

theorem indented_self {s : Text} (h : ∀ c, s.head? = some c → ¬ IsBlank false c) : Indented s s := ⟨[], rfl, by simp, h⟩

theorem showInt_indented (z : Int) : Indented (showInt z) (showInt z) := by
  apply indented_self
  unfold showInt
  by_cases hz : z < 0
  · rw [if_pos hz]
    intro c hc
    simp only [List.head?_cons, Option.some.injEq] at hc
    subst hc
    simp [IsBlank]
  · rw [if_neg hz]; exact showNat_head _

theorem nat_lt (o : Obj) (a n : Nat) : o.nat a n < 2 ^ (8 * n) := by
  have := leNat_lt (o.read a n)
  rwa [read_length, pow_256_8] at this

theorem int_range (o : Obj) (a n : Nat) : -2 ^ (8 * n - 1) ≤ o.int a n ∧ o.int a n ≤ 2 ^ (8 * n - 1) - 1 := by
  unfold Obj.int
  have h1 := BitVec.le_toInt (x := BitVec.ofNat (8 * n) (o.nat a n))
  have h2 := BitVec.toInt_lt (x := BitVec.ofNat (8 * n) (o.nat a n))
  constructor
  · exact h1
  · omega

/-- C23, round trip: the text printed for an integer field, assigned to the same field of any object, restores the
number and reports success. -/
theorem int_roundtrip (env : Env) (c : ClassTab) (h : BitVec 32) (i : Nat) (r : RType) (n : Nat) (o o' : Obj)
    (hl : lookup c h = some i) (hr : c.types[i]? = some r)
    (hty : r.type = .Integer ∨ r.type = .UnsignedInteger) (hn : r.subSize.toNat = n) (hw : IsWidth n) :
    ∃ t, getByName env c h o = some t ∧ (setByName env c h t o').1 = .None ∧
      (setByName env c h t o').2.nat r.offset.toNat n = o.nat r.offset.toNat n := by
  have ht : typeOf c h = some r := by unfold typeOf; rw [hl]; exact hr
  have hw' : n = 1 ∨ n = 2 ∨ n = 4 ∨ n = 8 := hw
  rcases hty with hty | hty
  · refine ⟨showInt (o.int r.offset.toNat n), ?_, ?_⟩
    · unfold getByName getByID typeAt
      rw [hl]; simp only; rw [hr]
      subst hn
      simp only [printMember, print, hty, if_pos hw', Obj.int, Obj.nat]
      rfl
    · obtain ⟨h1, _⟩ := set_signed_partial env c h r n _ _ o' ht hty hn hw (showInt_indented (o.int r.offset.toNat n))
      obtain ⟨g1, _, _⟩ := h1 _ _ (showInt_literal _)
      rw [signedVal_showInt] at g1
      obtain ⟨l1, l2⟩ := int_range o r.offset.toNat n
      obtain ⟨e1, e2⟩ := g1 l1 l2
      refine ⟨e1, ?_⟩
      unfold Obj.int at e2
      have := congrArg BitVec.toNat (BitVec.eq_of_toInt_eq e2)
      rwa [BitVec.toNat_ofNat, BitVec.toNat_ofNat, Nat.mod_eq_of_lt (nat_lt _ _ _), Nat.mod_eq_of_lt (nat_lt _ _ _)] at this
  · refine ⟨showNat (o.nat r.offset.toNat n), ?_, ?_⟩
    · unfold getByName getByID typeAt
      rw [hl]; simp only; rw [hr]
      simp only [printMember, print, hty, hn, if_pos hw', Obj.nat]
      rfl
    · obtain ⟨h1, _⟩ := set_unsigned_correct env c h r n _ _ o' ht hty hn hw (indented_self (showNat_head (o.nat r.offset.toNat n)))
      exact (h1 _ (showNat_literal _)).1 (nat_lt _ _ _)

example : lookup exTab 0x11 = some 0 ∧ exTab.types[0]? = some exInt8 ∧ exObj.int 2 1 = -86 := by decide +kernel

/-! ## Booleans -/

/-- A bool field (holding 0 or 1) round-trips through its text; a text that does not start with true/false reports an
invalid format but **stores false**. -/
theorem bool_roundtrip (env : Env) (c : ClassTab) (h : BitVec 32) (i : Nat) (r : RType) (o o' : Obj)
    (hl : lookup c h = some i) (hr : c.types[i]? = some r) (hty : r.type = .Bool)
    (hv : o.mem r.offset.toNat = 0#8 ∨ o.mem r.offset.toNat = 1#8) :
    ∃ t, getByName env c h o = some t ∧ (setByName env c h t o').1 = .None ∧
      (setByName env c h t o').2.mem r.offset.toNat = o.mem r.offset.toNat := by
  have ht : typeOf c h = some r := by unfold typeOf; rw [hl]; exact hr
  refine ⟨if o.mem r.offset.toNat ≠ 0#8 then tTrue else tFalse, ?_, ?_⟩
  · unfold getByName getByID typeAt
    rw [hl]; simp only; rw [hr]
    simp only [printMember, print, hty]
    rfl
  · unfold setByName
    rw [ht]
    simp only [setValue, setMember, member, hty]
    have hs1 : (skipStart false tTrue).1 = tTrue := by decide
    have hs2 : (skipStart false tFalse).1 = tFalse := by decide
    have hb1 : setBoolean tTrue = (.None, true) := by decide
    have hb2 : setBoolean tFalse = (.None, false) := by decide
    rcases hv with hv | hv
    · simp [hv, hs2, hb2, Obj.write]
    · simp [hv, hs1, hb1, Obj.write]

/-- The atomicity part of the claim fails for bools: "maybe" is rejected but clears the field. -/
theorem bool_invalid_violated :
    let c : ClassTab := ⟨[⟨.Bool, .None, 1, 0, 0, 0, 5, 0⟩], none⟩
    let o : Obj := ⟨fun _ => 1#8, fun _ => []⟩
    (setByName exEnv c 5 [0x6d#8, 0x61#8] o).1 = .InvalidFormat ∧ (setByName exEnv c 5 [0x6d#8, 0x61#8] o).2.mem 0 = 0#8 := by
  decide +kernel

example : ∃ r : RType, r.type = .Bool ∧ lookup ⟨[r], none⟩ 5 = some 0 :=
  ⟨⟨.Bool, .None, 1, 0, 0, 0, 5, 0⟩, rfl, by decide⟩

/-! ## Enums -/

/-- An enumerator name: not empty, no blanks, no '|'. -/
def IsName (t : Text) : Prop := t ≠ [] ∧ ∀ c ∈ t, ¬ IsBlank false c ∧ c ≠ 0x7c#8

/-- A table as the registration macros produce it: distinct names. -/
def GoodTab (tab : EnumTab) : Prop := (∀ e ∈ tab, IsName e.1) ∧ (tab.map (·.1)).Nodup

theorem name_indented {t : Text} (h : IsName t) : Indented t t :=
  indented_self (fun c hc => (h.2 c (List.mem_of_mem_head? hc)).1)

theorem skipEnd_name {t : Text} (h : IsName t) : (skipEnd false t).1 = t := by
  obtain ⟨post, h1, h2, h3⟩ := skipEnd_spec false t
  cases post with
  | nil => simpa using h1.symm
  | cons c cs =>
    have : c ∈ t := by rw [h1]; simp
    exact absurd (h2 c (by simp)) (h.2 c this).1

theorem compare_zero (a b : Text) : (StringView.compare a b == 0) = true ↔ a = b := by
  rw [beq_iff_eq]; exact (StringView.compare_spec a b).1

theorem find_name (tab : EnumTab) (hg : GoodTab tab) (e : Text × BitVec 64) (he : e ∈ tab) :
    tab.find? (fun x => StringView.compare x.1 e.1 == 0) = some e := by
  induction tab with
  | nil => cases he
  | cons x xs ih =>
    unfold GoodTab at hg
    simp only [List.map_cons, List.nodup_cons] at hg
    rcases List.mem_cons.1 he with h | h
    · subst h
      rw [List.find?_cons_of_pos]
      exact (compare_zero _ _).2 rfl
    · rw [List.find?_cons_of_neg]
      · exact ih ⟨fun y hy => hg.1 y (by simp [hy]), hg.2.2⟩ h
      · rw [compare_zero]
        intro hx
        exact hg.2.1 (by rw [hx]; exact List.mem_map_of_mem h)

theorem find_name_none (tab : EnumTab) (t : Text) (h : t ∉ tab.map (·.1)) :
    tab.find? (fun x => StringView.compare x.1 t == 0) = none := by
  rw [List.find?_eq_none]
  intro x hx
  rw [compare_zero]
  intro hx'
  exact h (by rw [← hx']; exact List.mem_map_of_mem hx)

theorem u64Bytes_nat (o : Obj) (a n : Nat) (v : BitVec 64) (hv : v.toNat < 256 ^ n) :
    (o.write a (u64Bytes v n)).nat a n = v.toNat := by
  unfold Obj.nat u64Bytes
  rw [read_write_toLE, leNat_toLE, Nat.mod_eq_of_lt hv]

/-- C25: an enum field of at most 8 bytes holding a registered value prints as a name of that value; assigning any
registered name stores its value; a text that is no registered name leaves the object unchanged and reports
invalid format.  Values must fit the field (negative enumerators do not, see `enum_negative_violated`). -/
theorem enum_roundtrip_partial (env : Env) (c : ClassTab) (h : BitVec 32) (i : Nat) (r : RType) (n : Nat) (tab : EnumTab)
    (hl : lookup c h = some i) (hr : c.types[i]? = some r)
    (hty : r.type = .Enum) (hn : r.subSize.toNat = n) (hn8 : n ≤ 8)
    (henv : env.enums r.typeHash = some tab) (hg : GoodTab tab) :
    (∀ (o : Obj) e, e ∈ tab → e.2.toNat = o.nat r.offset.toNat n →
      ∃ e' ∈ tab, e'.2 = e.2 ∧ getByName env c h o = some e'.1) ∧
    (∀ (o : Obj) e, e ∈ tab → e.2.toNat < 256 ^ n → (setByName env c h e.1 o).1 = .None ∧
      (setByName env c h e.1 o).2.nat r.offset.toNat n = e.2.toNat) ∧
    (∀ (o : Obj) t, IsName t → t ∉ tab.map (·.1) → setByName env c h t o = (.InvalidFormat, o)) := by
  have ht : typeOf c h = some r := by unfold typeOf; rw [hl]; exact hr
  refine ⟨?_, ?_, ?_⟩
  · intro o e he hv
    have hex : ∃ e', tab.find? (fun x => x.2.toNat == o.nat r.offset.toNat n) = some e' := by
      cases hf : tab.find? (fun x => x.2.toNat == o.nat r.offset.toNat n) with
      | some e' => exact ⟨e', rfl⟩
      | none =>
        rw [List.find?_eq_none] at hf
        exact absurd (by simpa using hv) (hf e he)
    obtain ⟨e', hf⟩ := hex
    have hp := List.find?_some hf
    have hm := List.mem_of_find?_eq_some hf
    refine ⟨e', hm, ?_, ?_⟩
    · apply BitVec.eq_of_toNat_eq
      rw [hv]; simpa using hp
    · unfold getByName getByID typeAt
      rw [hl]; simp only; rw [hr]
      simp only [printMember, print, hty, hn]
      rw [if_pos hn8]
      unfold printEnum enumName
      rw [henv]
      simp only [reduceCtorEq, if_false]
      unfold Obj.nat at hf
      rw [hf]
  · intro o e he hv
    have hnm := hg.1 e he
    unfold setByName
    rw [ht]
    simp only [setValue, setMember, member, hty, indented_skip (name_indented hnm), setEnum, skipEnd_name hnm, hn]
    rw [if_neg hnm.1]
    unfold enumValue
    rw [henv]
    simp only [find_name tab hg e he, storeBytes]
    exact ⟨trivial, u64Bytes_nat _ _ _ _ hv⟩
  · intro o t hnm hnot
    unfold setByName
    rw [ht]
    simp only [setValue, setMember, member, hty, indented_skip (name_indented hnm), setEnum, skipEnd_name hnm, hn]
    rw [if_neg hnm.1]
    unfold enumValue
    rw [henv]
    simp only [find_name_none tab t hnot, storeBytes]

/-- A 4 byte enum with enumerators A = 0 and B = -1 (registered as 2^64-1). -/
def exNegTab : EnumTab := [([0x41#8], 0), ([0x42#8], 0xffffffffffffffff#64)]
def exNegEnv : Env := { exEnv with enums := fun _ => some exNegTab }
def exEnumTab : ClassTab := ⟨[⟨.Enum, .None, 4, 0, 0, 0, 7, 9⟩], none⟩

/-- C25 fails for negative enumerators of fields smaller than 8 bytes: assigning B works, but the field then prints as
the empty text. -/
theorem enum_negative_violated :
    (setByName exNegEnv exEnumTab 7 [0x42#8] exObj).1 = .None ∧
    getByName exNegEnv exEnumTab 7 (setByName exNegEnv exEnumTab 7 [0x42#8] exObj).2 = some [] := by
  decide +kernel

example : GoodTab exNegTab ∧ IsName [0x43#8] ∧ [0x43#8] ∉ exNegTab.map (·.1) := by
  refine ⟨⟨?_, by decide⟩, ?_, by decide⟩
  · intro e he
    simp only [exNegTab, List.mem_cons, List.not_mem_nil, or_false] at he
    rcases he with rfl | rfl <;> exact ⟨by simp, by simp [IsBlank]⟩
  · exact ⟨by simp, by simp [IsBlank]⟩

end PreCore.Refl
