import Verif.Props.ReflXml
import Verif.Props.ReflectorBits
/-!
# C61: which members can be read back from their text
-/
namespace PreCore.ReflXml
open Refl ReflBin CNum Spec Supercore

/-! ## Writing at a shifted address -/

theorem moved_unique {b : Nat} {o p p' q : Obj} (h : Moved b o p q) (h' : Moved b o p' q) : p = p' := by
  have e : ∀ x, p.mem x = p'.mem x ∧ p.strs x = p'.strs x := by
    intro x
    by_cases hx : x < b
    · exact ⟨((h.2 x hx).1).trans ((h'.2 x hx).1).symm, ((h.2 x hx).2).trans ((h'.2 x hx).2).symm⟩
    · have h1 := h.1.trans h'.1.symm
      have h2 : (p.shift b).mem (x - b) = (p'.shift b).mem (x - b) := by rw [h1]
      have h3 : (p.shift b).strs (x - b) = (p'.shift b).strs (x - b) := by rw [h1]
      unfold Obj.shift at h2 h3
      simp only [show b + (x - b) = x by omega] at h2 h3
      exact ⟨h2, h3⟩
  obtain ⟨m, s⟩ := p
  obtain ⟨m', s'⟩ := p'
  congr 1
  · funext x; exact (e x).1
  · funext x; exact (e x).2

theorem shift_nat (o : Obj) (b a n : Nat) : (o.shift b).nat a n = o.nat (b + a) n := by
  unfold Obj.nat; rw [read_shift]

/-- The class with one member. -/
def one (r : RType) : ClassTab := ⟨[r], none⟩

theorem one_lookup (r : RType) : lookup (one r) r.valueNameHash = some 0 := by
  simp [lookup, one, findHash]

theorem one_get (env : Env) (r : RType) (b : Nat) (o : Obj) (hb : r.type ≠ .BitFieldMember) :
    getByName env (one r) r.valueNameHash (o.shift b) = printMember env r (b + r.offset.toNat) o := by
  unfold getByName
  rw [one_lookup, printMember_shift]
  simp only [getByID, typeAt, one, List.getElem?_cons_zero, if_neg hb]

theorem one_set (env : Env) (r : RType) (b : Nat) (o : Obj) (t : Text) (hb : r.type ≠ .BitFieldMember) :
    Moved b o (setMember env r t (b + r.offset.toNat) o).2 (setByName env (one r) r.valueNameHash t (o.shift b)).2 := by
  obtain ⟨_, h2, h3⟩ := setMember_shift env r t b r.offset.toNat o
  have : setByName env (one r) r.valueNameHash t (o.shift b) = setMember env r t r.offset.toNat (o.shift b) := by
    unfold setByName typeOf
    rw [one_lookup]
    simp only [Option.bind_some, typeAt, one, List.getElem?_cons_zero, setValue, if_neg hb]
  rw [this]
  exact ⟨h2, h3⟩

/-! ## Bytes and bits -/

/-- The bits of the bytes `a .. a+n-1`. -/
def bytes (a n : Nat) : Loc → Prop
  | .bit k => 8 * a ≤ k ∧ k < 8 * (a + n)
  | .str _ => False

theorem mem_of_nat {o p : Obj} {a n : Nat} (h : p.nat a n = o.nat a n) (x : Nat) (h1 : a ≤ x) (h2 : x < a + n) : p.mem x = o.mem x := by
  have e : p.read a n = o.read a n := by
    have e1 := toLE_leNat (p.read a n)
    have e2 := toLE_leNat (o.read a n)
    rw [read_length] at e1 e2
    unfold Obj.nat at h
    rw [← e1, ← e2, h]
  have g1 := read_getElem? p a n (x - a) (by omega)
  have g2 := read_getElem? o a n (x - a) (by omega)
  rw [e, g2] at g1
  simp only [Option.some.injEq] at g1
  rw [show a + (x - a) = x by omega] at g1
  exact g1.symm

theorem restores_bytes {step : Obj → Obj} {o : Obj} {a n : Nat} (h1 : ∀ o0, (step o0).nat a n = o.nat a n)
    (h2 : ∀ o0, SameOutside a (a + n) o0 (step o0)) (h3 : ∀ o0, (step o0).strs = o0.strs) :
    Restores (fun o0 => some (step o0)) o (bytes a n) := by
  intro o0
  refine ⟨step o0, rfl, ?_, ?_⟩
  · intro l hl
    cases l with
    | str x => exact hl.elim
    | bit k =>
      obtain ⟨g1, g2⟩ := hl
      show (((step o0).mem (k / 8)).getLsbD (k % 8), ([] : Text)) = ((o.mem (k / 8)).getLsbD (k % 8), [])
      rw [mem_of_nat (h1 o0) (k / 8) (by omega) (by omega)]
  · intro l hl
    cases l with
    | str x => show (false, (step o0).strs x) = (false, o0.strs x); rw [h3]
    | bit k =>
      have hk : ¬ (8 * a ≤ k ∧ k < 8 * (a + n)) := hl
      show (((step o0).mem (k / 8)).getLsbD (k % 8), ([] : Text)) = ((o0.mem (k / 8)).getLsbD (k % 8), [])
      rw [(h2 o0 (k / 8) (by omega)).1]

theorem member_strs (env : Env) (f : Nat) (r : RType) (t : Text) (a : Nat) (o : Obj) (hs : IsScalar r.type) (h : r.type ≠ .String) :
    (member env f r t a o).2.strs = o.strs := by
  cases f with
  | zero => rfl
  | succ f =>
    have sb : ∀ {w : Nat} (n : Nat) (x : Err × Option (BitVec w)), (storeBits o a n x).2.strs = o.strs := by
      intro w n x; unfold storeBits; split <;> rfl
    have sy : ∀ x, (storeBytes o a x).2.strs = o.strs := by
      intro x; unfold storeBytes; split <;> rfl
    unfold member
    simp only
    split <;> first | rfl | (split <;> first | exact sb _ _ | rfl) | exact sy _ | skip
    all_goals (rename_i h'; rw [h'] at hs h; first | exact absurd rfl h | exact hs.elim)

/-! ## Texts -/

/-- A text without commas, brackets, quotes, XML markup and control characters that would be altered; it starts with a visible
character and is shorter than a megabyte. -/
def Clean (t : Text) : Prop :=
  (∀ c ∈ t, c ≠ 0x2c#8 ∧ opens c = false ∧ closes c = false ∧ c ≠ 0x3c#8 ∧ c ≠ 0x26#8 ∧ c ≠ 0x0d#8 ∧ c ≠ 0#8) ∧
  (∃ c, t.head? = some c ∧ 0x20 < c.toNat) ∧ t.length < 2 ^ 20

theorem Clean.head {t : Text} (h : Clean t) : ∀ c, t.head? = some c → ¬ IsBlank false c := by
  obtain ⟨_, ⟨c, h1, h2⟩, _⟩ := h
  intro c' hc
  rw [h1] at hc
  cases hc
  unfold IsBlank
  intro hb
  rcases hb with rfl | rfl | hb
  · simp at h2
  · simp at h2
  · simp at hb

theorem Clean.plain {t : Text} (h : Clean t) : PlainText t := by
  refine ⟨fun c hc => ?_, ?_⟩
  · obtain ⟨_, _, _, h4, h5, h6, h7⟩ := h.1 c hc
    exact ⟨h4, h5, h6, h7⟩
  · obtain ⟨_, ⟨c, h1, h2⟩, _⟩ := h
    refine ⟨c, List.mem_of_mem_head? h1, ?_, ?_, ?_⟩ <;> (rintro rfl; simp at h2)

theorem digit_chars_clean {cs ds} (h : DigitChars 10 cs ds) : ∀ c ∈ cs, 48 ≤ c.toNat ∧ c.toNat ≤ 57 := by
  induction h with
  | nil => intro c hc; cases hc
  | cons hd _ ih =>
    intro c hc
    rcases List.mem_cons.1 hc with rfl | hc
    · obtain ⟨h1, h2⟩ := hd; omega
    · exact ih c hc

theorem numeral_clean {t : Text} (h : ∀ c ∈ t, (48 ≤ c.toNat ∧ c.toNat ≤ 57) ∨ c = 0x2d#8) (hne : t ≠ []) (hl : t.length ≤ 21) : Clean t := by
  refine ⟨fun c hc => ?_, ?_, by omega⟩
  · have key : ∀ c : Byte, ((48 ≤ c.toNat ∧ c.toNat ≤ 57) ∨ c = 0x2d#8) → (c ≠ 0x2c#8 ∧ opens c = false ∧ closes c = false ∧ c ≠ 0x3c#8 ∧ c ≠ 0x26#8 ∧ c ≠ 0x0d#8 ∧ c ≠ 0#8) := by
      decide +kernel
    exact key c (h c hc)
  · cases t with
    | nil => exact absurd rfl hne
    | cons c cs =>
      refine ⟨c, rfl, ?_⟩
      rcases h c (by simp) with h | rfl
      · omega
      · decide

theorem showNat_clean (n : Nat) (hn : n < 2 ^ 64) : Clean (showNat n) := by
  obtain ⟨ds, h1, h2, _⟩ := showNat_digits n
  refine numeral_clean (fun c hc => .inl (digit_chars_clean h1 c hc)) (showNat_ne n) ?_
  have := showNat_len 19 n (by omega)
  omega

theorem showInt_clean (z : Int) (hz : z.natAbs < 2 ^ 64) : Clean (showInt z) := by
  refine numeral_clean (fun c hc => ?_) (showInt_ne z) (showInt_len z hz)
  obtain ⟨ds, h1, h2, _⟩ := showNat_digits z.natAbs
  unfold showInt at hc
  split at hc
  · rcases List.mem_cons.1 hc with rfl | hc
    · right; rfl
    · left; exact digit_chars_clean h1 c hc
  · left; exact digit_chars_clean h1 c hc

/-! ## Scalars -/

/-- The scalar at `a` prints as `t`, which is clean, and assigning `t` restores it and nothing else. -/
def ScalarOk (env : Env) (o : Obj) (r : RType) (a : Nat) : Prop :=
  ∃ t, printMember env r a o = some t ∧ Clean t ∧ Restores (fun o0 => some (setMember env r t a o0).2) o (bytes a (size r))

theorem scalar_restores (env : Env) (o : Obj) (r : RType) (b n : Nat) (t : Text) (hs : IsScalar r.type) (hstr : r.type ≠ .String)
    (hsz : size r = n)
    (h : ∀ o', (setByName env (one r) r.valueNameHash t o').2.nat r.offset.toNat n = (o.shift b).nat r.offset.toNat n) :
    Restores (fun o0 => some (setMember env r t (b + r.offset.toNat) o0).2) o (bytes (b + r.offset.toNat) (size r)) := by
  have hb : r.type ≠ .BitFieldMember := by intro h; rw [h] at hs; exact hs
  rw [hsz]
  refine restores_bytes (step := fun o0 => (setMember env r t (b + r.offset.toNat) o0).2) ?_ ?_ ?_
  · intro o0
    have := h (o0.shift b)
    rw [shift_nat, ← (one_set env r b o0 t hb).1, shift_nat] at this
    exact this
  · intro o0
    have := scalar_frame env (t.length + 1) r t (b + r.offset.toNat) o0 hs
    rw [hsz] at this
    exact this
  · intro o0
    exact member_strs env _ r t _ o0 hs hstr

theorem int_ok (env : Env) (o : Obj) (r : RType) (b : Nat) (ht : r.type = .Integer ∨ r.type = .UnsignedInteger)
    (hw : IsWidth r.subSize.toNat) : ScalarOk env o r (b + r.offset.toNat) := by
  have hs : IsScalar r.type := by rcases ht with h | h <;> rw [h] <;> trivial
  have hb : r.type ≠ .BitFieldMember := by rcases ht with h | h <;> rw [h] <;> simp
  have hstr : r.type ≠ .String := by rcases ht with h | h <;> rw [h] <;> simp
  have hsz : size r = r.subSize.toNat := by unfold size; rcases ht with h | h <;> rw [h]
  have hw' : r.subSize.toNat = 1 ∨ r.subSize.toNat = 2 ∨ r.subSize.toNat = 4 ∨ r.subSize.toNat = 8 := hw
  have hw8 : (2 : Nat) ^ (8 * r.subSize.toNat) ≤ 2 ^ 64 := Nat.pow_le_pow_right (by omega) (by omega)
  obtain ⟨t, h1, _⟩ := int_roundtrip env (one r) r.valueNameHash 0 r _ (o.shift b) (o.shift b) (one_lookup r) rfl ht rfl hw
  have h1' := h1
  rw [one_get env r b o hb] at h1
  refine ⟨t, h1, ?_, scalar_restores env o r b _ t hs hstr hsz (fun o' => ?_)⟩
  · unfold printMember print at h1
    rcases ht with ht | ht
    · simp only [ht, if_pos hw', Option.some.injEq] at h1
      rw [← h1]
      apply showInt_clean
      have h2 := BitVec.toInt_lt (x := BitVec.ofNat (8 * r.subSize.toNat) (leNat (o.read (b + r.offset.toNat) r.subSize.toNat)))
      have h3 := BitVec.le_toInt (x := BitVec.ofNat (8 * r.subSize.toNat) (leNat (o.read (b + r.offset.toNat) r.subSize.toNat)))
      have e : (2 : Int) ^ (8 * r.subSize.toNat - 1) ≤ 2 ^ 63 := by
        have : (2 : Nat) ^ (8 * r.subSize.toNat - 1) ≤ 2 ^ 63 := Nat.pow_le_pow_right (by omega) (by omega)
        exact_mod_cast this
      omega
    · simp only [ht, if_pos hw', Option.some.injEq] at h1
      rw [← h1]
      apply showNat_clean
      have := nat_lt o (b + r.offset.toNat) r.subSize.toNat
      unfold Obj.nat at this
      omega
  · obtain ⟨t', g1, _, g3⟩ := int_roundtrip env (one r) r.valueNameHash 0 r _ (o.shift b) o' (one_lookup r) rfl ht rfl hw
    rw [h1'] at g1
    cases g1
    exact g3

theorem bool_ok (env : Env) (o : Obj) (r : RType) (b : Nat) (ht : r.type = .Bool)
    (hv : o.mem (b + r.offset.toNat) = 0#8 ∨ o.mem (b + r.offset.toNat) = 1#8) : ScalarOk env o r (b + r.offset.toNat) := by
  have hs : IsScalar r.type := by rw [ht]; trivial
  have hb : r.type ≠ .BitFieldMember := by rw [ht]; simp
  have hstr : r.type ≠ .String := by rw [ht]; simp
  have hsz : size r = 1 := by unfold size; rw [ht]
  obtain ⟨t, h1, _⟩ := bool_roundtrip env (one r) r.valueNameHash 0 r (o.shift b) (o.shift b) (one_lookup r) rfl ht hv
  have h1' := h1
  rw [one_get env r b o hb] at h1
  refine ⟨t, h1, ?_, scalar_restores env o r b 1 t hs hstr hsz (fun o' => ?_)⟩
  · unfold printMember print at h1
    simp only [ht, Option.some.injEq] at h1
    rw [← h1]
    have c1 : Clean tTrue := ⟨by decide, ⟨0x74#8, rfl, by decide⟩, by decide⟩
    have c2 : Clean tFalse := ⟨by decide, ⟨0x66#8, rfl, by decide⟩, by decide⟩
    split
    · exact c1
    · exact c2
  · obtain ⟨t', g1, _, g3⟩ := bool_roundtrip env (one r) r.valueNameHash 0 r (o.shift b) o' (one_lookup r) rfl ht hv
    rw [h1'] at g1
    cases g1
    simp only [Obj.nat, Obj.read, List.range_one, List.map_cons, List.map_nil, Nat.add_zero]
    rw [g3]

theorem enum_ok (env : Env) (o : Obj) (r : RType) (b : Nat) (tab : EnumTab) (ht : r.type = .Enum) (hn : r.subSize.toNat ≤ 8)
    (henv : env.enums r.typeHash = some tab) (hg : GoodTab tab) (hc : ∀ e ∈ tab, Clean e.1)
    (hv : ∃ e ∈ tab, e.2.toNat = o.nat (b + r.offset.toNat) r.subSize.toNat) : ScalarOk env o r (b + r.offset.toNat) := by
  have hs : IsScalar r.type := by rw [ht]; trivial
  have hb : r.type ≠ .BitFieldMember := by rw [ht]; simp
  have hstr : r.type ≠ .String := by rw [ht]; simp
  have hsz : size r = r.subSize.toNat := by unfold size; rw [ht]
  obtain ⟨h1, h2, _⟩ := enum_roundtrip_partial env (one r) r.valueNameHash 0 r _ tab (one_lookup r) rfl ht rfl hn henv hg
  obtain ⟨e, he, hev⟩ := hv
  obtain ⟨e', he', hee, hp⟩ := h1 (o.shift b) e he (by rw [shift_nat]; exact hev)
  rw [one_get env r b o hb] at hp
  refine ⟨e'.1, hp, hc e' he', scalar_restores env o r b _ _ hs hstr hsz (fun o' => ?_)⟩
  have hlt := nat_lt o (b + r.offset.toNat) r.subSize.toNat
  have := (h2 o' e' he' (by rw [hee, hev, pow_256_8]; exact hlt)).2
  rw [this, hee, hev, shift_nat]

theorem flagsPrintLoop_chars (env : Env) (h : BitVec 32) (tab : EnumTab) (henv : env.enums h = some tab) (P : Byte → Prop)
    (hb : P 0x20#8 ∧ P 0x7c#8) (hn : ∀ e ∈ tab, ∀ c ∈ e.1, P c) (v : BitVec 64) : ∀ k t res, (∀ c ∈ res, P c) →
    ∀ c ∈ flagsPrintLoop env h v k t res, P c := by
  intro k
  induction k with
  | zero => intro t res hr; exact hr
  | succ k ih =>
    intro t res hr
    unfold flagsPrintLoop
    have hr' : ∀ c ∈ (if res ≠ [] then res ++ tBar else res), P c := by
      split
      · intro c hc
        rcases List.mem_append.1 hc with hc | hc
        · exact hr c hc
        · simp only [tBar, List.mem_cons, List.not_mem_nil, or_false] at hc
          rcases hc with rfl | rfl | rfl
          · exact hb.1
          · exact hb.2
          · exact hb.1
      · exact hr
    by_cases hv : v.getLsbD t = true
    · rw [if_pos hv]
      cases hf : tab.find? (fun e => e.2.toNat == t) with
      | none =>
        have : enumName env h t = .notFound := by unfold enumName; rw [henv]; simp only [hf]
        simp only [this]
        exact ih _ _ hr'
      | some e =>
        have : enumName env h t = .found e.1 := by unfold enumName; rw [henv]; simp only [hf]
        simp only [this]
        refine ih _ _ (fun c hc => ?_)
        rcases List.mem_append.1 hc with hc | hc
        · exact hr' c hc
        · exact hn e (List.mem_of_find?_eq_some hf) c hc
    · rw [if_neg hv]; exact ih _ _ hr

theorem flagsPrintLoop_head (env : Env) (h : BitVec 32) (tab : EnumTab) (henv : env.enums h = some tab)
    (hn : ∀ e ∈ tab, Clean e.1) (v : BitVec 64) : ∀ k t res, (res = [] ∨ ∃ c, res.head? = some c ∧ 0x20 < c.toNat) →
    (flagsPrintLoop env h v k t res = [] ∨ ∃ c, (flagsPrintLoop env h v k t res).head? = some c ∧ 0x20 < c.toNat) := by
  intro k
  induction k with
  | zero => intro t res hr; exact hr
  | succ k ih =>
    intro t res hr
    unfold flagsPrintLoop
    have hr' : ((if res ≠ [] then res ++ tBar else res) = [] ∨ ∃ c, (if res ≠ [] then res ++ tBar else res).head? = some c ∧ 0x20 < c.toNat) := by
      cases res with
      | nil => left; simp
      | cons x xs =>
        right
        rcases hr with hr | ⟨c, h1, h2⟩
        · cases hr
        · exact ⟨c, by simpa using h1, h2⟩
    by_cases hv : v.getLsbD t = true
    · rw [if_pos hv]
      cases hf : tab.find? (fun e => e.2.toNat == t) with
      | none =>
        have : enumName env h t = .notFound := by unfold enumName; rw [henv]; simp only [hf]
        simp only [this]
        exact ih _ _ hr'
      | some e =>
        have : enumName env h t = .found e.1 := by unfold enumName; rw [henv]; simp only [hf]
        simp only [this]
        refine ih _ _ (.inr ?_)
        generalize (if res ≠ [] then res ++ tBar else res) = R at hr'
        rcases hr' with rfl | ⟨c, h1, h2⟩
        · exact (hn e (List.mem_of_find?_eq_some hf)).2.1
        · refine ⟨c, ?_, h2⟩
          cases R with
          | nil => cases h1
          | cons x xs => simpa using h1
    · rw [if_neg hv]; exact ih _ _ hr

theorem flagsPrintLoop_len (env : Env) (h : BitVec 32) (tab : EnumTab) (henv : env.enums h = some tab) (m : Nat)
    (hn : ∀ e ∈ tab, e.1.length ≤ m) (v : BitVec 64) : ∀ k t res,
    (flagsPrintLoop env h v k t res).length ≤ res.length + k * (m + 3) := by
  intro k
  induction k with
  | zero => intro t res; unfold flagsPrintLoop; omega
  | succ k ih =>
    intro t res
    unfold flagsPrintLoop
    have hr' : (if res ≠ [] then res ++ tBar else res).length ≤ res.length + 3 := by
      split
      · rw [List.length_append]; exact Nat.le_refl _
      · omega
    rw [Nat.add_mul, Nat.one_mul]
    by_cases hv : v.getLsbD t = true
    · rw [if_pos hv]
      cases hf : tab.find? (fun e => e.2.toNat == t) with
      | none =>
        have : enumName env h t = .notFound := by unfold enumName; rw [henv]; simp only [hf]
        simp only [this]
        have := ih (t + 1) (if res ≠ [] then res ++ tBar else res)
        omega
      | some e =>
        have : enumName env h t = .found e.1 := by unfold enumName; rw [henv]; simp only [hf]
        simp only [this]
        have := ih (t + 1) ((if res ≠ [] then res ++ tBar else res) ++ e.1)
        have h2 := hn e (List.mem_of_find?_eq_some hf)
        rw [List.length_append] at this
        omega
    · rw [if_neg hv]; have := ih (t + 1) res; omega

theorem flags_ok (env : Env) (o : Obj) (r : RType) (b : Nat) (tab : EnumTab) (ht : r.type = .EnumFlags) (hn : r.subSize.toNat ≤ 8)
    (henv : env.enums r.typeHash = some tab) (hg : GoodTab tab) (hnull : tNULL ∉ tab.map (·.1))
    (hc : ∀ e ∈ tab, Clean e.1 ∧ e.1.length ≤ 1000)
    (hv : ∀ j, (o.nat (b + r.offset.toNat) r.subSize.toNat).testBit j = true → Registered tab j) :
    ScalarOk env o r (b + r.offset.toNat) := by
  have hs : IsScalar r.type := by rw [ht]; trivial
  have hb : r.type ≠ .BitFieldMember := by rw [ht]; simp
  have hstr : r.type ≠ .String := by rw [ht]; simp
  have hsz : size r = r.subSize.toNat := by unfold size; rw [ht]
  obtain ⟨t, h1, _⟩ := flags_roundtrip env (one r) r.valueNameHash 0 r _ tab (one_lookup r) rfl ht rfl hn henv hg hnull (o.shift b) (o.shift b)
  have h1' := h1
  rw [one_get env r b o hb] at h1
  refine ⟨t, h1, ?_, scalar_restores env o r b _ t hs hstr hsz (fun o' => ?_)⟩
  · unfold printMember print at h1
    simp only [ht, if_pos hn, Option.some.injEq] at h1
    rw [← h1]
    unfold printFlags
    simp only
    split
    · exact ⟨by decide, ⟨0x4e#8, rfl, by decide⟩, by decide⟩
    · rename_i hne
      refine ⟨?_, ?_, ?_⟩
      · exact flagsPrintLoop_chars env r.typeHash tab henv
          (fun c => c ≠ 0x2c#8 ∧ opens c = false ∧ closes c = false ∧ c ≠ 0x3c#8 ∧ c ≠ 0x26#8 ∧ c ≠ 0x0d#8 ∧ c ≠ 0#8)
          (by decide) (fun e he => (hc e he).1.1) _ _ _ _ (by intro c hc; cases hc)
      · rcases flagsPrintLoop_head env r.typeHash tab henv (fun e he => (hc e he).1) _ _ _ [] (.inl rfl) with h | h
        · exact absurd h hne
        · exact h
      · have := flagsPrintLoop_len env r.typeHash tab henv 1000 (fun e he => (hc e he).2)
          (BitVec.ofNat 64 (leNat (o.read (b + r.offset.toNat) r.subSize.toNat))) (r.subSize.toNat * 8) 0 []
        have h64 : r.subSize.toNat * 8 * (1000 + 3) ≤ 64 * 1003 := Nat.mul_le_mul_right _ (by omega)
        simp only [List.length_nil] at this
        omega
  · obtain ⟨t', g1, _, g3, _⟩ := flags_roundtrip env (one r) r.valueNameHash 0 r _ tab (one_lookup r) rfl ht rfl hn henv hg hnull (o.shift b) o'
    rw [h1'] at g1
    cases g1
    exact (g3 (by rw [shift_nat]; exact hv)).2

theorem float_ok (env : Env) (o : Obj) (r : RType) (b : Nat) (ht : r.type = .FloatingPoint)
    (h : (r.subSize.toNat = 4 ∧ Clean (env.showFloat (BitVec.ofNat 32 (o.nat (b + r.offset.toNat) 4))) ∧
        (env.float (env.showFloat (BitVec.ofNat 32 (o.nat (b + r.offset.toNat) 4)))).2 = some (BitVec.ofNat 32 (o.nat (b + r.offset.toNat) 4))) ∨
      (r.subSize.toNat = 8 ∧ Clean (env.showDouble (BitVec.ofNat 64 (o.nat (b + r.offset.toNat) 8))) ∧
        (env.double (env.showDouble (BitVec.ofNat 64 (o.nat (b + r.offset.toNat) 8)))).2 = some (BitVec.ofNat 64 (o.nat (b + r.offset.toNat) 8)))) :
    ScalarOk env o r (b + r.offset.toNat) := by
  have hs : IsScalar r.type := by rw [ht]; trivial
  have hstr : r.type ≠ .String := by rw [ht]; simp
  have hsz : size r = r.subSize.toNat := by unfold size; rw [ht]
  have skip : ∀ {t : Text}, Clean t → (skipStart false t).1 = t := fun hc => indented_skip (indented_self hc.head)
  have space : ∀ {t : Text}, Clean t → skipSpace t ≠ [] := by
    intro t hc
    obtain ⟨_, ⟨c, h1, h2⟩, _⟩ := hc
    cases t with
    | nil => cases h1
    | cons x xs =>
      cases h1
      unfold skipSpace
      rw [if_neg]
      · simp
      · rw [isSpace_iff]
        rintro (rfl | h)
        · simp at h2
        · omega
  have hset : ∀ o' : Obj, ∀ t, Clean t → (setByName env (one r) r.valueNameHash t o').2 =
      (member env 1 r t r.offset.toNat o').2 := by
    intro o' t _
    unfold setByName typeOf
    rw [one_lookup]
    simp only [Option.bind_some, typeAt, one, List.getElem?_cons_zero, setValue, ht]
    unfold setMember member
    simp only [ht]
    rfl
  rcases h with ⟨hn, hc, hf⟩ | ⟨hn, hc, hf⟩
  · refine ⟨_, ?_, hc, scalar_restores env o r b 4 _ hs hstr (by rw [hsz, hn]) (fun o' => ?_)⟩
    · unfold printMember print; simp only [ht, hn]; rfl
    · rw [hset o' _ hc]
      unfold member
      simp only [ht, skip hc, hn, setFloat, if_neg (space hc)]
      unfold storeBits
      rw [hf]
      simp only
      unfold Obj.nat
      rw [read_write_toLE, leNat_toLE, BitVec.toNat_ofNat, read_shift]
      have := nat_lt o (b + r.offset.toNat) 4
      unfold Obj.nat at this
      rw [← read_shift]
      omega
  · refine ⟨_, ?_, hc, scalar_restores env o r b 8 _ hs hstr (by rw [hsz, hn]) (fun o' => ?_)⟩
    · unfold printMember print; simp only [ht, hn]; rfl
    · rw [hset o' _ hc]
      unfold member
      simp only [ht, skip hc, hn, setFloat, if_neg (space hc)]
      unfold storeBits
      rw [hf]
      simp only
      unfold Obj.nat
      rw [read_write_toLE, leNat_toLE, BitVec.toNat_ofNat]
      have := nat_lt o (b + r.offset.toNat) 8
      unfold Obj.nat at this
      rw [← read_shift]
      omega

end PreCore.ReflXml
