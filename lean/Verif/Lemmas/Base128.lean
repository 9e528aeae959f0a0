import Verif.Model.Base128
/-! Helper lemmas for the base-128 codecs (no property statements here). -/
namespace PreCore.Base128

theorem byte_or80_and7f : ∀ c : BitVec 8, (c ||| 0x80#8) &&& 0x7f#8 = c &&& 0x7f#8 := by decide +kernel
theorem byte_or80_and80 : ∀ c : BitVec 8, (c ||| 0x80#8) &&& 0x80#8 ≠ 0#8 := by decide +kernel

theorem getLsbD_7f64 (i : Nat) : (0x7f#64).getLsbD i = decide (i < 7) := by
  have : (0x7f#64) = BitVec.ofNat 64 (2^7-1) := rfl
  rw [this, BitVec.getLsbD_ofNat, Nat.testBit_two_pow_sub_one]
  by_cases h : i < 7
  · simp [h]; omega
  · simp [h]

theorem getLsbD_7f8 (i : Nat) : (0x7f#8).getLsbD i = decide (i < 7) := by
  have : (0x7f#8) = BitVec.ofNat 8 (2^7-1) := rfl
  rw [this, BitVec.getLsbD_ofNat, Nat.testBit_two_pow_sub_one]
  by_cases h : i < 7
  · simp [h]; omega
  · simp [h]

theorem lo8_and7f (v : BitVec 64) :
    ((lo8 v &&& 0x7f#8).setWidth 64 : BitVec 64) = v &&& 0x7f#64 := by
  apply BitVec.eq_of_getLsbD_eq
  intro i hi
  simp [lo8, getLsbD_7f64]
  by_cases h : i < 7
  · simp [h, hi]; omega
  · simp [h]

/-- Splitting off one 7-bit group. -/
theorem split7 (v : BitVec 64) (k : Nat) :
    ((v &&& 0x7f#64) <<< k) ||| ((v >>> 7) <<< (k + 7)) = v <<< k := by
  apply BitVec.eq_of_getLsbD_eq
  intro i hi
  simp [getLsbD_7f64]
  by_cases h1 : i < k
  · simp [h1, hi]; omega
  · by_cases h2 : i < k + 7
    · simp [h1, h2, hi]; intro; omega
    · have : 7 + (i - (k+7)) = i - k := by omega
      have h3 : ¬ (i - k < 7) := by omega
      simp [h1, h2, hi, h3, this]

theorem lo8_of_lt (v : BitVec 64) (h : v.toNat < 2 ^ 8) : ((lo8 v).setWidth 64 : BitVec 64) = v := by
  apply BitVec.eq_of_toNat_eq
  simp [lo8]; omega

theorem shiftRight7_eq_zero (v : BitVec 64) : v >>> 7 = 0#64 ↔ v.toNat < 2 ^ 7 := by
  constructor
  · intro h
    have := congrArg BitVec.toNat h
    simp [Nat.shiftRight_eq_div_pow] at this
    omega
  · intro h
    apply BitVec.eq_of_toNat_eq
    simp [Nat.shiftRight_eq_div_pow]; omega

theorem toNat_shiftRight7 (v : BitVec 64) : (v >>> 7).toNat = v.toNat / 128 := by
  simp [Nat.shiftRight_eq_div_pow]

theorem lo8_and80_of_lt (v : BitVec 64) (h : v.toNat < 2 ^ 7) : lo8 v &&& 0x80#8 = 0#8 := by
  have hb : ∀ c : BitVec 8, c.toNat < 128 → c &&& 0x80#8 = 0#8 := by decide +kernel
  apply hb
  simp [lo8]; omega

theorem and7f_of_lt (v : BitVec 64) (h : v.toNat < 2 ^ 7) : v &&& 0x7f#64 = v := by
  apply BitVec.eq_of_toNat_eq
  have : (127:Nat) = 2^7 - 1 := rfl
  simp
  rw [this, Nat.and_two_pow_sub_one_eq_mod]; omega

theorem buRead_writeLoop (rest : List Byte) : ∀ (k id : Nat) (acc v : BitVec 64),
    id + k = 8 → v.toNat < 2 ^ (64 - 7 * id) →
    buReadLoop (k + 1) id acc (buWriteLoop k v ++ rest) = some (acc ||| v <<< (7 * id), rest) := by
  intro k
  induction k with
  | zero =>
    intro id acc v hid hv
    have hid : id = 8 := by omega
    subst hid
    simp only [buWriteLoop, List.cons_append, List.nil_append, buReadLoop]
    simp only [if_true]
    rw [lo8_of_lt v (by simpa using hv)]
    split <;> rfl
  | succ k ih =>
    intro id acc v hid hv
    have hne : id ≠ 8 := by omega
    simp only [buWriteLoop]
    split
    · rename_i hz
      have hz' := (shiftRight7_eq_zero v).1 hz
      simp only [List.cons_append, List.nil_append, buReadLoop, if_neg hne]
      rw [if_pos (lo8_and80_of_lt v hz'), lo8_and7f, and7f_of_lt v hz']
    · simp only [List.cons_append, buReadLoop, if_neg hne]
      rw [if_neg (byte_or80_and80 _), byte_or80_and7f, lo8_and7f, ih (id + 1) _ _ (by omega)]
      · rw [show 7 * (id + 1) = 7 * id + 7 by omega, BitVec.or_assoc, split7]
      · rw [toNat_shiftRight7]
        have h1 : 64 - 7 * id = (64 - 7 * (id + 1)) + 7 := by omega
        rw [h1, Nat.pow_add] at hv
        omega

theorem buWriteLoop_length : ∀ (k : Nat) (v : BitVec 64),
    1 ≤ (buWriteLoop k v).length ∧ (buWriteLoop k v).length ≤ k + 1 := by
  intro k
  induction k with
  | zero => intro v; simp [buWriteLoop]
  | succ k ih =>
    intro v
    simp only [buWriteLoop]
    split
    · simp
    · have := ih (v >>> 7); simp only [List.length_cons]; omega

/-! ### signed -/

theorem byte_final (c : Byte) : c &&& 0x80#8 = 0#8 → c &&& 0x40#8 = 0#8 →
    (c &&& 0x3f#8 = c ∧ (c ||| 0x40#8) &&& 0x80#8 = 0#8 ∧ (c ||| 0x40#8) &&& 0x3f#8 = c ∧
      (c ||| 0x40#8) &&& 0x40#8 ≠ 0#8) := by
  revert c; decide +kernel

/-- What `bint128::Read` does to the accumulated magnitude at the end. -/
def applySign (sign : Bool) (v : BitVec 64) : BitVec 64 := if sign then ~~~v else v

theorem or_zero_shift (a : BitVec 64) (k : Nat) : a ||| ((0#8).setWidth 64 <<< k) = a := by
  apply BitVec.eq_of_getLsbD_eq; intro i hi; simp

theorem biRead_writeLoop (sign : Bool) (rest : List Byte) : ∀ (f id : Nat) (acc v : BitVec 64),
    id + f = 9 → id ≤ 8 → v.toNat < 2 ^ (63 - 7 * id) →
    (sign = true → id ≤ 7 ∧ v.toNat < 2 ^ (55 - 7 * id)) →
    biReadLoop (9 - id) id acc (biWriteLoop sign f id v ++ rest)
      = some (applySign sign (acc ||| v <<< (7 * id)), rest) := by
  intro f
  induction f with
  | zero => intro id acc v hid hid'; omega
  | succ f ih =>
    intro id acc v hid hid8 hv hs
    simp only [biWriteLoop]
    obtain ⟨m, hm⟩ : ∃ m, 9 - id = m + 1 := ⟨8 - id, by omega⟩
    rw [hm]
    by_cases hid7 : id < 8
    · split
      · rename_i hz
        have hz' := (shiftRight7_eq_zero v).1 hz
        have h80 := lo8_and80_of_lt v hz'
        have hw := lo8_of_lt v (by omega)
        simp only [biFinish, if_pos hid7]
        split
        · -- bit 6 set: an extra byte carries the sign
          rename_i h40
          simp only [List.cons_append, List.nil_append, biReadLoop, if_pos hid7]
          rw [if_neg (byte_or80_and80 _), byte_or80_and7f, lo8_and7f, and7f_of_lt v hz']
          cases hsg : sign
          · simp only [Bool.false_eq_true, if_false, applySign]
            obtain ⟨m', hm'⟩ | hm0 : (∃ m', m = m' + 1) ∨ m = 0 := by
              cases m with
              | zero => exact Or.inr rfl
              | succ m' => exact Or.inl ⟨m', rfl⟩
            · subst hm'
              by_cases h8 : id + 1 < 8
              · simp [biReadLoop, h8]
              · have h7 : id = 7 := by omega
                have hm1 : m' = 0 := by omega
                subst h7; subst hm1
                simp [biReadLoop]
            · omega
          · -- sign: id ≤ 6 here since bit 6 of v set
            have ⟨h7, hlt⟩ := hs hsg
            have hb : ∀ c : BitVec 8, c.toNat < 64 → c &&& 0x40#8 = 0#8 := by decide +kernel
            have hid6 : id + 1 < 8 := by
              by_cases h : id = 7
              · subst h
                exfalso; apply h40; apply hb
                simp [lo8]; omega
              · omega
            obtain ⟨m', hm'⟩ : ∃ m', m = m' + 1 := ⟨m - 1, by omega⟩
            subst hm'
            simp [biReadLoop, hid6, applySign]
        · rename_i h40
          have h40 : lo8 v &&& 0x40#8 = 0#8 := by simpa using h40
          have ⟨b1, b2, b3, b4⟩ := byte_final (lo8 v) h80 h40
          cases hsg : sign
          · simp only [Bool.false_eq_true, if_false, applySign, List.cons_append, List.nil_append,
              biReadLoop, if_pos hid7, BitVec.or_zero]
            rw [if_pos h80, b1, hw, h40]; simp
          · simp only [if_true, applySign, List.cons_append, List.nil_append,
              biReadLoop, if_pos hid7]
            rw [if_pos b2, b3, hw, if_pos b4]
      · rename_i hz
        have hz' : ¬ v.toNat < 2 ^ 7 := fun h => hz ((shiftRight7_eq_zero v).2 h)
        simp only [List.cons_append, biReadLoop, if_pos hid7]
        rw [if_neg (byte_or80_and80 _), byte_or80_and7f, lo8_and7f]
        have := ih (id + 1) (acc ||| (v &&& 0x7f#64) <<< (7 * id)) (v >>> 7) (by omega) (by omega) ?_ ?_
        · rw [show 9 - (id + 1) = m by omega] at this
          rw [this, show 7 * (id + 1) = 7 * id + 7 by omega, BitVec.or_assoc, split7]
        · rw [toNat_shiftRight7]
          have h1 : 63 - 7 * id = (63 - 7 * (id + 1)) + 7 := by omega
          rw [h1, Nat.pow_add] at hv
          omega
        · intro hsg
          have ⟨h7, hlt⟩ := hs hsg
          have h6 : id + 1 ≤ 7 := by
            by_cases h : id = 7
            · subst h; simp at hlt; omega
            · omega
          refine ⟨h6, ?_⟩
          rw [toNat_shiftRight7]
          have h1 : 55 - 7 * id = (55 - 7 * (id + 1)) + 7 := by omega
          rw [h1, Nat.pow_add] at hlt
          omega
    · have h8 : id = 8 := by omega
      subst h8
      have hsg : sign = false := by
        cases hsg : sign
        · rfl
        · have := (hs hsg).1; omega
      subst hsg
      have hz : v >>> 7 = 0#64 := (shiftRight7_eq_zero v).2 (by simpa using hv)
      have hm0 : m = 0 := by omega
      subst hm0
      rw [if_pos hz]
      have hv' : v.toNat < 128 := by simpa using hv
      simp [biFinish, biReadLoop, applySign, lo8_of_lt v (by omega)]

/-- Values in `[-2^56, -2^55)`: the reader sees the sign byte in position 8 and ORs `0x40 << 56`. -/
theorem biRead_writeLoop_mid (rest : List Byte) : ∀ (f id : Nat) (acc v : BitVec 64),
    id + f = 9 → id ≤ 7 → 2 ^ (55 - 7 * id) ≤ v.toNat → v.toNat < 2 ^ (56 - 7 * id) →
    biReadLoop (9 - id) id acc (biWriteLoop true f id v ++ rest)
      = some (acc ||| v <<< (7 * id) ||| 0x4000000000000000#64, rest) := by
  intro f
  induction f with
  | zero => intro id acc v hid hid'; omega
  | succ f ih =>
    intro id acc v hid hid7 hlo hhi
    obtain ⟨m, hm⟩ : ∃ m, 9 - id = m + 1 := ⟨8 - id, by omega⟩
    rw [hm]
    have hid8 : id < 8 := by omega
    simp only [biWriteLoop]
    by_cases h7 : id = 7
    · subst h7
      have hm1 : m = 1 := by omega
      subst hm1
      have hv7 : v.toNat < 128 := by simpa using hhi
      have hv6 : 64 ≤ v.toNat := by simpa using hlo
      have hb : ∀ c : BitVec 8, 64 ≤ c.toNat → c.toNat < 128 → c &&& 0x40#8 ≠ 0#8 := by decide +kernel
      have h40 : lo8 v &&& 0x40#8 ≠ 0#8 := by
        apply hb <;> simp [lo8] <;> omega
      rw [if_pos ((shiftRight7_eq_zero v).2 (by simpa using hv7))]
      simp only [biFinish, if_pos hid8, if_pos h40, List.cons_append, List.nil_append, biReadLoop]
      rw [if_neg (byte_or80_and80 _), byte_or80_and7f, lo8_and7f, and7f_of_lt v (by simpa using hv7)]
      rfl
    · have hp : (2:Nat) ^ 7 ≤ 2 ^ (55 - 7 * id) := Nat.pow_le_pow_right (by omega) (by omega)
      have hz : ¬ v >>> 7 = 0#64 := fun h => by have := (shiftRight7_eq_zero v).1 h; omega
      rw [if_neg hz]
      simp only [List.cons_append, biReadLoop, if_pos hid8]
      rw [if_neg (byte_or80_and80 _), byte_or80_and7f, lo8_and7f]
      have := ih (id + 1) (acc ||| (v &&& 0x7f#64) <<< (7 * id)) (v >>> 7) (by omega) (by omega) ?_ ?_
      · rw [show 9 - (id + 1) = m by omega] at this
        rw [this, show 7 * (id + 1) = 7 * id + 7 by omega, BitVec.or_assoc acc, split7]
      · rw [toNat_shiftRight7]
        have h1 : 55 - 7 * id = (55 - 7 * (id + 1)) + 7 := by omega
        rw [h1, Nat.pow_add] at hlo
        omega
      · rw [toNat_shiftRight7]
        have h1 : 56 - 7 * id = (56 - 7 * (id + 1)) + 7 := by omega
        rw [h1, Nat.pow_add] at hhi
        omega

/-- Values below `-2^56`: a tenth byte `0x01` is written which the reader never consumes. -/
theorem biRead_writeLoop_low (rest : List Byte) : ∀ (f id : Nat) (acc v : BitVec 64),
    id + f = 9 → id ≤ 8 → 2 ^ (63 - 7 * id) ≤ v.toNat → v.toNat < 2 ^ (64 - 7 * id) →
    biReadLoop (9 - id) id acc (biWriteLoop false f id v ++ rest)
      = some (acc ||| v <<< (7 * id), 1#8 :: rest) := by
  intro f
  induction f with
  | zero => intro id acc v hid hid'; omega
  | succ f ih =>
    intro id acc v hid hid8 hlo hhi
    obtain ⟨m, hm⟩ : ∃ m, 9 - id = m + 1 := ⟨8 - id, by omega⟩
    rw [hm]
    simp only [biWriteLoop]
    by_cases h8 : id = 8
    · subst h8
      have hm1 : m = 0 := by omega
      have hf : f = 0 := by omega
      subst hm1; subst hf
      have hv8 : v.toNat < 256 := by simpa using hhi
      have hv7 : 128 ≤ v.toNat := by simpa using hlo
      have hz : ¬ v >>> 7 = 0#64 := fun h => by have := (shiftRight7_eq_zero v).1 h; omega
      have hb : ∀ c : BitVec 8, 128 ≤ c.toNat → c ||| 0x80#8 = c := by decide +kernel
      have e1 : lo8 v ||| 0x80#8 = lo8 v := by apply hb; simp [lo8]; omega
      have e2 : lo8 (v >>> 7) = 1#8 := by
        apply BitVec.eq_of_toNat_eq
        simp [lo8, Nat.shiftRight_eq_div_pow]; omega
      rw [if_neg hz, e1]
      simp [biFinish, biWriteLoop, biReadLoop, lo8_of_lt v (by omega), e2]
    · have hid8' : id < 8 := by omega
      have hp : (2:Nat) ^ 7 ≤ 2 ^ (63 - 7 * id) := Nat.pow_le_pow_right (by omega) (by omega)
      have hz : ¬ v >>> 7 = 0#64 := fun h => by have := (shiftRight7_eq_zero v).1 h; omega
      rw [if_neg hz]
      simp only [List.cons_append, biReadLoop, if_pos hid8']
      rw [if_neg (byte_or80_and80 _), byte_or80_and7f, lo8_and7f]
      have := ih (id + 1) (acc ||| (v &&& 0x7f#64) <<< (7 * id)) (v >>> 7) (by omega) (by omega) ?_ ?_
      · rw [show 9 - (id + 1) = m by omega] at this
        rw [this, show 7 * (id + 1) = 7 * id + 7 by omega, BitVec.or_assoc acc, split7]
      · rw [toNat_shiftRight7]
        have h1 : 63 - 7 * id = (63 - 7 * (id + 1)) + 7 := by omega
        rw [h1, Nat.pow_add] at hlo
        omega
      · rw [toNat_shiftRight7]
        have h1 : 64 - 7 * id = (64 - 7 * (id + 1)) + 7 := by omega
        rw [h1, Nat.pow_add] at hhi
        omega

/-- The fuel of `biWriteLoop` is never the reason the loop stops: at fuel 0 the remaining value has
already no further 7-bit group. -/
theorem biWriteLoop_fuel (sign : Bool) (extra : Nat) : ∀ (f idx : Nat) (v : BitVec 64),
    v.toNat < 2 ^ (7 * (f + 1)) → biWriteLoop sign (f + extra) idx v = biWriteLoop sign f idx v := by
  intro f
  induction f with
  | zero =>
    intro idx v hv
    have hz := (shiftRight7_eq_zero v).2 (by simpa using hv)
    cases extra with
    | zero => rfl
    | succ e => simp [biWriteLoop, hz]
  | succ f ih =>
    intro idx v hv
    rw [show f + 1 + extra = (f + extra) + 1 by omega]
    simp only [biWriteLoop]
    split
    · rfl
    · rw [ih]
      rw [toNat_shiftRight7]
      rw [show 7 * (f + 1 + 1) = 7 * (f + 1) + 7 by omega, Nat.pow_add] at hv
      omega

theorem biSign_iff (v : BitVec 64) : biSign v = true ↔ -(2 ^ 56 : Int) ≤ v.toInt ∧ v.toInt < 0 := by
  have h1 : v.slt 0#64 = true ↔ v.toInt < 0 := by simp [BitVec.slt]
  have h2 : (~~~(v.sshiftRight 56) == 0#64) = true ↔ v.toInt / 2 ^ 56 = -1 := by
    have h3 : ∀ x : BitVec 64, ~~~x = 0#64 ↔ x.toInt = -1 := by
      intro x
      constructor
      · intro h
        have : x = BitVec.allOnes 64 := by
          have := congrArg (fun y => ~~~y) h
          simpa using this
        subst this; decide
      · intro h
        have : x = BitVec.ofInt 64 (-1) := by rw [← h]; simp
        subst this; decide
    rw [beq_iff_eq, h3, BitVec.toInt_sshiftRight, Int.shiftRight_eq_div_pow]
    simp
  rw [biSign, Bool.and_eq_true, h1, h2]
  omega

theorem toNat_of_nonneg (v : BitVec 64) (h : 0 ≤ v.toInt) : v.toNat < 2 ^ 63 := by
  have := v.isLt
  rw [BitVec.toInt_eq_toNat_cond] at h
  split at h <;> omega

theorem toNat_not (v : BitVec 64) (h : v.toInt < 0) : ((~~~v).toNat : Int) = -1 - v.toInt := by
  have := v.isLt
  rw [BitVec.toInt_eq_toNat_cond] at h ⊢
  simp
  split at h <;> split <;> omega

end PreCore.Base128
