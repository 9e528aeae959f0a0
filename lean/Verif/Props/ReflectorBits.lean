import Verif.Props.ReflectorText
/-!
# C46: reflected bit-field members
-/
namespace PreCore.Refl
open CNum Spec Supercore

/-- The number in bits `pos .. pos+size-1` of the 64-bit word at the instance. -/
def Obj.bits (o : Obj) (pos size : Nat) : Nat := o.nat 0 8 / 2 ^ pos % 2 ^ size

theorem nat8_testBit (o : Obj) (w : BitVec 64) : (o.write 0 (toLE 8 w.toNat)).nat 0 8 = w.toNat := by
  have := u64Bytes_nat o 0 8 w w.isLt
  exact this

theorem setBF_small (s : Nat) (hs : s ≤ 30) (t : Text) : ∀ v, (setBF s t).2 = some v → v.toNat < 2 ^ s := by
  intro v hv
  have hp : (2 : Nat) ^ s ≤ 2 ^ 30 := Nat.pow_le_pow_right (by omega) hs
  have hp0 : (0 : Nat) < 2 ^ s := Nat.two_pow_pos s
  unfold setBF at hv
  split at hv
  · cases hv
  · simp only [Option.some.injEq] at hv
    subst hv
    rw [BitVec.toNat_ofNat, Nat.mod_eq_of_lt] <;> omega
  · rename_i u _
    by_cases hu : u > 2 ^ s - 1
    · simp only [if_pos hu, Option.some.injEq] at hv
      subst hv
      rw [BitVec.toNat_ofNat, Nat.mod_eq_of_lt] <;> omega
    · simp only [if_neg hu, Option.some.injEq] at hv
      subst hv
      rw [BitVec.toNat_ofNat, Nat.mod_eq_of_lt] <;> omega

theorem bfMask_bit (size pos j : Nat) (h : pos + size ≤ 64) :
    (bfMask size pos).getLsbD j = decide (pos ≤ j ∧ j < pos + size) := by
  unfold bfMask
  simp only [BitVec.getLsbD_shiftLeft, BitVec.getLsbD_ushiftRight, BitVec.getLsbD_allOnes]
  by_cases h1 : j < 64
  · by_cases h2 : j < pos
    · have : ¬ pos ≤ j := by omega
      simp [h2, this]
    · by_cases h3 : j < pos + size
      · have e1 : 64 - size + (j - pos) < 64 := by omega
        have e2 : pos ≤ j := by omega
        simp [h1, h2, h3, e1, e2]
      · have e1 : ¬ (64 - size + (j - pos) < 64) := by omega
        simp [h3, e1]
  · have : ¬ j < pos + size := by omega
    simp [h1, this]

theorem setBitMember_word (r : RType) (t s : Text) (o : Obj) (size pos : Nat) (env : Env)
    (hty : r.type = .BitFieldMember) (hsz : r.subSize.toNat = size) (hpos : r.offset.toNat = pos)
    (hs30 : size ≤ 30) (h64 : pos + size ≤ 64) (hi : Indented t s) :
    (setValue env r t o).1 = (setBF size s).1 ∧
    (∀ x, 8 ≤ x → (setValue env r t o).2.mem x = o.mem x) ∧ (setValue env r t o).2.strs = o.strs ∧
    (∀ j, ((setValue env r t o).2.nat 0 8).testBit j =
      if pos ≤ j ∧ j < pos + size then (((setBF size s).2.getD 0#64).toNat).testBit (j - pos)
      else (o.nat 0 8).testBit j) := by
  have e : setValue env r t o = setBitMember r s 0 o := by
    simp only [setValue, setMember, member, hty, indented_skip hi, if_true]
  have hins : ((setBF size s).2.getD 0#64).toNat < 2 ^ size := by
    cases hb : (setBF size s).2 with
    | none => exact Nat.two_pow_pos size
    | some v => exact setBF_small size hs30 s v hb
  rw [e]
  unfold setBitMember
  simp only [hsz, hpos]
  generalize (setBF size s).2.getD 0#64 = ins at *
  refine ⟨trivial, ?_, rfl, ?_⟩
  · intro x hx
    apply write_mem_out
    rw [toLE_length]; omega
  · intro j
    rw [nat8_testBit]
    have hw : ∀ j, (BitVec.ofNat 64 (leNat (o.read 0 8))).getLsbD j = (o.nat 0 8).testBit j := by
      intro j
      have h1 := nat_lt o 0 8
      unfold Obj.nat at h1 ⊢
      rw [BitVec.getLsbD, BitVec.toNat_ofNat, Nat.mod_eq_of_lt h1]
    show BitVec.getLsbD _ j = _
    rw [BitVec.getLsbD_or, BitVec.getLsbD_and, BitVec.getLsbD_not, hw, bfMask_bit size pos j h64, BitVec.getLsbD_shiftLeft]
    have hbig : ∀ k, size ≤ k → ins.getLsbD k = false := by
      intro k hk
      exact Nat.testBit_lt_two_pow (Nat.lt_of_lt_of_le hins (Nat.pow_le_pow_right (by omega) hk))
    have hb64 : ∀ k, 64 ≤ k → (o.nat 0 8).testBit k = false := by
      intro k hk
      exact Nat.testBit_lt_two_pow (Nat.lt_of_lt_of_le (nat_lt o 0 8) (Nat.pow_le_pow_right (by omega) (by omega)))
    by_cases hin : pos ≤ j ∧ j < pos + size
    · rw [if_pos hin]
      have h1 : j < 64 := by omega
      have h2 : ¬ j < pos := by omega
      simp [hin, h1, h2]; rfl
    · rw [if_neg hin]
      by_cases h1 : j < 64
      · by_cases h2 : j < pos
        · have : ¬ pos ≤ j := by omega
          simp [h1, h2, this]
        · have : ¬ j < pos + size := by omega
          simp [h1, h2, this, hbig (j - pos) (by omega)]
      · simp [h1, hb64 j (by omega)]

theorem bits_of_testBit (o : Obj) (pos size v : Nat) (hv : v < 2 ^ size)
    (h : ∀ j, j < size → (o.nat 0 8).testBit (pos + j) = v.testBit j) : o.bits pos size = v := by
  unfold Obj.bits
  apply Nat.eq_of_testBit_eq
  intro j
  rw [Nat.testBit_mod_two_pow, Nat.testBit_div_two_pow]
  by_cases hj : j < size
  · simp only [hj, decide_true, Bool.true_and]
    rw [Nat.add_comm]; exact h j hj
  · simp only [hj, decide_false, Bool.false_and]
    exact (Nat.testBit_lt_two_pow (Nat.lt_of_lt_of_le hv (Nat.pow_le_pow_right (by omega) (by omega)))).symm

/-- C46, members of at most 30 bits: a non-negative literal that fits is stored; a larger one stores the all-ones value
and reports out-of-range; no other bit of the word and nothing else in the object changes, whatever the text.
Missing for the full statement: negative literals on signed members, the signed range, and leaving the member alone on
malformed text (all violated below), and widths above 30 (undefined shift). -/
theorem bitmember_partial (env : Env) (c : ClassTab) (h : BitVec 32) (r : RType) (t s : Text) (o : Obj) (size pos : Nat)
    (hr : typeOf c h = some r) (hty : r.type = .BitFieldMember) (hsz : r.subSize.toNat = size) (hpos : r.offset.toNat = pos)
    (hs30 : size ≤ 30) (h64 : pos + size ≤ 64) (hi : Indented t s) :
    (∀ m, Literal s false m →
      (m < 2 ^ size → (setByName env c h t o).1 = .None ∧ (setByName env c h t o).2.bits pos size = m) ∧
      (2 ^ size ≤ m → (setByName env c h t o).1 = .OutOfRange ∧ (setByName env c h t o).2.bits pos size = 2 ^ size - 1)) ∧
    ((∀ neg m, ¬ Literal s neg m) → (setByName env c h t o).1 = .InvalidFormat) ∧
    (∀ j, ¬ (pos ≤ j ∧ j < pos + size) → ((setByName env c h t o).2.nat 0 8).testBit j = (o.nat 0 8).testBit j) ∧
    (∀ x, 8 ≤ x → (setByName env c h t o).2.mem x = o.mem x) ∧ (setByName env c h t o).2.strs = o.strs := by
  have e : setByName env c h t o = setValue env r t o := by unfold setByName; rw [hr]
  rw [e]
  obtain ⟨w1, w2, w3, w4⟩ := setBitMember_word r t s o size pos env hty hsz hpos hs30 h64 hi
  have hp : (2 : Nat) ^ size ≤ 2 ^ 30 := Nat.pow_le_pow_right (by omega) hs30
  have hp0 : (0 : Nat) < 2 ^ size := Nat.two_pow_pos size
  have hbits : ∀ er v, setBF size s = (er, some (BitVec.ofNat 64 v)) → v < 2 ^ size → (setValue env r t o).2.bits pos size = v := by
    intro er v hb hv
    apply bits_of_testBit _ _ _ _ hv
    intro j hj
    rw [w4, if_pos (by omega), hb, show pos + j - pos = j by omega]
    simp only [Option.getD_some, BitVec.toNat_ofNat]
    rw [Nat.mod_eq_of_lt (a := v) (by omega)]
  refine ⟨?_, ?_, ?_, w2, w3⟩
  · intro m hl
    have hst : stoull (numBase s) s = if m > 2 ^ 64 - 1 then .outOfRange else .ok m := by
      unfold stoull; rw [literal_parse hl]; rfl
    have hm : startsMinus s = false := by
      cases hb : startsMinus s with
      | false => rfl
      | true => have := literal_minus hl ((startsMinus_iff s).1 hb); cases this
    constructor
    · intro hfit
      have hb : setBF size s = (.None, some (BitVec.ofNat 64 m)) := by
        unfold setBF
        rw [hst, if_neg (by omega)]
        simp only
        rw [if_neg (by omega), hm]
        rfl
      exact ⟨by rw [w1, hb], hbits _ _ hb hfit⟩
    · intro hbig
      have hb : setBF size s = (.OutOfRange, some (BitVec.ofNat 64 (2 ^ size - 1))) := by
        unfold setBF
        rw [hst]
        by_cases h1 : m > 2 ^ 64 - 1
        · rw [if_pos h1]
        · rw [if_neg h1]
          simp only
          rw [if_pos (by omega)]
      exact ⟨by rw [w1, hb], hbits _ _ hb (by omega)⟩
  · intro hn
    rw [w1]
    unfold setBF stoull
    rw [parse_none.2 hn]
  · intro j hj
    rw [w4, if_neg hj]

/-- A bit-field class with a 4 bit signed member at bit 4 (name 3) and an unsigned one of 4 bits at 8 (name 4). -/
def exBF : ClassTab := ⟨[⟨.BitFieldMember, .Integer, 4, 0, 0, 4, 3, 0⟩, ⟨.BitFieldMember, .UnsignedInteger, 4, 1, 0, 8, 4, 0⟩], none⟩

/-- C46 fails for signed members: "-2" is reported out of range and the member then holds (and prints) -1. -/
theorem bitmember_signed_violated :
    Literal [0x2d#8, 0x32#8] true 2 ∧
    (setByName exEnv exBF 3 [0x2d#8, 0x32#8] exObj).1 = .OutOfRange ∧
    getByName exEnv exBF 3 (setByName exEnv exBF 3 [0x2d#8, 0x32#8] exObj).2 = some [0x2d#8, 0x31#8] := by
  refine ⟨parse_literal (by decide +kernel), by decide +kernel, ?_⟩
  have hx : getByName exEnv exBF 3 (setByName exEnv exBF 3 [0x2d#8, 0x32#8] exObj).2 =
      some (showInt (-1)) := by
    unfold getByName getByID printMember print
    have h1 : lookup exBF 3 = some 0 := by decide
    rw [h1]
    simp only [typeAt, exBF, List.getElem?_cons_zero, if_true]
    unfold printBitMember
    rw [if_neg (by decide)]
    have : (BitVec.ofNat 64 (leNat ((setByName exEnv ⟨[⟨.BitFieldMember, .Integer, 4, 0, 0, 4, 3, 0⟩, ⟨.BitFieldMember, .UnsignedInteger, 4, 1, 0, 8, 4, 0⟩], none⟩ 3 [0x2d#8, 0x32#8] exObj).2.read 0 8))) = 0xaaaaaaaaaaaaaafa#64 := by
      decide +kernel
    rw [this]
    exact congrArg some (congrArg showInt (by decide))
  rw [hx]
  simp [showInt, showNat]

/-- The signed range is not respected either: 15 is accepted without error by the signed 4 bit member (it reads -1). -/
theorem bitmember_range_violated :
    (setByName exEnv exBF 3 [0x31#8, 0x35#8] exObj).1 = .None ∧ (setByName exEnv exBF 3 [0x31#8, 0x35#8] exObj).2.bits 4 4 = 15 := by
  decide +kernel

/-- Malformed text reports an invalid format but clears the member. -/
theorem bitmember_invalid_violated :
    exObj.bits 8 4 = 10 ∧ (setByName exEnv exBF 4 [0x7a#8] exObj).1 = .InvalidFormat ∧
    (setByName exEnv exBF 4 [0x7a#8] exObj).2.bits 8 4 = 0 := by
  decide +kernel

/-- Printing: an unsigned member prints the number in its bits, a signed member its two's complement reading
(members of at most 30 bits). -/
theorem bitmember_print (env : Env) (r : RType) (a : Nat) (o : Obj) (size pos : Nat) (hty : r.type = .BitFieldMember)
    (hsz : r.subSize.toNat = size) (hpos : r.offset.toNat = pos) (hs0 : 0 < size) (hs30 : size ≤ 30) (h64 : pos + size ≤ 64)
    (ha : a = 0) :
    printMember env r a o = some (if r.subType = .UnsignedInteger then showNat (o.bits pos size)
      else showInt (BitVec.ofNat size (o.bits pos size)).toInt) := by
  subst ha
  unfold printMember print
  simp only [hty]
  unfold printBitMember
  simp only [hsz, hpos]
  let W : BitVec 64 := BitVec.ofNat 64 (leNat (o.read 0 8))
  have hw : ∀ j, W.getLsbD j = (o.nat 0 8).testBit j := by
    intro j
    have h1 := nat_lt o 0 8
    unfold Obj.nat at h1 ⊢
    show BitVec.getLsbD (BitVec.ofNat 64 _) j = _
    rw [BitVec.getLsbD, BitVec.toNat_ofNat, Nat.mod_eq_of_lt h1]
  have hp : (2 : Nat) ^ size ≤ 2 ^ 30 := Nat.pow_le_pow_right (by omega) hs30
  have hp0 : (0 : Nat) < 2 ^ size := Nat.two_pow_pos size
  have hblt : o.bits pos size < 2 ^ size := Nat.mod_lt _ hp0
  have hout : (W &&& bfMask size pos) >>> pos = BitVec.ofNat 64 (o.bits pos size) := by
    apply BitVec.eq_of_getLsbD_eq
    intro j hj
    rw [BitVec.getLsbD_ushiftRight, BitVec.getLsbD_and, hw, bfMask_bit size pos _ h64]
    have : (BitVec.ofNat 64 (o.bits pos size)).getLsbD j = (o.bits pos size).testBit j := by
      rw [BitVec.getLsbD, BitVec.toNat_ofNat, Nat.mod_eq_of_lt (by omega)]
    rw [this]
    unfold Obj.bits
    rw [Nat.testBit_mod_two_pow, Nat.testBit_div_two_pow]
    by_cases hjs : j < size
    · have : pos ≤ pos + j ∧ pos + j < pos + size := by omega
      rw [decide_eq_true this, Bool.and_true, decide_eq_true hjs, Bool.true_and, Nat.add_comm]
    · simp [hjs]
  show some (if r.subType = .UnsignedInteger then _ else _) = _
  have hout' : (BitVec.ofNat 64 (leNat (o.read 0 8)) &&& bfMask size pos) >>> pos = BitVec.ofNat 64 (o.bits pos size) := hout
  rw [hout']
  generalize o.bits pos size = b at *
  congr 1
  have hbt : (BitVec.ofNat 64 b).toNat = b := by rw [BitVec.toNat_ofNat, Nat.mod_eq_of_lt (by omega)]
  by_cases hu : r.subType = .UnsignedInteger
  · rw [if_pos hu, if_pos hu, hbt]
  · rw [if_neg hu, if_neg hu]
    congr 1
    -- the sign extension
    have hB : BitVec.ofNat 64 b = (BitVec.ofNat size b).setWidth 64 := by
      apply BitVec.eq_of_toNat_eq
      rw [hbt, BitVec.toNat_setWidth, BitVec.toNat_ofNat, Nat.mod_eq_of_lt hblt, Nat.mod_eq_of_lt (by omega)]
    have hmaxb : ∀ j, (BitVec.ofNat 64 (2 ^ size - 1)).getLsbD j = decide (j < size) := by
      intro j
      rw [BitVec.getLsbD, BitVec.toNat_ofNat, Nat.mod_eq_of_lt (by omega), Nat.testBit_two_pow_sub_one]
    have hbj : ∀ j, b.testBit j = (BitVec.ofNat size b).getLsbD j := by
      intro j
      rw [BitVec.getLsbD, BitVec.toNat_ofNat, Nat.mod_eq_of_lt hblt]
    have hbj64 : ∀ j, (BitVec.ofNat 64 b).getLsbD j = b.testBit j := by
      intro j; rw [BitVec.getLsbD, hbt]
    have hhi : ∀ j, size ≤ j → b.testBit j = false := fun j hj =>
      Nat.testBit_lt_two_pow (Nat.lt_of_lt_of_le hblt (Nat.pow_le_pow_right (by omega) hj))
    have hsign : (BitVec.ofNat 64 b &&& ~~~(BitVec.ofNat 64 (2 ^ size - 1) >>> 1) ≠ 0#64) ↔ (BitVec.ofNat size b).msb = true := by
      rw [BitVec.msb_eq_getLsbD_last, ← hbj]
      have key : ∀ j, j < 64 → (BitVec.ofNat 64 b &&& ~~~(BitVec.ofNat 64 (2 ^ size - 1) >>> 1)).getLsbD j =
          (decide (j = size - 1) && b.testBit (size - 1)) := by
        intro j hj
        rw [BitVec.getLsbD_and, BitVec.getLsbD_not, BitVec.getLsbD_ushiftRight, hmaxb, hbj64]
        by_cases h1 : j = size - 1
        · subst h1
          have : ¬ (1 + (size - 1) < size) := by omega
          simp [hj, this]
        · by_cases h2 : j < size
          · have : 1 + j < size := by omega
            simp [h1, this]
          · simp [h1, hhi j (by omega)]
      constructor
      · intro hne
        cases hb : b.testBit (size - 1) with
        | true => rfl
        | false =>
          exfalso; apply hne
          apply BitVec.eq_of_getLsbD_eq
          intro j hj
          rw [key j hj, hb]; simp
      · intro hb heq
        have := key (size - 1) (by omega)
        rw [heq, hb] at this
        simp at this
    have hse : (if BitVec.ofNat 64 b &&& ~~~(BitVec.ofNat 64 (2 ^ size - 1) >>> 1) ≠ 0#64 then
        BitVec.ofNat 64 b ||| ~~~(BitVec.ofNat 64 (2 ^ size - 1)) else BitVec.ofNat 64 b) = (BitVec.ofNat size b).signExtend 64 := by
      apply BitVec.eq_of_getLsbD_eq
      intro j hj
      rw [BitVec.getLsbD_signExtend]
      by_cases hs : (BitVec.ofNat size b).msb = true
      · rw [if_pos (hsign.2 hs), BitVec.getLsbD_or, BitVec.getLsbD_not, hmaxb, hbj64, hs, hbj]
        by_cases hjs : j < size
        · simp [hj, hjs]
        · simp [hj, hjs]
      · rw [if_neg (mt hsign.1 hs), hbj64, hbj]
        have hs' : (BitVec.ofNat size b).msb = false := by simpa using hs
        rw [hs']
        by_cases hjs : j < size
        · simp [hj, hjs]
        · rw [← hbj, hhi j (by omega)]; simp [hjs]
    rw [hse, BitVec.toInt_signExtend_of_le (by omega)]

example : typeOf exBF 4 = some ⟨.BitFieldMember, .UnsignedInteger, 4, 1, 0, 8, 4, 0⟩ ∧ Literal [0x37#8] false 7 := by
  exact ⟨rfl, parse_literal (by decide +kernel)⟩

end PreCore.Refl
