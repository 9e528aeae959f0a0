import Verif.Lemmas.Base128
/-!
# C01, C02: variable length integers survive a write/read cycle
-/
namespace PreCore.Base128

/-- C01: every `uint64` written by `buint128::Write` is read back, whatever follows in the stream, the
reader stops exactly behind the written bytes, and between 1 and 9 bytes are used. -/
theorem buint128_roundtrip (v : BitVec 64) (rest : List Byte) :
    buRead (buWrite v ++ rest) = some (v, rest) ∧
    1 ≤ (buWrite v).length ∧ (buWrite v).length ≤ 9 := by
  refine ⟨?_, buWriteLoop_length 8 v⟩
  have := buRead_writeLoop rest 8 0 0#64 v rfl v.isLt
  simpa [buRead, buWrite] using this

/-- C01, consequence: the encoding is prefix free, so two values never get confused in a stream. -/
theorem buint128_prefix_free (v w : BitVec 64) (r s : List Byte)
    (h : buWrite v ++ r = buWrite w ++ s) : v = w ∧ r = s := by
  have h1 := (buint128_roundtrip v r).1
  have h2 := (buint128_roundtrip w s).1
  rw [h, h2] at h1
  simpa [eq_comm] using h1

example : buRead (buWrite 0xffffffffffffffff#64 ++ [7#8]) = some (0xffffffffffffffff#64, [7#8]) := by decide

/-- What the reader makes of the bytes written for `v` (stated from the value alone). -/
def biOutcome (v : BitVec 64) (rest : List Byte) : BitVec 64 × List Byte :=
  if -(2 ^ 55 : Int) ≤ v.toInt then (v, rest)
  else if -(2 ^ 56 : Int) ≤ v.toInt then (~~~v ||| 0x4000000000000000#64, rest)
  else (v, 1#8 :: rest)

/-- C02, complete description of `bint128` write-then-read on all of `int64`. -/
theorem bint128_outcome (v : BitVec 64) (rest : List Byte) :
    biRead (biWrite v ++ rest) = some (biOutcome v rest) := by
  unfold biRead biWrite biOutcome
  by_cases hpos : 0 ≤ v.toInt
  · have hs : biSign v = false := by
      cases h : biSign v
      · rfl
      · have := (biSign_iff v).1 h; omega
    have := biRead_writeLoop false rest 9 0 0#64 v rfl (by omega) (by simpa using toNat_of_nonneg v hpos)
      (by simp)
    rw [hs, if_pos (show -(2 ^ 55 : Int) ≤ v.toInt by omega)]
    simpa [applySign] using this
  · have hneg : v.toInt < 0 := by omega
    have hn := toNat_not v hneg
    by_cases h55 : -(2 ^ 55 : Int) ≤ v.toInt
    · have hs : biSign v = true := (biSign_iff v).2 (by omega)
      have := biRead_writeLoop true rest 9 0 0#64 (~~~v) rfl (by omega) (by simp only [Nat.mul_zero]; omega)
        (by intro; refine ⟨by omega, ?_⟩; simp only [Nat.mul_zero]; omega)
      rw [hs, if_pos h55]
      simpa [applySign] using this
    · rw [if_neg h55]
      by_cases h56 : -(2 ^ 56 : Int) ≤ v.toInt
      · have hs : biSign v = true := (biSign_iff v).2 (by omega)
        have := biRead_writeLoop_mid rest 9 0 0#64 (~~~v) rfl (by omega)
          (by simp only [Nat.mul_zero]; omega) (by simp only [Nat.mul_zero]; omega)
        rw [hs, if_pos h56]
        simpa using this
      · have hs : biSign v = false := by
          cases h : biSign v
          · rfl
          · have := (biSign_iff v).1 h; omega
        have hlo : 2 ^ 63 ≤ v.toNat := by
          rw [BitVec.toInt_eq_toNat_cond] at hneg
          split at hneg <;> omega
        have := biRead_writeLoop_low rest 9 0 0#64 v rfl (by omega)
          (by simpa using hlo) v.isLt
        rw [hs, if_neg h56]
        simpa using this

/-- C02: the `bint128` round trip holds exactly for values not below `-2^55`.
Missing from the full property: the range `[-2^63, -2^55)`, where the code is wrong (next theorems). -/
theorem bint128_roundtrip_partial (v : BitVec 64) (rest : List Byte) :
    biRead (biWrite v ++ rest) = some (v, rest) ↔ -(2 ^ 55 : Int) ≤ v.toInt := by
  rw [bint128_outcome]
  unfold biOutcome
  constructor
  · intro h
    by_cases h55 : -(2 ^ 55 : Int) ≤ v.toInt
    · exact h55
    · rw [if_neg h55] at h
      split at h
      · exfalso
        have h1 : ~~~v ||| 0x4000000000000000#64 = v := by
          simpa using h
        have h2 := congrArg (fun x => x.getLsbD 62) h1
        have h3 := congrArg (fun x => x.getLsbD 63) h1
        simp at h2 h3
      · simp at h
  · intro h; rw [if_pos h]

example : -(2 ^ 55 : Int) ≤ (BitVec.ofInt 64 (-36028797018963968)).toInt := by decide

/-- C02 is violated: a representable value is read back as a different one. -/
theorem bint128_roundtrip_violated :
    ∃ v : BitVec 64, ∀ rest, ∃ w, biRead (biWrite v ++ rest) = some (w, rest) ∧ w ≠ v := by
  refine ⟨BitVec.ofInt 64 (-(2 ^ 55) - 1), fun rest => ⟨0x4080000000000000#64, ?_, by decide⟩⟩
  rw [bint128_outcome]
  have : biOutcome (BitVec.ofInt 64 (-(2 ^ 55) - 1)) rest = (0x4080000000000000#64, rest) := by
    unfold biOutcome
    rw [if_neg (by decide), if_pos (by decide)]
    rfl
  rw [this]

/-- C02 is violated: for values below `-2^56` the reader leaves one written byte in the stream, so
everything read after it is misaligned. -/
theorem bint128_desync (v : BitVec 64) (h : v.toInt < -(2 ^ 56 : Int)) (rest : List Byte) :
    biRead (biWrite v ++ rest) = some (v, 1#8 :: rest) := by
  rw [bint128_outcome]
  unfold biOutcome
  rw [if_neg (by omega), if_neg (by omega)]

example : (BitVec.ofInt 64 (-(2 ^ 63))).toInt < -(2 ^ 56 : Int) := by decide

end PreCore.Base128
