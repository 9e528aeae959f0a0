import Verif.Model.Float32
/-!
# The special values of the float model

IEEE 754 (6.1, 6.2, 6.3): what sums and products of infinities, zeros and NaNs are. The finite cases are in `Lemmas/Float32Err` and
`Lemmas/Float32Signed` (nearest float to the exact result).
-/
namespace PreCore.F32

theorem val_pinf : val 0x7f800000 = .inf false := by decide +kernel
theorem val_ninf : val 0xff800000 = .inf true := by decide +kernel
theorem val_nan : val 0xffc00000 = .nan := by decide +kernel

theorem quiet_nan (a : F32) (h : val a = .nan) : val (a ||| 0x00400000) = .nan := by
  have h0 : expo a = 255 := by
    unfold val at h
    split at h
    · assumption
    · split at h <;> cases h
  have hlow : ∀ b : F32, mant b = (b.extractLsb' 0 23).toNat ∧ expo b = (b.extractLsb' 23 8).toNat := by
    intro b
    unfold mant expo
    simp [BitVec.extractLsb'_toNat, Nat.shiftRight_eq_div_pow]
  have h1 : expo (a ||| 0x00400000) = 255 := by
    rw [(hlow _).2]
    rw [(hlow _).2] at h0
    have : (a ||| 0x00400000).extractLsb' 23 8 = a.extractLsb' 23 8 := by
      apply BitVec.eq_of_getLsbD_eq
      intro i hi
      simp only [BitVec.getLsbD_extractLsb', BitVec.getLsbD_or, hi, decide_true, Bool.true_and]
      have : (0x00400000#32).getLsbD (23 + i) = false := by
        revert hi; revert i; decide
      change (a.getLsbD (23 + i) || (0x00400000#32).getLsbD (23 + i)) = _
      rw [this, Bool.or_false]
    rw [this]; exact h0
  have h2 : mant (a ||| 0x00400000) ≠ 0 := by
    rw [(hlow _).1]
    intro h
    have : ((a ||| 0x00400000#32).extractLsb' 0 23).getLsbD 22 = true := by
      simp [BitVec.getLsbD_extractLsb', BitVec.getLsbD_or]
    rw [BitVec.eq_of_toNat_eq (x := (a ||| 0x00400000#32).extractLsb' 0 23) (y := 0#23) (by simpa using h)] at this
    simp at this
  unfold val
  rw [if_pos h1, if_neg h2]

/-- Sums with infinities and NaNs. -/
theorem add_special (a b : F32) :
    (val a = .nan ∨ val b = .nan → val (add a b) = .nan) ∧
    (∀ s, val a = .inf s → val b = .inf s → val (add a b) = .inf s) ∧
    (∀ s, val a = .inf s → val b = .inf (!s) → val (add a b) = .nan) ∧
    (∀ s t n, val a = .inf s → val b = .fin t n → val (add a b) = .inf s) ∧
    (∀ s t n, val a = .fin t n → val b = .inf s → val (add a b) = .inf s) := by
  refine ⟨?_, ?_, ?_, ?_, ?_⟩
  · intro h
    unfold add
    cases ha : val a with
    | nan => exact quiet_nan a ha
    | inf s =>
      have hb : val b = .nan := by rcases h with h | h; · rw [ha] at h; cases h
                                   · exact h
      rw [hb]; exact quiet_nan b hb
    | fin s m =>
      have hb : val b = .nan := by rcases h with h | h; · rw [ha] at h; cases h
                                   · exact h
      rw [hb]; exact quiet_nan b hb
  · intro s ha hb
    unfold add
    rw [ha, hb]
    simp only [if_true]
    exact ha
  · intro s ha hb
    unfold add
    rw [ha, hb]
    simp only
    rw [if_neg (by cases s <;> simp)]
    exact val_nan
  · intro s t n ha hb
    unfold add
    rw [ha, hb]
    exact ha
  · intro s t n ha hb
    unfold add
    rw [ha, hb]
    exact hb

/-- Products with infinities and NaNs. -/
theorem mul_special (a b : F32) :
    (val a = .nan ∨ val b = .nan → val (mul a b) = .nan) ∧
    (∀ s t, val a = .inf s → val b = .inf t → val (mul a b) = .inf (s != t)) ∧
    (∀ s t n, val a = .inf s → val b = .fin t n → val (mul a b) = if n = 0 then .nan else .inf (s != t)) ∧
    (∀ s t n, val a = .fin t n → val b = .inf s → val (mul a b) = if n = 0 then .nan else .inf (s != t)) := by
  refine ⟨?_, ?_, ?_, ?_⟩
  · intro h
    unfold mul
    cases ha : val a with
    | nan => exact quiet_nan a ha
    | inf s =>
      have hb : val b = .nan := by rcases h with h | h; · rw [ha] at h; cases h
                                   · exact h
      rw [hb]; exact quiet_nan b hb
    | fin s m =>
      have hb : val b = .nan := by rcases h with h | h; · rw [ha] at h; cases h
                                   · exact h
      rw [hb]; exact quiet_nan b hb
  · intro s t ha hb
    unfold mul
    rw [ha, hb]
    cases s <;> cases t <;> first | exact val_pinf | exact val_ninf
  · intro s t n ha hb
    unfold mul
    rw [ha, hb]
    by_cases h : n = 0
    · simp only [h, if_true]; exact val_nan
    · simp only [h, if_false]
      cases s <;> cases t <;> first | exact val_pinf | exact val_ninf
  · intro s t n ha hb
    unfold mul
    rw [ha, hb]
    by_cases h : n = 0
    · simp only [h, if_true]; exact val_nan
    · simp only [h, if_false]
      cases s <;> cases t <;> first | exact val_pinf | exact val_ninf

example : val (add 0x7f800000 0xff800000) = .nan ∧ val (mul 0xff800000 0xbf800000) = .inf false ∧ val (mul 0 0xff800000) = .nan := by decide +kernel

end PreCore.F32
