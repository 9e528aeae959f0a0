import Verif.Model.FractionT
/-!
# C145: the compile time fraction
-/
namespace PreCore.FractionT

/-- The number `2^149 * x` of the positive normal float `x` with the bits `b`: 24 bit significand, biased exponent `b / 2^23` (IEEE 754). -/
def scaled (b : Nat) : Nat := (2 ^ 23 + b % 2 ^ 23) * 2 ^ (b / 2 ^ 23 - 1)

/-- C145: for each width from 1 to 126 (others do not compile), `GetFraction_t<n>::VALUE` are the bits of the largest float that is not
greater than 1 / (2^n - 1). The whole domain (126 widths) is evaluated by the kernel. -/
theorem fraction_below : ∀ n, 1 ≤ n → n < 127 → ∃ b, value n = some b ∧ 2 ^ 23 ≤ b ∧ b < 2 ^ 31 - 2 ^ 23 ∧
    scaled b * (2 ^ n - 1) ≤ 2 ^ 149 ∧ 2 ^ 149 < scaled (b + 1) * (2 ^ n - 1) := by
  have key : ∀ n < 127, 1 ≤ n → (value n).any (fun b => decide (2 ^ 23 ≤ b ∧ b < 2 ^ 31 - 2 ^ 23 ∧
      scaled b * (2 ^ n - 1) ≤ 2 ^ 149 ∧ 2 ^ 149 < scaled (b + 1) * (2 ^ n - 1))) = true := by decide +kernel
  intro n h1 h2
  have h := key n h2 h1
  cases hv : value n with
  | none => rw [hv] at h; cases h
  | some b =>
    rw [hv, Option.any_some, decide_eq_true_eq] at h
    exact ⟨b, rfl, h⟩

/-- C145: wider fractions are refused by the compiler. -/
theorem fraction_refused (n : Nat) (h : 127 ≤ n) : value n = none := by unfold value; rw [if_pos h]

/-- C145: compared with `GetFraction(n)`, which rounds to the nearest float, for every width for which that is defined (1 to 63):
the same number, or the float right below it; the latter exactly for the widths 2, 3, 4, 6, 8, 12 and 24. -/
theorem fraction_agrees : ∀ n, 1 ≤ n → n < 64 →
    value n = some ((F32.getFraction n).toNat - if n ∈ [2, 3, 4, 6, 8, 12, 24] then 1 else 0) := by
  have key : ∀ n < 64, 1 ≤ n → value n = some ((F32.getFraction n).toNat - if n ∈ [2, 3, 4, 6, 8, 12, 24] then 1 else 0) := by decide +kernel
  exact fun n h1 h2 => key n h2 h1

/-- The two ways to make a fraction do not agree: the one for 8 bits is one unit in the last place smaller than `GetFraction(8)`. -/
theorem fraction_differs_violated : value 8 ≠ some (F32.getFraction 8).toNat ∧ (F32.getFraction 8).toNat ≠ 0 := by decide +kernel

/-- 16 bits: 1/65535. -/
example : value 16 = some 0x37800080 ∧ (F32.getFraction 16).toNat = 0x37800080 := by decide +kernel

end PreCore.FractionT
