import Mathlib.Tactic.Linarith
import Mathlib.Tactic.NormNum
import Mathlib.Tactic.Ring
import Mathlib.Tactic.FieldSimp
import Mathlib.Tactic.Positivity
import Mathlib.Algebra.Order.Field.Rat
import Mathlib.Data.Rat.Cast.Order
import Verif.Props.UniNorm
/-!
# Error bounds of single precision arithmetic
-/
namespace PreCore.F32

theorem magOf_parts (k q : Nat) (hq : q ≤ 2 ^ 24) (hk : k = 0 ∨ 2 ^ 23 ≤ q) : magOf (k * 2 ^ 23 + q) = q * 2 ^ k := by
  unfold magOf
  rcases Nat.lt_or_ge q (2 ^ 23) with h | h
  · have hk0 : k = 0 := by omega
    subst hk0
    rw [if_pos (by omega)]; omega
  · rcases Nat.lt_or_ge q (2 ^ 24) with h2 | h2
    · have e1 : (k * 2 ^ 23 + q) / 2 ^ 23 = k + 1 := by omega
      have e2 : (k * 2 ^ 23 + q) % 2 ^ 23 = q - 2 ^ 23 := by omega
      rw [e1, e2, if_neg (by omega), Nat.add_sub_cancel, Nat.add_sub_cancel' h]
    · have e : q = 2 ^ 24 := by omega
      have e1 : (k * 2 ^ 23 + q) / 2 ^ 23 = k + 2 := by omega
      have e2 : (k * 2 ^ 23 + q) % 2 ^ 23 = 0 := by omega
      rw [e1, e2, if_neg (by omega), e, Nat.add_zero, show k + 2 - 1 = k + 1 by omega]
      ring

/-- Rounding is off by at most half a unit: `2^-24` of the value, or half the smallest subnormal. -/
theorem roundQ'_err (n d : Nat) (hd : 0 < d) :
    2 ^ 24 * (magOf (roundQ' n d) * d) ≤ 2 ^ 24 * n + n + 2 ^ 23 * d ∧
    2 ^ 24 * n ≤ 2 ^ 24 * (magOf (roundQ' n d) * d) + n + 2 ^ 23 * d := by
  unfold roundQ'
  generalize hk : (n / d).log2 - 23 = k
  simp only
  have hD : 0 < d * 2 ^ k := Nat.mul_pos hd (Nat.two_pow_pos k)
  have hq : n / (d * 2 ^ k) = n / d / 2 ^ k := (Nat.div_div_eq_div_mul n d (2 ^ k)).symm
  have hup : n / (d * 2 ^ k) < 2 ^ 24 := by
    rw [hq, Nat.div_lt_iff_lt_mul (Nat.two_pow_pos k), ← Nat.pow_add]
    by_cases h0 : n / d = 0
    · rw [h0]; exact Nat.two_pow_pos _
    · have := Nat.lt_log2_self (n := n / d)
      refine Nat.lt_of_lt_of_le this (Nat.pow_le_pow_right (by omega) (by omega))
  have hlo : k = 0 ∨ 2 ^ 23 ≤ n / (d * 2 ^ k) := by
    by_cases h0 : k = 0
    · exact .inl h0
    · right
      have hne : n / d ≠ 0 := by
        intro h; rw [h, Nat.log2_zero] at hk; omega
      rw [hq, Nat.le_div_iff_mul_le (Nat.two_pow_pos k), ← Nat.pow_add]
      refine Nat.le_trans (Nat.pow_le_pow_right (by omega) ?_) (Nat.log2_self_le hne)
      omega
  generalize hqq : n / (d * 2 ^ k) = q at *
  generalize hrr : n % (d * 2 ^ k) = r at *
  have hn : n = d * 2 ^ k * q + r := by rw [← hqq, ← hrr]; exact (Nat.div_add_mod n (d * 2 ^ k)).symm
  have hr : r < d * 2 ^ k := by rw [← hrr]; exact Nat.mod_lt _ hD
  have hunit : d * 2 ^ k * 2 ^ 23 ≤ n + 2 ^ 23 * d := by
    rcases hlo with h0 | h1
    · rw [h0]; simp; rw [Nat.mul_comm]; omega
    · have : d * 2 ^ k * 2 ^ 23 ≤ d * 2 ^ k * q := Nat.mul_le_mul_left _ h1
      omega
  have hmag : ∀ q', q ≤ q' → q' ≤ q + 1 → magOf (k * 2 ^ 23 + q') * d = d * 2 ^ k * q' := by
    intro q' h1 h2
    rw [magOf_parts k q' (by omega) (by omega)]
    ring
  split
  · rename_i hc
    rw [hmag (q + 1) (by omega) (by omega)]
    have h2 : d * 2 ^ k ≤ 2 * r := by omega
    generalize d * 2 ^ k = D at *
    have e : D * (q + 1) = D * q + D := by ring
    rw [e]
    constructor <;> omega
  · rename_i hc
    rw [hmag q (by omega) (by omega)]
    have h2 : 2 * r ≤ d * 2 ^ k := by omega
    generalize d * 2 ^ k = D at *
    constructor <;> omega

/-- Value of a magnitude. -/
def unit : ℚ := 2 ^ 149

/-- `x` is a finite float that is not negative and has the value `v`. -/
def Is (x : F32) (v : ℚ) : Prop := ∃ m : Nat, val x = .fin false m ∧ v = m / unit

theorem unit_pos : (0 : ℚ) < unit := by unfold unit; positivity

theorem Is.nonneg {x : F32} {v : ℚ} (h : Is x v) : 0 ≤ v := by
  obtain ⟨m, -, rfl⟩ := h
  have := unit_pos
  positivity

/-- Below the largest float rounding does not overflow. -/
theorem roundQ_small (n d : Nat) (hd : 0 < d) (h : n ≤ d * 2 ^ 276) : roundQ n d < 0x7f800000 := by
  refine Nat.lt_of_le_of_lt (roundQ_mono d n _ hd h) ?_
  have e : d * 2 ^ 276 / d = 2 ^ 276 := Nat.mul_div_cancel_left _ hd
  unfold roundQ
  simp only [e]
  have hl : (2 ^ 276 : Nat).log2 - 23 = 253 := by rw [Nat.log2_two_pow]
  rw [hl]
  have e1 : d * 2 ^ 276 / (d * 2 ^ 253) = 2 ^ 23 := by
    rw [show (2 : Nat) ^ 276 = 2 ^ 253 * 2 ^ 23 by rw [← Nat.pow_add], ← Nat.mul_assoc]
    exact Nat.mul_div_cancel_left _ (Nat.mul_pos hd (Nat.two_pow_pos _))
  have e2 : d * 2 ^ 276 % (d * 2 ^ 253) = 0 := by
    rw [show (2 : Nat) ^ 276 = 2 ^ 253 * 2 ^ 23 by rw [← Nat.pow_add], ← Nat.mul_assoc]
    exact Nat.mul_mod_right _ _
  rw [e1, e2]
  have hpos : 0 < d * 2 ^ 253 := Nat.mul_pos hd (Nat.two_pow_pos _)
  rw [if_neg (by omega)]
  decide

theorem makeQ_err (n d : Nat) (hd : 0 < d) (h : n ≤ d * 2 ^ 276) :
    ∃ r : ℚ, Is (makeQ false n d) r ∧ |r - (n : ℚ) / d / unit| ≤ (n : ℚ) / d / unit / 2 ^ 24 + 1 / 2 ^ 150 := by
  have hs := roundQ_small n d hd h
  refine ⟨_, ⟨_, val_makeQ false n d hs, rfl⟩, ?_⟩
  have he : roundQ n d = roundQ' n d := by rw [roundQ_eq] at hs ⊢; omega
  rw [he]
  obtain ⟨h1, h2⟩ := roundQ'_err n d hd
  generalize magOf (roundQ' n d) = m at *
  have hdq : (0 : ℚ) < d := by exact_mod_cast hd
  have h1q : (2 : ℚ) ^ 24 * (m * d) ≤ 2 ^ 24 * n + n + 2 ^ 23 * d := by exact_mod_cast h1
  have h2q : (2 : ℚ) ^ 24 * n ≤ 2 ^ 24 * (m * d) + n + 2 ^ 23 * d := by exact_mod_cast h2
  have e150 : (1 : ℚ) / 2 ^ 150 = 2 ^ 23 * d / (2 ^ 24 * d * unit) := by
    unfold unit; field_simp
  have eA : (m : ℚ) / unit - n / d / unit = (2 ^ 24 * (m * d) - 2 ^ 24 * n) / (2 ^ 24 * d * unit) := by
    have := unit_pos; field_simp
  have eB : (n : ℚ) / d / unit / 2 ^ 24 = n / (2 ^ 24 * d * unit) := by
    have := unit_pos; field_simp
  have hden : (0 : ℚ) < 2 ^ 24 * d * unit := by have := unit_pos; positivity
  rw [eA, eB, e150, ← add_div, abs_div, abs_of_pos hden]
  apply div_le_div_of_nonneg_right _ hden.le
  rw [abs_le]
  constructor <;> linarith

/-- A product is off by at most `2^-24` of itself and `2^-150`. -/
theorem mul_err {x y : F32} {a b : ℚ} (hx : Is x a) (hy : Is y b) (h : a * b ≤ 2 ^ 100) :
    ∃ r : ℚ, Is (mul x y) r ∧ |r - a * b| ≤ a * b / 2 ^ 24 + 1 / 2 ^ 150 := by
  obtain ⟨m, hm, rfl⟩ := hx
  obtain ⟨n, hn, rfl⟩ := hy
  have hu := unit_pos
  have e : mul x y = makeQ false (m * n) (2 ^ 149) := by
    unfold mul; rw [hm, hn]; rfl
  have hle : m * n ≤ 2 ^ 149 * 2 ^ 276 := by
    have : ((m * n : Nat) : ℚ) ≤ 2 ^ 100 * unit * unit := by
      have h' : (m : ℚ) * n / (unit * unit) ≤ 2 ^ 100 := by
        rw [← div_mul_div_comm]; exact h
      rw [div_le_iff₀ (by positivity)] at h'
      push_cast; linarith
    unfold unit at this
    have h3 : m * n ≤ 2 ^ 100 * 2 ^ 149 * 2 ^ 149 := by exact_mod_cast this
    refine h3.trans ?_
    rw [← Nat.pow_add, ← Nat.pow_add, ← Nat.pow_add]
    exact Nat.pow_le_pow_right (by omega) (by omega)
  obtain ⟨r, h1, h2⟩ := makeQ_err (m * n) (2 ^ 149) (Nat.two_pow_pos _) hle
  rw [e]
  refine ⟨r, h1, ?_⟩
  have eq : ((m * n : Nat) : ℚ) / ((2 ^ 149 : Nat) : ℚ) / unit = (m : ℚ) / unit * (n / unit) := by
    push_cast; unfold unit; ring
  rw [eq] at h2
  exact h2

theorem roundMag_eq (n : Nat) : roundMag n = roundQ n 1 := by
  unfold roundMag roundQ
  simp only [Nat.div_one, Nat.one_mul]
  split
  · rename_i h
    have hl : n.log2 - 23 = 0 := by
      by_cases h0 : n = 0
      · subst h0; simp
      · have : n.log2 < 24 := (Nat.log2_lt h0).2 h
        omega
    rw [hl]
    simp only [Nat.pow_zero, Nat.div_one, Nat.mod_one]
    rw [if_neg (by omega)]; omega
  · rename_i h
    have hk : 1 ≤ n.log2 - 23 := by
      have : 24 ≤ n.log2 := (Nat.le_log2 (by omega)).2 (by omega)
      omega
    obtain ⟨k, hk'⟩ : ∃ k, n.log2 - 23 = k + 1 := ⟨n.log2 - 24, by omega⟩
    rw [hk']
    have e : 2 ^ (k + 1) = 2 * 2 ^ k := by rw [Nat.pow_succ, Nat.mul_comm]
    have ec : (n % 2 ^ (k + 1) > 2 ^ (k + 1 - 1) ∨ n % 2 ^ (k + 1) = 2 ^ (k + 1 - 1) ∧ n / 2 ^ (k + 1) % 2 = 1) ↔
        (2 * (n % 2 ^ (k + 1)) > 2 ^ (k + 1) ∨ 2 * (n % 2 ^ (k + 1)) = 2 ^ (k + 1) ∧ n / 2 ^ (k + 1) % 2 = 1) := by
      rw [show k + 1 - 1 = k by omega, e]
      generalize n % (2 * 2 ^ k) = r
      generalize n / (2 * 2 ^ k) = q
      generalize 2 ^ k = p
      omega
    simp only [ec]

/-- A sum of floats that are not negative. -/
theorem add_err {x y : F32} {a b : ℚ} (hx : Is x a) (hy : Is y b) (h : a + b ≤ 2 ^ 100) :
    ∃ r : ℚ, Is (add x y) r ∧ |r - (a + b)| ≤ (a + b) / 2 ^ 24 + 1 / 2 ^ 150 := by
  obtain ⟨m, hm, rfl⟩ := hx
  obtain ⟨n, hn, rfl⟩ := hy
  have hu := unit_pos
  have e : add x y = makeQ false (m + n) 1 := by
    unfold add; rw [hm, hn]
    simp only [if_true]
    unfold make makeQ
    rw [roundMag_eq]
  have hle : m + n ≤ 1 * 2 ^ 276 := by
    have h1 : ((m + n : Nat) : ℚ) ≤ 2 ^ 100 * unit := by
      rw [← add_div, div_le_iff₀ hu] at h; push_cast; exact h
    unfold unit at h1
    have h3 : m + n ≤ 2 ^ 100 * 2 ^ 149 := by exact_mod_cast h1
    rw [Nat.one_mul]
    refine h3.trans ?_
    rw [← Nat.pow_add]
    exact Nat.pow_le_pow_right (by omega) (by omega)
  obtain ⟨r, h1, h2⟩ := makeQ_err (m + n) 1 (by omega) hle
  rw [e]
  refine ⟨r, h1, ?_⟩
  have eq : ((m + n : Nat) : ℚ) / ((1 : Nat) : ℚ) / unit = (m : ℚ) / unit + n / unit := by
    push_cast; ring
  rw [eq] at h2
  exact h2

/-- Propagation of an error through a product. -/
theorem mul_close {x y : F32} {a b α β e1 e2 Ca Cb : ℚ} (E : ℚ) (hx : Is x a) (hy : Is y b) (ha : |a - α| ≤ e1) (hb : |b - β| ≤ e2)
    (hα : 0 ≤ α) (hβ : 0 ≤ β) (hCa : α ≤ Ca) (hCb : β ≤ Cb) (hbig : (Ca + e1) * (Cb + e2) ≤ 2 ^ 100)
    (hE : e1 * (Cb + e2) + Ca * e2 + (Ca + e1) * (Cb + e2) / 2 ^ 24 + 1 / 2 ^ 150 ≤ E) :
    ∃ r : ℚ, Is (mul x y) r ∧ |r - α * β| ≤ E := by
  have a0 := hx.nonneg
  have b0 := hy.nonneg
  have ha' := abs_le.1 ha
  have hb' := abs_le.1 hb
  have e10 : 0 ≤ e1 := (abs_nonneg _).trans ha
  have e20 : 0 ≤ e2 := (abs_nonneg _).trans hb
  have hab : a * b ≤ (Ca + e1) * (Cb + e2) := mul_le_mul (by linarith) (by linarith) b0 (by linarith)
  obtain ⟨r, hr, he⟩ := mul_err hx hy (hab.trans hbig)
  refine ⟨r, hr, ?_⟩
  have h1 : |a * b - α * β| ≤ e1 * (Cb + e2) + Ca * e2 := by
    have e : a * b - α * β = (a - α) * b + α * (b - β) := by ring
    rw [e]
    refine (abs_add_le _ _).trans (add_le_add ?_ ?_)
    · rw [abs_mul, abs_of_nonneg b0]
      exact mul_le_mul ha (by linarith) b0 e10
    · rw [abs_mul, abs_of_nonneg hα]
      exact mul_le_mul hCa hb (abs_nonneg _) (by linarith)
  have h2 : |r - α * β| ≤ |r - a * b| + |a * b - α * β| := by
    have e : r - α * β = (r - a * b) + (a * b - α * β) := by ring
    rw [e]; exact abs_add_le _ _
  have h3 : a * b / 2 ^ 24 ≤ (Ca + e1) * (Cb + e2) / 2 ^ 24 := div_le_div_of_nonneg_right hab (by positivity)
  linarith

/-- Propagation of an error through a sum. -/
theorem add_close {x y : F32} {a b α β e1 e2 C : ℚ} (E : ℚ) (hx : Is x a) (hy : Is y b) (ha : |a - α| ≤ e1) (hb : |b - β| ≤ e2)
    (hC : α + β ≤ C) (hbig : C + e1 + e2 ≤ 2 ^ 100) (hE : e1 + e2 + (C + e1 + e2) / 2 ^ 24 + 1 / 2 ^ 150 ≤ E) :
    ∃ r : ℚ, Is (add x y) r ∧ |r - (α + β)| ≤ E := by
  have ha' := abs_le.1 ha
  have hb' := abs_le.1 hb
  obtain ⟨r, hr, he⟩ := add_err hx hy (by linarith)
  refine ⟨r, hr, ?_⟩
  have h3 : (a + b) / 2 ^ 24 ≤ (C + e1 + e2) / 2 ^ 24 := div_le_div_of_nonneg_right (by linarith) (by positivity)
  have he' := abs_le.1 he
  rw [abs_le]
  constructor <;> linarith

end PreCore.F32
