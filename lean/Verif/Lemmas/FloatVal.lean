import Verif.Lemmas.FloatFmt
import Verif.Lemmas.FloatRead
/-!
# Patterns and their values; rounding in rational numbers
-/
namespace PreCore.Flt
open CNum Refl Spec

/-- A format as the standard knows them. -/
structure Fmt.Ok (F : Fmt) : Prop where
  mb : 0 < F.mb
  eb : 2 ≤ F.eb

theorem f32_ok : f32.Ok := ⟨by decide, by decide⟩
theorem f64_ok : f64.Ok := ⟨by decide, by decide⟩

/-- The bias. -/
def Fmt.B (F : Fmt) : Nat := 2 ^ (F.eb - 1) - 1

theorem Fmt.Ok.bias {F : Fmt} (h : F.Ok) : 2 ^ (F.eb - 1) = F.B + 1 ∧ 2 ^ F.eb = 2 * F.B + 2 ∧ 1 ≤ F.B ∧ F.u = F.B - 1 + F.mb := by
  obtain ⟨c, hc⟩ : ∃ c, F.eb = c + 2 := ⟨F.eb - 2, by have := h.eb; omega⟩
  have h1 : 2 ^ (F.eb - 1) = 2 * 2 ^ c := by rw [hc, show c + 2 - 1 = c + 1 by omega, Nat.pow_succ]; omega
  have h2 : 2 ^ F.eb = 4 * 2 ^ c := by rw [hc, Nat.pow_succ, Nat.pow_succ]; omega
  have h3 := Nat.two_pow_pos c
  unfold Fmt.B Fmt.u
  omega

theorem Fmt.Ok.inf_lt {F : Fmt} (h : F.Ok) : F.inf < 2 ^ (F.mb + F.eb) := by
  unfold Fmt.inf
  rw [Nat.pow_add, Nat.mul_comm (2 ^ F.mb)]
  exact Nat.mul_lt_mul_of_pos_right (by have := Nat.two_pow_pos F.eb; omega) (Nat.two_pow_pos _)

theorem Fmt.Ok.inf_eq {F : Fmt} (h : F.Ok) : F.inf = (2 * F.B + 1) * 2 ^ F.mb := by
  unfold Fmt.inf; rw [h.bias.2.1]; rfl

theorem make_toNat {F : Fmt} (neg : Bool) (p : Nat) (hp : p < 2 ^ (F.mb + F.eb)) :
    (F.make neg p).toNat = (if neg then 2 ^ (F.mb + F.eb) else 0) + p := by
  unfold Fmt.make
  rw [BitVec.toNat_ofNat]
  apply Nat.mod_eq_of_lt
  unfold Fmt.width
  rw [Nat.pow_succ]
  split <;> omega

theorem make_neg {F : Fmt} (neg : Bool) (p : Nat) (hp : p < 2 ^ (F.mb + F.eb)) :
    decide (2 ^ (F.mb + F.eb) ≤ (F.make neg p).toNat) = neg ∧ (F.make neg p).toNat % 2 ^ (F.mb + F.eb) = p := by
  rw [make_toNat neg p hp]
  cases neg
  · simp; exact ⟨hp, Nat.mod_eq_of_lt hp⟩
  · simp; exact Nat.mod_eq_of_lt hp

theorem signedQ_mul (neg : Bool) (a b : ℚ) : signedQ neg (a * b) = signedQ neg a * b := by
  cases neg <;> simp [signedQ]

theorem signedQ_abs_sub (neg : Bool) (a b : ℚ) : |signedQ neg a - signedQ neg b| = |a - b| := by
  cases neg
  · rfl
  · simp only [signedQ, if_true]
    rw [← abs_neg]; congr 1; ring

/-- The value of a pattern in units. -/
theorem floatValue_iff {F : Fmt} (hF : F.Ok) (b : Nat) (hb : b < 2 ^ (F.mb + F.eb + 1)) (v : ℚ) :
    FloatValue F.mb F.eb b v ↔ b % 2 ^ (F.mb + F.eb) < F.inf ∧
      v = signedQ (decide (2 ^ (F.mb + F.eb) ≤ b)) ((magOf F.mb (b % 2 ^ (F.mb + F.eb)) : ℚ) / 2 ^ F.u) := by
  obtain ⟨b1, b2, b3, b4⟩ := hF.bias
  have hH := Nat.two_pow_pos F.mb
  have he : b / 2 ^ F.mb % 2 ^ F.eb = b % 2 ^ (F.mb + F.eb) / 2 ^ F.mb := by
    rw [Nat.pow_add, Nat.mod_mul_right_div_self]
  have hf : b % 2 ^ F.mb = b % 2 ^ (F.mb + F.eb) % 2 ^ F.mb := by
    rw [Nat.pow_add, Nat.mod_mul_right_mod]
  have hs : ((-1 : ℚ) ^ (b / 2 ^ (F.mb + F.eb))) = if 2 ^ (F.mb + F.eb) ≤ b then -1 else 1 := by
    split
    · rename_i h
      have : b / 2 ^ (F.mb + F.eb) = 1 := by
        apply Nat.div_eq_of_lt_le
        · simpa using h
        · rw [Nat.pow_succ] at hb; omega
      rw [this]; norm_num
    · rename_i h
      rw [Nat.div_eq_of_lt (by omega)]; norm_num
  unfold FloatValue
  simp only
  rw [he, hf, hs]
  have hplt : b % 2 ^ (F.mb + F.eb) < 2 ^ (F.mb + F.eb) := Nat.mod_lt _ (Nat.two_pow_pos _)
  generalize b % 2 ^ (F.mb + F.eb) = p at *
  have hpe : p / 2 ^ F.mb < 2 ^ F.eb := by
    rw [Nat.div_lt_iff_lt_mul hH, ← Nat.pow_add, Nat.add_comm]; exact hplt
  have hcond : p / 2 ^ F.mb ≠ 2 ^ F.eb - 1 ↔ p < F.inf := by
    unfold Fmt.inf
    rw [← Nat.div_lt_iff_lt_mul hH]; omega
  rw [hcond]
  refine and_congr_right (fun hp => ?_)
  have hval : (if p / 2 ^ F.mb = 0 then ((p % 2 ^ F.mb : Nat) : ℚ) / 2 ^ F.mb * 2 ^ (1 - ((2 : Int) ^ (F.eb - 1) - 1))
      else (1 + ((p % 2 ^ F.mb : Nat) : ℚ) / 2 ^ F.mb) * 2 ^ (((p / 2 ^ F.mb : Nat) : Int) - ((2 : Int) ^ (F.eb - 1) - 1))) =
      (magOf F.mb p : ℚ) / 2 ^ F.u := by
    have hB : ((2 : Int) ^ (F.eb - 1) - 1) = F.B := by
      have : ((2 ^ (F.eb - 1) : Nat) : Int) = F.B + 1 := by rw [b1]; push_cast; rfl
      push_cast at this
      omega
    rw [hB]
    unfold magOf
    have h2 : (2 : ℚ) ≠ 0 := by norm_num
    have hu : (2 : ℚ) ^ F.u = 2 ^ ((F.B : Int) - 1 + F.mb) := by
      rw [← zpow_natCast, b4]
      congr 1
      omega
    rw [hu]
    split
    · rename_i h0
      have hpf : p % 2 ^ F.mb = p := Nat.mod_eq_of_lt ((Nat.div_eq_zero_iff_lt hH).1 h0)
      rw [hpf, div_mul_eq_mul_div, div_eq_div_iff (by positivity) (zpow_ne_zero _ h2)]
      rw [mul_assoc, ← zpow_add₀ h2, ← zpow_natCast]
      congr 2
      omega
    · rename_i h0
      obtain ⟨e, hee⟩ : ∃ e, p / 2 ^ F.mb = e + 1 := ⟨p / 2 ^ F.mb - 1, by omega⟩
      rw [hee, Nat.add_sub_cancel]
      push_cast
      have hH' : ((2 : ℚ) ^ F.mb) ≠ 0 := by positivity
      rw [one_add_div hH', div_mul_eq_mul_div, div_eq_div_iff hH' (zpow_ne_zero _ h2)]
      rw [mul_assoc, mul_assoc, ← zpow_add₀ h2, ← pow_add, ← zpow_natCast (2 : ℚ) (e + F.mb)]
      congr 2
      push_cast
      ring
  rw [hval]
  unfold signedQ
  by_cases hx : 2 ^ (F.mb + F.eb) ≤ b <;> simp [hx]

theorem make_value {F : Fmt} (hF : F.Ok) (neg : Bool) (p : Nat) (hp : p < F.inf) :
    FloatValue F.mb F.eb (F.make neg p).toNat (signedQ neg ((magOf F.mb p : ℚ) / 2 ^ F.u)) := by
  have hlt := hF.inf_lt
  obtain ⟨h1, h2⟩ := make_neg (F := F) neg p (by omega)
  rw [floatValue_iff hF _ (F.make neg p).isLt, h1, h2]
  exact ⟨hp, rfl⟩

/-- Rounding a rational number to the format. -/
theorem make_nearest {F : Fmt} (hF : F.Ok) (neg : Bool) (n d : Nat) (hd : 0 < d) (hov : roundP F.mb (n * 2 ^ F.u) d < F.inf) :
    NearestFloat F.mb F.eb (F.make neg (roundP F.mb (n * 2 ^ F.u) d)).toNat (signedQ neg ((n : ℚ) / d)) := by
  have hlt := hF.inf_lt
  refine ⟨_, make_value hF neg _ hov, ?_⟩
  intro c w hc hcw
  rw [floatValue_iff hF c hc] at hcw
  obtain ⟨hci, rfl⟩ := hcw
  set p := c % 2 ^ (F.mb + F.eb) with hp
  set U : ℚ := 2 ^ F.u with hU
  have hUpos : 0 < U := by rw [hU]; positivity
  have hdq : (0 : ℚ) < d := by exact_mod_cast hd
  set N := n * 2 ^ F.u with hN
  have hNq : (N : ℚ) = n * U := by rw [hN, hU]; push_cast; ring
  have key : ∀ a : Nat, |(a : ℚ) / U - (n : ℚ) / d| = ((|(a * d : ℤ) - N| : ℤ) : ℚ) / (d * U) := by
    intro a
    have e1 : (a : ℚ) / U - (n : ℚ) / d = (((a * d : ℤ) - N : ℤ) : ℚ) / (d * U) := by
      push_cast
      rw [hNq]
      field_simp
    rw [e1, abs_div, abs_of_pos (show (0 : ℚ) < d * U by positivity), Int.cast_abs]
  have hden : (0 : ℚ) < d * U := by positivity
  have heven : roundP F.mb N d % 2 = 0 → (F.make neg (roundP F.mb N d)).toNat % 2 = 0 := by
    intro h0
    rw [make_toNat neg _ (by omega)]
    have : 2 ^ (F.mb + F.eb) = 2 * 2 ^ (F.mb + F.eb - 1) := by
      rw [← Nat.pow_succ']; congr 1; have := hF.mb; omega
    cases neg <;> simp <;> omega
  by_cases hst : decide (2 ^ (F.mb + F.eb) ≤ c) = neg
  · rw [hst, signedQ_abs_sub, signedQ_abs_sub, key, key]
    obtain ⟨h1, h2⟩ := roundP_nearest F.mb N d hF.mb hd p
    refine ⟨div_le_div_of_nonneg_right (by exact_mod_cast h1) hden.le, fun he => ?_⟩
    rw [div_left_inj' hden.ne'] at he
    rcases h2 (by exact_mod_cast he) with h | h
    · left; rw [h]
    · exact .inr (heven h)
  · -- the other sign is not nearer than zero
    have hm0 : magOf F.mb 0 = 0 := by unfold magOf; simp
    have h0 := roundP_nearest F.mb N d hF.mb hd 0
    rw [hm0] at h0
    have hw : |signedQ (decide (2 ^ (F.mb + F.eb) ≤ c)) ((magOf F.mb p : ℚ) / U) - signedQ neg ((n : ℚ) / d)| =
        (magOf F.mb p : ℚ) / U + (n : ℚ) / d := by
      have hn : decide (2 ^ (F.mb + F.eb) ≤ c) = !neg := by
        cases hx : decide (2 ^ (F.mb + F.eb) ≤ c) <;> cases neg <;> simp_all
      rw [hn]
      have hpos : (0 : ℚ) ≤ (magOf F.mb p : ℚ) / U + (n : ℚ) / d := by positivity
      cases neg
      · simp only [signedQ, Bool.not_false, if_true, Bool.false_eq_true, if_false]
        rw [← abs_neg, abs_of_nonneg (by linarith)]; ring
      · simp only [signedQ, Bool.not_true, if_true, Bool.false_eq_true, if_false]
        rw [abs_of_nonneg (by linarith)]; ring
    have hz : ((|((0 : ℕ) * d : ℤ) - N| : ℤ) : ℚ) / (d * U) = (n : ℚ) / d := by
      rw [← key 0]
      have : (0 : ℚ) ≤ (n : ℚ) / d := by positivity
      rw [Nat.cast_zero, zero_div, zero_sub, abs_neg, abs_of_nonneg this]
    have hpU : (0 : ℚ) ≤ (magOf F.mb p : ℚ) / U := by positivity
    rw [hw, signedQ_abs_sub, key]
    have h1 : ((|(magOf F.mb (roundP F.mb N d) * d : ℤ) - N| : ℤ) : ℚ) / (d * U) ≤ (n : ℚ) / d := by
      rw [← hz]; exact div_le_div_of_nonneg_right (by exact_mod_cast h0.1) hden.le
    refine ⟨by linarith, fun he => ?_⟩
    have hmz : (magOf F.mb p : ℚ) / U = 0 := by linarith
    have hmz' : magOf F.mb p = 0 := by
      rw [div_eq_zero_iff] at hmz
      rcases hmz with h | h
      · exact_mod_cast h
      · exact absurd h hUpos.ne'
    have heq : ((|(magOf F.mb (roundP F.mb N d) * d : ℤ) - N| : ℤ) : ℚ) / (d * U) = ((|((0 : ℕ) * d : ℤ) - N| : ℤ) : ℚ) / (d * U) := by
      rw [hz]; linarith
    rw [div_left_inj' hden.ne'] at heq
    rcases h0.2 (by exact_mod_cast heq) with h | h
    · left
      rw [← h, hmz']
      simp [signedQ]
    · exact .inr (heven h)

/-- Rounding overflows exactly from `overflowAt` on. -/
theorem overflow_iff {F : Fmt} (hF : F.Ok) (n d : Nat) (hd : 0 < d) :
    F.inf ≤ roundP F.mb (n * 2 ^ F.u) d ↔ overflowAt F.mb F.eb ≤ (n : ℚ) / d := by
  obtain ⟨b1, b2, b3, b4⟩ := hF.bias
  rw [hF.inf_eq, roundP_overflow _ _ _ _ (by omega) hF.mb hd]
  unfold overflowAt
  rw [show 2 ^ (F.eb - 1) - 1 = F.B by omega]
  have hdq : (0 : ℚ) < d := by exact_mod_cast hd
  rw [le_div_iff₀ hdq, b4]
  obtain ⟨B, hB⟩ : ∃ B, F.B = B + 1 := ⟨F.B - 1, by omega⟩
  rw [hB, show 2 * (B + 1) + 1 - 3 = B + B by omega, show B + 1 - 1 + F.mb = B + F.mb by omega]
  have hH := Nat.two_pow_pos F.mb
  have e : (d * ((4 * 2 ^ F.mb - 1) * 2 ^ (B + B)) ≤ n * 2 ^ (B + F.mb)) ↔
      ((d : ℚ) * ((4 * 2 ^ F.mb - 1) * 2 ^ (B + B)) ≤ n * 2 ^ (B + F.mb)) := by
    rw [← Nat.cast_le (α := ℚ)]
    push_cast [Nat.cast_sub (show 1 ≤ 4 * 2 ^ F.mb by omega)]
    rfl
  rw [e]
  have hHq : (0 : ℚ) < 2 ^ F.mb := by positivity
  have hBq : (0 : ℚ) < 2 ^ B := by positivity
  rw [pow_add, pow_add, pow_succ, pow_succ]
  generalize (2 : ℚ) ^ F.mb = H at *
  generalize (2 : ℚ) ^ B = K at *
  have e1 : (2 - 1 / (H * 2)) * (K * 2) * d = (d * ((4 * H - 1) * (K * K))) / (K * H) := by
    field_simp
    ring
  rw [e1, div_le_iff₀ (by positivity)]

/-- The threshold of `oor` is `tinyBelow`. -/
theorem tiny_iff {F : Fmt} (hF : F.Ok) (n d : Nat) (hd : 0 < d) :
    4 * (n * 2 ^ F.u) < d * (4 * 2 ^ F.mb - 1) ↔ (n : ℚ) / d < tinyBelow F.mb F.eb := by
  obtain ⟨b1, b2, b3, b4⟩ := hF.bias
  have hdq : (0 : ℚ) < d := by exact_mod_cast hd
  have hsn : smallestNormal F.eb = 2 ^ F.mb / 2 ^ F.u := by
    unfold smallestNormal
    have hB : ((2 : Int) ^ (F.eb - 1)) = F.B + 1 := by
      have : ((2 ^ (F.eb - 1) : Nat) : Int) = F.B + 1 := by rw [b1]; push_cast; rfl
      push_cast at this
      exact this
    rw [hB, b4, eq_div_iff (by positivity), ← zpow_natCast, ← zpow_natCast, ← zpow_add₀ (by norm_num)]
    congr 1
    omega
  unfold tinyBelow
  rw [hsn, div_lt_iff₀ hdq]
  have hH := Nat.two_pow_pos F.mb
  have e : (4 * (n * 2 ^ F.u) < d * (4 * 2 ^ F.mb - 1)) ↔ ((4 : ℚ) * (n * 2 ^ F.u) < d * (4 * 2 ^ F.mb - 1)) := by
    rw [← Nat.cast_lt (α := ℚ)]
    push_cast [Nat.cast_sub (show 1 ≤ 4 * 2 ^ F.mb by omega)]
    rfl
  rw [e, pow_succ, pow_succ]
  have hHq : (0 : ℚ) < 2 ^ F.mb := by positivity
  have hU : (0 : ℚ) < 2 ^ F.u := by positivity
  generalize (2 : ℚ) ^ F.mb = H at *
  generalize (2 : ℚ) ^ F.u = U at *
  have e1 : H / U * (1 - 1 / (H * 2 * 2)) * d = (d * (4 * H - 1)) / (4 * U) := by
    field_simp
    ring
  rw [e1, lt_div_iff₀ (by positivity)]
  constructor <;> intro h <;> linarith

theorem normal_units {F : Fmt} (hF : F.Ok) : smallestNormal F.eb = 2 ^ F.mb / 2 ^ F.u := by
  obtain ⟨b1, b2, b3, b4⟩ := hF.bias
  unfold smallestNormal
  have hB : ((2 : Int) ^ (F.eb - 1)) = F.B + 1 := by
    have : ((2 ^ (F.eb - 1) : Nat) : Int) = F.B + 1 := by rw [b1]; push_cast; rfl
    push_cast at this
    exact this
  rw [hB, b4, eq_div_iff (by positivity), ← zpow_natCast, ← zpow_natCast, ← zpow_add₀ (by norm_num)]
  congr 1
  omega

theorem minP_value {F : Fmt} (hF : F.Ok) : F.minP < F.inf ∧ (magOf F.mb F.minP : ℚ) / 2 ^ F.u = smallestNormal F.eb := by
  obtain ⟨b1, b2, b3, b4⟩ := hF.bias
  have hH := Nat.two_pow_pos F.mb
  constructor
  · rw [hF.inf_eq]
    unfold Fmt.minP
    have : 1 * 2 ^ F.mb < (2 * F.B + 1) * 2 ^ F.mb := Nat.mul_lt_mul_of_pos_right (by omega) hH
    omega
  · rw [normal_units hF]
    have := magOf_parts F.mb 0 (2 ^ F.mb) (by omega) (.inl rfl)
    unfold Fmt.minP
    rw [Nat.zero_mul, Nat.zero_add] at this
    rw [this]
    push_cast; ring

theorem maxP_value {F : Fmt} (hF : F.Ok) : F.maxP < F.inf ∧ (magOf F.mb F.maxP : ℚ) / 2 ^ F.u = largestFinite F.mb F.eb := by
  obtain ⟨b1, b2, b3, b4⟩ := hF.bias
  have hH := Nat.two_pow_pos F.mb
  constructor
  · unfold Fmt.maxP
    rw [hF.inf_eq]
    have : 0 < (2 * F.B + 1) * 2 ^ F.mb := Nat.mul_pos (by omega) hH
    omega
  · have hm := magOf_parts F.mb (2 * F.B - 1) (2 * 2 ^ F.mb - 1) (by omega) (.inr (by omega))
    have hp : F.maxP = (2 * F.B - 1) * 2 ^ F.mb + (2 * 2 ^ F.mb - 1) := by
      unfold Fmt.maxP
      rw [hF.inf_eq]
      obtain ⟨c, hc⟩ : ∃ c, F.B = c + 1 := ⟨F.B - 1, by omega⟩
      rw [hc, show 2 * (c + 1) - 1 = 2 * c + 1 by omega, show 2 * (c + 1) + 1 = 2 * c + 1 + 2 by omega, Nat.add_mul _ 2]
      omega
    rw [hp, hm]
    unfold largestFinite
    rw [show 2 ^ (F.eb - 1) - 1 = F.B by omega, b4]
    obtain ⟨B, hB⟩ : ∃ B, F.B = B + 1 := ⟨F.B - 1, by omega⟩
    rw [hB, show 2 * (B + 1) - 1 = B + B + 1 by omega, show B + 1 - 1 + F.mb = B + F.mb by omega]
    push_cast [Nat.cast_sub (show 1 ≤ 2 * 2 ^ F.mb by omega)]
    rw [pow_succ, pow_add, pow_add, pow_succ]
    have hHq : (0 : ℚ) < 2 ^ F.mb := by positivity
    have hBq : (0 : ℚ) < 2 ^ B := by positivity
    generalize (2 : ℚ) ^ F.mb = H at *
    generalize (2 : ℚ) ^ B = K at *
    field_simp

end PreCore.Flt
