import Verif.Lemmas.FloatVal
import Verif.Props.ReflectorNum
/-!
# C139: assigning a decimal text to a float or double
-/
namespace PreCore.FloatTextProps
open CNum Refl Spec Flt

/-- The two formats of the program. -/
def Supported (F : Fmt) : Prop := F = f32 ∨ F = f64

theorem Supported.ok {F : Fmt} (h : Supported F) : F.Ok := by
  rcases h with rfl | rfl
  · exact f32_ok
  · exact f64_ok

theorem Supported.two_le {F : Fmt} (h : Supported F) : 2 ≤ F.B := by
  rcases h with rfl | rfl
  · decide
  · show 2 ≤ 2 ^ (11 - 1) - 1; decide

theorem roundP_pos_iff (mb n d : Nat) (hmb : 0 < mb) (hd : 0 < d) : 0 < roundP mb n d ↔ d < 2 * n := by
  have h0 : magOf mb 0 = 0 := by unfold magOf; simp
  have h1 : magOf mb 1 = 1 := by
    unfold magOf
    rw [if_pos]
    rw [Nat.div_eq_zero_iff_lt (Nat.two_pow_pos _)]
    have := Nat.lt_two_pow_self (n := mb); omega
  rcases Nat.lt_or_ge n d with h | h
  · have e : roundP mb n d = rhe n d := by
      unfold roundP
      simp only
      rw [Nat.div_eq_of_lt h]
      simp
    rw [e]
    unfold rhe
    rw [Nat.div_eq_of_lt h, Nat.mod_eq_of_lt h]
    split <;> omega
  · have := roundP_ge mb n d 1 hmb hd (by rw [h1]; omega)
    omega

theorem f64_round (n d : Nat) : f64.round n d = min (roundP 52 (n * 2 ^ f64.u) d) f64.inf := rfl

theorem f64_u : f64.u = 1074 := by decide

theorem pow_units (k p : Nat) (hp : p = (k + 1) * 2 ^ 52) : magOf 52 p = 2 ^ (52 + k) := by
  have h := magOf_parts 52 k (2 ^ 52) (by omega) (.inr (Nat.le_refl _))
  rw [hp, Nat.pow_add, ← h, Nat.add_mul, Nat.one_mul]

theorem one_units : magOf 52 0x3ff0000000000000 = 2 ^ f64.u := by
  rw [pow_units 1022 _ (by norm_num), f64_u]

theorem two_units : magOf 52 0x4000000000000000 = 2 * 2 ^ f64.u := by
  rw [pow_units 1023 _ (by norm_num), f64_u, ← Nat.pow_succ']

theorem big_above_one (n d : Nat) (hd : 0 < d) (h : (2 : ℚ) ≤ (n : ℚ) / d) : 0x3ff0000000000000 < f64.round n d := by
  have hdq : (0 : ℚ) < d := by exact_mod_cast hd
  rw [le_div_iff₀ hdq] at h
  have hn : 2 * d ≤ n := by exact_mod_cast h
  have hge := roundP_ge 52 (n * 2 ^ f64.u) d 0x4000000000000000 (by decide) hd (by
    rw [two_units, Nat.mul_right_comm]
    exact Nat.mul_le_mul_right _ hn)
  rw [f64_round]
  refine Nat.lt_min.2 ⟨Nat.lt_of_lt_of_le (by decide) hge, by decide⟩

theorem small_not_above_one (n d : Nat) (hd : 0 < d) (h : (n : ℚ) / d ≤ 1) : ¬ 0x3ff0000000000000 < f64.round n d := by
  have hdq : (0 : ℚ) < d := by exact_mod_cast hd
  rw [div_le_iff₀ hdq, one_mul] at h
  have hn : n ≤ d := by exact_mod_cast h
  have hle := roundP_le 52 (n * 2 ^ f64.u) d 0x3ff0000000000000 (by decide) hd (by
    rw [one_units, Nat.mul_comm (2 ^ f64.u)]
    exact Nat.mul_le_mul_right _ hn)
  rw [f64_round]
  have := Nat.min_le_left (roundP 52 (n * 2 ^ f64.u) d) f64.inf
  omega

theorem pos_iff (n d : Nat) (hd : 0 < d) : 0 < f64.round n d ↔ (2 : ℚ) ^ (-1075 : Int) < (n : ℚ) / d := by
  have hdq : (0 : ℚ) < d := by exact_mod_cast hd
  have hi : 0 < f64.inf := by decide
  have e1 : 0 < f64.round n d ↔ 0 < roundP 52 (n * 2 ^ f64.u) d := by
    rw [f64_round]
    generalize roundP 52 (n * 2 ^ f64.u) d = x at *
    omega
  rw [e1, roundP_pos_iff 52 _ d (by decide) hd, lt_div_iff₀ hdq, zpow_neg, inv_mul_lt_iff₀ (zpow_pos (by norm_num) _), f64_u]
  have e2 : ((2 : ℚ) ^ (1075 : Int)) = ((2 * 2 ^ 1074 : Nat) : ℚ) := by
    rw [show (1075 : Int) = ((1074 + 1 : Nat) : Int) by rfl, zpow_natCast, pow_succ]
    push_cast
    ring
  rw [e2, ← Nat.mul_comm (2 ^ 1074), ← Nat.mul_assoc]
  generalize 2 * 2 ^ 1074 = K
  rw [← Nat.cast_lt (α := ℚ)]
  push_cast
  rfl

theorem tiny_le_one {F : Fmt} (hF : F.Ok) : tinyBelow F.mb F.eb ≤ 1 := by
  unfold tinyBelow
  rw [normal_units hF]
  have hU : (0 : ℚ) < 2 ^ F.u := by positivity
  have h1 : (2 : ℚ) ^ F.mb / 2 ^ F.u ≤ 1 := by
    rw [div_le_one hU]
    apply pow_le_pow_right₀ (by norm_num)
    have := hF.bias.2.2.2; omega
  have h2 : (0 : ℚ) < 1 / 2 ^ (F.mb + 2) := by positivity
  have h3 : (0 : ℚ) ≤ 2 ^ F.mb / 2 ^ F.u := by positivity
  nlinarith

theorem two_le_overflow {F : Fmt} (hF : F.Ok) : 2 ≤ overflowAt F.mb F.eb := by
  unfold overflowAt
  have hb := hF.bias
  rw [show 2 ^ (F.eb - 1) - 1 = F.B by omega]
  have h1 : (1 : ℚ) / 2 ^ (F.mb + 1) ≤ 1 := by
    rw [div_le_one (by positivity)]
    exact one_le_pow₀ (by norm_num)
  have h2 : (2 : ℚ) ≤ 2 ^ F.B := by
    calc (2 : ℚ) = 2 ^ 1 := by norm_num
      _ ≤ 2 ^ F.B := pow_le_pow_right₀ (by norm_num) hb.2.2.1
  nlinarith

theorem reads_nonneg {t neg v} (h : Reads t neg v) : 0 ≤ v := by
  obtain ⟨n, d, _, _, rfl⟩ := h
  positivity

theorem decimal_nonneg {t neg v} (h : Decimal t neg v) : 0 ≤ v := by
  cases h
  exact mul_nonneg (by positivity) (zpow_nonneg (by norm_num) _)

theorem frac_zero_iff {n d : Nat} (hd : 0 < d) : (n : ℚ) / d = 0 ↔ n = 0 := by
  rw [div_eq_zero_iff]
  constructor
  · rintro (h | h)
    · exact_mod_cast h
    · exact absurd (by exact_mod_cast h) (Nat.pos_iff_ne_zero.1 hd)
  · intro h; left; exact_mod_cast h

/-- Numbers from `overflowAt` on: the largest finite value of the right sign, and an error. -/
theorem assign_overflow {F : Fmt} (hF : Supported F) {t : List Byte} {neg : Bool} {v : ℚ} (h : Reads t neg v)
    (hv : overflowAt F.mb F.eb ≤ v) :
    ∃ b, F.setNumber t = (.OutOfRange, some b) ∧ FloatValue F.mb F.eb b.toNat (signedQ neg (largestFinite F.mb F.eb)) := by
  obtain ⟨n, d, hs, hd, rfl⟩ := h
  have hok := hF.ok
  have h2 := two_le_overflow hok
  have hone := big_above_one n d hd (h2.trans hv)
  have hn : n ≠ 0 := by
    rintro rfl
    simp at hv; linarith
  have hoor : F.oor n d = true := by
    unfold Fmt.oor
    exact decide_eq_true ⟨hn, .inl ((overflow_iff hok n d hd).2 hv)⟩
  have hc : F.clamp neg n d = (neg, F.maxP) := by
    unfold Fmt.clamp atofPos atofAboveOne atofBelowMinusOne
    have : 0 < f64.round n d := by omega
    cases neg <;> simp [hone, this]
  refine ⟨F.make neg F.maxP, ?_, ?_⟩
  · unfold Fmt.setNumber
    simp only [hs, hoor, hc, if_true]
  · rw [← (maxP_value hok).2]
    exact make_value hok neg _ (maxP_value hok).1

/-- What happens to a number that is not zero and too small for a normal float. -/
theorem assign_tiny {F : Fmt} (hF : Supported F) {t : List Byte} {neg : Bool} {v : ℚ} (h : Reads t neg v)
    (h0 : 0 < v) (hv : v < tinyBelow F.mb F.eb) :
    ∃ b, F.setNumber t = (.OutOfRange, some b) ∧
      FloatValue F.mb F.eb b.toNat (signedQ (neg || decide (v ≤ 2 ^ (-1075 : Int))) (smallestNormal F.eb)) := by
  obtain ⟨n, d, hs, hd, rfl⟩ := h
  have hok := hF.ok
  have hnone := small_not_above_one n d hd (hv.le.trans (tiny_le_one hok))
  have hn : n ≠ 0 := by
    rintro rfl
    simp at h0
  have hoor : F.oor n d = true := by
    unfold Fmt.oor
    exact decide_eq_true ⟨hn, .inr ((tiny_iff hok n d hd).2 hv)⟩
  have hpos := pos_iff n d hd
  have hc : F.clamp neg n d = (neg || decide ((n : ℚ) / d ≤ 2 ^ (-1075 : Int)), F.minP) := by
    unfold Fmt.clamp atofPos atofAboveOne atofBelowMinusOne
    by_cases hp : 0 < f64.round n d
    · have h1 := not_le.2 (hpos.1 hp)
      cases neg <;> simp [hnone, hp, -zpow_neg, h1]
    · have h1 := not_lt.1 (fun hh => hp (hpos.2 hh))
      cases neg <;> simp [hnone, hp, -zpow_neg, h1]
  refine ⟨F.make (neg || decide ((n : ℚ) / d ≤ 2 ^ (-1075 : Int))) F.minP, ?_, ?_⟩
  · unfold Fmt.setNumber
    simp only [hs, hoor, hc, if_true]
  · rw [← (minP_value hok).2]
    exact make_value hok _ _ (minP_value hok).1

/-- Numbers in range: the nearest float, of the right sign. -/
theorem assign_nearest {F : Fmt} (hF : Supported F) {t : List Byte} {neg : Bool} {v : ℚ} (h : Reads t neg v)
    (h0 : v = 0 ∨ tinyBelow F.mb F.eb ≤ v) (hv : v < overflowAt F.mb F.eb) :
    ∃ b, F.setNumber t = (.None, some b) ∧ NearestFloat F.mb F.eb b.toNat (signedQ neg v) ∧
      (2 ^ (F.mb + F.eb) ≤ b.toNat ↔ neg = true) := by
  obtain ⟨n, d, hs, hd, rfl⟩ := h
  have hok := hF.ok
  have hnov : ¬ F.inf ≤ roundP F.mb (n * 2 ^ F.u) d := fun hh => absurd ((overflow_iff hok n d hd).1 hh) (not_le.2 hv)
  have hoor : F.oor n d = false := by
    unfold Fmt.oor
    refine decide_eq_false ?_
    rintro ⟨h1, h2 | h2⟩
    · exact hnov h2
    · rcases h0 with h0 | h0
      · exact h1 ((frac_zero_iff hd).1 h0)
      · exact absurd ((tiny_iff hok n d hd).1 h2) (not_lt.2 h0)
  have hr : F.round n d = roundP F.mb (n * 2 ^ F.u) d := by
    unfold Fmt.round; exact Nat.min_eq_left (by omega)
  refine ⟨F.make neg (roundP F.mb (n * 2 ^ F.u) d), ?_, make_nearest hok neg n d hd (by omega), ?_⟩
  · unfold Fmt.setNumber
    simp only [hs, hoor, hr, Bool.false_eq_true, if_false]
  · have := (make_neg (F := F) neg (roundP F.mb (n * 2 ^ F.u) d) (by have := hok.inf_lt; omega)).1
    exact ⟨fun hh => by rw [← this]; exact decide_eq_true hh, fun hh => of_decide_eq_true (this.trans hh)⟩

/-- **C139.** Assigning a decimal text to a `float` or `double`: the nearest representable number (ties to even) with the sign of
the text when the number is in the normal range; the largest finite number of that sign and `OutOfRange` when it is too large; the
smallest normal number of that sign and `OutOfRange` when it is not zero and too small, except for positive texts up to `2^-1075`. -/
theorem float_assign_partial {F : Fmt} (hF : Supported F) {t : List Byte} {neg : Bool} {v : ℚ} (h : Reads t neg v)
    (hp : neg = true ∨ v = 0 ∨ 2 ^ (-1075 : Int) < v) :
    (overflowAt F.mb F.eb ≤ v →
      ∃ b, F.setNumber t = (.OutOfRange, some b) ∧ FloatValue F.mb F.eb b.toNat (signedQ neg (largestFinite F.mb F.eb))) ∧
    (0 < v → v < tinyBelow F.mb F.eb →
      ∃ b, F.setNumber t = (.OutOfRange, some b) ∧ FloatValue F.mb F.eb b.toNat (signedQ neg (smallestNormal F.eb))) ∧
    (v = 0 ∨ tinyBelow F.mb F.eb ≤ v → v < overflowAt F.mb F.eb →
      ∃ b, F.setNumber t = (.None, some b) ∧ NearestFloat F.mb F.eb b.toNat (signedQ neg v) ∧
        (2 ^ (F.mb + F.eb) ≤ b.toNat ↔ neg = true)) := by
  refine ⟨assign_overflow hF h, fun h0 h1 => ?_, assign_nearest hF h⟩
  have := assign_tiny hF h h0 h1
  have e : (neg || decide (v ≤ 2 ^ (-1075 : Int))) = neg := by
    rcases hp with hp | hp | hp
    · rw [hp]; rfl
    · exact absurd hp h0.ne'
    · rw [decide_eq_false (not_le.2 hp), Bool.or_false]
  rwa [e] at this

/-- **C139, violated.** A positive number of at most `2^-1075` is stored as the *negative* smallest normal number. -/
theorem float_assign_sign_violated {F : Fmt} (hF : Supported F) {t : List Byte} {v : ℚ} (h : Reads t false v)
    (h0 : 0 < v) (hv : v ≤ 2 ^ (-1075 : Int)) :
    ∃ b, F.setNumber t = (.OutOfRange, some b) ∧ FloatValue F.mb F.eb b.toNat (-(smallestNormal F.eb)) := by
  have htl : v < tinyBelow F.mb F.eb := by
    refine lt_of_le_of_lt hv ?_
    have e : (2 : ℚ) ^ (-1075 : Int) = 1 / (2 * 2 ^ 1074) := by
      rw [zpow_neg, show (1075 : Int) = ((1074 + 1 : Nat) : Int) by rfl, zpow_natCast, pow_succ, one_div, mul_comm]
    unfold tinyBelow
    rw [normal_units hF.ok, e]
    have hle : F.u ≤ 1074 := by rcases hF with rfl | rfl <;> decide
    have hU : (0 : ℚ) < 2 ^ F.u := by positivity
    have hUU : (2 : ℚ) ^ F.u ≤ 2 ^ 1074 := pow_le_pow_right₀ (by norm_num) hle
    have h2 : (1 : ℚ) / 2 ^ (F.mb + 2) ≤ 1 / 4 := by
      apply one_div_le_one_div_of_le (by norm_num)
      calc (4 : ℚ) = 2 ^ 2 := by norm_num
        _ ≤ 2 ^ (F.mb + 2) := pow_le_pow_right₀ (by norm_num) (by omega)
    have h3 : (1 : ℚ) ≤ 2 ^ F.mb := one_le_pow₀ (by norm_num)
    generalize (2 : ℚ) ^ 1074 = W at *
    generalize (1 : ℚ) / 2 ^ (F.mb + 2) = e at *
    generalize (2 : ℚ) ^ F.mb = H at *
    generalize (2 : ℚ) ^ F.u = U at *
    have h4 : 1 / (2 * W) ≤ 1 / (2 * U) := one_div_le_one_div_of_le (by positivity) (by linarith)
    have h5 : 1 / (2 * U) < H / U * (1 - e) := by
      rw [div_mul_eq_mul_div, div_lt_div_iff₀ (by positivity) hU]
      have : U * 1 ≤ U * H := mul_le_mul_of_nonneg_left h3 hU.le
      nlinarith [mul_le_mul_of_nonneg_left h2 (show 0 ≤ U * H by positivity)]
    linarith
  have := assign_tiny hF h h0 htl
  rw [decide_eq_true hv] at this
  simpa [signedQ] using this

theorem lower_iff (c l : Byte) (hl : 97 ≤ l.toNat ∧ l.toNat ≤ 122) : lower c = l ↔ c = l ∨ c.toNat + 32 = l.toNat := by
  unfold lower toLower
  split
  · rename_i h
    constructor
    · intro he
      right
      rw [← he, BitVec.toNat_add]
      simp
      omega
    · rintro (rfl | he)
      · omega
      · apply BitVec.eq_of_toNat_eq
        rw [BitVec.toNat_add]
        simp
        omega
  · rename_i h
    constructor
    · exact .inl
    · rintro (he | he)
      · exact he
      · omega

theorem startsCI_iff (t w : Text) (hw : ∀ l ∈ w, 97 ≤ l.toNat ∧ l.toNat ≤ 122) : startsCI t w = true ↔ Word w t := by
  unfold startsCI
  rw [beq_iff_eq]
  induction w generalizing t with
  | nil => simp; exact ⟨[], t, rfl, .nil⟩
  | cons l w ih =>
    cases t with
    | nil =>
      simp
      rintro ⟨cs, rest, h1, h2⟩
      cases h2
      simp at h1
    | cons c t =>
      simp only [List.length_cons, List.take_succ_cons, List.map_cons, List.cons.injEq]
      rw [ih t (fun x hx => hw x (by simp [hx])), lower_iff c l (hw l (by simp))]
      constructor
      · rintro ⟨h1, cs, rest, rfl, h2⟩
        exact ⟨c :: cs, rest, rfl, .cons h1 h2⟩
      · rintro ⟨cs, rest, h1, h2⟩
        cases h2 with
        | @cons a _ cs' _ h3 h4 =>
          simp only [List.cons_append, List.cons.injEq] at h1
          obtain ⟨rfl, rfl⟩ := h1
          exact ⟨h3, cs', rest, rfl, h4⟩

theorem signed_read {t : Text} {neg : Bool} {r : Text} (h : Signed t neg r) : sign (skipSpace t) = (neg, r) := by
  obtain ⟨ws, sg, rfl, hw, hs, hr⟩ := h
  rw [List.append_assoc, skipSpace_append hw]
  have hns : ∀ x l, ¬ White x → skipSpace (x :: l) = x :: l := by
    intro x l hx
    unfold skipSpace
    rw [if_neg (fun h => hx ((isSpace_iff x).1 h))]
  have hsk : skipSpace (sg ++ r) = sg ++ r := by
    cases hs with
    | none =>
      cases r with
      | nil => rfl
      | cons c r => exact hns _ _ (hr rfl c rfl).1
    | plus => exact hns _ _ (by unfold White; decide)
    | minus => exact hns _ _ (by unfold White; decide)
  rw [hsk]
  exact sign_spec hs r (fun h0 c hc => (hr h0 c hc).2)

theorem digits_nil {t : Text} (h : ∀ c, t.head? = some c → ∀ d, ¬ IsDigit 10 c d) : digits 10 t = [] :=
  digits_append 10 (by decide) (cs := []) .nil h

theorem wordInf_letters : ∀ l ∈ wordInf, 97 ≤ l.toNat ∧ l.toNat ≤ 122 := by
  intro l hl; simp only [wordInf, List.mem_cons, List.not_mem_nil, or_false] at hl
  rcases hl with rfl | rfl | rfl <;> decide
theorem wordNan_letters : ∀ l ∈ wordNan, 97 ≤ l.toNat ∧ l.toNat ≤ 122 := by
  intro l hl; simp only [wordNan, List.mem_cons, List.not_mem_nil, or_false] at hl
  rcases hl with rfl | rfl | rfl <;> decide

theorem inf_iff (r : Text) : startsCI r [0x69#8, 0x6e#8, 0x66#8] = true ↔ Word wordInf r := startsCI_iff r wordInf wordInf_letters
theorem nan_iff (r : Text) : startsCI r [0x6e#8, 0x61#8, 0x6e#8] = true ↔ Word wordNan r := startsCI_iff r wordNan wordNan_letters

theorem strtod_none {t : Text} (h : NoNumber t) : strtod t = none := by
  obtain ⟨neg, r, hs, hi, hn, hd⟩ := h
  unfold strtod
  simp only [signed_read hs]
  have hm : (mantissa 10 r).1 = [] := by
    unfold mantissa
    have h0 := digits_nil (t := r) (fun c hc => (hd c hc).1)
    simp only [h0, List.length_nil, List.drop_zero]
    cases r with
    | nil => rfl
    | cons c r =>
      by_cases hc : c = 0x2e#8
      · have h1 := digits_nil (t := r) ((hd c rfl).2 hc)
        simp [hc, h1]
      · simp [hc]
  have hx : ¬ startsCI r [0x30#8, 0x78#8] = true := by
    intro hx
    cases r with
    | nil => exact absurd hx (by decide)
    | cons c r =>
      unfold startsCI at hx
      simp only [beq_iff_eq, List.length_cons, List.take_succ_cons, List.map_cons, List.cons.injEq] at hx
      have hc : c = 0x30#8 := by
        have h1 := hx.1
        unfold lower toLower at h1
        split at h1
        · have := congrArg BitVec.toNat h1
          rw [BitVec.toNat_add] at this
          simp at this
          omega
        · exact h1
      exact (hd c rfl).1 0 (by subst hc; unfold IsDigit; decide)
  unfold number
  rw [if_neg (fun hh => hi ((inf_iff r).1 hh)),
    if_neg (fun hh => hn ((nan_iff r).1 hh))]
  simp only [hx, hm, Bool.false_eq_true, false_and, if_false, if_true, Option.map_none]

theorem strtod_inf {t r : Text} {neg : Bool} (h : Signed t neg r) (hw : Word wordInf r) : strtod t = some (neg, .inf) := by
  unfold strtod number
  simp only [signed_read h]
  rw [if_pos ((inf_iff r).2 hw)]
  rfl

theorem strtod_nan {t r : Text} {neg : Bool} (h : Signed t neg r) (hw : Word wordNan r) : strtod t = some (neg, .nan) := by
  have hni : ¬ Word wordInf r := by
    intro hi
    have h1 := (inf_iff r).2 hi
    have h2 := (nan_iff r).2 hw
    unfold startsCI at h1 h2
    rw [beq_iff_eq] at h1 h2
    rw [show [0x6e#8, 0x61#8, 0x6e#8].length = [0x69#8, 0x6e#8, 0x66#8].length by rfl, h1] at h2
    exact absurd h2 (by decide)
  unfold strtod number
  simp only [signed_read h]
  rw [if_neg (fun hh => hni ((inf_iff r).1 hh)), if_pos ((nan_iff r).2 hw)]
  rfl

/-! ## Fields of an object -/

/-- Size of the field, fraction and exponent bits of `float` and `double`. -/
def FloatKind (n mb eb : Nat) : Prop := (n = 4 ∧ mb = 23 ∧ eb = 8) ∨ (n = 8 ∧ mb = 52 ∧ eb = 11)

theorem setByName_float (enums : BitVec 32 → Option EnumTab) (c : ClassTab) (h : BitVec 32) (r : RType) (n mb eb : Nat) (t s : Text) (o : Obj)
    (hr : typeOf c h = some r) (hty : r.type = .FloatingPoint) (hn : r.subSize.toNat = n) (hk : FloatKind n mb eb) (hi : Indented t s) :
    ∃ F, Supported F ∧ F.mb = mb ∧ F.eb = eb ∧ F.width = 8 * n ∧
      setByName (cEnv enums) c h t o = storeBits o r.offset.toNat n (setFloat F.setNumber s) := by
  have e : setByName (cEnv enums) c h t o = setMember (cEnv enums) r t r.offset.toNat o := by
    unfold setByName
    rw [hr]
    simp only [setValue, hty]
    rfl
  rw [e]
  unfold setMember member
  simp only [hty, hn, indented_skip hi]
  rcases hk with ⟨rfl, rfl, rfl⟩ | ⟨rfl, rfl, rfl⟩
  · exact ⟨f32, .inl rfl, rfl, rfl, rfl, rfl⟩
  · exact ⟨f64, .inr rfl, rfl, rfl, rfl, rfl⟩

theorem store_pattern {w : Nat} (o : Obj) (a n : Nat) (hw : w = 8 * n) (v : BitVec w) (e : Err) :
    (storeBits o a n (e, some v)).2.nat a n = v.toNat := by
  subst hw; exact store_nat o a n v e

theorem reads_not_blank {s neg v} (h : Reads s neg v) : skipSpace s ≠ [] := by
  intro h0
  obtain ⟨n, d, hs, _⟩ := h
  unfold strtod at hs
  rw [h0] at hs
  exact absurd hs (by
    have : number (sign []).2 = none := by decide
    simp only [this, Option.map_none]
    exact fun h => by cases h)

theorem decimal_not_blank {s neg v} (h : Decimal s neg v) : skipSpace s ≠ [] := reads_not_blank (strtod_decimal h)

theorem set_reads {F : Fmt} {s : Text} {neg : Bool} {v : ℚ} (h : Reads s neg v) : setFloat F.setNumber s = F.setNumber s := by
  unfold setFloat; rw [if_neg (reads_not_blank h)]

theorem set_decimal {F : Fmt} {s : Text} {neg : Bool} {v : ℚ} (h : Decimal s neg v) : setFloat F.setNumber s = F.setNumber s := by
  unfold setFloat; rw [if_neg (decimal_not_blank h)]

/-- **C139.** Assigning a text to a `float` or `double` field (blanks in front are skipped). A decimal number: the field holds the
nearest representable number (ties to even) with the sign of the text when it is zero or in the normal range, without error; the
largest finite number of that sign and `OutOfRange` when it is too large; the smallest normal number of that sign and `OutOfRange`
when it is too small. No number: `InvalidFormat`, and the object is left alone.
Missing for the full statement: positive numbers of at most `2^-1075` (see `set_float_sign_violated`). -/
theorem set_float_partial (enums : BitVec 32 → Option EnumTab) (c : ClassTab) (h : BitVec 32) (r : RType) (n mb eb : Nat) (t s : Text) (o : Obj)
    (hr : typeOf c h = some r) (hty : r.type = .FloatingPoint) (hn : r.subSize.toNat = n) (hk : FloatKind n mb eb) (hi : Indented t s) :
    (∀ neg v, Decimal s neg v → neg = true ∨ v = 0 ∨ 2 ^ (-1075 : Int) < v →
      let res := setByName (cEnv enums) c h t o
      let b := res.2.nat r.offset.toNat n
      (overflowAt mb eb ≤ v → res.1 = .OutOfRange ∧ FloatValue mb eb b (signedQ neg (largestFinite mb eb))) ∧
      (0 < v → v < tinyBelow mb eb → res.1 = .OutOfRange ∧ FloatValue mb eb b (signedQ neg (smallestNormal eb))) ∧
      (v = 0 ∨ tinyBelow mb eb ≤ v → v < overflowAt mb eb →
        res.1 = .None ∧ NearestFloat mb eb b (signedQ neg v) ∧ (2 ^ (mb + eb) ≤ b ↔ neg = true))) ∧
    (NoNumber s → setByName (cEnv enums) c h t o = (.InvalidFormat, o)) := by
  obtain ⟨F, hF, rfl, rfl, hw, e⟩ := setByName_float enums c h r n mb eb t s o hr hty hn hk hi
  constructor
  · intro neg v hd hp
    simp only [e, set_decimal hd]
    obtain ⟨h1, h2, h3⟩ := float_assign_partial hF (strtod_decimal hd) hp
    refine ⟨fun hv => ?_, fun h0 hv => ?_, fun h0 hv => ?_⟩
    · obtain ⟨b, hb, hb'⟩ := h1 hv
      rw [hb, store_pattern o _ n hw]
      exact ⟨rfl, hb'⟩
    · obtain ⟨b, hb, hb'⟩ := h2 h0 hv
      rw [hb, store_pattern o _ n hw]
      exact ⟨rfl, hb'⟩
    · obtain ⟨b, hb, hb'⟩ := h3 h0 hv
      rw [hb, store_pattern o _ n hw]
      exact ⟨rfl, hb'⟩
  · intro hnn
    rw [e]
    have : setFloat F.setNumber s = (.InvalidFormat, none) := by
      unfold setFloat Fmt.setNumber
      rw [strtod_none hnn]
      split <;> rfl
    rw [this]
    rfl

/-- **C139, hexadecimal texts** (`0x1.8p3`): the same holds for them.
Missing for the full statement: positive numbers of at most `2^-1075`, as for decimal texts. -/
theorem set_float_hex_partial (enums : BitVec 32 → Option EnumTab) (c : ClassTab) (h : BitVec 32) (r : RType) (n mb eb : Nat) (t s : Text) (o : Obj)
    (hr : typeOf c h = some r) (hty : r.type = .FloatingPoint) (hn : r.subSize.toNat = n) (hk : FloatKind n mb eb) (hi : Indented t s)
    (neg : Bool) (v : ℚ) (hd : Hexadecimal s neg v) (hp : neg = true ∨ v = 0 ∨ 2 ^ (-1075 : Int) < v) :
    let res := setByName (cEnv enums) c h t o
    let b := res.2.nat r.offset.toNat n
    (overflowAt mb eb ≤ v → res.1 = .OutOfRange ∧ FloatValue mb eb b (signedQ neg (largestFinite mb eb))) ∧
    (0 < v → v < tinyBelow mb eb → res.1 = .OutOfRange ∧ FloatValue mb eb b (signedQ neg (smallestNormal eb))) ∧
    (v = 0 ∨ tinyBelow mb eb ≤ v → v < overflowAt mb eb →
      res.1 = .None ∧ NearestFloat mb eb b (signedQ neg v) ∧ (2 ^ (mb + eb) ≤ b ↔ neg = true)) := by
  obtain ⟨F, hF, rfl, rfl, hw, e⟩ := setByName_float enums c h r n mb eb t s o hr hty hn hk hi
  simp only [e, set_reads (strtod_hex hd)]
  obtain ⟨h1, h2, h3⟩ := float_assign_partial hF (strtod_hex hd) hp
  refine ⟨fun hv => ?_, fun h0 hv => ?_, fun h0 hv => ?_⟩
  · obtain ⟨b, hb, hb'⟩ := h1 hv
    rw [hb, store_pattern o _ n hw]
    exact ⟨rfl, hb'⟩
  · obtain ⟨b, hb, hb'⟩ := h2 h0 hv
    rw [hb, store_pattern o _ n hw]
    exact ⟨rfl, hb'⟩
  · obtain ⟨b, hb, hb'⟩ := h3 h0 hv
    rw [hb, store_pattern o _ n hw]
    exact ⟨rfl, hb'⟩

/-- **C139, violated.** A positive number of at most `2^-1075` in a `float` or `double` field: the field holds the *negative* smallest
normal number. -/
theorem set_float_sign_violated (enums : BitVec 32 → Option EnumTab) (c : ClassTab) (h : BitVec 32) (r : RType) (n mb eb : Nat) (t s : Text)
    (o : Obj) (hr : typeOf c h = some r) (hty : r.type = .FloatingPoint) (hn : r.subSize.toNat = n) (hk : FloatKind n mb eb)
    (hi : Indented t s) (v : ℚ) (hd : Decimal s false v) (h0 : 0 < v) (hv : v ≤ 2 ^ (-1075 : Int)) :
    let res := setByName (cEnv enums) c h t o
    res.1 = .OutOfRange ∧ FloatValue mb eb (res.2.nat r.offset.toNat n) (-(smallestNormal eb)) := by
  obtain ⟨F, hF, rfl, rfl, hw, e⟩ := setByName_float enums c h r n mb eb t s o hr hty hn hk hi
  obtain ⟨b, hb, hb'⟩ := float_assign_sign_violated hF (strtod_decimal hd) h0 hv
  simp only [e, set_decimal hd]
  rw [hb, store_pattern o _ n hw]
  exact ⟨rfl, hb'⟩

/-- **C139, words.** `inf` and `nan` in any case, with a sign: no error, and the field holds the infinity of that sign, or a NaN of
that sign. -/
theorem set_float_words (enums : BitVec 32 → Option EnumTab) (c : ClassTab) (h : BitVec 32) (r : RType) (n mb eb : Nat) (t s : Text)
    (o : Obj) (hr : typeOf c h = some r) (hty : r.type = .FloatingPoint) (hn : r.subSize.toNat = n) (hk : FloatKind n mb eb)
    (hi : Indented t s) (neg : Bool) (x : Text) (hs : Signed s neg x) :
    let res := setByName (cEnv enums) c h t o
    let b := res.2.nat r.offset.toNat n
    let infinity := (2 ^ eb - 1) * 2 ^ mb
    let sgn := if neg then 2 ^ (mb + eb) else 0
    (Word wordInf x → res.1 = .None ∧ b = sgn + infinity) ∧
    (Word wordNan x → res.1 = .None ∧ sgn + infinity < b ∧ b < sgn + 2 ^ (mb + eb)) := by
  obtain ⟨F, hF, rfl, rfl, hw, e⟩ := setByName_float enums c h r n mb eb t s o hr hty hn hk hi
  have hok := hF.ok
  have hlt := hok.inf_lt
  have hnb : ∀ y, strtod s = some y → setFloat F.setNumber s = F.setNumber s := by
    intro y hy
    unfold setFloat
    rw [if_neg]
    intro h0
    unfold strtod at hy
    rw [h0] at hy
    have : number (sign []).2 = none := by decide
    simp only [this, Option.map_none] at hy
    cases hy
  simp only [e]
  constructor
  · intro hx
    have hst := strtod_inf hs hx
    rw [hnb _ hst]
    have : F.setNumber s = (.None, some (F.make neg F.inf)) := by unfold Fmt.setNumber; rw [hst]
    rw [this, store_pattern o _ n hw, make_toNat _ _ hlt]
    exact ⟨rfl, rfl⟩
  · intro hx
    have hst := strtod_nan hs hx
    rw [hnb _ hst]
    have : F.setNumber s = (.None, some (F.make neg F.nan)) := by unfold Fmt.setNumber; rw [hst]
    have hnan : F.nan < 2 ^ (F.mb + F.eb) := by
      unfold Fmt.nan Fmt.inf
      have h1 : 2 ^ (F.mb - 1) < 2 ^ F.mb := Nat.pow_lt_pow_right (by decide) (by have := hok.mb; omega)
      have h2 : (2 ^ F.eb - 1) * 2 ^ F.mb = 2 ^ (F.mb + F.eb) - 2 ^ F.mb := by
        rw [Nat.sub_mul, ← Nat.pow_add, Nat.one_mul, Nat.add_comm]
      have h3 : 2 ^ F.mb ≤ 2 ^ (F.mb + F.eb) := Nat.pow_le_pow_right (by decide) (by omega)
      omega
    rw [this, store_pattern o _ n hw, make_toNat _ _ hnan]
    refine ⟨rfl, ?_, by omega⟩
    unfold Fmt.nan
    have := Nat.two_pow_pos (F.mb - 1)
    have e2 : F.inf = (2 ^ F.eb - 1) * 2 ^ F.mb := rfl
    omega

/-! ## Concrete cases -/

/-- A class with a `float` at 0 and a `double` at 8. -/
def exFloats : ClassTab := ⟨[⟨.FloatingPoint, .None, 4, 0, 1, 0, 1, 0⟩, ⟨.FloatingPoint, .None, 8, 1, 1, 8, 2, 0⟩], none⟩
def exZero : Obj := ⟨fun _ => 0#8, fun _ => []⟩

/-- `0.1` -/
def tTenth : Text := [0x30#8, 0x2e#8, 0x31#8]
/-- `1e-400` -/
def tTiny : Text := [0x31#8, 0x65#8, 0x2d#8, 0x34#8, 0x30#8, 0x30#8]

theorem digit_char (d : Nat) (h : d < 10) : IsDigit 10 (BitVec.ofNat 8 (48 + d)) d := by
  refine ⟨h, .inl ⟨h, ?_⟩⟩
  rw [BitVec.toNat_ofNat]
  omega

theorem tTenth_decimal : Decimal tTenth false (1 / 10) := by
  have := Decimal.mk (ws := []) (sg := []) (ip := [0x30#8]) (ids := [0]) (fp := [0x2e#8, 0x31#8]) (fds := [1]) (ex := []) (e := 0)
    (rest := []) (by simp) .none (.cons (digit_char 0 (by decide)) .nil) (.some (.cons (digit_char 1 (by decide)) .nil)) (by simp) .none
    (by intro c hc; cases hc)
  convert this using 1
  · rfl
  · norm_num [positional]

/-- `-0x1.8P3` denotes -12. -/
example : Hexadecimal [0x2d#8, 0x30#8, 0x78#8, 0x31#8, 0x2e#8, 0x38#8, 0x50#8, 0x33#8] true 12 ∧ tinyBelow 23 8 ≤ 12 ∧ (12 : ℚ) < overflowAt 23 8 := by
  refine ⟨?_, by unfold tinyBelow smallestNormal; norm_num, by unfold overflowAt; norm_num⟩
  have := Hexadecimal.mk (ws := []) (sg := [0x2d#8]) (x := 0x78#8) (ip := [0x31#8]) (ids := [1]) (fp := [0x2e#8, 0x38#8]) (fds := [8])
    (ex := [0x50#8, 0x33#8]) (rest := []) (by simp) .minus (.inl rfl) (.cons ⟨by decide, .inl ⟨by decide, by decide⟩⟩ .nil)
    (.some (.cons ⟨by decide, .inl ⟨by decide, by decide⟩⟩ .nil)) (by simp)
    (.some (sg := []) (ds := [3]) (.inr rfl) .none (.cons (digit_char 3 (by decide)) .nil) (by simp)) (by intro c hc; cases hc)
  convert this using 1
  · rfl
  · norm_num [positional]

theorem tTiny_decimal : Decimal tTiny false (10 ^ (-400 : Int)) := by
  have := Decimal.mk (ws := []) (sg := []) (ip := [0x31#8]) (ids := [1]) (fp := []) (fds := [])
    (ex := [0x65#8, 0x2d#8, 0x34#8, 0x30#8, 0x30#8]) (e := -400) (rest := []) (by simp) .none (.cons (digit_char 1 (by decide)) .nil)
    .none (by simp)
    (.some (neg := true) (sg := [0x2d#8]) (ds := [4, 0, 0]) (.inl rfl) .minus
      (.cons (digit_char 4 (by decide)) (.cons (digit_char 0 (by decide)) (.cons (digit_char 0 (by decide)) .nil))) (by simp))
    (by intro c hc; cases hc)
  convert this using 1
  · rfl
  · norm_num [positional]

theorem tTiny_small : (0 : ℚ) < 10 ^ (-400 : Int) ∧ (10 : ℚ) ^ (-400 : Int) ≤ 2 ^ (-1075 : Int) := by
  refine ⟨zpow_pos (by norm_num) _, ?_⟩
  rw [zpow_neg, zpow_neg]
  apply inv_anti₀ (zpow_pos (by norm_num) _)
  rw [show (1075 : Int) = ((1075 : Nat) : Int) by rfl, show (400 : Int) = ((400 : Nat) : Int) by rfl, zpow_natCast, zpow_natCast]
  have : (2 : Nat) ^ 1075 ≤ 10 ^ 400 := by decide +kernel
  exact_mod_cast this

/-- The hypotheses of `set_float_partial` hold for "0.1" in the float and the double field, and the fields then hold 0x3dcccccd and
0x3fb999999999999a. -/
example : typeOf exFloats 1 = some ⟨.FloatingPoint, .None, 4, 0, 1, 0, 1, 0⟩ ∧ Indented (0x20#8 :: tTenth) tTenth ∧
    Decimal tTenth false (1 / 10) ∧ tinyBelow 23 8 ≤ 1 / 10 ∧ (1 / 10 : ℚ) < overflowAt 23 8 ∧ FloatKind 4 23 8 ∧
    (setByName (cEnv fun _ => none) exFloats 1 (0x20#8 :: tTenth) exZero).2.nat 0 4 = 0x3dcccccd ∧
    (setByName (cEnv fun _ => none) exFloats 2 (0x20#8 :: tTenth) exZero).2.nat 8 8 = 0x3fb999999999999a := by
  refine ⟨by decide, ⟨[0x20#8], rfl, by unfold Supercore.IsBlank; decide, by unfold Supercore.IsBlank tTenth; decide⟩, tTenth_decimal, ?_, ?_, .inl ⟨rfl, rfl, rfl⟩,
    by decide +kernel, by decide +kernel⟩
  · unfold tinyBelow smallestNormal; norm_num
  · unfold overflowAt; norm_num

/-- "1e-400" in the float field: −2^-126. -/
example : Decimal tTiny false (10 ^ (-400 : Int)) ∧
    (setByName (cEnv fun _ => none) exFloats 1 tTiny exZero).2.nat 0 4 = 0x80800000 :=
  ⟨tTiny_decimal, by decide +kernel⟩

/-- **C139, violated** (concrete): assigning "1e-400", a positive number, leaves a negative number in the field. -/
theorem set_float_sign_witness_violated : ∃ t v, Decimal t false v ∧ 0 < v ∧
    ∃ w, w < 0 ∧ FloatValue 23 8 ((setByName (cEnv fun _ => none) exFloats 1 t exZero).2.nat 0 4) w := by
  refine ⟨tTiny, _, tTiny_decimal, tTiny_small.1, _, ?_, (set_float_sign_violated (fun _ => none) exFloats 1
    ⟨.FloatingPoint, .None, 4, 0, 1, 0, 1, 0⟩ 4 23 8 tTiny tTiny exZero (by decide) rfl rfl (.inl ⟨rfl, rfl, rfl⟩)
    ⟨[], rfl, by simp, by unfold Supercore.IsBlank tTiny; decide⟩ _ tTiny_decimal tTiny_small.1 tTiny_small.2).2⟩
  unfold smallestNormal
  have : (0 : ℚ) < 2 ^ (2 - 2 ^ (8 - 1) : Int) := zpow_pos (by norm_num) _
  linarith

/-- "-INFINITY" and "abc" -/
example : Signed [0x2d#8, 0x49#8, 0x4e#8, 0x46#8, 0x49#8] true [0x49#8, 0x4e#8, 0x46#8, 0x49#8] ∧
    Word wordInf [0x49#8, 0x4e#8, 0x46#8, 0x49#8] ∧ NoNumber [0x61#8, 0x62#8, 0x63#8] := by
  refine ⟨⟨[], [0x2d#8], rfl, by simp, .minus, by simp⟩, ⟨[0x49#8, 0x4e#8, 0x46#8], [0x49#8], rfl, ?_⟩, ?_⟩
  · exact .cons (.inr rfl) (.cons (.inr rfl) (.cons (.inr rfl) .nil))
  · refine ⟨false, _, ⟨[], [], rfl, by simp, .none, ?_⟩, ?_, ?_, ?_⟩
    · intro _ c hc; simp at hc; subst hc; unfold White; decide
    · rw [← inf_iff]; decide
    · rw [← nan_iff]; decide
    · intro c hc
      simp at hc; subst hc
      refine ⟨?_, fun h => absurd h (by decide)⟩
      intro d hd
      obtain ⟨h1, h2⟩ := hd
      simp at h2; omega

end PreCore.FloatTextProps
