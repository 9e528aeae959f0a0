import Verif.Lemmas.FloatRound
import Verif.Props.ReflXmlRound
/-!
# C140: printing floats, and texts that survive saving and loading
-/
namespace PreCore.FloatTextProps
open CNum Refl Spec Flt

/-- Minus sign or nothing. -/
def sgn (neg : Bool) : Text := if neg then [0x2d#8] else []

theorem sgn_sign (neg : Bool) : Sign (sgn neg) neg := by cases neg <;> constructor

theorem make_of {F : Fmt} (b : BitVec F.width) :
    b = F.make (decide (2 ^ (F.mb + F.eb) ≤ b.toNat)) (b.toNat % 2 ^ (F.mb + F.eb)) := by
  apply BitVec.eq_of_toNat_eq
  rw [make_toNat _ _ (Nat.mod_lt _ (Nat.two_pow_pos _))]
  have hb : b.toNat < 2 * 2 ^ (F.mb + F.eb) := by
    have e : 2 ^ F.width = 2 * 2 ^ (F.mb + F.eb) := by unfold Fmt.width; rw [Nat.pow_succ, Nat.mul_comm]
    have := b.isLt
    omega
  by_cases h : 2 ^ (F.mb + F.eb) ≤ b.toNat
  · rw [decide_eq_true h, if_pos rfl, Nat.mod_eq_sub_mod h, Nat.mod_eq_of_lt (by omega)]
    omega
  · rw [decide_eq_false h, Nat.mod_eq_of_lt (by omega)]
    simp

theorem print_make {F : Fmt} (hF : F.Ok) (P : Nat) (neg : Bool) (p : Nat) (hp : p < F.inf) :
    F.print P (F.make neg p) = sgn neg ++ (if magOf F.mb p = 0 then [0x30#8] else F.showMag P (magOf F.mb p)) := by
  have hlt := hF.inf_lt
  obtain ⟨h1, h2⟩ := make_neg (F := F) neg p (by omega)
  unfold Fmt.print Fmt.val
  simp only [h1, h2, if_pos hp]
  rfl

theorem sig_norm {P : Nat} (hP : 1 ≤ P) {v : ℚ} (h : SigDigits P v) (h0 : 0 < v) :
    ∃ (k : Nat) (X : Int), 10 ^ (P - 1) ≤ k ∧ k < 10 ^ P ∧ v = (k : ℚ) * 10 ^ (X + 1 - P) := by
  obtain ⟨k, j, hk, rfl⟩ := h
  have h10 : (10 : ℚ) ≠ 0 := by norm_num
  have hk0 : k ≠ 0 := by rintro rfl; simp at h0
  have h1 := Nat.pow_log_le_self 10 hk0
  have h2 := Nat.lt_pow_succ_log_self (b := 10) (by decide) k
  have hL : Nat.log 10 k < P := Nat.log_lt_of_lt_pow hk0 hk
  generalize Nat.log 10 k = L at *
  obtain ⟨a, ha⟩ : ∃ a, P = L + 1 + a := ⟨P - (L + 1), by omega⟩
  refine ⟨k * 10 ^ a, j - a + P - 1, ?_, ?_, ?_⟩
  · rw [show P - 1 = L + a by omega, Nat.pow_add]
    exact Nat.mul_le_mul_right _ h1
  · rw [ha, Nat.pow_add]
    exact Nat.mul_lt_mul_of_pos_right h2 (Nat.pow_pos (by decide))
  · push_cast
    rw [mul_assoc, ← zpow_natCast, ← zpow_add₀ h10]
    congr 2
    omega

theorem zero_number (neg : Bool) : DecimalNumber (sgn neg ++ [0x30#8]) neg 0 := by
  have := DecimalNumber.mk (ids := [0]) (sgn_sign neg) (.cons zero_digit .nil) .none (by simp) .none
  simpa [positional] using this

/-- A number near a value of `P` digits prints as that value. -/
theorem print_near {F : Fmt} {P : Nat} (hFP : Printed F P) (neg : Bool) (p : Nat) (hp : p < F.inf) (hm : 0 < magOf F.mb p)
    (k : Nat) (X : Int) (hk1 : 10 ^ (P - 1) ≤ k) (hk2 : k < 10 ^ P)
    (hn : |F.q (magOf F.mb p) - (k : ℚ) * 10 ^ (X + 1 - P)| * (2 * 2 ^ F.mb) ≤ (k : ℚ) * 10 ^ (X + 1 - P)) :
    F.print P (F.make neg p) = sgn neg ++ canonText P k X := by
  rw [print_make hFP.sup.ok P neg p hp, if_neg (by omega), showMag_canon P _ hFP.one]
  have hv : (0 : ℚ) < (k : ℚ) * 10 ^ (X + 1 - P) := by
    have : 0 < k := Nat.lt_of_lt_of_le (Nat.pow_pos (by decide)) hk1
    have hz : (0 : ℚ) < 10 ^ (X + 1 - (P : Int)) := zpow_pos (by norm_num) _
    positivity
  have hd : (10 : ℚ) ^ P < 2 ^ F.mb := by exact_mod_cast hFP.digits
  rw [pair_near hFP.scaled P _ hFP.one hm k X hk1 hk2]
  rcases (abs_nonneg (F.q (magOf F.mb p) - (k : ℚ) * 10 ^ (X + 1 - P))).eq_or_lt with h0 | h0
  · rw [← h0]; simpa using hv
  · refine lt_of_lt_of_le ?_ hn
    exact mul_lt_mul_of_pos_left (by linarith) h0

theorem roundP_zero (mb d : Nat) : roundP mb 0 d = 0 := by
  unfold roundP rhe
  simp

theorem frac_pos {n d : Nat} (hd : 0 < d) (h : (n : ℚ) / d ≠ 0) : 0 < (n : ℚ) / d := lt_of_le_of_ne (by positivity) (Ne.symm h)

theorem tiny_pos {F : Fmt} (hF : F.Ok) : 0 < tinyBelow F.mb F.eb := by
  unfold tinyBelow
  rw [normal_units hF]
  have h2 : (1 : ℚ) / 2 ^ (F.mb + 2) ≤ 1 / 4 := by
    apply one_div_le_one_div_of_le (by norm_num)
    calc (4 : ℚ) = 2 ^ 2 := by norm_num
      _ ≤ 2 ^ (F.mb + 2) := pow_le_pow_right₀ (by norm_num) (by omega)
  have : (0 : ℚ) < 2 ^ F.mb / 2 ^ F.u := by positivity
  exact mul_pos this (by linarith)

/-- Reading a text of at most `P` digits and printing the result. -/
theorem read_print {F : Fmt} {P : Nat} (hFP : Printed F P) {t : Text} {neg : Bool} {v : ℚ} (h : Decimal t neg v) (hs : SigDigits P v)
    (h0 : v = 0 ∨ tinyBelow F.mb F.eb ≤ v) (hv : v < overflowAt F.mb F.eb) :
    ∃ b, F.setNumber t = (.None, some b) ∧ DecimalNumber (F.print P b) neg v ∧ F.setNumber (F.print P b) = (.None, some b) := by
  have hok := hFP.sup.ok
  obtain ⟨n, d, hst, hd, hnd⟩ := strtod_decimal h
  subst hnd
  have hnov : roundP F.mb (n * 2 ^ F.u) d < F.inf := by
    by_contra hc
    exact absurd ((overflow_iff hok n d hd).1 (Nat.le_of_not_lt hc)) (not_le.2 hv)
  have hoor : F.oor n d = false := by
    unfold Fmt.oor
    refine decide_eq_false ?_
    rintro ⟨h1, h2 | h2⟩
    · omega
    · rcases h0 with h0 | h0
      · exact h1 ((frac_zero_iff hd).1 h0)
      · exact absurd ((tiny_iff hok n d hd).1 h2) (not_lt.2 h0)
  have hr : F.round n d = roundP F.mb (n * 2 ^ F.u) d := by
    unfold Fmt.round; exact Nat.min_eq_left (by omega)
  have hset : F.setNumber t = (.None, some (F.make neg (roundP F.mb (n * 2 ^ F.u) d))) := by
    unfold Fmt.setNumber
    simp only [hst, hoor, hr, Bool.false_eq_true, if_false]
  have hnum : DecimalNumber (F.print P (F.make neg (roundP F.mb (n * 2 ^ F.u) d))) neg ((n : ℚ) / d) := by
    by_cases hz : (n : ℚ) / d = 0
    · have hn := (frac_zero_iff hd).1 hz
      rw [hz, hn, Nat.zero_mul, roundP_zero, print_make hok P neg 0 (by rw [hn, Nat.zero_mul, roundP_zero] at hnov; exact hnov)]
      have : magOf F.mb 0 = 0 := by unfold magOf; simp
      rw [if_pos this]
      exact zero_number neg
    · have ht : tinyBelow F.mb F.eb ≤ (n : ℚ) / d := h0.resolve_left hz
      obtain ⟨k, X, hk1, hk2, hkv⟩ := sig_norm hFP.one hs (frac_pos hd hz)
      have hnear := round_near hok n d hd ht
      have hm : 0 < magOf F.mb (roundP F.mb (n * 2 ^ F.u) d) := by
        rcases Nat.eq_zero_or_pos (magOf F.mb (roundP F.mb (n * 2 ^ F.u) d)) with h1 | h1
        · rw [h1] at hnear
          unfold Fmt.q at hnear
          rw [Nat.cast_zero, zero_div, zero_sub, abs_neg, abs_of_pos (frac_pos hd hz)] at hnear
          have : (1 : ℚ) ≤ 2 ^ F.mb := one_le_pow₀ (by norm_num)
          nlinarith [frac_pos hd hz]
        · exact h1
      rw [hkv] at hnear ⊢
      rw [print_near hFP neg _ hnov hm k X hk1 hk2 hnear]
      exact canon_number P k X hFP.one _ neg (sgn_sign neg)
  exact ⟨_, hset, hnum, by rw [setNumber_value F (number_decimal hnum) h]; exact hset⟩

/-- Printing a finite number. -/
theorem print_finite {F : Fmt} {P : Nat} (hFP : Printed F P) (b : BitVec F.width) {w : ℚ} (hw : FloatValue F.mb F.eb b.toNat w) :
    ∃ y, DecimalNumber (F.print P b) (decide (2 ^ (F.mb + F.eb) ≤ b.toNat)) y ∧ (w = 0 → y = 0) ∧ (w ≠ 0 → Rounded P |w| y) := by
  have hok := hFP.sup.ok
  rw [floatValue_iff hok b.toNat b.isLt] at hw
  obtain ⟨hp, rfl⟩ := hw
  have hb := make_of b
  generalize decide (2 ^ (F.mb + F.eb) ≤ b.toNat) = neg at *
  generalize b.toNat % 2 ^ (F.mb + F.eb) = p at *
  subst hb
  rw [print_make hok P neg p hp]
  have hU : (0 : ℚ) < 2 ^ F.u := by positivity
  by_cases hm : magOf F.mb p = 0
  · rw [if_pos hm, hm]
    refine ⟨0, zero_number neg, fun _ => rfl, fun h => absurd ?_ h⟩
    cases neg <;> simp [signedQ]
  · rw [if_neg hm, showMag_canon P _ hFP.one]
    obtain ⟨h1, h2, h3, h4, h5⟩ := pair_spec hFP.scaled P (magOf F.mb p) hFP.one (by omega)
    obtain ⟨d1, d2⟩ := dec_spec hFP.scaled (magOf F.mb p) (by omega)
    have hx : |signedQ neg ((magOf F.mb p : ℚ) / 2 ^ F.u)| = F.q (magOf F.mb p) := by
      have : (0 : ℚ) ≤ (magOf F.mb p : ℚ) / 2 ^ F.u := by positivity
      cases neg
      · exact abs_of_nonneg this
      · simp only [signedQ, if_true]; rw [abs_neg]; exact abs_of_nonneg this
    refine ⟨_, canon_number P _ _ hFP.one _ neg (sgn_sign neg), fun h => ?_, fun _ => ?_⟩
    · have : F.q (magOf F.mb p) = 0 := by rw [← hx, h, abs_zero]
      unfold Fmt.q at this
      rw [div_eq_zero_iff] at this
      rcases this with h | h
      · exact absurd (by exact_mod_cast h) hm
      · exact absurd h hU.ne'
    · rw [hx, h3]
      exact ⟨F.dec (magOf F.mb p), F.D P (magOf F.mb p), d1, d2, rfl, h4, h5⟩

/-- Where the printed texts of the largest and the smallest numbers lie: the largest number is below `c + 1/2` units of the last
printed digit, and `c` such units do not overflow. -/
structure Limits (F : Fmt) (P c : Nat) (E : Int) : Prop where
  decade : largestFinite F.mb F.eb < 10 ^ (E + 1)
  digits : largestFinite F.mb F.eb < ((c : ℚ) + 1 / 2) * 10 ^ (E + 1 - P)
  finite : (c : ℚ) * 10 ^ (E + 1 - P) < overflowAt F.mb F.eb
  below : (10 : ℚ) ^ E < overflowAt F.mb F.eb
  small : (2 : ℚ) ^ (-1075 : Int) < smallestNormal F.eb / 10

theorem limits32 : Limits f32 6 340282 38 := by
  refine ⟨?_, ?_, ?_, ?_, ?_⟩
  · show largestFinite 23 8 < _; unfold largestFinite; norm_num
  · show largestFinite 23 8 < _; unfold largestFinite; norm_num
  · show _ < overflowAt 23 8; unfold overflowAt; norm_num
  · show _ < overflowAt 23 8; unfold overflowAt; norm_num
  · show _ < smallestNormal 8 / 10
    unfold smallestNormal
    rw [lt_div_iff₀ (by norm_num)]
    calc (2 : ℚ) ^ (-1075 : Int) * 10 < 2 ^ (-1075 : Int) * 2 ^ (4 : Int) :=
          mul_lt_mul_of_pos_left (by norm_num) (zpow_pos (by norm_num) _)
      _ = 2 ^ (-1071 : Int) := by rw [← zpow_add₀ (by norm_num)]; norm_num
      _ < 2 ^ (2 - 2 ^ (8 - 1) : Int) := by
          rw [zpow_lt_zpow_iff_right₀ (by norm_num)]; norm_num

set_option exponentiation.threshold 2000 in
theorem limits64 : Limits f64 13 1797693134862 308 := by
  refine ⟨?_, ?_, ?_, ?_, ?_⟩
  · show largestFinite 52 11 < _; unfold largestFinite; norm_num
  · show largestFinite 52 11 < _; unfold largestFinite; norm_num
  · show _ < overflowAt 52 11; unfold overflowAt; norm_num
  · show _ < overflowAt 52 11; unfold overflowAt; norm_num
  · show _ < smallestNormal 11 / 10
    unfold smallestNormal
    rw [lt_div_iff₀ (by norm_num)]
    calc (2 : ℚ) ^ (-1075 : Int) * 10 < 2 ^ (-1075 : Int) * 2 ^ (4 : Int) :=
          mul_lt_mul_of_pos_left (by norm_num) (zpow_pos (by norm_num) _)
      _ = 2 ^ (-1071 : Int) := by rw [← zpow_add₀ (by norm_num)]; norm_num
      _ < 2 ^ (2 - 2 ^ (11 - 1) : Int) := by
          rw [zpow_lt_zpow_iff_right₀ (by norm_num)]; norm_num

theorem q_le_largest {F : Fmt} (hF : F.Ok) (p : Nat) (hp : p < F.inf) : F.q (magOf F.mb p) ≤ largestFinite F.mb F.eb := by
  rw [← (maxP_value hF).2]
  unfold Fmt.q
  have : magOf F.mb p ≤ magOf F.mb F.maxP := magOf_le_iff.2 (by unfold Fmt.maxP; omega)
  have : (magOf F.mb p : ℚ) ≤ magOf F.mb F.maxP := by exact_mod_cast this
  exact div_le_div_of_nonneg_right this (by positivity)

/-- The printed number does not overflow. -/
theorem printed_finite {F : Fmt} {P c : Nat} {E : Int} (hFP : Printed F P) (hL : Limits F P c E) (p : Nat) (hp : p < F.inf)
    (hm : 0 < magOf F.mb p) : (F.D P (magOf F.mb p) : ℚ) * 10 ^ (F.dec (magOf F.mb p) + 1 - P) < overflowAt F.mb F.eb := by
  have h10 : (10 : ℚ) ≠ 0 := by norm_num
  have hq := q_le_largest hFP.sup.ok p hp
  obtain ⟨d1, d2⟩ := dec_spec hFP.scaled (magOf F.mb p) hm
  obtain ⟨b1, b2⟩ := D_bounds hFP.scaled P (magOf F.mb p) hFP.one hm
  obtain ⟨_, _, _, h4, _⟩ := pair_spec hFP.scaled P (magOf F.mb p) hFP.one hm
  generalize magOf F.mb p = m at *
  have hlt : F.dec m < E + 1 := by
    rw [← zpow_lt_zpow_iff_right₀ (show (1 : ℚ) < 10 by norm_num)]
    exact lt_of_le_of_lt (d1.trans hq) hL.decade
  rcases (show F.dec m = E ∨ F.dec m + 1 ≤ E by omega) with he | he
  · rw [he] at h4 ⊢
    have hg : (0 : ℚ) < 10 ^ (E + 1 - (P : Int)) := zpow_pos (by norm_num) _
    have h5 := (abs_le.1 h4).2
    have h6 : (F.D P m : ℚ) * 10 ^ (E + 1 - (P : Int)) < ((c : ℚ) + 1) * 10 ^ (E + 1 - (P : Int)) := by
      have := hL.digits
      nlinarith
    have h7 : (F.D P m : ℚ) < (c : ℚ) + 1 := lt_of_mul_lt_mul_right h6 hg.le
    have h8 : F.D P m ≤ c := by
      have : F.D P m < c + 1 := by exact_mod_cast h7
      omega
    have h9 : (F.D P m : ℚ) ≤ c := by exact_mod_cast h8
    exact lt_of_le_of_lt (mul_le_mul_of_nonneg_right h9 hg.le) hL.finite
  · refine lt_of_le_of_lt ?_ hL.below
    have hg : (0 : ℚ) < 10 ^ (F.dec m + 1 - (P : Int)) := zpow_pos (by norm_num) _
    have h9 : (F.D P m : ℚ) ≤ 10 ^ P := by exact_mod_cast b2
    calc (F.D P m : ℚ) * 10 ^ (F.dec m + 1 - (P : Int)) ≤ 10 ^ P * 10 ^ (F.dec m + 1 - (P : Int)) := mul_le_mul_of_nonneg_right h9 hg.le
      _ = 10 ^ (F.dec m + 1) := by rw [← zpow_natCast, ← zpow_add₀ h10]; congr 1; omega
      _ ≤ 10 ^ E := zpow_le_zpow_right₀ (by norm_num) he

/-- Printing, reading and printing again. -/
theorem reprint {F : Fmt} {P c : Nat} {E : Int} (hFP : Printed F P) (hL : Limits F P c E) (b : BitVec F.width) {w : ℚ}
    (hw : FloatValue F.mb F.eb b.toNat w) (h0 : w = 0 ∨ smallestNormal F.eb ≤ |w|) :
    ∃ e b', F.setNumber (F.print P b) = (e, some b') ∧ F.print P b' = F.print P b ∧
      (w = 0 ∨ smallestNormal F.eb * (1 + 1 / 10 ^ (P - 1)) ≤ |w| → e = .None) := by
  have h10 : (10 : ℚ) ≠ 0 := by norm_num
  have hok := hFP.sup.ok
  rw [floatValue_iff hok b.toNat b.isLt] at hw
  obtain ⟨hp, rfl⟩ := hw
  have hb := make_of b
  generalize decide (2 ^ (F.mb + F.eb) ≤ b.toNat) = neg at *
  generalize b.toNat % 2 ^ (F.mb + F.eb) = p at *
  subst hb
  have hx : |signedQ neg ((magOf F.mb p : ℚ) / 2 ^ F.u)| = F.q (magOf F.mb p) := by
    have : (0 : ℚ) ≤ (magOf F.mb p : ℚ) / 2 ^ F.u := by positivity
    cases neg
    · exact abs_of_nonneg this
    · simp only [signedQ, if_true]; rw [abs_neg]; exact abs_of_nonneg this
  have hprint := print_make hok P neg p hp
  by_cases hm : magOf F.mb p = 0
  · -- zero
    rw [if_pos hm] at hprint
    have hdec := number_decimal (zero_number neg)
    have hov : (0 : ℚ) < overflowAt F.mb F.eb := by have := two_le_overflow hok; linarith
    obtain ⟨b', g1, g2, g3⟩ := read_print hFP hdec ⟨0, 0, Nat.pow_pos (by decide), by simp⟩ (.inl rfl) hov
    refine ⟨.None, b', by rw [hprint]; exact g1, ?_, fun _ => rfl⟩
    -- what was stored is the zero of that sign
    have hp0 : p = 0 := magOf_inj (mb := F.mb) (by rw [hm]; unfold magOf; simp)
    obtain ⟨n, d, hst, hd, hnd⟩ := strtod_decimal hdec
    have hn := (frac_zero_iff hd).1 hnd
    have hs : F.setNumber (sgn neg ++ [0x30#8]) = (.None, some (F.make neg 0)) := by
      unfold Fmt.setNumber Fmt.oor Fmt.round
      rw [hst]
      simp only [hn, ne_eq, not_true_eq_false, false_and, decide_false, Bool.false_eq_true, if_false, Nat.zero_mul, roundP_zero, Nat.zero_min]
    rw [hs] at g1
    cases g1
    rw [hp0]
  · have hm' : 0 < magOf F.mb p := by omega
    rw [if_neg hm, showMag_canon P _ hFP.one] at hprint
    obtain ⟨h1, h2, h3, h4, h5⟩ := pair_spec hFP.scaled P (magOf F.mb p) hFP.one hm'
    obtain ⟨d1, d2⟩ := dec_spec hFP.scaled (magOf F.mb p) hm'
    obtain ⟨b1, b2⟩ := D_bounds hFP.scaled P (magOf F.mb p) hFP.one hm'
    have hnum := canon_number P (F.pair P (magOf F.mb p)).1 (F.pair P (magOf F.mb p)).2 hFP.one _ neg (sgn_sign neg)
    rw [← hprint, h3] at hnum
    have hov := printed_finite hFP hL p hp hm'
    have hw0 : signedQ neg ((magOf F.mb p : ℚ) / 2 ^ F.u) ≠ 0 := by
      intro h
      rw [h, abs_zero] at hx
      have := d1
      rw [← hx] at this
      exact absurd this (not_le.2 (zpow_pos (by norm_num) _))
    have hmin := h0.resolve_left hw0
    rw [hx] at hmin
    -- the printed value is at least a power of ten
    have hy10 : (10 : ℚ) ^ F.dec (magOf F.mb p) ≤ (F.D P (magOf F.mb p) : ℚ) * 10 ^ (F.dec (magOf F.mb p) + 1 - P) := by
      have hg : (0 : ℚ) < 10 ^ (F.dec (magOf F.mb p) + 1 - (P : Int)) := zpow_pos (by norm_num) _
      have b1' : (10 : ℚ) ^ (P - 1) ≤ F.D P (magOf F.mb p) := by exact_mod_cast b1
      calc (10 : ℚ) ^ F.dec (magOf F.mb p) = 10 ^ (P - 1) * 10 ^ (F.dec (magOf F.mb p) + 1 - (P : Int)) := by
            rw [← zpow_natCast, ← zpow_add₀ h10]; congr 1; have := hFP.one; omega
        _ ≤ _ := mul_le_mul_of_nonneg_right b1' hg.le
    by_cases ht : tinyBelow F.mb F.eb ≤ (F.D P (magOf F.mb p) : ℚ) * 10 ^ (F.dec (magOf F.mb p) + 1 - P)
    · -- in range
      obtain ⟨n, d, hst, hd, hnd⟩ := strtod_decimal (number_decimal hnum)
      rw [← hnd] at ht hov
      have hnear := round_near hok n d hd ht
      have hnov : roundP F.mb (n * 2 ^ F.u) d < F.inf := by
        by_contra hc
        exact absurd ((overflow_iff hok n d hd).1 (Nat.le_of_not_lt hc)) (not_le.2 hov)
      have hoor : F.oor n d = false := by
        unfold Fmt.oor
        refine decide_eq_false ?_
        rintro ⟨_, h2 | h2⟩
        · omega
        · exact absurd ((tiny_iff hok n d hd).1 h2) (not_lt.2 ht)
      have hset : F.setNumber (F.print P (F.make neg p)) = (.None, some (F.make neg (roundP F.mb (n * 2 ^ F.u) d))) := by
        unfold Fmt.setNumber
        have hr : F.round n d = roundP F.mb (n * 2 ^ F.u) d := by
          unfold Fmt.round; exact Nat.min_eq_left (by omega)
        simp only [hst, hoor, hr, Bool.false_eq_true, if_false]
      refine ⟨_, _, hset, ?_, fun _ => rfl⟩
      have hpos : 0 < (n : ℚ) / d := lt_of_lt_of_le (tiny_pos hok) ht
      have hmm : 0 < magOf F.mb (roundP F.mb (n * 2 ^ F.u) d) := by
        rcases Nat.eq_zero_or_pos (magOf F.mb (roundP F.mb (n * 2 ^ F.u) d)) with h1 | h1
        · rw [h1] at hnear
          unfold Fmt.q at hnear
          rw [Nat.cast_zero, zero_div, zero_sub, abs_neg, abs_of_pos hpos] at hnear
          have : (1 : ℚ) ≤ 2 ^ F.mb := one_le_pow₀ (by norm_num)
          nlinarith
        · exact h1
      rw [hnd, ← h3] at hnear
      rw [print_near hFP neg _ hnov hmm _ _ h1 h2 hnear, hprint]
    · -- below the smallest normal number, which is stored instead and prints the same
      have ht := not_le.1 ht
      have hypos : 0 < (F.D P (magOf F.mb p) : ℚ) * 10 ^ (F.dec (magOf F.mb p) + 1 - P) :=
        lt_of_lt_of_le (zpow_pos (by norm_num) _) hy10
      obtain ⟨n, d, hst, hd, hnd⟩ := strtod_decimal (number_decimal hnum)
      have hbig : (2 : ℚ) ^ (-1075 : Int) < (n : ℚ) / d := by
        rw [hnd]
        refine lt_of_lt_of_le hL.small ((?_ : smallestNormal F.eb / 10 ≤ 10 ^ F.dec (magOf F.mb p)).trans hy10)
        rw [div_le_iff₀ (by norm_num)]
        rw [zpow_add₀ h10, zpow_one] at d2
        linarith
      have hset : F.setNumber (F.print P (F.make neg p)) = (.OutOfRange, some (F.make neg F.minP)) := by
        have hnone := small_not_above_one n d hd (by rw [hnd]; exact ht.le.trans (tiny_le_one hok))
        have hn : n ≠ 0 := by
          rintro rfl
          rw [← hnd] at hypos
          simp at hypos
        have hoor : F.oor n d = true := by
          unfold Fmt.oor
          exact decide_eq_true ⟨hn, .inr ((tiny_iff hok n d hd).2 (by rw [hnd]; exact ht))⟩
        have hpos := (pos_iff n d hd).2 hbig
        have hc : F.clamp neg n d = (neg, F.minP) := by
          unfold Fmt.clamp atofPos atofAboveOne atofBelowMinusOne
          cases neg <;> simp [hnone, hpos]
        unfold Fmt.setNumber
        simp only [hst, hoor, hc, if_true]
      obtain ⟨hmi, hmv⟩ := minP_value hok
      have hm2 : 0 < magOf F.mb F.minP := by
        rcases Nat.eq_zero_or_pos (magOf F.mb F.minP) with h | h
        · rw [h, normal_units hok] at hmv
          have : (0 : ℚ) < 2 ^ F.mb / 2 ^ F.u := by positivity
          simp at hmv
          linarith
        · exact h
      have hqm : F.q (magOf F.mb F.minP) = smallestNormal F.eb := hmv
      obtain ⟨e1, e2⟩ := dec_spec hFP.scaled (magOf F.mb F.minP) hm2
      obtain ⟨_, _, _, e4, _⟩ := pair_spec hFP.scaled P (magOf F.mb F.minP) hFP.one hm2
      have hsn : 0 < smallestNormal F.eb := by rw [normal_units hok]; positivity
      have hyn : (F.D P (magOf F.mb p) : ℚ) * 10 ^ (F.dec (magOf F.mb p) + 1 - P) < smallestNormal F.eb := by
        refine lt_of_lt_of_le ht ?_
        unfold tinyBelow
        have : (0 : ℚ) ≤ 1 / 2 ^ (F.mb + 2) := by positivity
        nlinarith
      have hdec : F.dec (magOf F.mb F.minP) = F.dec (magOf F.mb p) := by
        apply le_antisymm
        · by_contra hc
          have hc : F.dec (magOf F.mb p) + 1 ≤ F.dec (magOf F.mb F.minP) := by omega
          have := zpow_le_zpow_right₀ (show (1 : ℚ) ≤ 10 by norm_num) hc
          rw [hqm] at e1
          linarith
        · by_contra hc
          have hc : F.dec (magOf F.mb F.minP) + 1 ≤ F.dec (magOf F.mb p) := by omega
          have := zpow_le_zpow_right₀ (show (1 : ℚ) ≤ 10 by norm_num) hc
          rw [hqm] at e2
          linarith
      have hD : F.D P (magOf F.mb F.minP) = F.D P (magOf F.mb p) := by
        apply Nat.le_antisymm
        · apply rhe_mono _ _ _ _ (D_pos _ _) (D_pos _ _)
          rw [D_ratio F P _ hFP.one, D_ratio F P _ hFP.one, hdec, hqm]
          exact mul_le_mul_of_nonneg_right hmin (zpow_nonneg (by norm_num) _)
        · rw [hdec, hqm] at e4
          have hg : (0 : ℚ) < 10 ^ (F.dec (magOf F.mb p) + 1 - (P : Int)) := zpow_pos (by norm_num) _
          have := (abs_le.1 e4).1
          have h6 : (F.D P (magOf F.mb p) : ℚ) * 10 ^ (F.dec (magOf F.mb p) + 1 - (P : Int)) <
              ((F.D P (magOf F.mb F.minP) : ℚ) + 1) * 10 ^ (F.dec (magOf F.mb p) + 1 - (P : Int)) := by nlinarith
          have h7 := lt_of_mul_lt_mul_right h6 hg.le
          have h8 : F.D P (magOf F.mb p) < F.D P (magOf F.mb F.minP) + 1 := by exact_mod_cast h7
          omega
      have hpair : F.pair P (magOf F.mb F.minP) = F.pair P (magOf F.mb p) := by
        unfold Fmt.pair; rw [hD, hdec]
      refine ⟨_, _, hset, ?_, fun hbig' => ?_⟩
      · rw [print_make hok P neg _ hmi, if_neg (by omega), showMag_canon P _ hFP.one, hpair, hprint]
      · exfalso
        have hb2 := hbig'.resolve_left hw0
        rw [hx] at hb2
        have h6 := (abs_le.1 h4).1
        have h7 : (10 : ℚ) ^ (F.dec (magOf F.mb p) + 1 - (P : Int)) = 10 ^ F.dec (magOf F.mb p) * (1 / 10 ^ (P - 1)) := by
          rw [show (F.dec (magOf F.mb p) + 1 - (P : Int)) = F.dec (magOf F.mb p) - ((P - 1 : Nat) : Int) by
            have := hFP.one; omega, zpow_sub₀ h10, zpow_natCast]
          ring
        have h8 : (0 : ℚ) < 1 / 10 ^ (P - 1) := by positivity
        have h8' : (1 : ℚ) / 10 ^ (P - 1) ≤ 1 := by
          rw [div_le_one (by positivity)]; exact one_le_pow₀ (by norm_num)
        rw [h7] at h6 hyn
        generalize (1 : ℚ) / 10 ^ (P - 1) = ε at *
        have h9 : (10 : ℚ) ^ F.dec (magOf F.mb p) * ε ≤ F.q (magOf F.mb p) * ε := mul_le_mul_of_nonneg_right d1 h8.le
        nlinarith

/-! ## Fields of an object -/

/-- Size of the field, fraction bits, exponent bits and printed digits of `float` and `double`. -/
def FieldKind (n mb eb P : Nat) : Prop := (n = 4 ∧ mb = 23 ∧ eb = 8 ∧ P = 6) ∨ (n = 8 ∧ mb = 52 ∧ eb = 11 ∧ P = 13)

/-- What the two accessors do with a field, for any text and object. -/
theorem field_access (enums : BitVec 32 → Option EnumTab) (c : ClassTab) (h : BitVec 32) (r : RType) (n mb eb P : Nat)
    (hr : typeOf c h = some r) (hty : r.type = .FloatingPoint) (hn : r.subSize.toNat = n) (hk : FieldKind n mb eb P) :
    ∃ F k E, Printed F P ∧ Limits F P k E ∧ F.mb = mb ∧ F.eb = eb ∧ F.width = 8 * n ∧
      (∀ t s o, Indented t s → setByName (cEnv enums) c h t o = storeBits o r.offset.toNat n (setFloat F.setNumber s)) ∧
      (∀ o, getByName (cEnv enums) c h o = some (F.print P (BitVec.ofNat F.width (o.nat r.offset.toNat n)))) := by
  have hset : ∀ t o, setByName (cEnv enums) c h t o = setMember (cEnv enums) r t r.offset.toNat o := by
    intro t o
    unfold setByName
    rw [hr]
    simp only [setValue, hty]
    rfl
  have hget : ∀ o, getByName (cEnv enums) c h o = printMember (cEnv enums) r r.offset.toNat o := by
    intro o
    unfold typeOf at hr
    cases hl : lookup c h with
    | none => rw [hl] at hr; cases hr
    | some i =>
      rw [hl] at hr
      simp only [Option.bind_some] at hr
      unfold getByName getByID
      simp only [hl, hr, hty]
      rfl
  rcases hk with ⟨rfl, rfl, rfl, rfl⟩ | ⟨rfl, rfl, rfl, rfl⟩
  · refine ⟨f32, _, _, printed32, limits32, rfl, rfl, rfl, ?_, ?_⟩
    · intro t s o hi
      rw [hset]
      unfold setMember member
      simp only [hty, hn, indented_skip hi]
      rfl
    · intro o
      rw [hget]
      unfold printMember print
      simp only [hty, hn, if_true]
      rfl
  · refine ⟨f64, _, _, printed64, limits64, rfl, rfl, rfl, ?_, ?_⟩
    · intro t s o hi
      rw [hset]
      unfold setMember member
      simp only [hty, hn, indented_skip hi]
      rfl
    · intro o
      rw [hget]
      unfold printMember print
      simp only [hty, hn, if_true, show (8 : Nat) ≠ 4 by decide, if_false]
      rw [show (cEnv enums).showDouble = f64.print 13 from rfl, show leNat (o.read r.offset.toNat 8) = o.nat r.offset.toNat 8 from rfl]
      congr 2

theorem field_lt (o : Obj) (a n : Nat) : o.nat a n < 2 ^ (8 * n) := by
  unfold Obj.nat
  have := leNat_lt (o.read a n)
  rwa [show (o.read a n).length = n by simp [Obj.read], pow_256_8] at this

/-- The text of a number starts with no blank. -/
theorem number_indented {t : Text} {neg : Bool} {v : ℚ} (h : DecimalNumber t neg v) : Indented t t := by
  refine ⟨[], rfl, by simp, ?_⟩
  cases h with
  | @mk sg neg ip ids fp fds ex e hs hi hf hne he =>
    intro c hc
    unfold Supercore.IsBlank
    cases hs with
    | none =>
      obtain ⟨x, rest, hx, hx'⟩ := head_spec (tail := ex) hi hf hne
      rw [List.nil_append, hx] at hc
      simp only [List.head?_cons, Option.some.injEq] at hc
      subst hc
      rcases hx' with rfl | hx'
      · decide
      · rintro (rfl | rfl | ⟨h1, rfl⟩) <;> simp at hx'
    | plus => simp at hc; subst hc; decide
    | minus => simp at hc; subst hc; decide

/-- **C140.** A `float` (`double`) field that holds a finite number reads as the decimal text of that number rounded to 6 (13)
significant digits, halves to even, with its sign; zero reads as 0. -/
theorem get_float_rounded (enums : BitVec 32 → Option EnumTab) (c : ClassTab) (h : BitVec 32) (r : RType) (n mb eb P : Nat) (o : Obj)
    (hr : typeOf c h = some r) (hty : r.type = .FloatingPoint) (hn : r.subSize.toNat = n) (hk : FieldKind n mb eb P)
    (w : ℚ) (hw : FloatValue mb eb (o.nat r.offset.toNat n) w) :
    ∃ t y, getByName (cEnv enums) c h o = some t ∧
      DecimalNumber t (decide (2 ^ (mb + eb) ≤ o.nat r.offset.toNat n)) y ∧ (w = 0 → y = 0) ∧ (w ≠ 0 → Rounded P |w| y) := by
  obtain ⟨F, k, E, hFP, hL, rfl, rfl, hwd, -, hget⟩ := field_access enums c h r n mb eb P hr hty hn hk
  have hb : (BitVec.ofNat F.width (o.nat r.offset.toNat n)).toNat = o.nat r.offset.toNat n := by
    rw [BitVec.toNat_ofNat]; exact Nat.mod_eq_of_lt (by rw [hwd]; exact field_lt _ _ _)
  obtain ⟨y, h1, h2, h3⟩ := print_finite hFP (BitVec.ofNat F.width (o.nat r.offset.toNat n)) (w := w) (by rw [hb]; exact hw)
  rw [hb] at h1
  exact ⟨_, y, hget o, h1, h2, h3⟩

/-- **C140.** A number of at most 6 (13) significant digits, zero or in the range of normal numbers, survives: after assigning its text
the field reads as a text of the same number, and assigning that text to the field of any object stores the same bits. -/
theorem set_get_short (enums : BitVec 32 → Option EnumTab) (c : ClassTab) (h : BitVec 32) (r : RType) (n mb eb P : Nat) (o : Obj)
    (hr : typeOf c h = some r) (hty : r.type = .FloatingPoint) (hn : r.subSize.toNat = n) (hk : FieldKind n mb eb P)
    (t s : Text) (hi : Indented t s) (neg : Bool) (v : ℚ) (hd : Decimal s neg v) (hs : SigDigits P v)
    (h0 : v = 0 ∨ tinyBelow mb eb ≤ v) (hv : v < overflowAt mb eb) :
    let res := setByName (cEnv enums) c h t o
    res.1 = .None ∧ ∃ t', getByName (cEnv enums) c h res.2 = some t' ∧ DecimalNumber t' neg v ∧
      ∀ o', (setByName (cEnv enums) c h t' o').1 = .None ∧
        (setByName (cEnv enums) c h t' o').2.nat r.offset.toNat n = res.2.nat r.offset.toNat n := by
  obtain ⟨F, k, E, hFP, hL, rfl, rfl, hwd, hset, hget⟩ := field_access enums c h r n mb eb P hr hty hn hk
  obtain ⟨b, g1, g2, g3⟩ := read_print hFP hd hs h0 hv
  simp only [hset t s o hi, set_decimal hd, g1]
  have hb : BitVec.ofNat F.width ((storeBits o r.offset.toNat n (Err.None, some b)).2.nat r.offset.toNat n) = b := by
    rw [store_pattern o _ n hwd]; simp
  refine ⟨rfl, F.print P b, by rw [hget, hb], g2, fun o' => ?_⟩
  rw [hset _ _ o' (number_indented g2), set_decimal (number_decimal g2), g3, store_pattern o' _ n hwd, store_pattern o _ n hwd]
  exact ⟨rfl, rfl⟩

/-- **C140.** Saving, loading and saving again: for a field that holds zero or a normal number, its text assigned to the field of any
object makes that field read as the same text; without an error unless the number is within one unit of the last printed digit of
the smallest normal number. -/
theorem get_set_get_stable (enums : BitVec 32 → Option EnumTab) (c : ClassTab) (h : BitVec 32) (r : RType) (n mb eb P : Nat) (o : Obj)
    (hr : typeOf c h = some r) (hty : r.type = .FloatingPoint) (hn : r.subSize.toNat = n) (hk : FieldKind n mb eb P)
    (w : ℚ) (hw : FloatValue mb eb (o.nat r.offset.toNat n) w) (h0 : w = 0 ∨ smallestNormal eb ≤ |w|) :
    ∃ t, getByName (cEnv enums) c h o = some t ∧ ∀ o', let res := setByName (cEnv enums) c h t o'
      getByName (cEnv enums) c h res.2 = some t ∧
      (w = 0 ∨ smallestNormal eb * (1 + 1 / 10 ^ (P - 1)) ≤ |w| → res.1 = .None) := by
  obtain ⟨F, k, E, hFP, hL, rfl, rfl, hwd, hset, hget⟩ := field_access enums c h r n mb eb P hr hty hn hk
  have hb : (BitVec.ofNat F.width (o.nat r.offset.toNat n)).toNat = o.nat r.offset.toNat n := by
    rw [BitVec.toNat_ofNat]; exact Nat.mod_eq_of_lt (by rw [hwd]; exact field_lt _ _ _)
  have hw' : FloatValue F.mb F.eb (BitVec.ofNat F.width (o.nat r.offset.toNat n)).toNat w := by rw [hb]; exact hw
  obtain ⟨y, h1, -, -⟩ := print_finite hFP _ hw'
  obtain ⟨e, b', g1, g2, g3⟩ := reprint hFP hL _ hw' h0
  refine ⟨_, hget o, fun o' => ?_⟩
  simp only [hset _ _ o' (number_indented h1), set_decimal (number_decimal h1), g1]
  have hb' : BitVec.ofNat F.width ((storeBits o' r.offset.toNat n (e, some b')).2.nat r.offset.toNat n) = b' := by
    rw [store_pattern o' _ n hwd]; simp
  refine ⟨by rw [hget, hb', g2], fun hh => ?_⟩
  exact g3 hh

/-! ## Length and characters of the texts -/

theorem stripZeros_len (t : Text) : (stripZeros t).length ≤ t.length := by
  unfold stripZeros
  rw [List.length_reverse]
  have := (List.dropWhile_sublist (l := t.reverse) (· == 0x30#8)).length_le
  simpa using this

theorem fraction_len (t : Text) : (fraction t).length ≤ t.length + 1 := by
  unfold fraction
  have := stripZeros_len t
  simp only
  split
  · simp
  · simp; omega

theorem padded_len (q n : Nat) (hn : n < 10 ^ q) : (padded q n).length ≤ q + 1 := by
  unfold padded
  simp only [List.length_append, List.length_replicate]
  have := showNat_len q n (Nat.lt_of_lt_of_le hn (Nat.pow_le_pow_right (by decide) (by omega)))
  rcases Nat.eq_zero_or_pos q with rfl | hq
  · simp only [Nat.zero_sub, Nat.zero_add]; omega
  · have := showNat_len (q - 1) n (by rwa [show q - 1 + 1 = q by omega])
    omega

theorem canon_len (P k : Nat) (X : Int) (hP : 1 ≤ P) (hk : k < 10 ^ P) (hX : X.natAbs < 1000) : (canonText P k X).length ≤ P + 8 := by
  have hmod : ∀ q, k % 10 ^ q < 10 ^ q := fun q => Nat.mod_lt _ (Nat.pow_pos (by decide))
  have fl : ∀ q, (fraction (padded q (k % 10 ^ q))).length ≤ q + 2 := by
    intro q
    have h1 := fraction_len (padded q (k % 10 ^ q))
    have h2 := padded_len q _ (hmod q)
    omega
  unfold canonText
  split
  · rename_i hc
    simp only [List.length_append]
    have h1 := fl ((P : Int) - 1 - X).toNat
    by_cases h0 : X < 0
    · have hq : P ≤ ((P : Int) - 1 - X).toNat := by omega
      have : k / 10 ^ ((P : Int) - 1 - X).toNat = 0 :=
        Nat.div_eq_of_lt (Nat.lt_of_lt_of_le hk (Nat.pow_le_pow_right (by decide) hq))
      rw [this]
      have h2 := showNat_len 0 0 (by decide)
      omega
    · have h2 := showNat_len X.toNat (k / 10 ^ ((P : Int) - 1 - X).toNat) (by
        rw [Nat.div_lt_iff_lt_mul (Nat.pow_pos (by decide)), ← Nat.pow_add]
        rwa [show X.toNat + 1 + ((P : Int) - 1 - X).toNat = P by omega])
      omega
  · simp only [List.length_append]
    have h1 := fl (P - 1)
    have h2 := showNat_len 0 (k / 10 ^ (P - 1)) (by
      rw [Nat.div_lt_iff_lt_mul (Nat.pow_pos (by decide)), ← Nat.pow_add]
      rwa [show 0 + 1 + (P - 1) = P by omega])
    have h3 : (showExp X).length ≤ 5 := by
      unfold showExp padded
      have := showNat_len 2 X.natAbs (by omega)
      simp only [List.length_cons, List.length_append, List.length_replicate]
      omega
    omega

/-- The buffer of 32 characters is large enough for every number, infinity and NaN. -/
theorem print_len {F : Fmt} {P c : Nat} {E : Int} (hFP : Printed F P) (hL : Limits F P c E) (hE : E.natAbs < 900) (hs : F.scale < 900)
    (hP : P ≤ 13) (b : BitVec F.width) : (F.print P b).length ≤ 22 := by
  have hok := hFP.sup.ok
  have hsg : ∀ neg : Bool, (if neg then [0x2d#8] else ([] : Text)).length ≤ 1 := by intro neg; cases neg <;> simp
  by_cases hp : b.toNat % 2 ^ (F.mb + F.eb) < F.inf
  · have hb := make_of b
    generalize decide (2 ^ (F.mb + F.eb) ≤ b.toNat) = neg at *
    generalize b.toNat % 2 ^ (F.mb + F.eb) = p at *
    subst hb
    rw [print_make hok P neg p hp]
    have hs1 := hsg neg
    change (sgn neg).length ≤ 1 at hs1
    rw [List.length_append]
    split
    · simp; omega
    · rename_i hm
      rw [showMag_canon P _ hFP.one]
      have hm' : 0 < magOf F.mb p := by omega
      obtain ⟨h1, h2, -⟩ := pair_spec hFP.scaled P (magOf F.mb p) hFP.one hm'
      obtain ⟨d1, d2⟩ := dec_spec hFP.scaled (magOf F.mb p) hm'
      have hlt : F.dec (magOf F.mb p) < E + 1 := by
        rw [← zpow_lt_zpow_iff_right₀ (show (1 : ℚ) < 10 by norm_num)]
        exact lt_of_le_of_lt (d1.trans (q_le_largest hok p hp)) hL.decade
      have hge : -(F.scale : Int) ≤ F.dec (magOf F.mb p) := by unfold Fmt.dec; omega
      have hX : (F.pair P (magOf F.mb p)).2.natAbs < 1000 := by
        unfold Fmt.pair
        split <;> simp only <;> omega
      have := canon_len P _ _ hFP.one h2 hX
      omega
  · unfold Fmt.print Fmt.val
    simp only [if_neg hp]
    have hs1 := hsg (decide (2 ^ (F.mb + F.eb) ≤ b.toNat))
    split <;> rename_i heq
    · split at heq <;> cases heq
    · split at heq <;> cases heq
      simp only [List.length_append, List.length_cons, List.length_nil]; omega
    · split at heq <;> cases heq
      simp only [List.length_append, List.length_cons, List.length_nil]; omega

/-- Characters of a decimal number. -/
def NumChar (c : Byte) : Prop := (48 ≤ c.toNat ∧ c.toNat ≤ 57) ∨ c = 0x2e#8 ∨ c = 0x65#8 ∨ c = 0x45#8 ∨ c = 0x2b#8 ∨ c = 0x2d#8

theorem number_chars {t : Text} {neg : Bool} {v : ℚ} (h : DecimalNumber t neg v) : ∀ c ∈ t, NumChar c := by
  have hdg : ∀ {cs : Text} {ds}, DigitChars 10 cs ds → ∀ c ∈ cs, NumChar c := by
    intro cs ds h
    induction h with
    | nil => intro c hc; cases hc
    | cons h1 _ ih =>
      intro c hc
      rcases List.mem_cons.1 hc with rfl | hc
      · exact .inl (digit_range h1)
      · exact ih c hc
  have hsg : ∀ {sg : Text} {neg}, Sign sg neg → ∀ c ∈ sg, NumChar c := by
    intro sg neg h c hc
    unfold NumChar
    cases h
    · cases hc
    · simp at hc; subst hc; decide
    · simp at hc; subst hc; decide
  cases h with
  | mk hs hi hf hne he =>
    intro c hc
    simp only [List.mem_append] at hc
    rcases hc with ((hc | hc) | hc) | hc
    · exact hsg hs c hc
    · exact hdg hi c hc
    · cases hf with
      | none => cases hc
      | some hf =>
        rcases List.mem_cons.1 hc with rfl | hc
        · unfold NumChar; decide
        · exact hdg hf c hc
    · cases he with
      | none => cases hc
      | some h1 h2 h3 _ =>
        rcases List.mem_cons.1 hc with rfl | hc
        · unfold NumChar; rcases h1 with rfl | rfl <;> decide
        · rcases List.mem_append.1 hc with hc | hc
          · exact hsg h2 c hc
          · exact hdg h3 c hc

theorem number_clean {t : Text} {neg : Bool} {v : ℚ} (h : DecimalNumber t neg v) (hl : t.length < 2 ^ 20) : ReflXml.Clean t := by
  have hch := number_chars h
  refine ⟨fun c hc => ?_, ?_, hl⟩
  · rcases hch c hc with h | rfl | rfl | rfl | rfl | rfl
    · refine ⟨?_, ?_, ?_, ?_, ?_, ?_, ?_⟩
      · rintro rfl; simp at h
      · cases ho : opens c with
        | false => rfl
        | true => unfold opens at ho; simp at ho; rcases ho with ((rfl | rfl) | rfl) | rfl <;> simp at h
      · cases ho : closes c with
        | false => rfl
        | true => unfold closes at ho; simp at ho; rcases ho with ((rfl | rfl) | rfl) | rfl <;> simp at h
      all_goals (rintro rfl; simp at h)
    all_goals decide
  · have hne : t ≠ [] := by
      rintro rfl
      exact decimal_not_blank (number_decimal h) rfl
    cases t with
    | nil => exact absurd rfl hne
    | cons c t =>
      refine ⟨c, rfl, ?_⟩
      rcases hch c (by simp) with h | rfl | rfl | rfl | rfl | rfl
      · omega
      all_goals decide

/-- **C140.** The 32 byte buffer the text is printed to (reflector.cpp:778) is large enough, whatever bits the field holds: at most 22
characters. -/
theorem get_float_length (enums : BitVec 32 → Option EnumTab) (c : ClassTab) (h : BitVec 32) (r : RType) (n mb eb P : Nat) (o : Obj)
    (hr : typeOf c h = some r) (hty : r.type = .FloatingPoint) (hn : r.subSize.toNat = n) (hk : FieldKind n mb eb P) :
    ∃ t, getByName (cEnv enums) c h o = some t ∧ t.length ≤ 22 := by
  have hP : P ≤ 13 := by rcases hk with ⟨_, _, _, rfl⟩ | ⟨_, _, _, rfl⟩ <;> decide
  rcases hk with hk | hk
  · obtain ⟨rfl, rfl, rfl, rfl⟩ := hk
    obtain ⟨F, k, E, hFP, hL, h1, h2, -, -, hget⟩ := field_access enums c h r _ _ _ _ hr hty hn (.inl ⟨rfl, rfl, rfl, rfl⟩)
    have : F = f32 := by cases F; simp only at h1 h2; subst h1 h2; rfl
    subst this
    exact ⟨_, hget o, print_len printed32 limits32 (by decide) (by decide) (by decide) _⟩
  · obtain ⟨rfl, rfl, rfl, rfl⟩ := hk
    obtain ⟨F, k, E, hFP, hL, h1, h2, -, -, hget⟩ := field_access enums c h r _ _ _ _ hr hty hn (.inr ⟨rfl, rfl, rfl, rfl⟩)
    have : F = f64 := by cases F; simp only at h1 h2; subst h1 h2; rfl
    subst this
    exact ⟨_, hget o, print_len printed64 limits64 (by decide) (by decide) (by decide) _⟩

/-- A pattern some text of at most `P` digits is read as. -/
def Short (F : Fmt) (P : Nat) (b : BitVec F.width) : Prop :=
  ∃ s neg v, Decimal s neg v ∧ SigDigits P v ∧ F.setNumber s = (.None, some b)

theorem short_print {F : Fmt} {P : Nat} (hFP : Printed F P) {b : BitVec F.width} (h : Short F P b) :
    ∃ neg v, DecimalNumber (F.print P b) neg v ∧ F.setNumber (F.print P b) = (.None, some b) := by
  obtain ⟨s, neg, v, hd, hs, hb⟩ := h
  have hv : v < overflowAt F.mb F.eb := by
    by_contra hc
    obtain ⟨b', h1, _⟩ := assign_overflow hFP.sup (strtod_decimal hd) (not_lt.1 hc)
    rw [h1] at hb; cases hb
  have h0 : v = 0 ∨ tinyBelow F.mb F.eb ≤ v := by
    by_contra hc
    have hc0 : v ≠ 0 := fun h => hc (.inl h)
    have hc1 : v < tinyBelow F.mb F.eb := not_le.1 (fun h => hc (.inr h))
    obtain ⟨b', h1, _⟩ := assign_tiny hFP.sup (strtod_decimal hd) (lt_of_le_of_ne (decimal_nonneg hd) (Ne.symm hc0)) hc1
    rw [h1] at hb; cases hb
  obtain ⟨b', g1, g2, g3⟩ := read_print hFP hd hs h0 hv
  rw [g1] at hb
  cases hb
  exact ⟨neg, v, g2, g3⟩

/-- **C140, exactly which values survive.** Assigning the text a field reads as stores the very bits it was read from, without an
error, if and only if those bits are what assigning some decimal text of at most 6 (13) significant digits stores without an error. -/
theorem float_survives_iff (enums : BitVec 32 → Option EnumTab) (c : ClassTab) (h : BitVec 32) (r : RType) (n mb eb P : Nat) (o o' : Obj)
    (hr : typeOf c h = some r) (hty : r.type = .FloatingPoint) (hn : r.subSize.toNat = n) (hk : FieldKind n mb eb P)
    (w : ℚ) (hw : FloatValue mb eb (o.nat r.offset.toNat n) w) :
    (∃ t, getByName (cEnv enums) c h o = some t ∧ (setByName (cEnv enums) c h t o').1 = .None ∧
        (setByName (cEnv enums) c h t o').2.nat r.offset.toNat n = o.nat r.offset.toNat n) ↔
    ∃ s neg v, Indented s s ∧ Decimal s neg v ∧ SigDigits P v ∧ (setByName (cEnv enums) c h s o').1 = .None ∧
        (setByName (cEnv enums) c h s o').2.nat r.offset.toNat n = o.nat r.offset.toNat n := by
  obtain ⟨F, k, E, hFP, hL, rfl, rfl, hwd, hset, hget⟩ := field_access enums c h r n mb eb P hr hty hn hk
  have hb : (BitVec.ofNat F.width (o.nat r.offset.toNat n)).toNat = o.nat r.offset.toNat n := by
    rw [BitVec.toNat_ofNat]; exact Nat.mod_eq_of_lt (by rw [hwd]; exact field_lt _ _ _)
  have hw' : FloatValue F.mb F.eb (BitVec.ofNat F.width (o.nat r.offset.toNat n)).toNat w := by rw [hb]; exact hw
  constructor
  · rintro ⟨t, ht, h1, h2⟩
    obtain ⟨y, g1, g2, g3⟩ := print_finite hFP _ hw'
    rw [hget] at ht
    cases ht
    refine ⟨_, _, y, number_indented g1, number_decimal g1, ?_, h1, h2⟩
    by_cases h0 : w = 0
    · rw [g2 h0]; exact ⟨0, 0, Nat.pow_pos (by decide), by simp⟩
    · -- a rounded number has `P` digits
      obtain ⟨e, kk, e1, e2, rfl, e4, e5⟩ := g3 h0
      have h10 : (10 : ℚ) ≠ 0 := by norm_num
      have hg : (0 : ℚ) < 10 ^ (e + 1 - (P : Int)) := zpow_pos (by norm_num) _
      have hx : |w| < 10 ^ P * 10 ^ (e + 1 - (P : Int)) := by
        rw [← zpow_natCast, ← zpow_add₀ h10]
        rwa [show (P : Int) + (e + 1 - P) = e + 1 by ring]
      have hle : (kk : ℚ) * 10 ^ (e + 1 - (P : Int)) < (10 ^ P + 1) * 10 ^ (e + 1 - (P : Int)) := by
        have := (abs_le.1 e4).2
        nlinarith
      have hle' : kk < 10 ^ P + 1 := by
        have := lt_of_mul_lt_mul_right hle hg.le
        exact_mod_cast this
      rcases Nat.lt_or_ge kk (10 ^ P) with hk' | hk'
      · exact ⟨kk, _, hk', rfl⟩
      · have : kk = 10 ^ P := by omega
        refine ⟨1, e + 1, Nat.one_lt_pow (by have := hFP.one; omega) (by decide), ?_⟩
        rw [this]
        push_cast
        rw [← zpow_natCast, ← zpow_add₀ h10, one_mul]
        congr 1
        ring
  · rintro ⟨s, neg, v, hi, hd, hs, h1, h2⟩
    rw [hset s s o' hi, set_decimal hd] at h1 h2
    have hshort : Short F P (BitVec.ofNat F.width (o.nat r.offset.toNat n)) := by
      refine ⟨s, neg, v, hd, hs, ?_⟩
      cases hsn : F.setNumber s with
      | mk e ob =>
        rw [hsn] at h1 h2
        cases ob with
        | none =>
          exfalso
          obtain ⟨nn, dd, hst, -⟩ := strtod_decimal hd
          unfold Fmt.setNumber at hsn
          rw [hst] at hsn
          simp only at hsn
          split at hsn <;> cases hsn
        | some x =>
          rw [store_pattern o' _ n hwd] at h2
          have : e = .None := h1
          rw [this, ← h2]
          simp
    obtain ⟨neg', v', g1, g2⟩ := short_print hFP hshort
    refine ⟨_, hget o, ?_⟩
    rw [hset _ _ o' (number_indented g1), set_decimal (number_decimal g1), g2, store_pattern o' _ n hwd]
    exact ⟨rfl, hb⟩

/-- **C140 with C62.** A float field holding what some text of at most 6 (13) digits is read as is one of the members the XML round
trip theorems speak about. -/
theorem short_faithful (enums : BitVec 32 → Option EnumTab) (o : Obj) (r : RType) (a : Nat) (hty : r.type = .FloatingPoint)
    (h : (r.subSize.toNat = 4 ∧ Short f32 6 (BitVec.ofNat 32 (o.nat a 4))) ∨ (r.subSize.toNat = 8 ∧ Short f64 13 (BitVec.ofNat 64 (o.nat a 8)))) :
    ReflXml.ScalarFaithful (cEnv enums) o r a := by
  unfold ReflXml.ScalarFaithful
  rw [hty]
  simp only
  rw [show (cEnv enums).showDouble = f64.print 13 from rfl, show (cEnv enums).double = f64.setNumber from rfl,
    show (cEnv enums).showFloat = f32.print 6 from rfl, show (cEnv enums).float = f32.setNumber from rfl]
  rcases h with ⟨h1, h2⟩ | ⟨h1, h2⟩
  · left
    obtain ⟨neg, v, g1, g2⟩ := short_print printed32 h2
    refine ⟨h1, number_clean g1 ?_, ?_⟩
    · exact Nat.lt_of_le_of_lt (print_len printed32 limits32 (by decide) (by decide) (by decide) _) (by decide)
    · exact congrArg Prod.snd g2
  · right
    obtain ⟨neg, v, g1, g2⟩ := short_print printed64 h2
    refine ⟨h1, number_clean g1 ?_, ?_⟩
    · exact Nat.lt_of_le_of_lt (print_len printed64 limits64 (by decide) (by decide) (by decide) _) (by decide)
    · exact congrArg Prod.snd g2

/-! ## Values that do not survive -/

/-- An object whose first bytes are the given number. -/
def objOf (x : Nat) : Obj := ⟨fun a => BitVec.ofNat 8 (x / 256 ^ a), fun _ => []⟩

/-- **C140, violated.** Two different floats read as the same text, so one of them cannot survive saving and loading: the float next to
the one nearest to 0.1 comes back changed. -/
theorem float_text_lossy_violated :
    (objOf 0x3dcccccd).nat 0 4 ≠ (objOf 0x3dccccce).nat 0 4 ∧
    getByName (cEnv fun _ => none) exFloats 1 (objOf 0x3dcccccd) = some tTenth ∧
    getByName (cEnv fun _ => none) exFloats 1 (objOf 0x3dccccce) = some tTenth ∧
    (setByName (cEnv fun _ => none) exFloats 1 tTenth exZero).2.nat 0 4 ≠ (objOf 0x3dccccce).nat 0 4 := by decide +kernel

/-- **C140, violated.** A subnormal float, here the smallest one, reads as `1.4013e-45`; assigning that text is reported as out of range
and stores the smallest normal number, which is more than eight million times as large. -/
theorem float_subnormal_violated :
    ∃ t, getByName (cEnv fun _ => none) exFloats 1 (objOf 1) = some t ∧
      (setByName (cEnv fun _ => none) exFloats 1 t exZero).1 = .OutOfRange ∧
      (setByName (cEnv fun _ => none) exFloats 1 t exZero).2.nat 0 4 = 0x00800000 := by
  refine ⟨[0x31#8, 0x2e#8, 0x34#8, 0x30#8, 0x31#8, 0x33#8, 0x65#8, 0x2d#8, 0x34#8, 0x35#8], ?_⟩
  decide +kernel

/-! ## Concrete cases -/

/-- `set_get_short`: "0.1" has one digit. `get_set_get_stable` and `get_float_rounded`: the float 0x42f6e979 (123.456) is finite and
normal and reads as "123.456". -/
example : SigDigits 6 (1 / 10) ∧ FieldKind 4 23 8 6 ∧ FieldKind 8 52 11 13 ∧ FloatValue 23 8 ((objOf 0x42f6e979).nat 0 4) (16181625 / 131072) ∧
    smallestNormal 8 * (1 + 1 / 10 ^ (6 - 1)) ≤ |(16181625 / 131072 : ℚ)| ∧
    getByName (cEnv fun _ => none) exFloats 1 (objOf 0x42f6e979) = some [0x31#8, 0x32#8, 0x33#8, 0x2e#8, 0x34#8, 0x35#8, 0x36#8] := by
  refine ⟨⟨1, -1, by decide, by norm_num⟩, .inl ⟨rfl, rfl, rfl, rfl⟩, .inr ⟨rfl, rfl, rfl, rfl⟩, ?_, ?_, by decide +kernel⟩
  · rw [show (objOf 0x42f6e979).nat 0 4 = 0x42f6e979 by decide +kernel]
    unfold FloatValue
    norm_num
  · unfold smallestNormal; norm_num

/-- `Short` is met by 0x3dcccccd ("0.1"), and not by 0x3dccccce. -/
example : Short f32 6 0x3dcccccd#32 :=
  ⟨tTenth, false, _, tTenth_decimal, ⟨1, -1, by decide, by norm_num⟩, by decide +kernel⟩

example : ¬ Short f32 6 0x3dccccce#32 := by
  intro h
  obtain ⟨_, _, _, h2⟩ := short_print printed32 h
  have h3 : ¬ (f32.setNumber (f32.print 6 (0x3dccccce#32))).2.map BitVec.toNat = some 0x3dccccce := by decide +kernel
  refine h3 ?_
  rw [h2]
  rfl

end PreCore.FloatTextProps
