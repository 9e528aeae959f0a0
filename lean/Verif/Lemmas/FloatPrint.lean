import Verif.Lemmas.FloatDigits
/-!
# `%g`: the digits printed and how they relate to the value
-/
namespace PreCore.Flt
open CNum Refl Spec

theorem rhe_abs (n d : Nat) (hd : 0 < d) : |(rhe n d : ℚ) - (n : ℚ) / d| ≤ 1 / 2 := by
  obtain ⟨h1, h2⟩ := rhe_near n d hd
  have hdq : (0 : ℚ) < d := by exact_mod_cast hd
  have h1' : 2 * ((rhe n d : ℚ) * d) ≤ 2 * n + d := by exact_mod_cast h1
  have h2' : 2 * (n : ℚ) ≤ 2 * ((rhe n d : ℚ) * d) + d := by exact_mod_cast h2
  have e : (rhe n d : ℚ) - (n : ℚ) / d = ((rhe n d : ℚ) * d - n) / d := by field_simp
  rw [e, abs_le]
  constructor
  · rw [le_div_iff₀ hdq]; linarith
  · rw [div_le_iff₀ hdq]; linarith

theorem rhe_tie (n d : Nat) (hd : 0 < d) (h : |(rhe n d : ℚ) - (n : ℚ) / d| = 1 / 2) : rhe n d % 2 = 0 := by
  have hdq : (0 : ℚ) < d := by exact_mod_cast hd
  have hdm := Nat.div_add_mod n d
  have hr := Nat.mod_lt n hd
  have hnq : (n : ℚ) = d * (n / d : Nat) + (n % d : Nat) := by exact_mod_cast hdm.symm
  unfold rhe at h ⊢
  generalize n / d = q at *
  generalize n % d = r at *
  have hx : (n : ℚ) / d = q + (r : ℚ) / d := by rw [hnq]; field_simp
  have hr2 : 2 * r = d := by
    have hrq : ((r : ℚ)) / d = 1 / 2 := by
      split at h
      · push_cast at h
        rw [hx, show (q : ℚ) + 1 - (q + (r : ℚ) / d) = 1 - (r : ℚ) / d by ring] at h
        have : (r : ℚ) / d ≤ 1 := by rw [div_le_one hdq]; exact_mod_cast hr.le
        rw [abs_of_nonneg (by linarith)] at h
        linarith
      · rw [hx, show (q : ℚ) - (q + (r : ℚ) / d) = -((r : ℚ) / d) by ring, abs_neg, abs_of_nonneg (by positivity)] at h
        exact h
    rw [div_eq_div_iff hdq.ne' (by norm_num)] at hrq
    have : r * 2 = 1 * d := by exact_mod_cast hrq
    omega
  split <;> omega

theorem rhe_eq_of (n d k : Nat) (hd : 0 < d) (h : |(k : ℚ) - (n : ℚ) / d| < 1 / 2) : rhe n d = k := by
  have hdq : (0 : ℚ) < d := by exact_mod_cast hd
  have e : (k : ℚ) - (n : ℚ) / d = ((k : ℚ) * d - n) / d := by field_simp
  rw [e, abs_lt] at h
  obtain ⟨h1, h2⟩ := h
  rw [lt_div_iff₀ hdq] at h1
  rw [div_lt_iff₀ hdq] at h2
  apply rhe_unique
  · have : 2 * ((k : ℚ) * d) < 2 * n + d := by linarith
    exact_mod_cast this
  · have : 2 * (n : ℚ) < 2 * ((k : ℚ) * d) + d := by linarith
    exact_mod_cast this

theorem rhe_congr (n d n' d' : Nat) (hd : 0 < d) (hd' : 0 < d') (h : (n : ℚ) / d = (n' : ℚ) / d') : rhe n d = rhe n' d' := by
  rw [div_eq_div_iff (by positivity) (by positivity)] at h
  have hc : n * d' = n' * d := by exact_mod_cast h
  rw [← rhe_mul n d d' hd', ← rhe_mul n' d' d hd, hc, Nat.mul_comm d d']

/-- Floor and ceiling bounds of the rounded number. -/
theorem rhe_bounds (n d a b : Nat) (hd : 0 < d) (h1 : (a : ℚ) ≤ (n : ℚ) / d) (h2 : (n : ℚ) / d ≤ b) : a ≤ rhe n d ∧ rhe n d ≤ b := by
  have hdq : (0 : ℚ) < d := by exact_mod_cast hd
  rw [le_div_iff₀ hdq] at h1
  rw [div_le_iff₀ hdq] at h2
  have h1' : a * d ≤ n := by exact_mod_cast h1
  have h2' : n ≤ b * d := by exact_mod_cast h2
  obtain ⟨g1, g2⟩ := rhe_near n d hd
  constructor
  · by_contra hc
    have hlt : rhe n d + 1 ≤ a := by omega
    have : (rhe n d + 1) * d ≤ a * d := Nat.mul_le_mul_right _ hlt
    rw [Nat.add_mul] at this
    omega
  · by_contra hc
    have hlt : b + 1 ≤ rhe n d := by omega
    have : (b + 1) * d ≤ rhe n d * d := Nat.mul_le_mul_right _ hlt
    rw [Nat.add_mul] at this
    omega

/-- `rhe` is monotone. -/
theorem rhe_mono (n d n' d' : Nat) (hd : 0 < d) (hd' : 0 < d') (h : (n : ℚ) / d ≤ (n' : ℚ) / d') : rhe n d ≤ rhe n' d' := by
  rw [div_le_div_iff₀ (by positivity) (by positivity)] at h
  have hc : n * d' ≤ n' * d := by exact_mod_cast h
  rw [← rhe_mul n d d' hd', ← rhe_mul n' d' d hd, Nat.mul_comm d' d]
  have hD : 0 < d * d' := Nat.mul_pos hd hd'
  generalize d * d' = D at *
  generalize n * d' = a at *
  generalize n' * d = b at *
  have h1 := Nat.div_add_mod a D
  have h2 := Nat.div_add_mod b D
  have r1 := Nat.mod_lt a hD
  have r2 := Nat.mod_lt b hD
  have hq : a / D ≤ b / D := Nat.div_le_div_right hc
  unfold rhe
  rcases Nat.lt_or_ge (a / D) (b / D) with hlt | hge
  · split <;> split <;> omega
  · have he : a / D = b / D := by omega
    rw [he] at h1 ⊢
    have hm : a % D ≤ b % D := by omega
    split <;> split <;> omega

/-! ## Decade and digits of a magnitude -/

/-- The scale is large enough. -/
structure Fmt.Scaled (F : Fmt) : Prop where
  le : 2 ^ F.u ≤ 10 ^ F.scale

theorem f32_scaled : f32.Scaled := ⟨by decide +kernel⟩
theorem f64_scaled : f64.Scaled := ⟨by decide +kernel⟩

/-- Decimal exponent of the magnitude. -/
def Fmt.dec (F : Fmt) (m : Nat) : Int := (F.expo m : Int) - F.scale

/-- Rational value of a magnitude. -/
def Fmt.q (F : Fmt) (m : Nat) : ℚ := (m : ℚ) / 2 ^ F.u

theorem dec_spec {F : Fmt} (hs : F.Scaled) (m : Nat) (hm : 0 < m) :
    (10 : ℚ) ^ F.dec m ≤ F.q m ∧ F.q m < 10 ^ (F.dec m + 1) := by
  have hU : 0 < 2 ^ F.u := Nat.two_pow_pos _
  have h1 : m * 10 ^ F.scale / 2 ^ F.u ≠ 0 := by
    have : 2 ^ F.u ≤ m * 10 ^ F.scale := Nat.le_trans hs.le (Nat.le_mul_of_pos_left _ hm)
    have := Nat.div_pos this hU
    omega
  have h2 := Nat.pow_log_le_self 10 h1
  have h3 := Nat.lt_pow_succ_log_self (b := 10) (by decide) (m * 10 ^ F.scale / 2 ^ F.u)
  change 10 ^ F.expo m ≤ _ at h2
  change _ < 10 ^ (F.expo m + 1) at h3
  rw [Nat.le_div_iff_mul_le hU] at h2
  rw [Nat.div_lt_iff_lt_mul hU] at h3
  have h10 : (10 : ℚ) ≠ 0 := by norm_num
  have hUq : (0 : ℚ) < 2 ^ F.u := by positivity
  have hsq : (0 : ℚ) < 10 ^ F.scale := by positivity
  have h2' : (10 : ℚ) ^ F.expo m * 2 ^ F.u ≤ m * 10 ^ F.scale := by exact_mod_cast h2
  have h3' : (m : ℚ) * 10 ^ F.scale < 10 ^ (F.expo m + 1) * 2 ^ F.u := by exact_mod_cast h3
  unfold Fmt.dec Fmt.q
  constructor
  · rw [zpow_sub₀ h10, zpow_natCast, zpow_natCast, div_le_div_iff₀ hsq hUq]
    exact h2'
  · rw [show ((F.expo m : Int) - F.scale + 1) = ((F.expo m + 1 : Nat) : Int) - (F.scale : Int) by push_cast; ring,
      zpow_sub₀ h10, zpow_natCast, zpow_natCast, div_lt_div_iff₀ hUq hsq]
    exact h3'

/-- The rounded digits of style `e`. -/
def Fmt.D (F : Fmt) (P m : Nat) : Nat := rhe (m * 10 ^ (F.scale + P - 1)) (2 ^ F.u * 10 ^ F.expo m)

theorem D_ratio (F : Fmt) (P m : Nat) (hP : 1 ≤ P) :
    ((m * 10 ^ (F.scale + P - 1) : Nat) : ℚ) / (2 ^ F.u * 10 ^ F.expo m : Nat) = F.q m * 10 ^ ((P : Int) - 1 - F.dec m) := by
  have h10 : (10 : ℚ) ≠ 0 := by norm_num
  unfold Fmt.q Fmt.dec
  rw [show ((P : Int) - 1 - ((F.expo m : Int) - F.scale)) = ((F.scale + P - 1 : Nat) : Int) - (F.expo m : Int) by omega,
    zpow_sub₀ h10, zpow_natCast, zpow_natCast]
  push_cast
  field_simp

theorem D_pos (F : Fmt) (m : Nat) : 0 < 2 ^ F.u * 10 ^ F.expo m := Nat.mul_pos (Nat.two_pow_pos _) (Nat.pow_pos (by decide))

theorem D_bounds {F : Fmt} (hs : F.Scaled) (P m : Nat) (hP : 1 ≤ P) (hm : 0 < m) : 10 ^ (P - 1) ≤ F.D P m ∧ F.D P m ≤ 10 ^ P := by
  obtain ⟨h1, h2⟩ := dec_spec hs m hm
  have h10 : (10 : ℚ) ≠ 0 := by norm_num
  have hp : (0 : ℚ) < 10 ^ ((P : Int) - 1 - F.dec m) := zpow_pos (by norm_num) _
  apply rhe_bounds _ _ _ _ (D_pos F m)
  · rw [D_ratio F P m hP]
    have : ((10 ^ (P - 1) : Nat) : ℚ) = 10 ^ F.dec m * 10 ^ ((P : Int) - 1 - F.dec m) := by
      rw [← zpow_add₀ h10]
      push_cast
      rw [← zpow_natCast]
      congr 1
      omega
    rw [this]
    exact mul_le_mul_of_nonneg_right h1 hp.le
  · rw [D_ratio F P m hP]
    have : ((10 ^ P : Nat) : ℚ) = 10 ^ (F.dec m + 1) * 10 ^ ((P : Int) - 1 - F.dec m) := by
      rw [← zpow_add₀ h10]
      push_cast
      rw [← zpow_natCast]
      congr 1
      omega
    rw [this]
    exact mul_le_mul_of_nonneg_right h2.le hp.le

/-- Digits and exponent after rounding: exactly `P` digits. -/
def Fmt.pair (F : Fmt) (P m : Nat) : Nat × Int := if F.D P m = 10 ^ P then (10 ^ (P - 1), F.dec m + 1) else (F.D P m, F.dec m)

/-- The text of `P` digits `k` with decimal exponent `X`. -/
def canonText (P k : Nat) (X : Int) : Text :=
  if -4 ≤ X ∧ X < P then
    let q := (P - 1 - X).toNat
    showNat (k / 10 ^ q) ++ fraction (padded q (k % 10 ^ q))
  else showNat (k / 10 ^ (P - 1)) ++ fraction (padded (P - 1) (k % 10 ^ (P - 1))) ++ showExp X

theorem pow_nat_int (P : Nat) (hP : 1 ≤ P) : ((10 ^ P : Nat) : ℚ) = 10 * ((10 ^ (P - 1) : Nat) : ℚ) := by
  obtain ⟨k, rfl⟩ : ∃ k, P = k + 1 := ⟨P - 1, by omega⟩
  push_cast
  rw [pow_succ]
  ring

theorem showMag_canon {F : Fmt} (P m : Nat) (hP : 1 ≤ P) :
    F.showMag P m = canonText P (F.pair P m).1 (F.pair P m).2 := by
  have h10 : (10 : ℚ) ≠ 0 := by norm_num
  unfold Fmt.showMag canonText Fmt.pair
  simp only
  change (if _ then _ else _) = _
  rw [show rhe (m * 10 ^ (F.scale + P - 1)) (2 ^ F.u * 10 ^ F.expo m) = F.D P m from rfl]
  have hN : ∀ (q : Nat), ((m * 10 ^ q : Nat) : ℚ) / (2 ^ F.u : Nat) = F.q m * 10 ^ q := by
    intro q
    unfold Fmt.q
    push_cast
    field_simp
  have habs := rhe_abs (m * 10 ^ (F.scale + P - 1)) (2 ^ F.u * 10 ^ F.expo m) (D_pos F m)
  rw [D_ratio F P m hP, show rhe (m * 10 ^ (F.scale + P - 1)) (2 ^ F.u * 10 ^ F.expo m) = F.D P m from rfl] at habs
  by_cases hD : F.D P m = 10 ^ P
  · simp only [hD, if_true]
    have hX : (((F.expo m + 1 : Nat) : Int) - F.scale) = F.dec m + 1 := by unfold Fmt.dec; push_cast; ring
    rw [hX]
    by_cases hc : -4 ≤ F.dec m + 1 ∧ F.dec m + 1 < P
    · rw [if_pos hc, if_pos hc]
      have hNe : rhe (m * 10 ^ ((P : Int) - 1 - (F.dec m + 1)).toNat) (2 ^ F.u) = 10 ^ (P - 1) := by
        apply rhe_eq_of _ _ _ (Nat.two_pow_pos _)
        rw [hN, ← zpow_natCast, show ((((P : Int) - 1 - (F.dec m + 1)).toNat : Nat) : Int) = ((P : Int) - 1 - F.dec m) - 1 by omega,
          zpow_sub₀ h10, zpow_one]
        rw [hD, pow_nat_int P hP, abs_le] at habs
        rw [abs_lt]
        constructor <;> linarith [habs.1, habs.2, mul_div_assoc (F.q m) ((10 : ℚ) ^ ((P : Int) - 1 - F.dec m)) 10]
      rw [hNe]
    · rw [if_neg hc, if_neg hc]
  · simp only [hD, if_false]
    have hX : (((F.expo m : Nat) : Int) - F.scale) = F.dec m := rfl
    rw [hX]
    by_cases hc : -4 ≤ F.dec m ∧ F.dec m < P
    · rw [if_pos hc, if_pos hc]
      have hNe : rhe (m * 10 ^ ((P : Int) - 1 - F.dec m).toNat) (2 ^ F.u) = F.D P m := by
        unfold Fmt.D
        apply rhe_congr _ _ _ _ (Nat.two_pow_pos _) (D_pos F m)
        rw [hN, D_ratio F P m hP, ← zpow_natCast, show ((((P : Int) - 1 - F.dec m).toNat : Nat) : Int) = (P : Int) - 1 - F.dec m by omega]
      rw [hNe]
    · rw [if_neg hc, if_neg hc]

/-- What `canonText` denotes. -/
theorem canon_number (P k : Nat) (X : Int) (hP : 1 ≤ P) (sg : List Byte) (neg : Bool) (hsg : Sign sg neg) :
    DecimalNumber (sg ++ canonText P k X) neg ((k : ℚ) * 10 ^ (X + 1 - P)) := by
  have h10 : (10 : ℚ) ≠ 0 := by norm_num
  unfold canonText
  by_cases hc : -4 ≤ X ∧ X < P
  · rw [if_pos hc]
    obtain ⟨ids, fs, h1, h2, h3, h4⟩ := fixed_digits ((P : Int) - 1 - X).toNat k
    have := DecimalNumber.mk hsg h1 h2 h3 .none
    rw [zero_sub, h4, show (-((((P : Int) - 1 - X).toNat : Nat) : Int)) = X + 1 - P by omega] at this
    simpa [List.append_assoc] using this
  · rw [if_neg hc]
    obtain ⟨ids, fs, h1, h2, h3, h4⟩ := fixed_digits (P - 1) k
    have := DecimalNumber.mk hsg h1 h2 h3 (showExp_spec X)
    rw [show (X - (fs.length : Int)) = -(fs.length : Int) + X by ring, zpow_add₀ h10, ← mul_assoc, h4, mul_assoc, ← zpow_add₀ h10,
      show (-((P - 1 : Nat) : Int) + X) = X + 1 - P by omega] at this
    simpa [List.append_assoc] using this

theorem number_decimal {t : List Byte} {neg : Bool} {v : ℚ} (h : DecimalNumber t neg v) : Decimal t neg v := by
  cases h with
  | mk h1 h2 h3 h4 h5 =>
    have := Decimal.mk (ws := []) (rest := []) (by simp) h1 h2 h3 h4 h5 (by intro c hc; cases hc)
    simpa [List.append_assoc] using this

/-- The digits and the value they stand for. -/
theorem pair_spec {F : Fmt} (hs : F.Scaled) (P m : Nat) (hP : 1 ≤ P) (hm : 0 < m) :
    10 ^ (P - 1) ≤ (F.pair P m).1 ∧ (F.pair P m).1 < 10 ^ P ∧
    ((F.pair P m).1 : ℚ) * 10 ^ ((F.pair P m).2 + 1 - P) = (F.D P m : ℚ) * 10 ^ (F.dec m + 1 - P) ∧
    |(F.D P m : ℚ) * 10 ^ (F.dec m + 1 - P) - F.q m| ≤ 10 ^ (F.dec m + 1 - P) / 2 ∧
    (|(F.D P m : ℚ) * 10 ^ (F.dec m + 1 - P) - F.q m| = 10 ^ (F.dec m + 1 - P) / 2 → F.D P m % 2 = 0) := by
  have h10 : (10 : ℚ) ≠ 0 := by norm_num
  obtain ⟨b1, b2⟩ := D_bounds hs P m hP hm
  have hlt : 10 ^ (P - 1) < 10 ^ P := Nat.pow_lt_pow_right (by decide) (by omega)
  have hg : (0 : ℚ) < 10 ^ (F.dec m + 1 - P) := zpow_pos (by norm_num) _
  have hr : F.q m * 10 ^ ((P : Int) - 1 - F.dec m) = F.q m / 10 ^ (F.dec m + 1 - P) := by
    rw [show ((P : Int) - 1 - F.dec m) = -(F.dec m + 1 - P) by ring, zpow_neg]
    rfl
  have hab := rhe_abs (m * 10 ^ (F.scale + P - 1)) (2 ^ F.u * 10 ^ F.expo m) (D_pos F m)
  have htie := rhe_tie (m * 10 ^ (F.scale + P - 1)) (2 ^ F.u * 10 ^ F.expo m) (D_pos F m)
  rw [D_ratio F P m hP, hr, show rhe (m * 10 ^ (F.scale + P - 1)) (2 ^ F.u * 10 ^ F.expo m) = F.D P m from rfl] at hab htie
  have hdiff : (F.D P m : ℚ) * 10 ^ (F.dec m + 1 - P) - F.q m = ((F.D P m : ℚ) - F.q m / 10 ^ (F.dec m + 1 - P)) * 10 ^ (F.dec m + 1 - P) := by
    field_simp
  refine ⟨?_, ?_, ?_, ?_, ?_⟩
  · unfold Fmt.pair; split
    · exact Nat.le_refl _
    · exact b1
  · unfold Fmt.pair; split
    · exact hlt
    · simp only; omega
  · unfold Fmt.pair; split
    · rename_i h
      rw [h, pow_nat_int P hP, show (F.dec m + 1 + 1 - (P : Int)) = 1 + (F.dec m + 1 - P) by ring, zpow_add₀ h10, zpow_one]
      push_cast
      ring
    · rfl
  · rw [hdiff, abs_mul, abs_of_pos hg]
    have := mul_le_mul_of_nonneg_right hab hg.le
    linarith
  · intro h
    apply htie
    rw [hdiff, abs_mul, abs_of_pos hg] at h
    have h' : |(F.D P m : ℚ) - F.q m / 10 ^ (F.dec m + 1 - P)| * 10 ^ (F.dec m + 1 - P) = (1 / 2) * 10 ^ (F.dec m + 1 - P) := by rw [h]; ring
    exact mul_right_cancel₀ hg.ne' h'

/-- A magnitude near a number of `P` digits prints as that number. -/
theorem pair_near {F : Fmt} (hs : F.Scaled) (P m : Nat) (hP : 1 ≤ P) (hm : 0 < m) (k : Nat) (X : Int) (hk1 : 10 ^ (P - 1) ≤ k)
    (hk2 : k < 10 ^ P) (h : |F.q m - (k : ℚ) * 10 ^ (X + 1 - P)| * (2 * 10 ^ P) < (k : ℚ) * 10 ^ (X + 1 - P)) :
    F.pair P m = (k, X) := by
  have h10 : (10 : ℚ) ≠ 0 := by norm_num
  obtain ⟨d1, d2⟩ := dec_spec hs m hm
  have hg : (0 : ℚ) < 10 ^ (X + 1 - P) := zpow_pos (by norm_num) _
  have hA : (1 : ℚ) ≤ 10 ^ (P - 1) := one_le_pow₀ (by norm_num)
  have h10P : (10 : ℚ) ^ P = 10 * 10 ^ (P - 1) := by have := pow_nat_int P hP; push_cast at this; exact this
  have hX0 : (10 : ℚ) ^ X = 10 ^ (P - 1) * 10 ^ (X + 1 - P) := by
    rw [← zpow_natCast, ← zpow_add₀ h10]; congr 1; omega
  have hk1q : (10 : ℚ) ^ (P - 1) ≤ k := by exact_mod_cast hk1
  have hk2q : (k : ℚ) + 1 ≤ 10 * 10 ^ (P - 1) := by rw [← h10P]; exact_mod_cast hk2
  have hratio := D_ratio F P m hP
  -- in units of the last digit
  obtain ⟨z, hz⟩ : ∃ z, F.q m = z * 10 ^ (X + 1 - P) := ⟨F.q m / 10 ^ (X + 1 - P), by field_simp⟩
  have hz1 : |z - k| * (2 * (10 * 10 ^ (P - 1))) < k := by
    rw [hz, ← sub_mul, abs_mul, abs_of_pos hg, h10P] at h
    have : |z - k| * (2 * (10 * 10 ^ (P - 1))) * 10 ^ (X + 1 - P) < k * 10 ^ (X + 1 - P) := by linarith
    exact lt_of_mul_lt_mul_right this hg.le
  have hzhalf : |z - k| < 1 / 2 := by
    by_contra hc
    have hc := not_lt.1 hc
    have : (1 / 2 : ℚ) * (2 * (10 * 10 ^ (P - 1))) ≤ |z - k| * (2 * (10 * 10 ^ (P - 1))) :=
      mul_le_mul_of_nonneg_right hc (by positivity)
    linarith
  have hup : F.dec m < X + 1 := by
    rw [← zpow_lt_zpow_iff_right₀ (show (1 : ℚ) < 10 by norm_num)]
    refine lt_of_le_of_lt d1 ?_
    rw [zpow_add₀ h10, hX0, hz, zpow_one]
    have : z < 10 * 10 ^ (P - 1) := by have := (abs_lt.1 hzhalf).2; linarith
    have := mul_lt_mul_of_pos_right this hg
    linarith
  have hlow : X - 1 < F.dec m + 1 := by
    rw [← zpow_lt_zpow_iff_right₀ (show (1 : ℚ) < 10 by norm_num)]
    refine lt_trans ?_ d2
    rw [zpow_sub₀ h10, hX0, hz, zpow_one]
    have : 10 ^ (P - 1) / 10 < z := by have := (abs_lt.1 hzhalf).1; linarith
    have := mul_lt_mul_of_pos_right this hg
    linarith
  have hab : |(k : ℚ) - z| < 1 / 2 := by rw [abs_sub_comm]; exact hzhalf
  rcases (show F.dec m = X ∨ F.dec m = X - 1 by omega) with he | he
  · have hD : F.D P m = k := by
      apply rhe_eq_of _ _ _ (D_pos F m)
      rw [hratio, he, hz, show ((P : Int) - 1 - X) = -(X + 1 - P) by ring, zpow_neg, mul_assoc, mul_inv_cancel₀ hg.ne', mul_one]
      exact hab
    unfold Fmt.pair
    rw [hD, he, if_neg (by omega)]
  · -- the value is just below a power of ten
    have hzA : z < 10 ^ (P - 1) := by
      rw [he, sub_add_cancel, hX0, hz] at d2
      exact lt_of_mul_lt_mul_right d2 hg.le
    have hkA : (k : ℚ) = 10 ^ (P - 1) := by
      by_contra hne
      have hk : 10 ^ (P - 1) + 1 ≤ k := by
        have : k ≠ 10 ^ (P - 1) := by rintro rfl; exact hne (by push_cast; rfl)
        omega
      have hkq : (10 : ℚ) ^ (P - 1) + 1 ≤ k := by exact_mod_cast hk
      have := (abs_lt.1 hzhalf).1
      linarith
    have hD : F.D P m = 10 ^ P := by
      apply rhe_eq_of _ _ _ (D_pos F m)
      rw [hratio, he, hz, show ((P : Int) - 1 - (X - 1)) = 1 + -(X + 1 - P) by ring, zpow_add₀ h10, zpow_one, zpow_neg]
      have e : z * 10 ^ (X + 1 - (P : Int)) * (10 * (10 ^ (X + 1 - (P : Int)))⁻¹) = 10 * z := by field_simp
      rw [e, pow_nat_int P hP]
      push_cast
      rw [← mul_sub, abs_mul, ← hkA, abs_sub_comm, abs_of_pos (show (0 : ℚ) < 10 by norm_num)]
      rw [← hkA] at hz1
      have hk0 : (0 : ℚ) < k := by linarith
      have : |z - k| * 20 < 1 := by
        have e2 : |z - k| * (2 * (10 * (k : ℚ))) = |z - k| * 20 * k := by ring
        rw [e2] at hz1
        have := lt_of_mul_lt_mul_right (show |z - k| * 20 * k < 1 * k by linarith) hk0.le
        exact this
      linarith
    unfold Fmt.pair
    rw [if_pos hD, he, sub_add_cancel]
    congr 1
    have : (10 ^ (P - 1) : Nat) = k := by
      have : ((10 ^ (P - 1) : Nat) : ℚ) = (k : ℚ) := by push_cast; exact hkA.symm
      exact_mod_cast this
    exact this

end PreCore.Flt
