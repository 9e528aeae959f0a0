import Verif.Lemmas.Float32Signed
/-!
# Single precision arithmetic rounds to the nearest float, ties to even
-/
namespace PreCore.F32

/-- A float magnitude from `2^(23+k)` on is a multiple of `2^k`. -/
theorem magOf_dvd (p k : Nat) (h : 2 ^ (23 + k) ≤ magOf p) : 2 ^ k ∣ magOf p := by
  unfold magOf at h ⊢
  by_cases hp : p / 2 ^ 23 = 0
  · rw [if_pos hp] at h ⊢
    have h1 : p < 2 ^ 23 := by omega
    have h2 : 2 ^ 23 ≤ 2 ^ (23 + k) := Nat.pow_le_pow_right (by decide) (by omega)
    omega
  · rw [if_neg hp] at h ⊢
    have h1 : (2 ^ 23 + p % 2 ^ 23) * 2 ^ (p / 2 ^ 23 - 1) < 2 ^ 24 * 2 ^ (p / 2 ^ 23 - 1) :=
      Nat.mul_lt_mul_of_pos_right (by omega) (Nat.two_pow_pos _)
    rw [← Nat.pow_add] at h1
    have h2 := (Nat.pow_lt_pow_iff_right (a := 2) (by decide)).1 (Nat.lt_of_le_of_lt h h1)
    exact Dvd.dvd.mul_left (Nat.pow_dvd_pow 2 (by omega)) _

/-- The rounded magnitude is at least as near to the quotient as the magnitude of any float; when another is as near, the rounded
one is the even one of the two. -/
theorem roundQ'_nearest (n d : Nat) (hd : 0 < d) (p : Nat) :
    |(magOf (roundQ' n d) * d : ℤ) - n| ≤ |(magOf p * d : ℤ) - n| ∧
    (|(magOf (roundQ' n d) * d : ℤ) - n| = |(magOf p * d : ℤ) - n| → magOf p = magOf (roundQ' n d) ∨ roundQ' n d % 2 = 0) := by
  unfold roundQ'
  generalize hk : (n / d).log2 - 23 = k
  simp only
  have hD : 0 < d * 2 ^ k := Nat.mul_pos hd (Nat.two_pow_pos k)
  have hdm := Nat.div_add_mod n (d * 2 ^ k)
  have hr := Nat.mod_lt n hD
  have hqlt : n / (d * 2 ^ k) < 2 ^ 24 := by
    rw [← Nat.div_div_eq_div_mul, Nat.div_lt_iff_lt_mul (Nat.two_pow_pos k)]
    rcases Nat.eq_zero_or_pos (n / d) with h0 | h0
    · rw [h0]; exact Nat.mul_pos (Nat.two_pow_pos _) (Nat.two_pow_pos _)
    · have := (Nat.log2_lt (n := n / d) (k := (n / d).log2 + 1) (by omega)).1 (by omega)
      refine Nat.lt_of_lt_of_le this ?_
      rw [← Nat.pow_add]
      exact Nat.pow_le_pow_right (by decide) (by omega)
  have hqge : k = 0 ∨ 2 ^ 23 ≤ n / (d * 2 ^ k) := by
    rcases Nat.eq_zero_or_pos k with h | h
    · exact .inl h
    · right
      have hne : n / d ≠ 0 := by
        intro h0; rw [h0] at hk; simp at hk; omega
      have := Nat.log2_self_le hne
      rw [← Nat.div_div_eq_div_mul, Nat.le_div_iff_mul_le (Nat.two_pow_pos k)]
      refine Nat.le_trans ?_ this
      rw [← Nat.pow_add]
      exact Nat.pow_le_pow_right (by decide) (by omega)
  generalize hq : n / (d * 2 ^ k) = q at *
  generalize hr' : n % (d * 2 ^ k) = r at *
  have hmag : ∀ q', q ≤ q' → q' ≤ q + 1 → magOf (k * 2 ^ 23 + q') * d = d * 2 ^ k * q' := by
    intro q' h1 h2
    rw [magOf_parts k q' (by omega) (by omega)]
    ring
  -- the other float
  have hp : (∃ j, magOf p * d = d * 2 ^ k * j) ∨ magOf p * d < d * 2 ^ k * q := by
    rcases Nat.lt_or_ge (magOf p) (2 ^ (23 + k)) with h | h
    · rcases hqge with h0 | h1
      · subst h0; exact .inl ⟨magOf p, by ring⟩
      · right
        calc magOf p * d < 2 ^ (23 + k) * d := Nat.mul_lt_mul_of_pos_right h hd
          _ = d * 2 ^ k * 2 ^ 23 := by rw [Nat.pow_add]; ring
          _ ≤ d * 2 ^ k * q := Nat.mul_le_mul_left _ h1
    · obtain ⟨j, hj⟩ := magOf_dvd p k h
      exact .inl ⟨j, by rw [hj]; ring⟩
  -- equality of magnitudes from equality of products
  have hcancel : ∀ a b : Nat, a * d = b * d → a = b := fun a b h => Nat.eq_of_mul_eq_mul_right hd h
  have heven : ∀ q', (k * 2 ^ 23 + q') % 2 = q' % 2 := by intro q'; omega
  have main : ∀ q', q ≤ q' → q' ≤ q + 1 → (q' = q → 2 * r ≤ d * 2 ^ k) → (q' = q + 1 → d * 2 ^ k ≤ 2 * r) →
      (2 * r = d * 2 ^ k → q' % 2 = 0) →
      |(magOf (k * 2 ^ 23 + q') * d : ℤ) - n| ≤ |(magOf p * d : ℤ) - n| ∧
      (|(magOf (k * 2 ^ 23 + q') * d : ℤ) - n| = |(magOf p * d : ℤ) - n| →
        magOf p = magOf (k * 2 ^ 23 + q') ∨ (k * 2 ^ 23 + q') % 2 = 0) := by
    intro q' h1 h2 hlo hhi htie
    have hm := hmag q' h1 h2
    rw [heven q']
    have hmz : (magOf (k * 2 ^ 23 + q') * d : ℤ) = ((d * 2 ^ k * q' : Nat) : ℤ) := by rw [← hm]; push_cast; ring
    have hpz : (magOf p * d : ℤ) = ((magOf p * d : Nat) : ℤ) := by push_cast; ring
    have hnz : (n : ℤ) = ((d * 2 ^ k * q + r : Nat) : ℤ) := by rw [hdm]
    rw [hmz, hpz, hnz]
    have hpe : magOf p * d = d * 2 ^ k * q' → magOf p = magOf (k * 2 ^ 23 + q') := by
      intro h; exact hcancel _ _ (by rw [h, hm])
    generalize d * 2 ^ k = D at *
    have hq' : q' = q ∨ q' = q + 1 := by omega
    have e1 : D * (q + 1) = D * q + D := by ring
    rcases hp with ⟨j, hj⟩ | hlt
    · rw [hj]
      have hpe' : j = q' → magOf p = magOf (k * 2 ^ 23 + q') := fun h => hpe (by rw [hj, h])
      -- multiples of D: j ≤ q or j ≥ q+1
      have hjd : (j ≤ q ∧ D * j ≤ D * q ∧ (j < q → D * j + D ≤ D * q)) ∨
          (q + 1 ≤ j ∧ D * q + D ≤ D * j ∧ (q + 1 < j → D * q + D + D ≤ D * j)) := by
        rcases Nat.lt_or_ge q j with h | h
        · right
          refine ⟨h, by rw [← e1]; exact Nat.mul_le_mul_left _ h, fun h3 => ?_⟩
          have : D * (q + 2) ≤ D * j := Nat.mul_le_mul_left _ h3
          have e2 : D * (q + 2) = D * q + D + D := by ring
          omega
        · left
          refine ⟨h, Nat.mul_le_mul_left _ h, fun h3 => ?_⟩
          have : D * (j + 1) ≤ D * q := Nat.mul_le_mul_left _ h3
          have e2 : D * (j + 1) = D * j + D := by ring
          omega
      generalize hDj : D * j = Dj at *
      rcases hq' with h | h
      · have := hlo h
        subst h
        constructor
        · rcases hjd with ⟨-, g, -⟩ | ⟨-, g, -⟩
          · rw [abs_of_nonpos (by omega), abs_of_nonpos (by omega)]; omega
          · rw [abs_of_nonpos (by omega), abs_of_nonneg (by omega)]; omega
        · intro heq
          rcases hjd with ⟨g0, g, g2⟩ | ⟨g0, g, g2⟩
          · rw [abs_of_nonpos (by omega), abs_of_nonpos (by omega)] at heq
            left; apply hpe'
            by_contra hne
            have := g2 (by omega); omega
          · rw [abs_of_nonpos (by omega), abs_of_nonneg (by omega)] at heq
            right; apply htie; omega
      · have := hhi h
        subst h
        rw [e1] at hm ⊢
        constructor
        · rcases hjd with ⟨-, g, -⟩ | ⟨-, g, -⟩
          · rw [abs_of_nonneg (by omega), abs_of_nonpos (by omega)]; omega
          · rw [abs_of_nonneg (by omega), abs_of_nonneg (by omega)]; omega
        · intro heq
          rcases hjd with ⟨g0, g, g2⟩ | ⟨g0, g, g2⟩
          · rw [abs_of_nonneg (by omega), abs_of_nonpos (by omega)] at heq
            right; apply htie; omega
          · rw [abs_of_nonneg (by omega), abs_of_nonneg (by omega)] at heq
            left; apply hpe'
            by_contra hne
            have := g2 (by omega); omega
    · generalize magOf p * d = P at *
      rcases hq' with h | h
      · have := hlo h
        subst h
        rw [abs_of_nonpos (by omega), abs_of_nonpos (by omega)]
        constructor
        · omega
        · intro; omega
      · have := hhi h
        subst h
        rw [e1] at hm ⊢
        rw [abs_of_nonneg (by omega), abs_of_nonpos (by omega)]
        constructor
        · omega
        · intro; omega
  split
  · rename_i hc
    exact main (q + 1) (by omega) (by omega) (by omega) (by omega) (by omega)
  · rename_i hc
    exact main q (by omega) (by omega) (by omega) (by omega) (by omega)

theorem roundQ'_overflow_aux (B : Nat) (hB : B = 2 ^ 252) (n d : Nat) (hd : 0 < d) :
    0x7f800000 ≤ roundQ' n d ↔ d * ((2 ^ 25 - 1) * B) ≤ n := by
  unfold roundQ'
  generalize hk : (n / d).log2 - 23 = k
  simp only
  have hD : 0 < d * 2 ^ k := Nat.mul_pos hd (Nat.two_pow_pos k)
  have hdm := Nat.div_add_mod n (d * 2 ^ k)
  have hr := Nat.mod_lt n hD
  have hqlt : n / (d * 2 ^ k) < 2 ^ 24 := by
    rw [← Nat.div_div_eq_div_mul, Nat.div_lt_iff_lt_mul (Nat.two_pow_pos k)]
    rcases Nat.eq_zero_or_pos (n / d) with h0 | h0
    · rw [h0]; exact Nat.mul_pos (Nat.two_pow_pos _) (Nat.two_pow_pos _)
    · have := (Nat.log2_lt (n := n / d) (k := (n / d).log2 + 1) (by omega)).1 (by omega)
      refine Nat.lt_of_lt_of_le this ?_
      rw [← Nat.pow_add]
      exact Nat.pow_le_pow_right (by decide) (by omega)
  have hqge : k = 0 ∨ 2 ^ 23 ≤ n / (d * 2 ^ k) := by
    rcases Nat.eq_zero_or_pos k with h | h
    · exact .inl h
    · right
      have hne : n / d ≠ 0 := by
        intro h0; rw [h0] at hk; simp at hk; omega
      have := Nat.log2_self_le hne
      rw [← Nat.div_div_eq_div_mul, Nat.le_div_iff_mul_le (Nat.two_pow_pos k)]
      refine Nat.le_trans ?_ this
      rw [← Nat.pow_add]
      exact Nat.pow_le_pow_right (by decide) (by omega)
  generalize hq : n / (d * 2 ^ k) = q at *
  generalize hr' : n % (d * 2 ^ k) = r at *
  have hE : 0 < d * B := Nat.mul_pos hd (hB ▸ Nat.two_pow_pos _)
  have e3 : d * ((2 ^ 25 - 1) * B) = (2 ^ 25 - 1) * (d * B) := by ring
  rw [e3]
  have hlow : k ≤ 252 → d * 2 ^ k ≤ d * B := fun h => Nat.mul_le_mul_left _ (hB ▸ Nat.pow_le_pow_right (by decide) h)
  have hmid : k = 253 → d * 2 ^ k = 2 * (d * B) := by
    rintro rfl
    have : (2 ^ 253 : Nat) = 2 * B := by rw [Nat.pow_succ, Nat.mul_comm, hB]
    rw [this]
    ring
  have hhigh : 254 ≤ k → 4 * (d * B) ≤ d * 2 ^ k := by
    intro h
    have h1 : 4 * B ≤ 2 ^ k := by
      refine Nat.le_trans (Nat.le_of_eq ?_) (Nat.pow_le_pow_right (by decide) h)
      rw [show (254 : Nat) = 252 + 1 + 1 from rfl, Nat.pow_succ, Nat.pow_succ, ← hB]
      omega
    have h2 := Nat.mul_le_mul_left d h1
    have : d * (4 * B) = 4 * (d * B) := by ring
    omega
  generalize d * B = E at *
  generalize d * 2 ^ k = D at *
  have hup : D * (q + 1) ≤ D * 2 ^ 24 := Nat.mul_le_mul_left _ hqlt
  have e5 : D * (q + 1) = D * q + D := by ring
  rcases Nat.lt_trichotomy k 253 with hlt | heq | hgt
  · have h1 := hlow (by omega)
    have h2 : k * 2 ^ 23 + (if 2 * r > D ∨ (2 * r = D ∧ q % 2 = 1) then q + 1 else q) ≤ k * 2 ^ 23 + 2 ^ 24 :=
      ite_bound _ q _ hqlt
    constructor
    · intro h; omega
    · intro h; exfalso; omega
  · have hDE := hmid heq
    subst hDE
    have hq23 : 2 ^ 23 ≤ q := by rcases hqge with h | h <;> omega
    by_cases hq1 : q = 2 ^ 24 - 1
    · subst hq1
      constructor
      · intro h
        split at h <;> omega
      · intro h
        rw [if_pos (by omega)]; omega
    · have h4 : 2 * E * (q + 1) ≤ 2 * E * (2 ^ 24 - 1) := Nat.mul_le_mul_left _ (by omega)
      constructor
      · intro h
        split at h <;> omega
      · intro h; exfalso; omega
  · have h0 := hhigh (by omega)
    have h5 : 2 ^ 23 ≤ q := by rcases hqge with h | h <;> omega
    have h6 : D * 2 ^ 23 ≤ D * q := Nat.mul_le_mul_left _ h5
    constructor
    · intro _; omega
    · intro _; split <;> omega

/-- Rounding exceeds the largest float exactly from half a unit above it. -/
theorem roundQ'_overflow (n d : Nat) (hd : 0 < d) : 0x7f800000 ≤ roundQ' n d ↔ d * ((2 ^ 25 - 1) * 2 ^ 252) ≤ n :=
  roundQ'_overflow_aux _ rfl n d hd

/-- The magnitude of a finite float. -/
theorem val_fin {x : F32} {s : Bool} {m : Nat} (h : val x = .fin s m) : m = magOf (x.toNat % 2 ^ 31) ∧ x.toNat % 2 ^ 31 < 0x7f800000 := by
  have hlt : x.toNat < 2 ^ 32 := x.isLt
  by_cases hb : x.toNat % 2 ^ 31 < 0x7f800000
  · have := val_mag (decide (2 ^ 31 ≤ x.toNat)) (x.toNat % 2 ^ 31) hb x (by
      simp only [decide_eq_true_eq]
      split <;> omega)
    rw [this] at h
    injection h with _ h2
    exact ⟨h2.symm, hb⟩
  · exfalso
    have he : expo x = 255 := by unfold expo; omega
    unfold val at h
    rw [if_pos he] at h
    split at h <;> cases h

/-- `x` has no bit set at the end of its significand. -/
def Even (x : F32) : Prop := x.getLsbD 0 = false

/-- Rounding with a sign: nearest, ties to even; infinite exactly from half a unit above the largest float. -/
theorem makeQ_nearest (s : Bool) (n d : Nat) (hd : 0 < d) :
    ((2 ^ 128 - 2 ^ 103 : ℚ) ≤ (n : ℚ) / d / unit → val (makeQ s n d) = .inf s) ∧
    ((n : ℚ) / d / unit < 2 ^ 128 - 2 ^ 103 → ∃ r : ℚ, FIs (makeQ s n d) r ∧ ∀ c w, FIs c w →
      |r - sgn s * ((n : ℚ) / d / unit)| ≤ |w - sgn s * ((n : ℚ) / d / unit)| ∧
      (|r - sgn s * ((n : ℚ) / d / unit)| = |w - sgn s * ((n : ℚ) / d / unit)| → w = r ∨ Even (makeQ s n d))) := by
  have hu := unit_pos
  have hdq : (0 : ℚ) < d := by exact_mod_cast hd
  have hiff : (2 ^ 128 - 2 ^ 103 : ℚ) ≤ (n : ℚ) / d / unit ↔ 0x7f800000 ≤ roundQ' n d := by
    rw [roundQ'_overflow n d hd, le_div_iff₀ hu, le_div_iff₀ hdq]
    have e : (2 ^ 128 - 2 ^ 103 : ℚ) * unit * d = ((d * ((2 ^ 25 - 1) * 2 ^ 252) : Nat) : ℚ) := by
      have h1 : (2 ^ 128 - 2 ^ 103 : ℚ) * unit = (2 ^ 25 - 1) * 2 ^ 252 := by unfold unit; norm_num
      rw [h1]; push_cast; norm_num; ring
    rw [e]; exact Nat.cast_le
  constructor
  · intro h
    have hr := hiff.1 h
    have e : roundQ n d = 0x7f800000 := by rw [roundQ_eq]; omega
    unfold makeQ
    rw [e]
    cases s <;> decide +kernel
  · intro h
    have hr : roundQ' n d < 0x7f800000 := by
      by_contra hc; exact absurd (hiff.2 (by omega)) (not_le.2 h)
    have e : roundQ n d = roundQ' n d := by rw [roundQ_eq]; omega
    have hv := val_makeQ s n d (by rw [e]; exact hr)
    rw [e] at hv
    refine ⟨_, ⟨s, _, hv, rfl⟩, ?_⟩
    intro c w hc
    obtain ⟨t, m, hm, rfl⟩ := hc
    have hmp := (val_fin hm).1
    -- in units of `1 / d`
    have key : ∀ (a : Nat), |sgn s * ((a : ℚ) / unit) - sgn s * ((n : ℚ) / d / unit)| = ((|(a * d : ℤ) - n| : ℤ) : ℚ) / (d * unit) := by
      intro a
      rw [← mul_sub, abs_mul, sgn_abs, one_mul]
      have e1 : (a : ℚ) / unit - (n : ℚ) / d / unit = (((a * d : ℤ) - n : ℤ) : ℚ) / (d * unit) := by
        push_cast; field_simp
      rw [e1, abs_div, abs_of_pos (show (0 : ℚ) < d * unit by positivity), Int.cast_abs]
    have hden : (0 : ℚ) < d * unit := by positivity
    have hev : roundQ' n d % 2 = 0 → Even (makeQ s n d) := by
      intro h0
      unfold Even makeQ
      rw [e]
      rw [BitVec.getLsbD_ofNat]
      simp only [Nat.testBit_zero, Bool.and_eq_false_imp]
      intro _
      have : ((if s = true then 2 ^ 31 else 0) + roundQ' n d) % 2 = 0 := by cases s <;> simp <;> omega
      rw [this]; decide
    by_cases hst : t = s
    · subst hst
      rw [key, key]
      obtain ⟨h1, h2⟩ := roundQ'_nearest n d hd (c.toNat % 2 ^ 31)
      rw [← hmp] at h1 h2
      refine ⟨div_le_div_of_nonneg_right (by exact_mod_cast h1) hden.le, fun he => ?_⟩
      rw [div_left_inj' hden.ne'] at he
      rcases h2 (by exact_mod_cast he) with h | h
      · left; rw [h]
      · exact .inr (hev h)
    · -- the other sign is not nearer than zero
      have hts : sgn t = - sgn s := by cases s <;> cases t <;> simp_all [sgn]
      have h0 := roundQ'_nearest n d hd 0
      have hm0 : magOf 0 = 0 := rfl
      rw [hm0] at h0
      have hw : |sgn t * ((m : ℚ) / unit) - sgn s * ((n : ℚ) / d / unit)| = (m : ℚ) / unit + (n : ℚ) / d / unit := by
        rw [hts]
        have : - sgn s * ((m : ℚ) / unit) - sgn s * ((n : ℚ) / d / unit) = -(sgn s * ((m : ℚ) / unit + (n : ℚ) / d / unit)) := by ring
        rw [this, abs_neg, abs_mul, sgn_abs, one_mul, abs_of_nonneg (by positivity)]
      have hz : ((|((0 : ℕ) * d : ℤ) - n| : ℤ) : ℚ) / (d * unit) = (n : ℚ) / d / unit := by
        rw [← key 0]
        simp only [Nat.cast_zero, zero_div, mul_zero, zero_sub, abs_neg, abs_mul, sgn_abs, one_mul]
        exact abs_of_nonneg (by positivity)
      rw [hw, key]
      have hle : ((|(magOf (roundQ' n d) * d : ℤ) - n| : ℤ) : ℚ) / (d * unit) ≤ (n : ℚ) / d / unit := by
        rw [← hz]; exact div_le_div_of_nonneg_right (by exact_mod_cast h0.1) hden.le
      have hm' : (0 : ℚ) ≤ (m : ℚ) / unit := by positivity
      refine ⟨by linarith, fun he => ?_⟩
      have hmz : (m : ℚ) / unit = 0 := by linarith
      have heq : ((|(magOf (roundQ' n d) * d : ℤ) - n| : ℤ) : ℚ) / (d * unit) = ((|((0 : ℕ) * d : ℤ) - n| : ℤ) : ℚ) / (d * unit) := by
        rw [hz]; linarith
      rw [div_left_inj' hden.ne'] at heq
      rcases h0.2 (by exact_mod_cast heq) with h | h
      · left; rw [← h, hmz]; simp
      · exact .inr (hev h)

end PreCore.F32
