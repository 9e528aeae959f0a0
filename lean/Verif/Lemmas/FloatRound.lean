import Verif.Lemmas.FloatPrint
import Verif.Props.FloatText
/-!
# Printing after reading and reading after printing
-/
namespace PreCore.FloatTextProps
open CNum Refl Spec Flt

/-- A format with its number of printed digits, and what the proofs need about the two. -/
structure Printed (F : Fmt) (P : Nat) : Prop where
  sup : Supported F
  scaled : F.Scaled
  one : 1 ≤ P
  digits : 10 ^ P < 2 ^ F.mb

theorem printed32 : Printed f32 6 := ⟨.inl rfl, f32_scaled, by decide, by decide⟩
theorem printed64 : Printed f64 13 := ⟨.inr rfl, f64_scaled, by decide, by decide⟩

theorem oor_congr (F : Fmt) (n d n' d' : Nat) (hd : 0 < d) (hd' : 0 < d') (h : n * d' = n' * d) :
    F.oor n d = F.oor n' d' ∧ F.round n d = F.round n' d' := by
  have hr : ∀ G : Fmt, roundP G.mb (n * 2 ^ G.u) d = roundP G.mb (n' * 2 ^ G.u) d' := by
    intro G
    rw [← roundP_mul _ _ d d' hd', ← roundP_mul _ _ d' d hd, Nat.mul_comm d' d]
    congr 1
    rw [Nat.mul_right_comm, h, Nat.mul_right_comm]
  constructor
  · unfold Fmt.oor
    rw [hr F]
    congr 1
    apply propext
    have h0 : n ≠ 0 ↔ n' ≠ 0 := by
      constructor
      · intro h1 h2
        rw [h2, Nat.zero_mul] at h
        rcases Nat.mul_eq_zero.1 h with h | h <;> omega
      · intro h1 h2
        rw [h2, Nat.zero_mul] at h
        rcases Nat.mul_eq_zero.1 h.symm with h | h <;> omega
    have ht : 4 * (n * 2 ^ F.u) < d * (4 * 2 ^ F.mb - 1) ↔ 4 * (n' * 2 ^ F.u) < d' * (4 * 2 ^ F.mb - 1) := by
      generalize 4 * 2 ^ F.mb - 1 = T
      generalize 2 ^ F.u = U
      rw [← Nat.mul_lt_mul_right (a := d') hd', ← Nat.mul_lt_mul_right (a := d) (b := 4 * (n' * U)) hd]
      have e1 : 4 * (n * U) * d' = 4 * (n' * U) * d := by
        rw [show 4 * (n * U) * d' = 4 * U * (n * d') by ring, h]; ring
      have e2 : d * T * d' = d' * T * d := by ring
      rw [e1, e2]
    rw [h0, ht]
  · unfold Fmt.round; rw [hr F]

/-- What is stored depends only on the number, not on its text. -/
theorem setNumber_value (F : Fmt) {t t' : Text} {neg : Bool} {v : ℚ} (h : Decimal t neg v) (h' : Decimal t' neg v) :
    F.setNumber t = F.setNumber t' := by
  obtain ⟨n, d, h1, h2, h3⟩ := strtod_decimal h
  obtain ⟨n', d', h1', h2', h3'⟩ := strtod_decimal h'
  have hc : n * d' = n' * d := by
    have : (n : ℚ) / d = (n' : ℚ) / d' := by rw [h3, h3']
    rw [div_eq_div_iff (by positivity) (by positivity)] at this
    exact_mod_cast this
  obtain ⟨g1, g2⟩ := oor_congr F n d n' d' h2 h2' hc
  obtain ⟨_, g3⟩ := oor_congr f64 n d n' d' h2 h2' hc
  unfold Fmt.setNumber
  rw [h1, h1']
  simp only
  rw [g1, g2]
  have : F.clamp neg n d = F.clamp neg n' d' := by
    unfold Fmt.clamp atofPos atofAboveOne atofBelowMinusOne
    rw [g3]
  rw [this]

/-- The number stored is near the number read. -/
theorem round_near {F : Fmt} (hF : F.Ok) (n d : Nat) (hd : 0 < d) (h : tinyBelow F.mb F.eb ≤ (n : ℚ) / d) :
    |F.q (magOf F.mb (roundP F.mb (n * 2 ^ F.u) d)) - (n : ℚ) / d| * (2 * 2 ^ F.mb) ≤ (n : ℚ) / d := by
  have hdq : (0 : ℚ) < d := by exact_mod_cast hd
  have hU : (0 : ℚ) < 2 ^ F.u := by positivity
  have hH := Nat.two_pow_pos F.mb
  have ht : ¬ 4 * (n * 2 ^ F.u) < d * (4 * 2 ^ F.mb - 1) := fun hh => absurd ((tiny_iff hF n d hd).1 hh) (not_lt.2 h)
  set N := n * 2 ^ F.u with hN
  set m := magOf F.mb (roundP F.mb N d) with hm
  have hNq : (N : ℚ) = n * 2 ^ F.u := by rw [hN]; push_cast; rfl
  have key : 2 * 2 ^ F.mb * (m * d) ≤ 2 * 2 ^ F.mb * N + N ∧ 2 * 2 ^ F.mb * N ≤ 2 * 2 ^ F.mb * (m * d) + N := by
    rcases Nat.lt_or_ge N (d * 2 ^ F.mb) with hlt | hge
    · -- just below the smallest normal number
      have hmin : magOf F.mb (2 ^ F.mb) = 2 ^ F.mb := by
        have := magOf_parts F.mb 0 (2 ^ F.mb) (by omega) (.inl rfl)
        simpa using this
      have h1 := roundP_le F.mb N d (2 ^ F.mb) hF.mb hd (by rw [hmin, Nat.mul_comm]; omega)
      have h1' : m ≤ 2 ^ F.mb := by rw [← hmin, hm]; exact magOf_le_iff.2 h1
      have h2 := (roundP_nearest F.mb N d hF.mb hd (2 ^ F.mb)).1
      rw [hmin, ← hm] at h2
      generalize hHH : 2 ^ F.mb = H at *
      have hq : 4 * (d * H) ≤ 4 * N + d := by
        have e : d * (4 * H - 1) + d = 4 * (d * H) := by
          rw [Nat.mul_sub, Nat.mul_one, Nat.sub_add_cancel (Nat.le_mul_of_pos_right _ (by omega))]; ring
        omega
      have h3 : |(m * d : ℤ) - N| ≤ (H * d : ℤ) - N := by
        have : (0 : ℤ) ≤ (H * d : ℤ) - N := by
          have : (N : ℤ) < ((d * H : Nat) : ℤ) := by exact_mod_cast hlt
          push_cast at this
          nlinarith
        rwa [abs_of_nonneg this] at h2
      rw [abs_le] at h3
      have hmd : m * d ≤ H * d := Nat.mul_le_mul_right _ h1'
      have hdH : d * H = H * d := Nat.mul_comm _ _
      have h4 : 2 * N ≤ m * d + H * d := by
        have := h3.1
        have e1 : ((m * d : Nat) : ℤ) = (m * d : ℤ) := by push_cast; rfl
        have e2 : ((H * d : Nat) : ℤ) = (H * d : ℤ) := by push_cast; rfl
        rw [← e1, ← e2] at this
        omega
      -- the difference is at most d/4, and 2H d/4 ≤ N
      have hdiff1 : 4 * (m * d) ≤ 4 * N + d := by omega
      have hdiff2 : 4 * N ≤ 4 * (m * d) + d := by omega
      have hND : 2 * H * d ≤ 4 * N := by
        have : d ≤ H * d := Nat.le_mul_of_pos_left _ hH
        have e : 2 * H * d = 2 * (H * d) := by ring
        omega
      constructor
      · have := Nat.mul_le_mul_left (2 * H) hdiff1
        have e : 2 * H * (4 * N + d) = 4 * (2 * H * N) + 2 * H * d := by ring
        have e' : 2 * H * (4 * (m * d)) = 4 * (2 * H * (m * d)) := by ring
        omega
      · have := Nat.mul_le_mul_left (2 * H) hdiff2
        have e : 2 * H * (4 * (m * d) + d) = 4 * (2 * H * (m * d)) + 2 * H * d := by ring
        have e' : 2 * H * (4 * N) = 4 * (2 * H * N) := by ring
        omega
    · exact roundP_rel F.mb N d hd hge
  obtain ⟨k1, k2⟩ := key
  have k1' : (2 : ℚ) * 2 ^ F.mb * (m * d) ≤ 2 * 2 ^ F.mb * N + N := by exact_mod_cast k1
  have k2' : (2 : ℚ) * 2 ^ F.mb * N ≤ 2 * 2 ^ F.mb * (m * d) + N := by exact_mod_cast k2
  rw [hNq] at k1' k2'
  have e : F.q m - (n : ℚ) / d = ((m : ℚ) * d - n * 2 ^ F.u) / (d * 2 ^ F.u) := by
    unfold Fmt.q; field_simp
  have hden : (0 : ℚ) < d * 2 ^ F.u := by positivity
  rw [e, abs_div, abs_of_pos hden, div_mul_eq_mul_div, div_le_div_iff₀ hden hdq]
  have hHq : (0 : ℚ) < 2 * 2 ^ F.mb := by positivity
  have : |(m : ℚ) * d - n * 2 ^ F.u| * (2 * 2 ^ F.mb) ≤ n * 2 ^ F.u := by
    rw [← abs_of_pos hHq, ← abs_mul, abs_le]
    constructor <;> nlinarith
  nlinarith

end PreCore.FloatTextProps
