import Verif.Lemmas.FloatVal
import Verif.Props.ReflectorArray
/-!
# Texts of `%g`: what the printed digits denote
-/
namespace PreCore.Flt
open CNum Refl Spec

theorem digitChars_append {a b : List Byte} {x y : List Nat} (ha : DigitChars 10 a x) (hb : DigitChars 10 b y) :
    DigitChars 10 (a ++ b) (x ++ y) := by
  induction ha with
  | nil => exact hb
  | cons h _ ih => exact .cons h ih

theorem zero_digit : IsDigit 10 0x30#8 0 := by unfold IsDigit; decide

theorem zeros_digits (w : Nat) : DigitChars 10 (List.replicate w 0x30#8) (List.replicate w 0) := by
  induction w with
  | zero => exact .nil
  | succ w ih => exact .cons zero_digit ih

theorem positional_zeros (w : Nat) : positional 10 (List.replicate w 0) = 0 := by
  induction w with
  | zero => rfl
  | succ w ih => simp [List.replicate_succ, positional, ih]

/-- Padded digits. -/
theorem padded_digits (w n : Nat) : ∃ ds, DigitChars 10 (padded w n) ds ∧ positional 10 ds = n ∧ ds ≠ [] ∧
    (0 < w → n < 10 ^ w → ds.length = w) := by
  obtain ⟨ds, h1, h3, h2⟩ := showNat_digits n
  refine ⟨List.replicate (w - (showNat n).length) 0 ++ ds, digitChars_append (zeros_digits _) h1, ?_, ?_, ?_⟩
  · rw [positional_append, positional_zeros, h2]; simp
  · intro h; exact h3 (List.append_eq_nil_iff.1 h).2
  · intro hw hn
    obtain ⟨k, rfl⟩ : ∃ k, w = k + 1 := ⟨w - 1, by omega⟩
    have := showNat_len k n hn
    have hl := digitChars_length h1
    simp
    omega

theorem digitChars_concat {t : List Byte} {c : Byte} {ds : List Nat} (h : DigitChars 10 (t ++ [c]) ds) :
    ∃ ds' d, ds = ds' ++ [d] ∧ DigitChars 10 t ds' ∧ IsDigit 10 c d := by
  induction t generalizing ds with
  | nil =>
    cases h with
    | cons h1 h2 =>
      cases h2
      exact ⟨[], _, rfl, .nil, h1⟩
  | cons a t ih =>
    cases h with
    | cons h1 h2 =>
      obtain ⟨ds', d, rfl, h3, h4⟩ := ih h2
      exact ⟨_ :: ds', d, rfl, .cons h1 h3, h4⟩

/-- Without trailing zeros. -/
theorem stripZeros_digits (t : List Byte) : ∀ ds, DigitChars 10 t ds →
    ∃ fs, DigitChars 10 (stripZeros t) fs ∧ fs.length ≤ ds.length ∧ positional 10 fs * 10 ^ (ds.length - fs.length) = positional 10 ds := by
  induction t using List.reverseRecOn with
  | nil =>
    intro ds h
    cases h
    exact ⟨[], .nil, by simp, rfl⟩
  | append_singleton t c ih =>
    intro ds h
    by_cases hc : c = 0x30#8
    · obtain ⟨ds', d, rfl, h1, h2⟩ := digitChars_concat h
      have hd : d = 0 := by
        subst hc
        obtain ⟨_, h3⟩ := h2
        simp at h3
        omega
      subst hd
      obtain ⟨fs, g1, g2, g3⟩ := ih ds' h1
      refine ⟨fs, ?_, by simp; omega, ?_⟩
      · have : stripZeros (t ++ [c]) = stripZeros t := by
          unfold stripZeros
          simp [hc]
        rw [this]; exact g1
      · rw [positional_append, ← g3]
        simp only [List.length_append, List.length_cons, List.length_nil, positional]
        rw [show ds'.length + (0 + 1) - fs.length = (ds'.length - fs.length) + 1 by omega, Nat.pow_succ]
        ring
    · refine ⟨ds, ?_, Nat.le_refl _, by simp⟩
      have : stripZeros (t ++ [c]) = t ++ [c] := by
        unfold stripZeros
        simp [hc]
      rw [this]; exact h

/-- The fraction part. -/
theorem fraction_digits {t : List Byte} {ds : List Nat} (h : DigitChars 10 t ds) :
    ∃ fs, Frac (fraction t) fs ∧ fs.length ≤ ds.length ∧ positional 10 fs * 10 ^ (ds.length - fs.length) = positional 10 ds := by
  obtain ⟨fs, h1, h2, h3⟩ := stripZeros_digits t ds h
  unfold fraction
  by_cases h0 : stripZeros t = []
  · rw [h0] at h1
    cases h1
    simp only [h0, if_true]
    exact ⟨[], .none, h2, h3⟩
  · simp only [h0, if_false]
    exact ⟨fs, .some h1, h2, h3⟩

/-- Digits before and after the point: the number `N / 10^q`. -/
theorem fixed_digits (q N : Nat) : ∃ ids fs, DigitChars 10 (showNat (N / 10 ^ q)) ids ∧ Frac (fraction (padded q (N % 10 ^ q))) fs ∧
    ids ++ fs ≠ [] ∧ (positional 10 (ids ++ fs) : ℚ) * 10 ^ (-(fs.length : Int)) = (N : ℚ) * 10 ^ (-(q : Int)) := by
  obtain ⟨ids, h1, h3, h2⟩ := showNat_digits (N / 10 ^ q)
  obtain ⟨ds, g1, g2, g3, g4⟩ := padded_digits q (N % 10 ^ q)
  obtain ⟨fs, k1, k2, k3⟩ := fraction_digits g1
  have hne : ids ++ fs ≠ [] := fun h => h3 (List.append_eq_nil_iff.1 h).1
  have h10 : (10 : ℚ) ≠ 0 := by norm_num
  rcases Nat.eq_zero_or_pos q with rfl | hq
  · have hf : fraction (padded 0 (N % 10 ^ 0)) = [] := by
      have : N % 10 ^ 0 = 0 := by rw [Nat.pow_zero, Nat.mod_one]
      rw [this]; decide +kernel
    refine ⟨ids, [], h1, by rw [hf]; exact .none, by simpa using h3, ?_⟩
    simp [h2]
  · refine ⟨ids, fs, h1, k1, hne, ?_⟩
    rw [g4 hq (Nat.mod_lt _ (Nat.pow_pos (by decide)))] at k2 k3
    rw [g2] at k3
    obtain ⟨z, hz⟩ : ∃ z, q = fs.length + z := ⟨q - fs.length, by omega⟩
    have hN : N = positional 10 (ids ++ fs) * 10 ^ z := by
      have e := Nat.div_add_mod N (10 ^ q)
      rw [← k3, show q - fs.length = z by omega] at e
      rw [← e, positional_append, h2, Nat.add_mul, Nat.mul_assoc, ← Nat.pow_add, ← hz, Nat.mul_comm (10 ^ q)]
    rw [zpow_neg, zpow_neg, zpow_natCast, zpow_natCast]
    conv_rhs => rw [hN]
    rw [hz, pow_add]
    push_cast
    field_simp

/-- The exponent part. -/
theorem showExp_spec (e : Int) : Spec.Expo (showExp e) e := by
  obtain ⟨ds, h1, h2, h3, _⟩ := padded_digits 2 e.natAbs
  unfold showExp
  by_cases h : e < 0
  · have := Spec.Expo.some (c := 0x65#8) (.inl rfl) .minus h1 h3
    rw [h2] at this
    simp only [h, if_true] at this ⊢
    have e1 : (-(e.natAbs : Int)) = e := by omega
    rw [e1] at this
    exact this
  · have := Spec.Expo.some (c := 0x65#8) (.inl rfl) .plus h1 h3
    rw [h2] at this
    simp only [h, if_false, Bool.false_eq_true] at this ⊢
    have e1 : ((e.natAbs : Int)) = e := by omega
    rw [e1] at this
    exact this

end PreCore.Flt
