import Mathlib.Tactic.Linarith
import Mathlib.Tactic.NormNum
import Mathlib.Tactic.Ring
import Mathlib.Algebra.Order.Field.Rat
import Verif.Model.FloatText
/-!
# Rounding to a binary format: nearest, ties to even; when it overflows; relative error
-/
namespace PreCore.Flt

theorem magOf_parts (mb k q : Nat) (hq : q ≤ 2 * 2 ^ mb) (hk : k = 0 ∨ 2 ^ mb ≤ q) : magOf mb (k * 2 ^ mb + q) = q * 2 ^ k := by
  have hH : 0 < 2 ^ mb := Nat.two_pow_pos mb
  unfold magOf
  generalize 2 ^ mb = H at *
  have dm : ∀ a b, b < H → (a * H + b) / H = a ∧ (a * H + b) % H = b := by
    intro a b hb
    rw [Nat.mul_comm, Nat.mul_add_div hH, Nat.mul_add_mod, Nat.div_eq_of_lt hb, Nat.mod_eq_of_lt hb]
    exact ⟨by omega, rfl⟩
  rcases Nat.lt_or_ge q H with h | h
  · have hk0 : k = 0 := by omega
    subst hk0
    rw [Nat.zero_mul, Nat.zero_add, Nat.div_eq_of_lt h, if_pos rfl]; omega
  · rcases Nat.lt_or_ge q (2 * H) with h2 | h2
    · have e : k * H + q = (k + 1) * H + (q - H) := by rw [Nat.add_mul]; omega
      obtain ⟨e1, e2⟩ := dm (k + 1) (q - H) (by omega)
      rw [e, e1, e2, if_neg (by omega), Nat.add_sub_cancel, Nat.add_sub_cancel' h]
    · have e : q = 2 * H := by omega
      have e0 : k * H + q = (k + 2) * H + 0 := by rw [Nat.add_mul]; omega
      obtain ⟨e1, e2⟩ := dm (k + 2) 0 hH
      rw [e0, e1, e2, if_neg (by omega), e, Nat.add_zero, show k + 2 - 1 = k + 1 by omega]
      ring

theorem magOf_lt_succ (mb p : Nat) : magOf mb p < magOf mb (p + 1) := by
  have hH : 0 < 2 ^ mb := Nat.two_pow_pos mb
  unfold magOf
  generalize 2 ^ mb = H at *
  have hp := Nat.div_add_mod p H
  have hm := Nat.mod_lt p hH
  generalize p / H = a at *
  generalize p % H = b at *
  subst hp
  have dm : ∀ a b, b < H → (H * a + b) / H = a ∧ (H * a + b) % H = b := by
    intro a b hb
    rw [Nat.mul_add_div hH, Nat.mul_add_mod, Nat.div_eq_of_lt hb, Nat.mod_eq_of_lt hb]
    exact ⟨by omega, rfl⟩
  rcases Nat.lt_or_ge (b + 1) H with h | h
  · obtain ⟨e1, e2⟩ := dm a (b + 1) h
    rw [Nat.add_assoc, e1, e2]
    by_cases ha : a = 0
    · rw [if_pos ha, if_pos ha]; omega
    · rw [if_neg ha, if_neg ha]
      exact Nat.mul_lt_mul_of_pos_right (by omega) (Nat.two_pow_pos _)
  · have hb : b + 1 = H := by omega
    have e0 : H * a + b + 1 = H * (a + 1) + 0 := by rw [Nat.mul_add]; omega
    obtain ⟨e1, e2⟩ := dm (a + 1) 0 hH
    rw [e0, e1, e2, if_neg (show ¬ a + 1 = 0 by omega), Nat.add_sub_cancel, Nat.add_zero]
    by_cases ha : a = 0
    · rw [if_pos ha, ha]; simp; omega
    · rw [if_neg ha]
      obtain ⟨c, rfl⟩ : ∃ c, a = c + 1 := ⟨a - 1, by omega⟩
      rw [Nat.add_sub_cancel, Nat.pow_succ]
      have : (H + b) * 2 ^ c < (2 * H) * 2 ^ c := Nat.mul_lt_mul_of_pos_right (by omega) (Nat.two_pow_pos _)
      calc _ < _ := this
        _ = _ := by ring

theorem magOf_lt {mb a b : Nat} (h : a < b) : magOf mb a < magOf mb b := by
  induction b with
  | zero => omega
  | succ b ih =>
    rcases Nat.lt_or_ge a b with h1 | h1
    · exact Nat.lt_trans (ih h1) (magOf_lt_succ mb b)
    · have : a = b := by omega
      rw [this]; exact magOf_lt_succ mb b

theorem magOf_le_iff {mb a b : Nat} : magOf mb a ≤ magOf mb b ↔ a ≤ b := by
  constructor
  · intro h
    by_contra hc
    exact absurd (magOf_lt (mb := mb) (Nat.lt_of_not_le hc)) (by omega)
  · intro h
    rcases Nat.lt_or_ge a b with h1 | h1
    · exact Nat.le_of_lt (magOf_lt h1)
    · rw [show a = b by omega]

theorem magOf_inj {mb a b : Nat} (h : magOf mb a = magOf mb b) : a = b :=
  Nat.le_antisymm (magOf_le_iff.1 (Nat.le_of_eq h)) (magOf_le_iff.1 (Nat.le_of_eq h.symm))

/-- A magnitude from `2^(mb+k)` on is a multiple of `2^k`. -/
theorem magOf_dvd (mb p k : Nat) (h : 2 ^ mb * 2 ^ k ≤ magOf mb p) : 2 ^ k ∣ magOf mb p := by
  have hH : 0 < 2 ^ mb := Nat.two_pow_pos mb
  unfold magOf at h ⊢
  generalize 2 ^ mb = H at *
  by_cases hp : p / H = 0
  · rw [if_pos hp] at h ⊢
    have h1 : p < H := (Nat.div_eq_zero_iff_lt hH).1 hp
    have h2 : H * 1 ≤ H * 2 ^ k := Nat.mul_le_mul_left _ (Nat.two_pow_pos k)
    omega
  · rw [if_neg hp] at h ⊢
    have hm := Nat.mod_lt p hH
    have h1 : (H + p % H) * 2 ^ (p / H - 1) < (2 * H) * 2 ^ (p / H - 1) :=
      Nat.mul_lt_mul_of_pos_right (by omega) (Nat.two_pow_pos _)
    have e : (2 * H) * 2 ^ (p / H - 1) = H * 2 ^ (p / H - 1 + 1) := by ring
    rw [e] at h1
    have h2 := Nat.lt_of_mul_lt_mul_left (Nat.lt_of_le_of_lt h h1)
    have h3 := (Nat.pow_lt_pow_iff_right (a := 2) (by decide)).1 h2
    exact Dvd.dvd.mul_left (Nat.pow_dvd_pow 2 (by omega)) _

/-- `rhe n d` is the nearest natural number to `n / d`. -/
theorem rhe_near (n d : Nat) (hd : 0 < d) : 2 * (rhe n d * d) ≤ 2 * n + d ∧ 2 * n ≤ 2 * (rhe n d * d) + d := by
  have hdm := Nat.div_add_mod n d
  have hr := Nat.mod_lt n hd
  unfold rhe
  generalize n / d = q at *
  generalize n % d = r at *
  have e : (q + 1) * d = d * q + d := by ring
  have e' : q * d = d * q := by ring
  split <;> (try rw [e]) <;> (try rw [e']) <;> omega

theorem rhe_unique (n d N : Nat) (h1 : 2 * (N * d) < 2 * n + d) (h2 : 2 * n < 2 * (N * d) + d) : rhe n d = N := by
  have hd : 0 < d := by
    rcases Nat.eq_zero_or_pos d with h | h
    · subst h; omega
    · exact h
  obtain ⟨a, b⟩ := rhe_near n d hd
  generalize rhe n d = R at *
  have h3 : R * d < (N + 1) * d := by have : (N + 1) * d = N * d + d := by ring
                                      omega
  have h4 : N * d < (R + 1) * d := by have : (R + 1) * d = R * d + d := by ring
                                      omega
  have := Nat.lt_of_mul_lt_mul_right h3
  have := Nat.lt_of_mul_lt_mul_right h4
  omega

theorem rhe_mul (n d c : Nat) (hc : 0 < c) : rhe (n * c) (d * c) = rhe n d := by
  unfold rhe
  rw [Nat.mul_div_mul_right _ _ hc, Nat.mul_mod_mul_right]
  have e1 : 2 * (n % d * c) > d * c ↔ 2 * (n % d) > d := by
    rw [← Nat.mul_assoc]; exact Nat.mul_lt_mul_right hc
  have e2 : 2 * (n % d * c) = d * c ↔ 2 * (n % d) = d := by
    rw [← Nat.mul_assoc]; exact Nat.mul_left_inj (by omega)
  simp only [e1, e2]

theorem roundP_mul (mb n d c : Nat) (hc : 0 < c) : roundP mb (n * c) (d * c) = roundP mb n d := by
  unfold roundP
  simp only
  rw [Nat.mul_div_mul_right _ _ hc, Nat.mul_right_comm, rhe_mul _ _ _ hc]

/-- What the proofs need about the parts of `roundP`. -/
theorem roundP_parts (mb n d : Nat) : ∃ k, roundP mb n d = k * 2 ^ mb + rhe n (d * 2 ^ k) ∧
    n / (d * 2 ^ k) < 2 * 2 ^ mb ∧ (k = 0 ∨ 2 ^ mb ≤ n / (d * 2 ^ k)) := by
  refine ⟨(n / d).log2 - mb, rfl, ?_, ?_⟩
  · generalize hk : (n / d).log2 - mb = k
    rw [← Nat.div_div_eq_div_mul, Nat.div_lt_iff_lt_mul (Nat.two_pow_pos k)]
    rcases Nat.eq_zero_or_pos (n / d) with h0 | h0
    · rw [h0]
      exact Nat.mul_pos (by have := Nat.two_pow_pos mb; omega) (Nat.two_pow_pos _)
    · have := (Nat.log2_lt (n := n / d) (k := (n / d).log2 + 1) (by omega)).1 (by omega)
      refine Nat.lt_of_lt_of_le this ?_
      rw [show 2 * 2 ^ mb = 2 ^ (mb + 1) by rw [Nat.pow_succ]; omega, ← Nat.pow_add]
      exact Nat.pow_le_pow_right (by decide) (by omega)
  · generalize hk : (n / d).log2 - mb = k
    rcases Nat.eq_zero_or_pos k with h | h
    · exact .inl h
    · right
      have hne : n / d ≠ 0 := by
        intro h0; rw [h0] at hk; simp at hk; omega
      have := Nat.log2_self_le hne
      rw [← Nat.div_div_eq_div_mul, Nat.le_div_iff_mul_le (Nat.two_pow_pos k)]
      refine Nat.le_trans ?_ this
      rw [← Nat.pow_add]
      exact Nat.pow_le_pow_right (by decide) (by omega)

/-- The rounded magnitude is at least as near to the quotient as any other; when another is as near, the rounded
one is the even one of the two. -/
theorem roundP_nearest (mb n d : Nat) (hmb : 0 < mb) (hd : 0 < d) (p : Nat) :
    |(magOf mb (roundP mb n d) * d : ℤ) - n| ≤ |(magOf mb p * d : ℤ) - n| ∧
    (|(magOf mb (roundP mb n d) * d : ℤ) - n| = |(magOf mb p * d : ℤ) - n| → magOf mb p = magOf mb (roundP mb n d) ∨ roundP mb n d % 2 = 0) := by
  obtain ⟨k, hR, hqlt, hqge⟩ := roundP_parts mb n d
  rw [hR]
  unfold rhe
  have hD : 0 < d * 2 ^ k := Nat.mul_pos hd (Nat.two_pow_pos k)
  have hdm := Nat.div_add_mod n (d * 2 ^ k)
  have hr := Nat.mod_lt n hD
  generalize hq : n / (d * 2 ^ k) = q at *
  generalize hr' : n % (d * 2 ^ k) = r at *
  have hmag : ∀ q', q ≤ q' → q' ≤ q + 1 → magOf mb (k * 2 ^ mb + q') * d = d * 2 ^ k * q' := by
    intro q' h1 h2
    rw [magOf_parts mb k q' (by omega) (by omega)]
    ring
  have hp : (∃ j, magOf mb p * d = d * 2 ^ k * j) ∨ magOf mb p * d < d * 2 ^ k * q := by
    rcases Nat.lt_or_ge (magOf mb p) (2 ^ mb * 2 ^ k) with h | h
    · rcases hqge with h0 | h1
      · subst h0; exact .inl ⟨magOf mb p, by ring⟩
      · right
        calc magOf mb p * d < 2 ^ mb * 2 ^ k * d := Nat.mul_lt_mul_of_pos_right h hd
          _ = d * 2 ^ k * 2 ^ mb := by ring
          _ ≤ d * 2 ^ k * q := Nat.mul_le_mul_left _ h1
    · obtain ⟨j, hj⟩ := magOf_dvd mb p k h
      exact .inl ⟨j, by rw [hj]; ring⟩
  have hcancel : ∀ a b : Nat, a * d = b * d → a = b := fun a b h => Nat.eq_of_mul_eq_mul_right hd h
  have heven : ∀ q', (k * 2 ^ mb + q') % 2 = q' % 2 := by
    intro q'
    obtain ⟨c, rfl⟩ : ∃ c, mb = c + 1 := ⟨mb - 1, by omega⟩
    rw [Nat.pow_succ]
    have : k * (2 ^ c * 2) = 2 * (k * 2 ^ c) := by ring
    rw [this]; omega
  have main : ∀ q', q ≤ q' → q' ≤ q + 1 → (q' = q → 2 * r ≤ d * 2 ^ k) → (q' = q + 1 → d * 2 ^ k ≤ 2 * r) →
      (2 * r = d * 2 ^ k → q' % 2 = 0) →
      |(magOf mb (k * 2 ^ mb + q') * d : ℤ) - n| ≤ |(magOf mb p * d : ℤ) - n| ∧
      (|(magOf mb (k * 2 ^ mb + q') * d : ℤ) - n| = |(magOf mb p * d : ℤ) - n| →
        magOf mb p = magOf mb (k * 2 ^ mb + q') ∨ (k * 2 ^ mb + q') % 2 = 0) := by
    intro q' h1 h2 hlo hhi htie
    have hm := hmag q' h1 h2
    rw [heven q']
    have hmz : (magOf mb (k * 2 ^ mb + q') * d : ℤ) = ((d * 2 ^ k * q' : Nat) : ℤ) := by rw [← hm]; push_cast; ring
    have hpz : (magOf mb p * d : ℤ) = ((magOf mb p * d : Nat) : ℤ) := by push_cast; ring
    have hnz : (n : ℤ) = ((d * 2 ^ k * q + r : Nat) : ℤ) := by rw [hdm]
    rw [hmz, hpz, hnz]
    have hpe : magOf mb p * d = d * 2 ^ k * q' → magOf mb p = magOf mb (k * 2 ^ mb + q') := by
      intro h; exact hcancel _ _ (by rw [h, hm])
    generalize d * 2 ^ k = D at *
    have hq' : q' = q ∨ q' = q + 1 := by omega
    have e1 : D * (q + 1) = D * q + D := by ring
    rcases hp with ⟨j, hj⟩ | hlt
    · rw [hj]
      have hpe' : j = q' → magOf mb p = magOf mb (k * 2 ^ mb + q') := fun h => hpe (by rw [hj, h])
      have hjd : (j ≤ q ∧ D * j ≤ D * q ∧ (j < q → D * j + D ≤ D * q)) ∨
          (q + 1 ≤ j ∧ D * q + D ≤ D * j ∧ (q + 1 < j → D * q + D + D ≤ D * j)) := by
        rcases Nat.lt_or_ge q j with h | h
        · right
          refine ⟨h, by rw [← e1]; exact Nat.mul_le_mul_left _ h, fun h3 => ?_⟩
          have : D * (q + 2) ≤ D * j := Nat.mul_le_mul_left _ h3
          have e2 : D * (q + 2) = D * q + D + D := by ring
          omega
        · left
          refine ⟨h, Nat.mul_le_mul_left _ h, fun h3 => ?_⟩
          have : D * (j + 1) ≤ D * q := Nat.mul_le_mul_left _ h3
          have e2 : D * (j + 1) = D * j + D := by ring
          omega
      generalize hDj : D * j = Dj at *
      rcases hq' with h | h
      · have := hlo h
        subst h
        constructor
        · rcases hjd with ⟨-, g, -⟩ | ⟨-, g, -⟩
          · rw [abs_of_nonpos (by omega), abs_of_nonpos (by omega)]; omega
          · rw [abs_of_nonpos (by omega), abs_of_nonneg (by omega)]; omega
        · intro heq
          rcases hjd with ⟨g0, g, g2⟩ | ⟨g0, g, g2⟩
          · rw [abs_of_nonpos (by omega), abs_of_nonpos (by omega)] at heq
            left; apply hpe'
            by_contra hne
            have := g2 (by omega); omega
          · rw [abs_of_nonpos (by omega), abs_of_nonneg (by omega)] at heq
            right; apply htie; omega
      · have := hhi h
        subst h
        rw [e1] at hm ⊢
        constructor
        · rcases hjd with ⟨-, g, -⟩ | ⟨-, g, -⟩
          · rw [abs_of_nonneg (by omega), abs_of_nonpos (by omega)]; omega
          · rw [abs_of_nonneg (by omega), abs_of_nonneg (by omega)]; omega
        · intro heq
          rcases hjd with ⟨g0, g, g2⟩ | ⟨g0, g, g2⟩
          · rw [abs_of_nonneg (by omega), abs_of_nonpos (by omega)] at heq
            right; apply htie; omega
          · rw [abs_of_nonneg (by omega), abs_of_nonneg (by omega)] at heq
            left; apply hpe'
            by_contra hne
            have := g2 (by omega); omega
    · generalize magOf mb p * d = P at *
      rcases hq' with h | h
      · have := hlo h
        subst h
        rw [abs_of_nonpos (by omega), abs_of_nonpos (by omega)]
        constructor
        · omega
        · intro; omega
      · have := hhi h
        subst h
        rw [e1] at hm ⊢
        rw [abs_of_nonneg (by omega), abs_of_nonpos (by omega)]
        constructor
        · omega
        · intro; omega
  split
  · rename_i hc
    exact main (q + 1) (by omega) (by omega) (by omega) (by omega) (by omega)
  · rename_i hc
    exact main q (by omega) (by omega) (by omega) (by omega) (by omega)

/-- Rounding keeps the order with the magnitudes of the format. -/
theorem roundP_ge (mb n d p : Nat) (hmb : 0 < mb) (hd : 0 < d) (h : magOf mb p * d ≤ n) : p ≤ roundP mb n d := by
  have hn := (roundP_nearest mb n d hmb hd p).1
  rw [← magOf_le_iff (mb := mb)]
  by_contra hc
  have hlt : magOf mb (roundP mb n d) * d < magOf mb p * d := Nat.mul_lt_mul_of_pos_right (Nat.lt_of_not_le hc) hd
  generalize magOf mb (roundP mb n d) = a at *
  generalize magOf mb p = b at *
  have e1 : (a * d : ℤ) = ((a * d : Nat) : ℤ) := by push_cast; ring
  have e2 : (b * d : ℤ) = ((b * d : Nat) : ℤ) := by push_cast; ring
  rw [e1, e2] at hn
  generalize a * d = x at *
  generalize b * d = y at *
  rw [abs_of_nonpos (by omega), abs_of_nonpos (by omega)] at hn
  omega

theorem roundP_le (mb n d p : Nat) (hmb : 0 < mb) (hd : 0 < d) (h : n ≤ magOf mb p * d) : roundP mb n d ≤ p := by
  have hn := (roundP_nearest mb n d hmb hd p).1
  rw [← magOf_le_iff (mb := mb)]
  by_contra hc
  have hlt : magOf mb p * d < magOf mb (roundP mb n d) * d := Nat.mul_lt_mul_of_pos_right (Nat.lt_of_not_le hc) hd
  generalize magOf mb (roundP mb n d) = a at *
  generalize magOf mb p = b at *
  have e1 : (a * d : ℤ) = ((a * d : Nat) : ℤ) := by push_cast; ring
  have e2 : (b * d : ℤ) = ((b * d : Nat) : ℤ) := by push_cast; ring
  rw [e1, e2] at hn
  generalize a * d = x at *
  generalize b * d = y at *
  rw [abs_of_nonneg (by omega), abs_of_nonneg (by omega)] at hn
  omega

theorem roundP_exact (mb p d : Nat) (hmb : 0 < mb) (hd : 0 < d) : roundP mb (magOf mb p * d) d = p :=
  Nat.le_antisymm (roundP_le mb _ d p hmb hd (Nat.le_refl _)) (roundP_ge mb _ d p hmb hd (Nat.le_refl _))

/-- From the smallest normal number on the error is at most half a unit of the last place. -/
theorem roundP_rel (mb n d : Nat) (hd : 0 < d) (hn : d * 2 ^ mb ≤ n) :
    2 * 2 ^ mb * (magOf mb (roundP mb n d) * d) ≤ 2 * 2 ^ mb * n + n ∧
    2 * 2 ^ mb * n ≤ 2 * 2 ^ mb * (magOf mb (roundP mb n d) * d) + n := by
  obtain ⟨k, hR, hqlt, hqge⟩ := roundP_parts mb n d
  have hD : 0 < d * 2 ^ k := Nat.mul_pos hd (Nat.two_pow_pos k)
  have hnear := rhe_near n (d * 2 ^ k) hD
  have hq1 : n / (d * 2 ^ k) ≤ rhe n (d * 2 ^ k) ∧ rhe n (d * 2 ^ k) ≤ n / (d * 2 ^ k) + 1 := by
    unfold rhe; split <;> omega
  have hm : magOf mb (roundP mb n d) * d = rhe n (d * 2 ^ k) * (d * 2 ^ k) := by
    rw [hR, magOf_parts mb k _ (by omega) (by omega)]; ring
  rw [hm]
  have hunit : d * 2 ^ k * 2 ^ mb ≤ n := by
    rcases hqge with h0 | h1
    · subst h0; simpa using hn
    · calc d * 2 ^ k * 2 ^ mb ≤ d * 2 ^ k * (n / (d * 2 ^ k)) := Nat.mul_le_mul_left _ h1
        _ ≤ n := Nat.mul_div_le _ _
  generalize rhe n (d * 2 ^ k) * (d * 2 ^ k) = M at *
  generalize d * 2 ^ k = D at *
  generalize 2 ^ mb = H at *
  have e1 : 2 * H * M = H * (2 * M) := by ring
  have e2 : 2 * H * n = H * (2 * n) := by ring
  rw [e1, e2]
  have a1 := Nat.mul_le_mul_left H hnear.1
  have a2 := Nat.mul_le_mul_left H hnear.2
  have e3 : H * D = D * H := by ring
  rw [Nat.mul_add] at a1 a2
  omega

/-- Rounding reaches exponent field `E` (infinity) exactly from half a unit above the largest magnitude below it. -/
theorem roundP_overflow (mb E n d : Nat) (hE : 3 ≤ E) (hmb : 0 < mb) (hd : 0 < d) :
    E * 2 ^ mb ≤ roundP mb n d ↔ d * ((4 * 2 ^ mb - 1) * 2 ^ (E - 3)) ≤ n := by
  have hH : 2 ≤ 2 ^ mb := by
    obtain ⟨c, rfl⟩ : ∃ c, mb = c + 1 := ⟨mb - 1, by omega⟩
    rw [Nat.pow_succ]; have := Nat.two_pow_pos c; omega
  -- magnitudes of infinity and of the largest pattern below it
  have hinf : magOf mb (E * 2 ^ mb) = 4 * 2 ^ mb * 2 ^ (E - 3) := by
    have := magOf_parts mb (E - 1) (2 ^ mb) (by omega) (.inr (Nat.le_refl _))
    rw [show (E - 1) * 2 ^ mb + 2 ^ mb = E * 2 ^ mb by
      obtain ⟨e, rfl⟩ : ∃ e, E = e + 1 := ⟨E - 1, by omega⟩
      rw [Nat.add_sub_cancel, Nat.add_mul, Nat.one_mul]] at this
    rw [this, show E - 1 = E - 3 + 1 + 1 by omega, Nat.pow_succ, Nat.pow_succ]
    ring
  have hmax : magOf mb (E * 2 ^ mb - 1) = (4 * 2 ^ mb - 2) * 2 ^ (E - 3) := by
    have := magOf_parts mb (E - 2) (2 * 2 ^ mb - 1) (by omega) (.inr (by omega))
    rw [show (E - 2) * 2 ^ mb + (2 * 2 ^ mb - 1) = E * 2 ^ mb - 1 by
      obtain ⟨e, rfl⟩ : ∃ e, E = e + 2 := ⟨E - 2, by omega⟩
      rw [Nat.add_sub_cancel, Nat.add_mul]; omega] at this
    rw [this, show E - 2 = E - 3 + 1 by omega, Nat.pow_succ]
    have : 4 * 2 ^ mb - 2 = (2 * 2 ^ mb - 1) * 2 := by omega
    rw [this]; ring
  have hEodd : (E * 2 ^ mb - 1) % 2 = 1 := by
    obtain ⟨c, rfl⟩ : ∃ c, mb = c + 1 := ⟨mb - 1, by omega⟩
    have e : E * 2 ^ (c + 1) = 2 * (E * 2 ^ c) := by rw [Nat.pow_succ]; ring
    have : 0 < E * 2 ^ c := Nat.mul_pos (by omega) (Nat.two_pow_pos c)
    rw [e]; omega
  obtain ⟨B, hB⟩ : ∃ B, B = 2 ^ (E - 3) := ⟨_, rfl⟩
  have hBpos : 0 < B := hB ▸ Nat.two_pow_pos _
  rw [← hB] at hinf hmax ⊢
  have x1 : magOf mb (E * 2 ^ mb) * d = 4 * 2 ^ mb * (d * B) := by rw [hinf]; ring
  have x2 : magOf mb (E * 2 ^ mb - 1) * d + 2 * (d * B) = 4 * 2 ^ mb * (d * B) := by
    rw [hmax]
    have : (4 * 2 ^ mb - 2) * B * d + 2 * (d * B) = (4 * 2 ^ mb - 2 + 2) * (d * B) := by ring
    rw [this, show 4 * 2 ^ mb - 2 + 2 = 4 * 2 ^ mb by omega]
  have x3 : d * ((4 * 2 ^ mb - 1) * B) + d * B = 4 * 2 ^ mb * (d * B) := by
    have : d * ((4 * 2 ^ mb - 1) * B) + d * B = (4 * 2 ^ mb - 1 + 1) * (d * B) := by ring
    rw [this, show 4 * 2 ^ mb - 1 + 1 = 4 * 2 ^ mb by omega]
  have hE1 : 0 < d * B := Nat.mul_pos hd hBpos
  constructor
  · intro h
    by_contra hc
    have hnear := (roundP_nearest mb n d hmb hd (E * 2 ^ mb - 1)).1
    have hge : magOf mb (E * 2 ^ mb) * d ≤ magOf mb (roundP mb n d) * d := Nat.mul_le_mul_right _ (magOf_le_iff.2 h)
    have e1 : (magOf mb (roundP mb n d) * d : ℤ) = ((magOf mb (roundP mb n d) * d : Nat) : ℤ) := by push_cast; ring
    have e2 : (magOf mb (E * 2 ^ mb - 1) * d : ℤ) = ((magOf mb (E * 2 ^ mb - 1) * d : Nat) : ℤ) := by push_cast; ring
    rw [e1, e2] at hnear
    generalize magOf mb (roundP mb n d) * d = R at *
    generalize magOf mb (E * 2 ^ mb - 1) * d = M at *
    rw [abs_of_nonneg (by omega)] at hnear
    rcases abs_cases ((M : ℤ) - n) with ⟨h1, h2⟩ | ⟨h1, h2⟩ <;> rw [h1] at hnear <;> omega
  · intro h
    by_contra hc
    have hle : roundP mb n d ≤ E * 2 ^ mb - 1 := by omega
    have hlem : magOf mb (roundP mb n d) * d ≤ magOf mb (E * 2 ^ mb - 1) * d := Nat.mul_le_mul_right _ (magOf_le_iff.2 hle)
    obtain ⟨hn1, hn2⟩ := roundP_nearest mb n d hmb hd (E * 2 ^ mb)
    have e1 : (magOf mb (roundP mb n d) * d : ℤ) = ((magOf mb (roundP mb n d) * d : Nat) : ℤ) := by push_cast; ring
    have e2 : (magOf mb (E * 2 ^ mb) * d : ℤ) = ((magOf mb (E * 2 ^ mb) * d : Nat) : ℤ) := by push_cast; ring
    rw [e1, e2] at hn1 hn2
    have hne : magOf mb (E * 2 ^ mb) ≠ magOf mb (roundP mb n d) := by
      intro h; have := magOf_inj h; omega
    have hodd : roundP mb n d = E * 2 ^ mb - 1 → roundP mb n d % 2 = 1 := fun h => by rw [h]; exact hEodd
    have hlt : roundP mb n d ≠ E * 2 ^ mb - 1 → magOf mb (roundP mb n d) * d < magOf mb (E * 2 ^ mb - 1) * d :=
      fun h => Nat.mul_lt_mul_of_pos_right (magOf_lt (by omega)) hd
    generalize magOf mb (roundP mb n d) * d = R at *
    generalize magOf mb (E * 2 ^ mb - 1) * d = M at *
    generalize magOf mb (E * 2 ^ mb) * d = I at *
    rw [abs_of_nonpos (by omega)] at hn1 hn2
    by_cases hl : roundP mb n d = E * 2 ^ mb - 1
    · have h1 := hodd hl
      rcases abs_cases ((I : ℤ) - n) with ⟨h1', h2⟩ | ⟨h1', h2⟩ <;> rw [h1'] at hn1 hn2
      · have heq : -((R : ℤ) - n) = I - n := by omega
        rcases hn2 heq with h | h
        · exact hne h
        · omega
      · omega
    · have := hlt hl
      rcases abs_cases ((I : ℤ) - n) with ⟨h1', h2⟩ | ⟨h1', h2⟩ <;> rw [h1'] at hn1 hn2 <;> omega

end PreCore.Flt
