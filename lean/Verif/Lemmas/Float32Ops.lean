import Verif.Lemmas.Float32Nearest
import Verif.Model.FloatVec
import Verif.Props.BC5Blue
/-!
# The operations on floats are correctly rounded; error bounds
-/
namespace PreCore.F32

/-- Half a unit above the largest float. -/
def lim : ℚ := 2 ^ 128 - 2 ^ 103

/-- `z` is the finite float nearest to `v`; of two that are as near, the even one. -/
def Nearest (z : F32) (v : ℚ) : Prop := ∃ r : ℚ, FIs z r ∧ ∀ c w, FIs c w → |r - v| ≤ |w - v| ∧ (|r - v| = |w - v| → w = r ∨ Even z)

/-- `z` is `v` correctly rounded (IEEE 754, round to nearest, ties to even). -/
def Rounded (z : F32) (v : ℚ) : Prop := (lim ≤ |v| → val z = .inf (decide (v < 0))) ∧ (|v| < lim → Nearest z v)

theorem sgn_mul_lt (s : Bool) (v : ℚ) (hv : 0 < v) : decide (sgn s * v < 0) = s := by
  cases s
  · simp [sgn]; exact hv.le
  · simp [sgn]; exact hv

theorem makeQ_rounded (s : Bool) (n d : Nat) (hd : 0 < d) : Rounded (makeQ s n d) (sgn s * ((n : ℚ) / d / unit)) := by
  have hu := unit_pos
  have hnn : (0 : ℚ) ≤ (n : ℚ) / d / unit := by positivity
  have habs : |sgn s * ((n : ℚ) / d / unit)| = (n : ℚ) / d / unit := by
    rw [abs_mul, sgn_abs, one_mul, abs_of_nonneg hnn]
  obtain ⟨h1, h2⟩ := makeQ_nearest s n d hd
  constructor
  · intro h
    rw [habs] at h
    rw [h1 h, sgn_mul_lt s _ (lt_of_lt_of_le (by norm_num [lim]) h)]
  · intro h
    rw [habs] at h
    exact h2 h

theorem mul_rounded {x y : F32} {a b : ℚ} (hx : FIs x a) (hy : FIs y b) : Rounded (mul x y) (a * b) := by
  obtain ⟨s, m, hm, rfl⟩ := hx
  obtain ⟨t, n, hn, rfl⟩ := hy
  have e : mul x y = makeQ (s != t) (m * n) (2 ^ 149) := by unfold mul; rw [hm, hn]
  have e2 : sgn s * ((m : ℚ) / unit) * (sgn t * ((n : ℚ) / unit)) = sgn (s != t) * (((m * n : Nat) : ℚ) / ((2 ^ 149 : Nat) : ℚ) / unit) := by
    rw [sgn_mul]; push_cast; unfold unit; ring
  rw [e, e2]
  exact makeQ_rounded _ _ _ (Nat.two_pow_pos _)

theorem zero_nearest : Nearest 0 0 := by
  refine ⟨0, ⟨false, 0, by decide, by simp⟩, fun c w _ => ?_⟩
  refine ⟨by simp, fun h => .inr ?_⟩
  unfold Even; decide

theorem add_rounded {x y : F32} {a b : ℚ} (hx : FIs x a) (hy : FIs y b) : Rounded (add x y) (a + b) := by
  obtain ⟨s, m, hm, rfl⟩ := hx
  obtain ⟨t, n, hn, rfl⟩ := hy
  have key : ∀ (q : Bool) (k : Nat), sgn s * ((m : ℚ) / unit) + sgn t * ((n : ℚ) / unit) = sgn q * ((k : ℚ) / unit) → add x y = make q k →
      Rounded (add x y) (sgn s * ((m : ℚ) / unit) + sgn t * ((n : ℚ) / unit)) := by
    intro q k he ha
    rw [he, ha, make_eq]
    have := makeQ_rounded q k 1 (by omega)
    simpa using this
  have hadd : add x y = if s = t then make s (m + n) else if m = n then 0 else if n < m then make s (m - n) else make t (n - m) := by
    unfold add; rw [hm, hn]
  by_cases hst : s = t
  · subst hst
    apply key s (m + n)
    · push_cast; ring
    · rw [hadd, if_pos rfl]
  · have hts : sgn t = - sgn s := by cases s <;> cases t <;> simp_all [sgn]
    rw [if_neg hst] at hadd
    by_cases hmn : m = n
    · rw [if_pos hmn] at hadd
      have e : sgn s * ((m : ℚ) / unit) + sgn t * ((n : ℚ) / unit) = 0 := by rw [hts, hmn]; ring
      rw [e, hadd]
      refine ⟨fun h => ?_, fun _ => zero_nearest⟩
      simp [lim] at h; norm_num at h
    · rw [if_neg hmn] at hadd
      by_cases hlt : n < m
      · rw [if_pos hlt] at hadd
        apply key s (m - n) _ hadd
        rw [Nat.cast_sub hlt.le, hts]; ring
      · rw [if_neg hlt] at hadd
        apply key t (n - m) _ hadd
        rw [Nat.cast_sub (by omega), hts]; ring

theorem negate_fis {x : F32} {a : ℚ} (hx : FIs x a) : FIs (negate x) (-a) := by
  obtain ⟨s, m, hm, rfl⟩ := hx
  obtain ⟨h1, h2⟩ := val_fin hm
  have hs : s = decide (2 ^ 31 ≤ x.toNat) := by
    have hlt := x.isLt
    have := val_mag (decide (2 ^ 31 ≤ x.toNat)) (x.toNat % 2 ^ 31) h2 x (by
      simp only [decide_eq_true_eq]
      split <;> omega)
    rw [this] at hm
    injection hm with h _
    exact h.symm
  have hn : (negate x).toNat = (if !s then 2 ^ 31 else 0) + x.toNat % 2 ^ 31 := by
    unfold negate
    have hlt := x.isLt
    have hx2 : (x ^^^ 0x80000000).toNat = x.toNat ^^^ 2 ^ 31 := by
      rw [BitVec.toNat_xor]; rfl
    rw [hx2]
    by_cases h31 : 2 ^ 31 ≤ x.toNat
    · have : x.toNat = 2 ^ 31 * 1 ||| x.toNat % 2 ^ 31 := by
        rw [← Nat.two_pow_add_eq_or_of_lt (by omega)]; omega
      simp only [hs, h31, decide_true, Bool.not_true, Bool.false_eq_true, if_false, Nat.zero_add]
      apply Nat.eq_of_testBit_eq
      intro i
      rw [Nat.testBit_xor, Nat.testBit_two_pow, Nat.testBit_mod_two_pow]
      by_cases hi : i < 31
      · simp [hi, show ¬ 31 = i by omega]
      · rcases Nat.eq_or_lt_of_le (show 31 ≤ i by omega) with h | h
        · subst h
          have : x.toNat.testBit 31 = true := by
            rw [Nat.testBit_eq_decide_div_mod_eq]
            simp only [decide_eq_true_eq]; omega
          simp [this]
        · have : x.toNat.testBit i = false := Nat.testBit_lt_two_pow (Nat.lt_of_lt_of_le hlt (Nat.pow_le_pow_right (by decide) (by omega)))
          simp [this, hi, show ¬ 31 = i by omega]
    · simp only [hs, h31, decide_false, Bool.not_false, if_true]
      rw [Nat.mod_eq_of_lt (by omega), Nat.xor_comm, show (2 ^ 31 : Nat) = 2 ^ 31 * 1 by rfl]
      rw [Nat.two_pow_add_eq_or_of_lt (by omega)]
      apply Nat.eq_of_testBit_eq
      intro i
      rw [Nat.testBit_xor, Nat.testBit_or]
      by_cases hi : i < 31
      · have : (2 ^ 31 * 1).testBit i = false := by
          rw [Nat.mul_one, Nat.testBit_two_pow]; simp; omega
        rw [this]; simp
      · have : x.toNat.testBit i = false := Nat.testBit_lt_two_pow (Nat.lt_of_lt_of_le (show x.toNat < 2 ^ 31 by omega) (Nat.pow_le_pow_right (by decide) (by omega)))
        simp [this]
  refine ⟨!s, m, ?_, ?_⟩
  · rw [h1]; exact val_mag (!s) _ h2 _ hn
  · cases s <;> simp [sgn]

theorem sub_rounded {x y : F32} {a b : ℚ} (hx : FIs x a) (hy : FIs y b) : Rounded (sub x y) (a - b) := by
  rw [sub_eq_add_neg]
  exact add_rounded hx (negate_fis hy)

theorem div_rounded {x y : F32} {a b : ℚ} (hx : FIs x a) (hy : FIs y b) (hb : b ≠ 0) : Rounded (div x y) (a / b) := by
  obtain ⟨s, m, hm, rfl⟩ := hx
  obtain ⟨t, n, hn, rfl⟩ := hy
  have hu := unit_pos
  have hn0 : n ≠ 0 := by rintro rfl; simp at hb
  have e : div x y = makeQ (s != t) (m * 2 ^ 149) n := by unfold div; rw [hm, hn]; simp only; rw [if_neg hn0]
  have hnq : (n : ℚ) ≠ 0 := by exact_mod_cast hn0
  have ht : (sgn t)⁻¹ = sgn t := by cases t <;> simp [sgn]
  have e2 : sgn s * ((m : ℚ) / unit) / (sgn t * ((n : ℚ) / unit)) = sgn (s != t) * (((m * 2 ^ 149 : Nat) : ℚ) / (n : ℚ) / unit) := by
    rw [sgn_mul, mul_div_mul_comm, div_eq_mul_inv (sgn s), ht]
    rw [Nat.cast_mul, show ((2 ^ 149 : Nat) : ℚ) = unit by unfold unit; push_cast; rfl]
    field_simp
  rw [e, e2]
  exact makeQ_rounded _ _ _ (by omega)

/-- A representable result is exact. -/
theorem Rounded.exact {z c : F32} {v : ℚ} (h : Rounded z v) (hc : FIs c v) (hv : |v| < lim) : FIs z v := by
  obtain ⟨r, hr, hmin⟩ := h.2 hv
  have := (hmin c v hc).1
  rw [sub_self, abs_zero] at this
  have : r = v := by have := abs_nonpos_iff.1 this; linarith
  rw [← this]; exact hr

/-- Finite floats are below the limit. -/
theorem FIs.lt_lim {x : F32} {v : ℚ} (h : FIs x v) : |v| < lim := by
  obtain ⟨s, m, hm, rfl⟩ := h
  obtain ⟨h1, h2⟩ := val_fin hm
  rw [abs_mul, sgn_abs, one_mul, abs_of_nonneg (by have := unit_pos; positivity), div_lt_iff₀ unit_pos]
  have h3 : m ≤ magOf 0x7f7fffff := by rw [h1]; exact magOf_mono (by omega)
  have h4 : ((magOf 0x7f7fffff : Nat) : ℚ) < lim * unit := by
    have : magOf 0x7f7fffff = (2 ^ 24 - 1) * 2 ^ 253 := rfl
    rw [this]
    push_cast
    unfold lim unit
    norm_num
  have h5 : (m : ℚ) ≤ ((magOf 0x7f7fffff : Nat) : ℚ) := by exact_mod_cast h3
  linarith

/-- A float not above a value is not above the rounded value, and the other way round. -/
theorem Nearest.mono {z c : F32} {v w : ℚ} (h : Nearest z v) (hc : FIs c w) : ∃ r, FIs z r ∧ (w ≤ v → w ≤ r) ∧ (v ≤ w → r ≤ w) := by
  obtain ⟨r, hr, hmin⟩ := h
  have h1 := (hmin c w hc).1
  refine ⟨r, hr, fun hle => ?_, fun hle => ?_⟩
  · rw [abs_of_nonpos (show w - v ≤ 0 by linarith)] at h1
    have := (abs_le.1 h1).1; linarith
  · rw [abs_of_nonneg (show 0 ≤ w - v by linarith)] at h1
    have := (abs_le.1 h1).2; linarith

/-- The difference is off by at most `2^-24` of itself and `2^-150`. -/
theorem sub_err_s {x y : F32} {a b : ℚ} (hx : FIs x a) (hy : FIs y b) (h : |a - b| ≤ 2 ^ 127) :
    ∃ r : ℚ, FIs (sub x y) r ∧ |r - (a - b)| ≤ |a - b| / 2 ^ 24 + 1 / 2 ^ 150 := by
  rw [sub_eq_add_neg] at h ⊢
  exact add_err_s hx (negate_fis hy) h

/-- A quotient is off by at most `2^-24` of itself and `2^-150`. -/
theorem div_err_s {x y : F32} {a b : ℚ} (hx : FIs x a) (hy : FIs y b) (hb : b ≠ 0) (h : |a / b| ≤ 2 ^ 127) :
    ∃ r : ℚ, FIs (div x y) r ∧ |r - a / b| ≤ |a / b| / 2 ^ 24 + 1 / 2 ^ 150 := by
  obtain ⟨s, m, hm, rfl⟩ := hx
  obtain ⟨t, n, hn, rfl⟩ := hy
  have hu := unit_pos
  have hn0 : n ≠ 0 := by rintro rfl; simp at hb
  have e : div x y = makeQ (s != t) (m * 2 ^ 149) n := by unfold div; rw [hm, hn]; simp only; rw [if_neg hn0]
  have hnp : (0 : ℚ) < n := by exact_mod_cast Nat.pos_of_ne_zero hn0
  have ht : (sgn t)⁻¹ = sgn t := by cases t <;> simp [sgn]
  have e2 : sgn s * ((m : ℚ) / unit) / (sgn t * ((n : ℚ) / unit)) = sgn (s != t) * (((m * 2 ^ 149 : Nat) : ℚ) / (n : ℚ) / unit) := by
    rw [sgn_mul, mul_div_mul_comm, div_eq_mul_inv (sgn s), ht]
    rw [Nat.cast_mul, show ((2 ^ 149 : Nat) : ℚ) = unit by unfold unit; push_cast; rfl]
    field_simp
  have habs : |sgn (s != t) * (((m * 2 ^ 149 : Nat) : ℚ) / (n : ℚ) / unit)| = ((m * 2 ^ 149 : Nat) : ℚ) / (n : ℚ) / unit := by
    rw [abs_mul, sgn_abs, one_mul, abs_of_nonneg (by positivity)]
  rw [e2, habs] at h ⊢
  rw [e]
  apply makeQ_err_s _ _ _ (by omega)
  rw [div_le_iff₀ hu, div_le_iff₀ hnp] at h
  have h3 : ((m * 2 ^ 149 : Nat) : ℚ) ≤ ((n * 2 ^ 276 : Nat) : ℚ) := by
    refine h.trans (le_of_eq ?_)
    unfold unit
    rw [← pow_add]
    push_cast
    ring
  exact_mod_cast h3

theorem sqrt_err {x : F32} {a : ℚ} (h : Is x a) :
    ∃ r : ℚ, Is (sqrtFull x) r ∧ |(r : ℝ) - Real.sqrt a| ≤ Real.sqrt a / 2 ^ 24 + 1 / 2 ^ 149 := by
  obtain ⟨m, hm, rfl⟩ := h
  have hm1 : m ≤ 2 ^ 277 := by
    obtain ⟨h1, h2⟩ := val_fin hm
    have h3 : m ≤ magOf 0x7f7fffff := by rw [h1]; exact magOf_mono (by omega)
    have h4 : magOf 0x7f7fffff ≤ 2 ^ 277 := by
      have : magOf 0x7f7fffff = (2 ^ 24 - 1) * 2 ^ 253 := rfl
      rw [this, show (277 : Nat) = 24 + 253 from rfl, Nat.pow_add]
      exact Nat.mul_le_mul_right _ (by decide)
    omega
  have hn : m * 2 ^ (149 + 128) ≤ 2 ^ 554 := by
    refine (Nat.mul_le_mul_right (2 ^ (149 + 128)) hm1).trans ?_
    exact (Nat.pow_add 2 277 (149 + 128)).ge
  have hlt : m * 2 ^ (149 + 128) < 4 ^ 300 := by
    refine Nat.lt_of_le_of_lt hn ?_
    rw [show (4 : Nat) = 2 ^ 2 from rfl, ← Nat.pow_mul]
    exact Nat.pow_lt_pow_right (by omega) (by omega)
  obtain ⟨s1, s2⟩ := Block.isqrt_spec 300 _ hlt
  have es : sqrtFull x = makeQ false (2 * Block.isqrt 300 (m * 2 ^ (149 + 128)) +
      (if Block.isqrt 300 (m * 2 ^ (149 + 128)) * Block.isqrt 300 (m * 2 ^ (149 + 128)) = m * 2 ^ (149 + 128) then 0 else 1)) (2 ^ 65) := by
    unfold sqrtFull Block.sqrtF; rw [hm]
  rw [es]
  generalize Block.isqrt 300 (m * 2 ^ (149 + 128)) = s at *
  obtain ⟨t, ht, ht1⟩ : ∃ t, (if s * s = m * 2 ^ (149 + 128) then 0 else 1) = t ∧ t ≤ 1 := by
    refine ⟨_, rfl, ?_⟩
    split <;> omega
  rw [ht]
  have hs : s ≤ 2 ^ 277 := by
    by_contra hc
    have : 2 ^ 277 * 2 ^ 277 < s * s := Nat.mul_lt_mul'' (by omega) (by omega)
    rw [← Nat.pow_add] at this
    have h3 : (2 : Nat) ^ 554 ≤ 2 ^ (277 + 277) := Nat.pow_le_pow_right (by omega) (by omega)
    omega
  have hsz : 2 * s + t ≤ 2 ^ 65 * 2 ^ 276 := by
    have : (2 : Nat) ^ 65 * 2 ^ 276 = 2 ^ 277 * 2 ^ 64 := by rw [← Nat.pow_add, ← Nat.pow_add]
    rw [this]
    have : 2 ^ 277 * 2 ^ 2 ≤ 2 ^ 277 * 2 ^ 64 := Nat.mul_le_mul_left _ (Nat.pow_le_pow_right (by omega) (by omega))
    have : 0 < 2 ^ 277 := Nat.two_pow_pos _
    omega
  obtain ⟨r, hr, he⟩ := makeQ_err (2 * s + t) (2 ^ 65) (Nat.two_pow_pos _) hsz
  refine ⟨r, hr, ?_⟩
  clear hsz hs hlt hn hm1
  have hroot : Real.sqrt ((((m : ℚ) / unit : ℚ)) : ℝ) = Real.sqrt (m * 2 ^ 277) / 2 ^ 213 := by
    have e : ((((m : ℚ) / unit : ℚ)) : ℝ) = (m * 2 ^ 277) / (2 ^ 213) ^ 2 := by
      rw [Rat.cast_div, Block.unit_cast]
      push_cast
      rw [← pow_mul, div_eq_div_iff (by positivity) (by positivity), mul_assoc, ← pow_add]
    rw [e, Real.sqrt_div (by positivity), Real.sqrt_sq (by positivity)]
  rw [hroot]
  have hs1 : (s : ℝ) ≤ Real.sqrt (m * 2 ^ 277) := by
    apply Real.le_sqrt_of_sq_le
    rw [sq]
    exact_mod_cast s1
  have hs2 : Real.sqrt (m * 2 ^ 277) < s + 1 := by
    rw [Real.sqrt_lt' (by positivity), sq]
    exact_mod_cast s2
  have htq : (t : ℝ) ≤ 1 := by exact_mod_cast ht1
  have ht0 : (0 : ℝ) ≤ t := by positivity
  have heR : |(r : ℝ) - (2 * (s : ℝ) + (t : ℝ)) / 2 ^ 214| ≤ (2 * (s : ℝ) + (t : ℝ)) / 2 ^ 214 / 2 ^ 24 + 1 / 2 ^ 150 := by
    have : ((|r - ((2 * s + t : Nat) : ℚ) / ((2 ^ 65 : Nat) : ℚ) / unit| : ℚ) : ℝ) ≤
        ((((2 * s + t : Nat) : ℚ) / ((2 ^ 65 : Nat) : ℚ) / unit / 2 ^ 24 + 1 / 2 ^ 150 : ℚ) : ℝ) := by exact_mod_cast he
    push_cast [Block.unit_cast] at this
    have e : ((2 * (s : ℝ) + (t : ℝ)) / 36893488147419103232 / 2 ^ 149) = (2 * (s : ℝ) + (t : ℝ)) / 2 ^ 214 := by
      rw [show (36893488147419103232 : ℝ) = 2 ^ 65 by norm_num, div_div, ← pow_add]
    rw [e] at this
    exact this
  generalize Real.sqrt (m * 2 ^ 277) = q at *
  have k1 : |(2 * (s : ℝ) + t) / 2 ^ 214 - q / 2 ^ 213| ≤ 1 / 2 ^ 213 := by
    have e : (2 * (s : ℝ) + t) / 2 ^ 214 - q / 2 ^ 213 = ((s : ℝ) + t / 2 - q) / 2 ^ 213 := by
      rw [pow_succ (2 : ℝ) 213]; field_simp
    rw [e, abs_div, abs_of_pos (show (0 : ℝ) < 2 ^ 213 by positivity)]
    apply div_le_div_of_nonneg_right _ (by positivity)
    rw [abs_le]; constructor <;> linarith
  have k3 := abs_le.1 k1
  have k4 := abs_le.1 heR
  generalize (2 * (s : ℝ) + t) / 2 ^ 214 = A at *
  generalize q / 2 ^ 213 = Q at *
  have k5 : A / 2 ^ 24 ≤ (Q + 1 / 2 ^ 213) / 2 ^ 24 := div_le_div_of_nonneg_right (by linarith) (by positivity)
  have k7 : (Q + 1 / 2 ^ 213) / 2 ^ 24 = Q / 2 ^ 24 + 1 / 2 ^ 213 / 2 ^ 24 := by ring
  have k6 : (1 / 2 ^ 213 / 2 ^ 24 + 1 / 2 ^ 150 + 1 / 2 ^ 213 : ℝ) ≤ 1 / 2 ^ 149 := by norm_num
  rw [abs_le]; constructor <;> linarith

end PreCore.F32
