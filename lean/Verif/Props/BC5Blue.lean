import Verif.Lemmas.Float32Signed
import Verif.Model.BC5Blue
import Verif.Props.BlockColours
import Mathlib.Analysis.Real.Sqrt
import Mathlib.Tactic.Linarith
import Mathlib.Tactic.NormNum
import Mathlib.Tactic.Positivity
import Mathlib.Tactic.IntervalCases
/-!
# C127: the blue channel that `ComputeBC5Blue` calculates
-/
namespace PreCore.Block
open PreCore.F32

/-! ## Square root -/

theorem isqrt_spec : ∀ f n, n < 4 ^ f → isqrt f n * isqrt f n ≤ n ∧ n < (isqrt f n + 1) * (isqrt f n + 1) := by
  intro f
  induction f with
  | zero => intro n h; simp at h; subst h; simp [isqrt]
  | succ f ih =>
    intro n h
    rw [Nat.pow_succ] at h
    obtain ⟨h1, h2⟩ := ih (n / 4) (by omega)
    unfold isqrt
    generalize isqrt f (n / 4) = s at *
    simp only
    have e1 : 4 * (s * s) = 2 * s * (2 * s) := by ring
    have e2 : 4 * ((s + 1) * (s + 1)) = (2 * s + 1 + 1) * (2 * s + 1 + 1) := by ring
    split
    · rename_i hc
      exact ⟨hc, by omega⟩
    · rename_i hc
      exact ⟨by omega, by omega⟩

theorem unit_cast : ((unit : ℚ) : ℝ) = 2 ^ 149 := by unfold unit; push_cast; rfl

/-- The root of a float up to 2 is right to 2^-22. -/
theorem sqrtF_close {x : F32} {a : ℚ} (h : Is x a) (ha : a ≤ 2) :
    ∃ r : ℚ, Is (sqrtF x) r ∧ |(r : ℝ) - Real.sqrt a| ≤ 1 / 2 ^ 22 := by
  obtain ⟨m, hm, rfl⟩ := h
  have hm1 : m ≤ 2 ^ 150 := by
    rw [div_le_iff₀ unit_pos] at ha
    unfold unit at ha
    rw [← pow_succ'] at ha
    exact_mod_cast ha
  have hn : m * 2 ^ (149 + 128) ≤ 2 ^ 427 := by
    refine (Nat.mul_le_mul_right (2 ^ (149 + 128)) hm1).trans ?_
    exact (Nat.pow_add 2 150 (149 + 128)).ge
  have hlt : m * 2 ^ (149 + 128) < 4 ^ 300 := by
    refine Nat.lt_of_le_of_lt hn ?_
    rw [show (4 : Nat) = 2 ^ 2 from rfl, ← Nat.pow_mul]
    exact Nat.pow_lt_pow_right (by omega) (by omega)
  obtain ⟨s1, s2⟩ := isqrt_spec 300 _ hlt
  have es : sqrtF x = makeQ false (2 * isqrt 300 (m * 2 ^ (149 + 128)) +
      (if isqrt 300 (m * 2 ^ (149 + 128)) * isqrt 300 (m * 2 ^ (149 + 128)) = m * 2 ^ (149 + 128) then 0 else 1)) (2 ^ 65) := by
    unfold sqrtF; rw [hm]
  rw [es]
  generalize isqrt 300 (m * 2 ^ (149 + 128)) = s at *
  obtain ⟨t, ht, ht1⟩ : ∃ t, (if s * s = m * 2 ^ (149 + 128) then 0 else 1) = t ∧ t ≤ 1 := by
    refine ⟨_, rfl, ?_⟩
    split <;> omega
  rw [ht]
  have hs : s ≤ 2 ^ 214 := by
    by_contra hc
    have : 2 ^ 214 * 2 ^ 214 < s * s := Nat.mul_lt_mul'' (by omega) (by omega)
    rw [← Nat.pow_add] at this
    have h3 : (2 : Nat) ^ 427 ≤ 2 ^ (214 + 214) := Nat.pow_le_pow_right (by omega) (by omega)
    omega
  have hsz : 2 * s + t ≤ 2 ^ 65 * 2 ^ 276 := by
    have : (2 : Nat) ^ 65 * 2 ^ 276 = 2 ^ 214 * 2 ^ 127 := by rw [← Nat.pow_add, ← Nat.pow_add]
    rw [this]
    have : 2 ^ 214 * 2 ^ 2 ≤ 2 ^ 214 * 2 ^ 127 := Nat.mul_le_mul_left _ (Nat.pow_le_pow_right (by omega) (by omega))
    have : 0 < 2 ^ 214 := Nat.two_pow_pos _
    omega
  obtain ⟨r, hr, he⟩ := makeQ_err (2 * s + t) (2 ^ 65) (Nat.two_pow_pos _) hsz
  refine ⟨r, hr, ?_⟩
  -- the root itself
  have hroot : Real.sqrt ((((m : ℚ) / unit : ℚ)) : ℝ) = Real.sqrt (m * 2 ^ 277) / 2 ^ 213 := by
    have e : ((((m : ℚ) / unit : ℚ)) : ℝ) = (m * 2 ^ 277) / (2 ^ 213) ^ 2 := by
      rw [Rat.cast_div, unit_cast]
      push_cast
      rw [← pow_mul, div_eq_div_iff (by positivity) (by positivity), mul_assoc, ← pow_add]
    rw [e, Real.sqrt_div (by positivity), Real.sqrt_sq (by positivity)]
  rw [hroot]
  have hs1 : (s : ℝ) ≤ Real.sqrt (m * 2 ^ 277) := by
    apply Real.le_sqrt_of_sq_le
    rw [sq]
    exact_mod_cast s1
  have hs2 : Real.sqrt (m * 2 ^ 277) < s + 1 := by
    rw [Real.sqrt_lt' (by positivity), sq]
    exact_mod_cast s2
  have hsq : (s : ℝ) ≤ 2 ^ 214 := by exact_mod_cast hs
  have htq : (t : ℝ) ≤ 1 := by exact_mod_cast ht1
  have ht0 : (0 : ℝ) ≤ t := by positivity
  have heR : |(r : ℝ) - (2 * (s : ℝ) + (t : ℝ)) / 2 ^ 214| ≤ (2 * (s : ℝ) + (t : ℝ)) / 2 ^ 214 / 2 ^ 24 + 1 / 2 ^ 150 := by
    have : ((|r - ((2 * s + t : Nat) : ℚ) / ((2 ^ 65 : Nat) : ℚ) / unit| : ℚ) : ℝ) ≤
        ((((2 * s + t : Nat) : ℚ) / ((2 ^ 65 : Nat) : ℚ) / unit / 2 ^ 24 + 1 / 2 ^ 150 : ℚ) : ℝ) := by exact_mod_cast he
    push_cast [unit_cast] at this
    have e : ((2 * (s : ℝ) + (t : ℝ)) / 36893488147419103232 / 2 ^ 149) = (2 * (s : ℝ) + (t : ℝ)) / 2 ^ 214 := by
      rw [show (36893488147419103232 : ℝ) = 2 ^ 65 by norm_num, div_div, ← pow_add]
    rw [e] at this
    exact this
  generalize Real.sqrt (m * 2 ^ 277) = q at *
  have k1 : |(2 * (s : ℝ) + t) / 2 ^ 214 - q / 2 ^ 213| ≤ 1 / 2 ^ 213 := by
    have e : (2 * (s : ℝ) + t) / 2 ^ 214 - q / 2 ^ 213 = ((s : ℝ) + t / 2 - q) / 2 ^ 213 := by
      rw [pow_succ (2 : ℝ) 213]; field_simp
    rw [e, abs_div, abs_of_pos (show (0 : ℝ) < 2 ^ 213 by positivity)]
    apply div_le_div_of_nonneg_right _ (by positivity)
    rw [abs_le]; constructor <;> linarith
  have k2 : (2 * (s : ℝ) + t) / 2 ^ 214 ≤ 2 + 1 / 2 ^ 214 := by
    rw [div_le_iff₀ (by positivity), add_mul, one_div_mul_cancel (by positivity)]
    linarith
  have k3 := abs_le.1 k1
  have k4 := abs_le.1 heR
  have k5 : (2 * (s : ℝ) + t) / 2 ^ 214 / 2 ^ 24 ≤ (2 + 1 / 2 ^ 214) / 2 ^ 24 := div_le_div_of_nonneg_right k2 (by positivity)
  have k6 : (2 + 1 / 2 ^ 214 : ℝ) / 2 ^ 24 + 1 / 2 ^ 150 + 1 / 2 ^ 213 ≤ 1 / 2 ^ 22 := by norm_num
  rw [abs_le]; constructor <;> linarith

/-! ## What is calculated -/

/-- The coordinate that a byte of a normal map stands for. -/
noncomputable def coord (b : Byte) : ℝ := 2 * b.toNat / 255 - 1

/-- The third coordinate of the unit vector with these two. -/
noncomputable def height (g r : Byte) : ℝ := Real.sqrt (1 - coord g ^ 2 - coord r ^ 2)

/-- The same number as a fraction. -/
def coordQ (b : Byte) : ℚ := 2 * b.toNat / 255 - 1

theorem coord_eq (b : Byte) : coord b = ((coordQ b : ℚ) : ℝ) := by unfold coord coordQ; push_cast; rfl

theorem coordQ_abs (b : Byte) : |coordQ b| ≤ 1 := by
  unfold coordQ
  have h : (b.toNat : ℚ) ≤ 255 := by exact_mod_cast Nat.le_of_lt_succ b.isLt
  have h0 : (0 : ℚ) ≤ b.toNat := by positivity
  rw [abs_le]
  constructor
  · have : 0 ≤ 2 * (b.toNat : ℚ) / 255 := by positivity
    linarith
  · have : 2 * (b.toNat : ℚ) / 255 ≤ 2 := by rw [div_le_iff₀ (by norm_num)]; linarith
    linarith

theorem byte_val : ∀ a : Fin 256, val (ofInt32 ((BitVec.ofNat 8 a.val).zeroExtend 32)) = .fin false (a.val * 2 ^ 149) := by decide +kernel

theorem byte_is (b : Byte) : Is (ofInt32 (b.zeroExtend 32)) b.toNat := by
  have := byte_val ⟨b.toNat, b.isLt⟩
  simp only [BitVec.ofNat_toNat, BitVec.setWidth_eq] at this
  refine is_of this ?_
  unfold unit; push_cast; rfl

theorem step_close : ∃ i, Is (divFin (lit 2) (lit 255)) i ∧ |i - 2 / 255| ≤ 1 / 2 ^ 31 :=
  close_of (m := 8421505 * 2 ^ 119) _ _ (by decide +kernel) (by unfold unit; norm_num) (by unfold unit; norm_num)

theorem is_one : Is one 1 := is_of (m := 2 ^ 149) (by decide +kernel) (by unfold unit; norm_num)
theorem minus_one : FIs (negate one) (-1) := ⟨true, 2 ^ 149, by decide +kernel, by unfold sgn unit; norm_num⟩

theorem coordinate_close (b : Byte) : ∃ c, FIs (coordinate b) c ∧ |c - coordQ b| ≤ 1 / 2 ^ 21 := by
  have hb : (b.toNat : ℚ) ≤ 255 := by exact_mod_cast Nat.le_of_lt_succ b.isLt
  have h0 : (0 : ℚ) ≤ b.toNat := by positivity
  obtain ⟨i, hi, hi2⟩ := step_close
  obtain ⟨m, hm, hm2⟩ := mul_close (α := b.toNat) (β := 2 / 255) (e1 := 0) (Ca := 255) (Cb := 2 / 255) (1 / 2 ^ 22) (byte_is b) hi (by simp) hi2 h0 (by norm_num) hb (le_refl _)
    (by norm_num) (by norm_num)
  have hm3 := abs_le.1 hm2
  have hc := coordQ_abs b
  have hcd : coordQ b = (b.toNat : ℚ) * (2 / 255) - 1 := by unfold coordQ; ring
  have hc' := abs_le.1 hc
  have hmag : |m + -1| ≤ 1 + 1 / 2 ^ 22 := by rw [abs_le]; constructor <;> linarith
  obtain ⟨r, hr, hr2⟩ := add_err_s hm.fis minus_one (hmag.trans (by norm_num))
  refine ⟨r, hr, ?_⟩
  have h3 : |m + -1| / 2 ^ 24 ≤ (1 + 1 / 2 ^ 22) / 2 ^ 24 := div_le_div_of_nonneg_right hmag (by norm_num)
  have h4 := abs_le.1 hr2
  have h5 : ((1 : ℚ) + 1 / 2 ^ 22) / 2 ^ 24 + 1 / 2 ^ 150 + 1 / 2 ^ 22 ≤ 1 / 2 ^ 21 := by norm_num
  rw [abs_le]; constructor <;> linarith

theorem square_err {x : F32} {c : ℚ} (h : FIs x c) (hc : |c| ≤ 2) :
    ∃ r : ℚ, Is (mul x x) r ∧ |r - c ^ 2| ≤ c ^ 2 / 2 ^ 24 + 1 / 2 ^ 150 := by
  obtain ⟨s, m, hm, rfl⟩ := h
  have hu := unit_pos
  have e : mul x x = makeQ false (m * m) (2 ^ 149) := by
    unfold mul; rw [hm]; simp
  have hm1 : m ≤ 2 ^ 150 := by
    rw [abs_mul, sgn_abs, one_mul, abs_of_nonneg (by positivity), div_le_iff₀ hu] at hc
    unfold unit at hc
    rw [← pow_succ'] at hc
    exact_mod_cast hc
  have hle : m * m ≤ 2 ^ 149 * 2 ^ 276 := by
    refine (Nat.mul_le_mul hm1 hm1).trans ?_
    rw [← Nat.pow_add, ← Nat.pow_add]
    exact Nat.pow_le_pow_right (by omega) (by omega)
  obtain ⟨r, h1, h2⟩ := makeQ_err (m * m) (2 ^ 149) (Nat.two_pow_pos _) hle
  rw [e]
  refine ⟨r, h1, ?_⟩
  have eq : (sgn s * ((m : ℚ) / unit)) ^ 2 = ((m * m : Nat) : ℚ) / ((2 ^ 149 : Nat) : ℚ) / unit := by
    rw [mul_pow, sq (sgn s), sgn_sq]; push_cast; unfold unit; ring
  rw [eq]
  exact h2

theorem square_close (b : Byte) : ∃ r : ℚ, Is (mul (coordinate b) (coordinate b)) r ∧ |r - coordQ b ^ 2| ≤ 1 / 2 ^ 19 := by
  obtain ⟨c, hc, hc2⟩ := coordinate_close b
  have h1 := abs_le.1 (coordQ_abs b)
  have h2 := abs_le.1 hc2
  have hb : |c| ≤ 1 + 1 / 2 ^ 21 := by rw [abs_le]; constructor <;> linarith
  obtain ⟨r, hr, hr2⟩ := square_err hc (hb.trans (by norm_num))
  refine ⟨r, hr, ?_⟩
  have e : c ^ 2 - coordQ b ^ 2 = (c - coordQ b) * (c + coordQ b) := by ring
  have h3 : |c ^ 2 - coordQ b ^ 2| ≤ 1 / 2 ^ 21 * (2 + 1 / 2 ^ 21) := by
    rw [e, abs_mul]
    refine mul_le_mul hc2 ?_ (abs_nonneg _) (by norm_num)
    have := abs_le.1 hb
    rw [abs_le]; constructor <;> linarith
  have h4 : c ^ 2 ≤ 2 := by
    rw [← sq_abs]
    have : |c| ^ 2 ≤ (1 + 1 / 2 ^ 21) ^ 2 := pow_le_pow_left₀ (abs_nonneg _) hb 2
    exact this.trans (by norm_num)
  have h5 : c ^ 2 / 2 ^ 24 ≤ 2 / 2 ^ 24 := div_le_div_of_nonneg_right h4 (by norm_num)
  have h6 := abs_le.1 hr2
  have h7 := abs_le.1 h3
  have h8 : (1 : ℚ) / 2 ^ 21 * (2 + 1 / 2 ^ 21) + 2 / 2 ^ 24 + 1 / 2 ^ 150 ≤ 1 / 2 ^ 19 := by norm_num
  rw [abs_le]; constructor <;> linarith

/-- The dot product before it is limited. -/
theorem dot_close (g r : Byte) : ∃ d : ℚ, Is (add (mul (coordinate g) (coordinate g)) (mul (coordinate r) (coordinate r))) d ∧
    |d - (coordQ g ^ 2 + coordQ r ^ 2)| ≤ 1 / 2 ^ 17 := by
  obtain ⟨a, ha, ha2⟩ := square_close g
  obtain ⟨b, hb, hb2⟩ := square_close r
  have sq1 : ∀ x : Byte, coordQ x ^ 2 ≤ 1 := by
    intro x
    rw [← sq_abs]
    exact pow_le_one₀ (abs_nonneg _) (coordQ_abs x)
  exact add_close (C := 2) _ ha hb ha2 hb2 (by have := sq1 g; have := sq1 r; linarith) (by norm_num) (by norm_num)

/-- The exact dot product is a fraction with the denominator 65025 that stays away from 1. -/
theorem dot_gap (g r : Byte) : coordQ g ^ 2 + coordQ r ^ 2 ≤ 1 - 7 / 65025 ∨ 1 + 1 / 65025 ≤ coordQ g ^ 2 + coordQ r ^ 2 := by
  have key : ∀ x y : ℤ, (2 * x - 255) ^ 2 + (2 * y - 255) ^ 2 ≤ 65025 - 7 ∨ 65025 + 1 ≤ (2 * x - 255) ^ 2 + (2 * y - 255) ^ 2 := by
    intro x y
    obtain ⟨k, hk⟩ := Int.even_mul_succ_self x
    obtain ⟨l, hl⟩ := Int.even_mul_succ_self y
    have e1 : (2 * x - 255) ^ 2 = 4 * (x * (x + 1)) - 1024 * x + 65025 := by ring
    have e2 : (2 * y - 255) ^ 2 = 4 * (y * (y + 1)) - 1024 * y + 65025 := by ring
    rw [e1, e2, hk, hl]
    omega
  have e : ∀ b : Byte, coordQ b ^ 2 = (2 * (b.toNat : ℤ) - 255 : ℤ) ^ 2 / 65025 := by
    intro b; unfold coordQ; push_cast; ring
  rw [e g, e r, ← add_div]
  have := key g.toNat r.toNat
  generalize ((2 * (g.toNat : ℤ) - 255) ^ 2) = A at *
  rcases key g.toNat r.toNat with h | h
  · left
    rw [div_le_iff₀ (by norm_num)]
    have : (((2 * (g.toNat : ℤ) - 255 : ℤ) ^ 2 + (2 * (r.toNat : ℤ) - 255 : ℤ) ^ 2 : ℤ) : ℚ) ≤ ((65025 - 7 : ℤ) : ℚ) := by exact_mod_cast h
    push_cast at this ⊢
    linarith
  · right
    rw [le_div_iff₀ (by norm_num)]
    have : ((65025 + 1 : ℤ) : ℚ) ≤ (((2 * (g.toNat : ℤ) - 255 : ℤ) ^ 2 + (2 * (r.toNat : ℤ) - 255 : ℤ) ^ 2 : ℤ) : ℚ) := by exact_mod_cast h
    push_cast at this ⊢
    linarith

theorem lessF_is {x y : F32} {a b : ℚ} (hx : Is x a) (hy : Is y b) : lessF x y = decide (a < b) := by
  obtain ⟨m, hm, rfl⟩ := hx
  obtain ⟨n, hn, rfl⟩ := hy
  unfold lessF
  rw [hm, hn]
  simp only [Bool.false_eq_true, if_false]
  congr 1
  rw [div_lt_div_iff_of_pos_right unit_pos]
  simp

/-- Outside of the unit circle nothing is left for blue. -/
theorem blue_outside (g r : Byte) (h : 1 + 1 / 65025 ≤ coordQ g ^ 2 + coordQ r ^ 2) :
    blueFloat g r = mul (add (sqrtF (sub one one)) one) (lit 127) := by
  obtain ⟨d, hd, hd2⟩ := dot_close g r
  have h2 := abs_le.1 hd2
  have : dotLimited (coordinate g) (coordinate r) = one := by
    unfold dotLimited
    simp only
    rw [lessF_is is_one hd, if_pos]
    have : (1 : ℚ) / 2 ^ 17 < 1 / 65025 := by norm_num
    simp only [decide_eq_true_eq]
    linarith
  unfold blueFloat
  rw [this]

/-! ## The difference from one -/

theorem negate_toNat {d : F32} (h : neg d = false) : (negate d).toNat = d.toNat + 2 ^ 31 := by
  unfold neg at h
  have h0 : d &&& 0x80000000#32 = 0#32 := by
    apply BitVec.eq_of_getLsbD_eq
    intro i hi
    rcases Nat.lt_or_eq_of_le (Nat.le_of_lt_succ hi) with h1 | h1
    · have : (0x80000000#32).getLsbD i = false := by
        revert hi; revert h1; revert i; decide
      simp [this]
    · subst h1; rw [BitVec.getLsbD_and, h]; simp
  have h1 : negate d = d + 0x80000000#32 := by
    rw [BitVec.add_eq_or_of_and_eq_zero _ _ h0]
    unfold negate
    apply BitVec.eq_of_getLsbD_eq
    intro i hi
    have := congrArg (fun v => v.getLsbD i) h0
    simp only [BitVec.getLsbD_and, BitVec.getLsbD_zero] at this
    change (d ^^^ 0x80000000#32).getLsbD i = _
    rw [BitVec.getLsbD_xor, BitVec.getLsbD_or]
    generalize d.getLsbD i = a at *
    generalize (0x80000000#32).getLsbD i = b at *
    cases a <;> cases b <;> simp_all
  have h2 : d.toNat < 2 ^ 31 := by
    have : d.msb = false := by rw [BitVec.msb_eq_getLsbD_last]; exact h
    exact (BitVec.msb_eq_false_iff_two_mul_lt.1 this) |> fun h => by omega
  rw [h1, BitVec.toNat_add]
  simp only [BitVec.toNat_ofNat]
  omega
theorem negate_val {d : F32} {m : Nat} (hm : val d = .fin false m) : val (negate d) = .fin true m := by
  have hs : neg d = false := by
    unfold val at hm
    split at hm
    · split at hm <;> cases hm
    · split at hm <;> (injection hm)
  have ht := negate_toNat hs
  have hlt := (negate d).isLt
  have e1 : expo (negate d) = expo d := by unfold expo; rw [ht]; omega
  have e2 : mant (negate d) = mant d := by unfold mant; rw [ht]; omega
  have e3 : neg (negate d) = true := by
    unfold neg
    have : (negate d).msb = true := by rw [BitVec.msb_eq_true_iff_two_mul_ge, ht]; omega
    rw [BitVec.msb_eq_getLsbD_last] at this
    exact this
  unfold val at hm ⊢
  rw [e1, e2, e3]
  rw [hs] at hm
  split at hm
  · split at hm <;> cases hm
  · rename_i h1
    rw [if_neg h1]
    split at hm
    · rename_i h2; rw [if_pos h2]; injection hm with _ h; rw [h]
    · rename_i h2; rw [if_neg h2]; injection hm with _ h; rw [h]
theorem one_val : val one = .fin false (2 ^ 149) := by decide +kernel
theorem sub_is {d : F32} {v : ℚ} (h : Is d v) (hv : v ≤ 1) : ∃ r : ℚ, Is (sub one d) r ∧ |r - (1 - v)| ≤ (1 - v) / 2 ^ 24 + 1 / 2 ^ 150 := by
  obtain ⟨m, hm, rfl⟩ := h
  have hu := unit_pos
  have hm1 : m ≤ 2 ^ 149 := by
    rw [div_le_iff₀ hu, one_mul] at hv
    unfold unit at hv
    exact_mod_cast hv
  have hneg := negate_val hm
  have e : (1 : ℚ) - m / unit = ((2 ^ 149 - m : Nat) : ℚ) / ((1 : Nat) : ℚ) / unit := by
    rw [Nat.cast_sub hm1]
    push_cast
    rw [div_one, sub_div]
    congr 1
    unfold unit
    norm_num
  rw [e]
  obtain ⟨r, hr, hr2⟩ := makeQ_err (2 ^ 149 - m) 1 (by omega) (by
    refine (Nat.sub_le _ _).trans ?_
    rw [one_mul]
    exact Nat.pow_le_pow_right (by omega) (by omega))
  have es : sub one d = if 2 ^ 149 = m then 0 else if m < 2 ^ 149 then make false (2 ^ 149 - m) else make true (m - 2 ^ 149) := by
    unfold sub add
    rw [one_val, hneg]
    simp only [Bool.false_eq_true, if_false]
  by_cases hc : 2 ^ 149 = m
  · refine ⟨0, ?_, ?_⟩
    · rw [es, if_pos hc]
      exact is_of (m := 0) (by decide +kernel) (by simp)
    · rw [hc, Nat.sub_self]; norm_num
  · refine ⟨r, ?_, hr2⟩
    rw [es, if_neg hc, if_pos (by omega), make_eq]
    exact hr

/-! ## Inside of the circle -/

theorem blue_inside (g r : Byte) (h : coordQ g ^ 2 + coordQ r ^ 2 ≤ 1 - 7 / 65025) :
    ∃ f : ℚ, Is (blueFloat g r) f ∧ |(f : ℝ) - 127 * (1 + height g r)| ≤ 1 / 5 := by
  obtain ⟨d, hd, hd2⟩ := dot_close g r
  have hd3 := abs_le.1 hd2
  have hlt : d < 1 := by
    have : (1 : ℚ) / 2 ^ 17 < 7 / 65025 := by norm_num
    linarith
  have hzero : Is (0 : F32) 0 := is_of (m := 0) (by decide +kernel) (by simp)
  have hlim : dotLimited (coordinate g) (coordinate r) = add (mul (coordinate g) (coordinate g)) (mul (coordinate r) (coordinate r)) := by
    unfold dotLimited
    simp only
    rw [lessF_is is_one hd, lessF_is hd hzero, decide_eq_false (by linarith), decide_eq_false (by have := hd.nonneg; linarith)]
    simp
  obtain ⟨s, hs, hs2⟩ := sub_is hd hlt.le
  have hs3 := abs_le.1 hs2
  have hd0 := hd.nonneg
  have hs4 : (1 - d) / 2 ^ 24 ≤ 1 / 2 ^ 24 := div_le_div_of_nonneg_right (by linarith) (by norm_num)
  have hs5 : |s - (1 - (coordQ g ^ 2 + coordQ r ^ 2))| ≤ 1 / 2 ^ 16 := by
    have : (1 : ℚ) / 2 ^ 24 + 1 / 2 ^ 150 + 1 / 2 ^ 17 ≤ 1 / 2 ^ 16 := by norm_num
    rw [abs_le]; constructor <;> linarith
  have hs6 := abs_le.1 hs5
  have hsq : 0 ≤ coordQ g ^ 2 + coordQ r ^ 2 := by positivity
  obtain ⟨q, hq, hq2⟩ := sqrtF_close hs (by
    have : (1 : ℚ) / 2 ^ 16 ≤ 1 := by norm_num
    linarith)
  have hq3 := abs_le.1 hq2
  -- the exact root
  have hz : height g r = Real.sqrt (((1 - (coordQ g ^ 2 + coordQ r ^ 2) : ℚ)) : ℝ) := by
    unfold height
    rw [coord_eq, coord_eq]
    congr 1
    push_cast
    ring
  have hS : (7 / 65025 : ℝ) ≤ (((1 - (coordQ g ^ 2 + coordQ r ^ 2) : ℚ)) : ℝ) := by
    have : (7 / 65025 : ℚ) ≤ 1 - (coordQ g ^ 2 + coordQ r ^ 2) := by linarith
    have h2 : ((7 / 65025 : ℚ) : ℝ) ≤ ((1 - (coordQ g ^ 2 + coordQ r ^ 2) : ℚ) : ℝ) := by exact_mod_cast this
    push_cast at h2 ⊢
    exact h2
  have hS1 : (((1 - (coordQ g ^ 2 + coordQ r ^ 2) : ℚ)) : ℝ) ≤ 1 := by
    have : 1 - (coordQ g ^ 2 + coordQ r ^ 2) ≤ 1 := by linarith
    exact_mod_cast this
  have hsR : |(s : ℝ) - (((1 - (coordQ g ^ 2 + coordQ r ^ 2) : ℚ)) : ℝ)| ≤ 1 / 2 ^ 16 := by
    have : ((|s - (1 - (coordQ g ^ 2 + coordQ r ^ 2))| : ℚ) : ℝ) ≤ ((1 / 2 ^ 16 : ℚ) : ℝ) := by exact_mod_cast hs5
    push_cast at this ⊢
    norm_num at this ⊢
    exact this
  have hs0 : (0 : ℝ) ≤ s := by exact_mod_cast hs.nonneg
  rw [hz]
  generalize (((1 - (coordQ g ^ 2 + coordQ r ^ 2) : ℚ)) : ℝ) = S at *
  have hr1 : (1 / 98 : ℝ) ≤ Real.sqrt S := by
    apply Real.le_sqrt_of_sq_le
    refine le_trans ?_ hS
    norm_num
  have hr2 : Real.sqrt S ≤ 1 := by
    rw [← Real.sqrt_one]; exact Real.sqrt_le_sqrt hS1
  have hdiff : |Real.sqrt s - Real.sqrt S| ≤ 98 / 2 ^ 16 := by
    have e : (Real.sqrt s - Real.sqrt S) * (Real.sqrt s + Real.sqrt S) = s - S := by
      have h1 := Real.mul_self_sqrt hs0
      have h2 := Real.mul_self_sqrt (show 0 ≤ S by linarith)
      nlinarith [h1, h2]
    have h3 : |Real.sqrt s - Real.sqrt S| * (Real.sqrt s + Real.sqrt S) ≤ 1 / 2 ^ 16 := by
      rw [← e, abs_mul, abs_of_nonneg (show 0 ≤ Real.sqrt s + Real.sqrt S by positivity)] at hsR
      exact hsR
    have h4 : |Real.sqrt s - Real.sqrt S| * (1 / 98) ≤ |Real.sqrt s - Real.sqrt S| * (Real.sqrt s + Real.sqrt S) := by
      apply mul_le_mul_of_nonneg_left _ (abs_nonneg _)
      have := Real.sqrt_nonneg s
      linarith
    have h5 : |Real.sqrt s - Real.sqrt S| ≤ 98 * (1 / 2 ^ 16) := by linarith
    linarith
  have hdiff2 := abs_le.1 hdiff
  -- the rest of the calculation
  have hq0 := hq.nonneg
  have hqle : q ≤ 2 := by
    have : (q : ℝ) ≤ 2 := by
      have : (98 / 2 ^ 16 : ℝ) + 1 / 2 ^ 22 ≤ 1 := by norm_num
      linarith
    exact_mod_cast this
  obtain ⟨t, ht, ht2⟩ := add_close (α := q) (β := 1) (e1 := 0) (e2 := 0) (C := 3) (1 / 2 ^ 22) hq is_one (by simp) (by simp) (by linarith) (by norm_num) (by norm_num)
  have is127' : Is (lit 127) 127 := is_of (m := 127 * 2 ^ 149) (by decide +kernel) (by unfold unit; norm_num)
  have ht0 := ht.nonneg
  have ht3 := abs_le.1 ht2
  obtain ⟨f, hf, hf2⟩ := mul_close (α := q + 1) (β := 127) (e2 := 0) (Ca := 3) (Cb := 127) (1 / 1000) ht is127' ht2 (by simp) (by linarith) (by norm_num)
    (by linarith) (by norm_num) (by norm_num) (by norm_num)
  refine ⟨f, ?_, ?_⟩
  · unfold blueFloat
    rw [hlim]
    exact hf
  · have hfR : |(f : ℝ) - (q + 1) * 127| ≤ 1 / 1000 := by
      have : ((|f - (q + 1) * 127| : ℚ) : ℝ) ≤ ((1 / 1000 : ℚ) : ℝ) := by exact_mod_cast hf2
      push_cast at this
      exact this
    have h6 := abs_le.1 hfR
    have h7 : (127 : ℝ) * (98 / 2 ^ 16 + 1 / 2 ^ 22) + 1 / 1000 ≤ 1 / 5 := by norm_num
    rw [abs_le]; constructor <;> linarith

/-! ## The byte -/

/-- A conversion of floats that keeps the integer part of everything from 0 up to 256. -/
def KeepsByte (cast : F32 → Option Byte) : Prop :=
  ∀ x (v : ℚ), Is x v → v < 256 → ∃ b : Byte, cast x = some b ∧ (b.toNat : ℚ) ≤ v ∧ v < b.toNat + 1

theorem is_floor {x : F32} {v : ℚ} (h : Is x v) (hv : v < 256) :
    ∃ m, val x = .fin false m ∧ m / 2 ^ 149 < 256 ∧ (((m / 2 ^ 149 : Nat)) : ℚ) ≤ v ∧ v < ((m / 2 ^ 149 : Nat) : ℚ) + 1 := by
  obtain ⟨m, hm, rfl⟩ := h
  refine ⟨m, hm, ?_, ?_, ?_⟩
  · rw [div_lt_iff₀ unit_pos] at hv
    unfold unit at hv
    rw [Nat.div_lt_iff_lt_mul (Nat.two_pow_pos _)]
    exact_mod_cast hv
  · rw [le_div_iff₀ unit_pos]
    unfold unit
    exact_mod_cast Nat.div_mul_le_self m (2 ^ 149)
  · rw [div_lt_iff₀ unit_pos]
    unfold unit
    have h1 : m < (m / 2 ^ 149 + 1) * 2 ^ 149 := by
      have h2 := Nat.div_add_mod m (2 ^ 149)
      have h3 := Nat.mod_lt m (Nat.two_pow_pos 149)
      rw [Nat.add_mul, one_mul]
      rw [Nat.mul_comm] at h2
      omega
    exact_mod_cast h1

theorem keeps_x86 : KeepsByte toCharX86 := by
  intro x v h hv
  obtain ⟨m, hm, h1, h2, h3⟩ := is_floor h hv
  unfold toCharX86
  rw [hm]
  simp only
  generalize m / 2 ^ 149 = k at *
  refine ⟨BitVec.ofNat 8 k, ?_, ?_, ?_⟩
  · rw [if_pos (by omega)]
  · rw [BitVec.toNat_ofNat, Nat.mod_eq_of_lt (by omega)]; exact h2
  · rw [BitVec.toNat_ofNat, Nat.mod_eq_of_lt (by omega)]; exact h3

theorem keeps_unsigned : KeepsByte toCharUnsigned := by
  intro x v h hv
  obtain ⟨m, hm, h1, h2, h3⟩ := is_floor h hv
  unfold toCharUnsigned
  rw [hm]
  simp only
  generalize m / 2 ^ 149 = k at *
  refine ⟨BitVec.ofNat 8 k, ?_, ?_, ?_⟩
  · rw [if_pos (by omega)]
  · rw [BitVec.toNat_ofNat, Nat.mod_eq_of_lt (by omega)]; exact h2
  · rw [BitVec.toNat_ofNat, Nat.mod_eq_of_lt (by omega)]; exact h3

theorem outside_is : Is (mul (add (sqrtF (sub one one)) one) (lit 127)) 127 :=
  is_of (m := 127 * 2 ^ 149) (by decide +kernel) (by unfold unit; norm_num)

theorem height_outside (g r : Byte) (h : 1 + 1 / 65025 ≤ coordQ g ^ 2 + coordQ r ^ 2) : height g r = 0 := by
  unfold height
  apply Real.sqrt_eq_zero_of_nonpos
  rw [coord_eq, coord_eq]
  have : ((1 + 1 / 65025 : ℚ) : ℝ) ≤ ((coordQ g ^ 2 + coordQ r ^ 2 : ℚ) : ℝ) := by exact_mod_cast h
  push_cast at this
  linarith

/-- Every pixel: the float is 127 (1 + z), to a fifth. -/
theorem blue_value (g r : Byte) : ∃ f : ℚ, Is (blueFloat g r) f ∧ |(f : ℝ) - 127 * (1 + height g r)| ≤ 1 / 5 := by
  rcases dot_gap g r with h | h
  · exact blue_inside g r h
  · refine ⟨127, ?_, ?_⟩
    · rw [blue_outside g r h]; exact outside_is
    · rw [height_outside g r h]; norm_num

theorem height_le (g r : Byte) : height g r ≤ 1 := by
  unfold height
  rw [← Real.sqrt_one]
  apply Real.sqrt_le_sqrt
  have := sq_nonneg (coord g)
  have := sq_nonneg (coord r)
  simp only [Real.sqrt_one]
  linarith

theorem blue_byte {cast : F32 → Option Byte} (hk : KeepsByte cast) (g r : Byte) :
    ∃ b : Byte, cast (blueFloat g r) = some b ∧ |(b.toNat : ℝ) - 255 * ((1 + height g r) / 2)| ≤ 11 / 5 := by
  obtain ⟨f, hf, hf2⟩ := blue_value g r
  have h1 := abs_le.1 hf2
  have hz := height_le g r
  have hz0 : 0 ≤ height g r := Real.sqrt_nonneg _
  have hlt : f < 256 := by
    have : (f : ℝ) < 256 := by linarith
    exact_mod_cast this
  obtain ⟨b, hb, hb1, hb2⟩ := hk _ f hf hlt
  refine ⟨b, hb, ?_⟩
  have hb1' : (b.toNat : ℝ) ≤ f := by exact_mod_cast hb1
  have hb2' : (f : ℝ) < b.toNat + 1 := by exact_mod_cast hb2
  rw [abs_le]; constructor <;> linarith

/-! ## Whole buffers -/

/-- `Blue buf out`: `out` is the picture `buf` (three bytes a pixel) with each pixel's first byte replaced by the third coordinate of
the unit vector whose other coordinates are the pixel's second and third bytes, to 2.2 steps of 255; everything else is as it was. -/
def Blue (buf out : List Byte) : Prop :=
  out.length = buf.length ∧
  ∀ p, 3 * p + 2 < buf.length →
    out[3 * p + 1]? = buf[3 * p + 1]? ∧ out[3 * p + 2]? = buf[3 * p + 2]? ∧
    ∃ g r b, buf[3 * p + 1]? = some g ∧ buf[3 * p + 2]? = some r ∧ out[3 * p]? = some b ∧
      |(b.toNat : ℝ) - 255 * ((1 + height g r) / 2)| ≤ 11 / 5

theorem blue_buffer {cast : F32 → Option Byte} (hk : KeepsByte cast) (n : Nat) (buf : List Byte) (h : buf.length = 3 * n) :
    ∃ out, computeBC5Blue cast buf = some out ∧ Blue buf out := by
  induction n generalizing buf with
  | zero =>
    have : buf = [] := List.eq_nil_of_length_eq_zero (by omega)
    subst this
    exact ⟨[], rfl, rfl, by intro p hp; simp at hp⟩
  | succ n ih =>
    match buf, h with
    | x :: g :: r :: rest, h =>
      obtain ⟨out, ho, hl, hp⟩ := ih rest (by simp only [List.length_cons] at h; omega)
      obtain ⟨b, hb, hb2⟩ := blue_byte hk g r
      refine ⟨b :: g :: r :: out, ?_, ?_, ?_⟩
      · unfold computeBC5Blue
        rw [hb]
        simp [ho]
      · simp [hl]
      · intro p hlt
        cases p with
        | zero => exact ⟨rfl, rfl, g, r, b, rfl, rfl, rfl, hb2⟩
        | succ p =>
          have := hp p (by simp only [List.length_cons] at hlt; omega)
          have e1 : 3 * (p + 1) + 1 = (3 * p + 1) + 3 := by omega
          have e2 : 3 * (p + 1) + 2 = (3 * p + 2) + 3 := by omega
          have e3 : 3 * (p + 1) = (3 * p) + 3 := by omega
          rw [e1, e2, e3]
          simpa only [List.getElem?_cons_succ] using this

/-- C127, the part that holds: on x86 (`cvttss2si`, low byte) and where `char` is unsigned, a buffer of whole pixels gets its blue
channel. Missing: by the language rules the conversion to a signed `char` is undefined (`bc5_blue_violated`), and a buffer
that ends within a pixel is read beyond its end (`bc5_blue_short_violated`). -/
theorem bc5_blue_partial (n : Nat) (buf : List Byte) (h : buf.length = 3 * n) :
    (∃ out, computeBC5Blue toCharX86 buf = some out ∧ Blue buf out) ∧
    (∃ out, computeBC5Blue toCharUnsigned buf = some out ∧ Blue buf out) :=
  ⟨blue_buffer keeps_x86 n buf h, blue_buffer keeps_unsigned n buf h⟩

example : computeBC5Blue toCharX86 [9, 128, 128, 7, 255, 0, 1, 200, 90] = some [253, 128, 128, 127, 255, 0, 224, 200, 90] := by decide +kernel
example : computeBC5Blue toCharUnsigned [9, 128, 128, 7, 255, 0, 1, 200, 90] = some [253, 128, 128, 127, 255, 0, 224, 200, 90] := by decide +kernel

theorem toChar_big {x : F32} {v : ℚ} (h : Is x v) (hv : 128 ≤ v) : toChar x = none := by
  obtain ⟨m, hm, rfl⟩ := h
  have hm1 : 128 ≤ m / 2 ^ 149 := by
    rw [Nat.le_div_iff_mul_le (Nat.two_pow_pos _)]
    rw [le_div_iff₀ unit_pos] at hv
    unfold unit at hv
    exact_mod_cast hv
  unfold toChar
  rw [hm]
  simp only
  generalize m / 2 ^ 149 = k at *
  rw [if_neg (by omega)]

theorem step_none {cast : F32 → Option Byte} {x g r : Byte} {rest : List Byte} (h : cast (blueFloat g r) = none) :
    computeBC5Blue cast (x :: g :: r :: rest) = none := by
  unfold computeBC5Blue
  rw [h]

theorem step_some {cast : F32 → Option Byte} {x g r b : Byte} {rest : List Byte} (h : cast (blueFloat g r) = some b) :
    computeBC5Blue cast (x :: g :: r :: rest) = (computeBC5Blue cast rest).map (fun rest => b :: g :: r :: rest) := by
  rw [computeBC5Blue.eq_def]
  simp only
  rw [h]

/-- C127 fails by the language rules: with a signed `char` every pixel whose two coordinates lie inside of the unit circle, that is
every proper normal, converts a number of 128 or more. -/
theorem bc5_blue_violated (x g r : Byte) (rest : List Byte) (h : coord g ^ 2 + coord r ^ 2 < 1) :
    computeBC5Blue toChar (x :: g :: r :: rest) = none := by
  have hin : coordQ g ^ 2 + coordQ r ^ 2 ≤ 1 - 7 / 65025 := by
    rcases dot_gap g r with h' | h'
    · exact h'
    · exfalso
      rw [coord_eq, coord_eq] at h
      have h2 : coordQ g ^ 2 + coordQ r ^ 2 < 1 := by exact_mod_cast h
      have : (0 : ℚ) < 1 / 65025 := by norm_num
      linarith
  obtain ⟨f, hf, hf2⟩ := blue_inside g r hin
  have h1 := abs_le.1 hf2
  have hz : (1 / 98 : ℝ) ≤ height g r := by
    unfold height
    apply Real.le_sqrt_of_sq_le
    rw [coord_eq, coord_eq]
    have : ((coordQ g ^ 2 + coordQ r ^ 2 : ℚ) : ℝ) ≤ ((1 - 7 / 65025 : ℚ) : ℝ) := by exact_mod_cast hin
    push_cast at this
    have h3 : (1 / 98 : ℝ) ^ 2 ≤ 7 / 65025 := by norm_num
    linarith
  have hge : (128 : ℚ) ≤ f := by
    have : (128 : ℝ) ≤ f := by linarith
    exact_mod_cast this
  exact step_none (toChar_big hf hge)

/-- The straight-up normal. -/
example : coord 128 ^ 2 + coord 128 ^ 2 < 1 ∧ computeBC5Blue toChar [0, 128, 128] = none := by
  refine ⟨?_, by decide +kernel⟩
  unfold coord
  have : (128 : Byte).toNat = 128 := rfl
  rw [this]
  norm_num

/-- Only what is no normal at all is converted by the rules: to 127. -/
theorem bc5_blue_outside (x g r : Byte) (rest : List Byte) (h : 1 ≤ coord g ^ 2 + coord r ^ 2) :
    computeBC5Blue toChar (x :: g :: r :: rest) = (computeBC5Blue toChar rest).map (fun rest => 127#8 :: g :: r :: rest) := by
  have hout : 1 + 1 / 65025 ≤ coordQ g ^ 2 + coordQ r ^ 2 := by
    rcases dot_gap g r with h' | h'
    · exfalso
      rw [coord_eq, coord_eq] at h
      have h2 : 1 ≤ coordQ g ^ 2 + coordQ r ^ 2 := by exact_mod_cast h
      have : (0 : ℚ) < 7 / 65025 := by norm_num
      linarith
    · exact h'
  have e : toChar (mul (add (sqrtF (sub one one)) one) (lit 127)) = some 127#8 := by decide +kernel
  apply step_some
  rw [blue_outside g r hout]
  exact e

/-- C127 fails for a buffer that ends within a pixel: bytes behind it are read. -/
theorem bc5_blue_short_violated (cast : F32 → Option Byte) (buf : List Byte) (h : buf.length % 3 ≠ 0) :
    computeBC5Blue cast buf = none := by
  obtain ⟨n, hn⟩ : ∃ n, buf.length < 3 * n := ⟨buf.length + 1, by omega⟩
  induction n generalizing buf with
  | zero => omega
  | succ n ih =>
    match buf, h, hn with
    | [_], _, _ => rfl
    | [_, _], _, _ => rfl
    | _ :: g :: r :: rest, h, hn =>
      simp only [List.length_cons] at h hn
      unfold computeBC5Blue
      rw [ih rest (by omega) (by omega)]
      cases cast (blueFloat g r) <;> simp

example : computeBC5Blue toCharX86 [9, 128, 128, 7] = none := by decide +kernel

end PreCore.Block
