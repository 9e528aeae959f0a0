import Verif.Lemmas.Float32Signed
import Verif.Model.UniModel
import Verif.Props.UniNorm
/-!
# C77: normalised and unpacked vertex data are accurate
-/
namespace PreCore.Uni
open PreCore PreCore.F32

theorem frac_close_nat : ∀ b ∈ scaleBits, 2 ^ 24 * (fracMag b * (2 ^ b - 1)) ≤ (2 ^ 24 + 1) * 2 ^ 149 ∧
    (2 ^ 24 - 1) * 2 ^ 149 ≤ 2 ^ 24 * (fracMag b * (2 ^ b - 1)) := by decide +kernel

theorem scaleBits_le : ∀ b ∈ scaleBits, 1 ≤ b ∧ b ≤ 31 := by decide

/-- The factor of `b` bits is `1 / (2^b - 1)` up to rounding. -/
theorem frac_close (b : Nat) (hb : b ∈ scaleBits) :
    |(fracMag b : ℚ) / unit - 1 / (2 ^ b - 1 : Nat)| ≤ 1 / (2 ^ b - 1 : Nat) / 2 ^ 24 := by
  obtain ⟨h1, h2⟩ := frac_close_nat b hb
  have hb1 := scaleBits_le b hb
  have hM : 0 < 2 ^ b - 1 := by
    have : 2 ^ 1 ≤ 2 ^ b := Nat.pow_le_pow_right (by omega) hb1.1
    omega
  generalize 2 ^ b - 1 = M at *
  have hMq : (0 : ℚ) < M := by exact_mod_cast hM
  have hu := unit_pos
  have h1q : (2 : ℚ) ^ 24 * (fracMag b * M) ≤ (2 ^ 24 + 1) * 2 ^ 149 := by exact_mod_cast h1
  have h2q : ((2 : ℚ) ^ 24 - 1) * 2 ^ 149 ≤ 2 ^ 24 * (fracMag b * M) := by
    have : (((2 ^ 24 - 1) * 2 ^ 149 : Nat) : ℚ) ≤ ((2 ^ 24 * (fracMag b * M) : Nat) : ℚ) := by exact_mod_cast h2
    push_cast at this
    norm_num at this ⊢
    exact this
  have hden : (0 : ℚ) < 2 ^ 24 * M * unit := by positivity
  have eA : (fracMag b : ℚ) / unit - 1 / M = (2 ^ 24 * (fracMag b * M) - 2 ^ 24 * unit) / (2 ^ 24 * M * unit) := by
    field_simp
  have eB : (1 : ℚ) / M / 2 ^ 24 = unit / (2 ^ 24 * M * unit) := by field_simp
  rw [eA, eB, abs_div, abs_of_pos hden]
  apply div_le_div_of_nonneg_right _ hden.le
  rw [abs_le]
  unfold unit
  constructor <;> linarith

theorem int_close (n : Nat) (h : n ≤ 2 ^ 31) (h1 : 1 ≤ n) :
    |(magOf (roundQ (n * 2 ^ 149) 1) : ℚ) / unit - n| ≤ n * (1 / 2 ^ 24 + 1 / 2 ^ 40) := by
  have hle : n * 2 ^ 149 ≤ 1 * 2 ^ 276 := by
    calc n * 2 ^ 149 ≤ 2 ^ 31 * 2 ^ 149 := Nat.mul_le_mul_right _ h
      _ = 2 ^ 180 := by rw [← Nat.pow_add]
      _ ≤ 2 ^ 276 := Nat.pow_le_pow_right (by omega) (by omega)
      _ = 1 * 2 ^ 276 := (Nat.one_mul _).symm
  obtain ⟨r, hr, he⟩ := makeQ_err (n * 2 ^ 149) 1 (by omega) hle
  have hs := roundQ_small (n * 2 ^ 149) 1 (by omega) hle
  obtain ⟨m, hm, rfl⟩ := hr
  rw [val_makeQ _ _ _ hs] at hm
  injection hm with _ hm
  have eq : ((n * 2 ^ 149 : Nat) : ℚ) / ((1 : Nat) : ℚ) / unit = n := by
    have hu : unit ≠ 0 := unit_pos.ne'
    have e : ((n * 2 ^ 149 : Nat) : ℚ) = n * unit := by push_cast; rfl
    rw [e, Nat.cast_one, div_one, mul_div_cancel_right₀ _ hu]
  rw [eq] at he
  rw [hm]
  have hn : (1 : ℚ) ≤ n := by exact_mod_cast h1
  refine he.trans ?_
  have : (1 : ℚ) / 2 ^ 150 ≤ n * (1 / 2 ^ 40) := by
    have : (1 : ℚ) * (1 / 2 ^ 40) ≤ n * (1 / 2 ^ 40) := mul_le_mul_of_nonneg_right hn (by positivity)
    refine le_trans ?_ this
    norm_num
  linarith

/-- A scaled channel is `n / (2^b - 1)` up to a relative error of `2^-22`. -/
theorem normMag_close (b n : Nat) (hb : b ∈ scaleBits) (h : n ≤ 2 ^ b - 1) :
    |(normMag b n : ℚ) / unit - n / (2 ^ b - 1 : Nat)| ≤ n / (2 ^ b - 1 : Nat) / 2 ^ 22 := by
  rcases Nat.eq_zero_or_pos n with h0 | h1
  · subst h0
    rw [(normMag_ends b hb).1]; simp
  have hb1 := scaleBits_le b hb
  have hM31 : 2 ^ b - 1 ≤ 2 ^ 31 := by
    have : 2 ^ b ≤ 2 ^ 31 := Nat.pow_le_pow_right (by omega) hb1.2
    omega
  have hf := frac_close b hb
  have hi := int_close n (by omega) h1
  have hMpos : 0 < 2 ^ b - 1 := by omega
  have hbits : roundQ (magOf (roundQ (n * 2 ^ 149) 1) * fracMag b) (2 ^ 149) < 0x7f800000 := by
    refine Nat.lt_of_le_of_lt (m := 0x3f800000) ?_ (by decide)
    rw [← normMag_bits b hb]
    apply roundQ_mono _ _ _ (Nat.two_pow_pos _)
    apply Nat.mul_le_mul_right
    apply magOf_mono
    exact roundQ_mono _ _ _ (by decide) (Nat.mul_le_mul_right _ h)
  generalize 2 ^ b - 1 = M at *
  have hMq : (0 : ℚ) < M := by exact_mod_cast hMpos
  have hM31q : (M : ℚ) ≤ 2 ^ 31 := by exact_mod_cast hM31
  have hnq : (1 : ℚ) ≤ n := by exact_mod_cast h1
  have hu := unit_pos
  -- the product
  generalize hA : magOf (roundQ (n * 2 ^ 149) 1) = A at *
  generalize hF : fracMag b = F at *
  have hnm : normMag b n = magOf (roundQ (A * F) (2 ^ 149)) := by unfold normMag; rw [hA, hF]
  have he : roundQ (A * F) (2 ^ 149) = roundQ' (A * F) (2 ^ 149) := by rw [roundQ_eq] at hbits ⊢; omega
  obtain ⟨g1, g2⟩ := roundQ'_err (A * F) (2 ^ 149) (Nat.two_pow_pos _)
  rw [hnm, he]
  generalize magOf (roundQ' (A * F) (2 ^ 149)) = R at *
  have g1q : (2 : ℚ) ^ 24 * (R * 2 ^ 149) ≤ 2 ^ 24 * (A * F) + A * F + 2 ^ 23 * 2 ^ 149 := by exact_mod_cast g1
  have g2q : (2 : ℚ) ^ 24 * (A * F) ≤ 2 ^ 24 * (R * 2 ^ 149) + A * F + 2 ^ 23 * 2 ^ 149 := by exact_mod_cast g2
  have hx : (1 : ℚ) / 2 ^ 31 ≤ n / M := by
    rw [div_le_div_iff₀ (by positivity) hMq]; nlinarith
  set a : ℚ := (A : ℚ) / unit with ha
  set f : ℚ := (F : ℚ) / unit with hf'
  have hAa : (A : ℚ) = a * unit := by rw [ha]; field_simp
  have hFf : (F : ℚ) = f * unit := by rw [hf']; field_simp
  have a0 : 0 ≤ a := by rw [ha]; positivity
  have f0 : 0 ≤ f := by rw [hf']; positivity
  have hRp : |(R : ℚ) / unit - a * f| ≤ a * f / 2 ^ 24 + 1 / 2 ^ 150 := by
    rw [hAa, hFf] at g1q g2q
    have hRu : (R : ℚ) = R / unit * unit := by field_simp
    generalize (R : ℚ) / unit = ρ at *
    rw [hRu] at g1q g2q
    rw [abs_le]
    have u149 : (2 : ℚ) ^ 149 = unit := rfl
    rw [u149] at g1q g2q
    have e1 : (2 : ℚ) ^ 24 * (ρ * unit * unit) = 2 ^ 24 * ρ * (unit * unit) := by ring
    have e2 : (2 : ℚ) ^ 24 * (a * unit * (f * unit)) + a * unit * (f * unit) + 2 ^ 23 * unit =
      (2 ^ 24 * (a * f) + a * f + 2 ^ 24 / 2 ^ 150) * (unit * unit) := by unfold unit; ring
    have e3 : (2 : ℚ) ^ 24 * (a * unit * (f * unit)) = (2 ^ 24 * (a * f)) * (unit * unit) := by ring
    have e4 : (2 : ℚ) ^ 24 * (ρ * unit * unit) + a * unit * (f * unit) + 2 ^ 23 * unit =
      (2 ^ 24 * ρ + a * f + 2 ^ 24 / 2 ^ 150) * (unit * unit) := by unfold unit; ring
    rw [e1, e2] at g1q
    rw [e3, e4] at g2q
    have huu : (0 : ℚ) < unit * unit := by positivity
    have k1 := le_of_mul_le_mul_right g1q huu
    have k2 := le_of_mul_le_mul_right g2q huu
    constructor <;> linarith
  -- the factors
  have hp : |a * f - n / M| ≤ n / M * (2 * (1 / 2 ^ 24) + 1 / 2 ^ 39) := by
    have e : a * f - n / M = (a - n) * f + n * (f - 1 / M) := by field_simp; ring
    rw [e]
    have fle : f ≤ 1 / M * (1 + 1 / 2 ^ 24) := by
      have := (abs_le.1 hf).2
      linarith
    have h1 : |(a - n) * f| ≤ n * (1 / 2 ^ 24 + 1 / 2 ^ 40) * (1 / M * (1 + 1 / 2 ^ 24)) := by
      rw [abs_mul, abs_of_nonneg f0]
      exact mul_le_mul hi fle f0 (by positivity)
    have h2 : |(n : ℚ) * (f - 1 / M)| ≤ n * (1 / M / 2 ^ 24) := by
      rw [abs_mul, abs_of_nonneg (by positivity)]
      exact mul_le_mul_of_nonneg_left hf (by positivity)
    refine (abs_add_le _ _).trans ((add_le_add h1 h2).trans ?_)
    have e3 : n * (1 / 2 ^ 24 + 1 / 2 ^ 40) * (1 / M * (1 + 1 / 2 ^ 24)) + (n : ℚ) * (1 / M / 2 ^ 24) =
      n / M * ((1 / 2 ^ 24 + 1 / 2 ^ 40) * (1 + 1 / 2 ^ 24) + 1 / 2 ^ 24) := by ring
    rw [e3]
    apply mul_le_mul_of_nonneg_left _ (by positivity)
    norm_num
  have hpu : a * f ≤ n / M * (1 + 1 / 2 ^ 20) := by
    have := (abs_le.1 hp).2
    have h2 : (n : ℚ) / M * (2 * (1 / 2 ^ 24) + 1 / 2 ^ 39) ≤ n / M * (1 / 2 ^ 20) := mul_le_mul_of_nonneg_left (by norm_num) (by positivity)
    linarith
  have hr := abs_le.1 hRp
  have hp' := abs_le.1 hp
  have h150 : (1 : ℚ) / 2 ^ 150 ≤ n / M * (1 / 2 ^ 60) := by
    have h2 : (1 : ℚ) / 2 ^ 31 * (1 / 2 ^ 60) ≤ n / M * (1 / 2 ^ 60) := mul_le_mul_of_nonneg_right hx (by positivity)
    refine le_trans ?_ h2
    norm_num
  have hx0 : (0 : ℚ) ≤ n / M := by positivity
  generalize (n : ℚ) / M = x at *
  rw [abs_le]
  constructor <;> linarith

/-! ## Statements -/

/-- C77, unsigned: every cleanly extracted channel of every normalised format is the number it holds over the largest number of
its bits, to a relative error of `2^-22`. -/
theorem unorm_close (d : DataType) (mem : List Byte) (h : normNeeds d ≤ mem.length) :
    ∃ l, getUnorm d mem = some l ∧ ∀ c, c < (widths d).length → cleanChannel d c = true →
      ∃ r, FIs (l.get c) r ∧
        |r - (unormCode ((widths d).getD c 0) (PreCore.Uni.channel d c (mem.take (size d))) : ℚ) / (2 ^ unormWidth ((widths d).getD c 0) - 1 : Nat)| ≤
          (unormCode ((widths d).getD c 0) (PreCore.Uni.channel d c (mem.take (size d))) : ℚ) / (2 ^ unormWidth ((widths d).getD c 0) - 1 : Nat) / 2 ^ 22 := by
  obtain ⟨l, hl, hv⟩ := unorm_value d mem h
  refine ⟨l, hl, fun c hc hcl => ⟨_, ⟨_, _, hv c hc hcl, rfl⟩, ?_⟩⟩
  obtain ⟨t1, t2, t3, t4, t5⟩ := unorm_tables d ⟨c, by have := length_le d; omega⟩ hc hcl
  simp only at t1 t2 t3 t4 t5
  rw [t1] at t2
  rw [show sgn false = 1 from rfl, one_mul]
  have hlt := channel_lt d c (mem.take (size d))
  apply normMag_close _ _ t2
  generalize (widths d).getD c 0 = w at *
  unfold unormCode unormWidth
  by_cases h32 : w = 32
  · subst h32; simp only [if_true]; omega
  · rw [if_neg h32, if_neg h32]; omega

/-- C77, signed. The most negative number is excluded (it is below -1, see C56). -/
theorem norm_close (d : DataType) (mem : List Byte) (h : normNeeds d ≤ mem.length) :
    ∃ l, getNorm d mem = some l ∧ ∀ c, c < (widths d).length → cleanSigned d c = true → ∀ n : Int,
      n = signedOf ((widths d).getD c 0) (PreCore.Uni.channel d c (mem.take (size d))) →
      n.natAbs ≤ 2 ^ (max 1 ((widths d).getD c 0 - 1)) - 1 →
      ∃ r, FIs (l.get c) r ∧ |r - (n : ℚ) / (2 ^ (max 1 ((widths d).getD c 0 - 1)) - 1 : Nat)| ≤
        |(n : ℚ)| / (2 ^ (max 1 ((widths d).getD c 0 - 1)) - 1 : Nat) / 2 ^ 22 := by
  obtain ⟨l, hl, hv⟩ := norm_value d mem h
  refine ⟨l, hl, fun c hc hcl n hn hr => ?_⟩
  obtain ⟨t1, t2, t3, t4⟩ := norm_tables d ⟨c, by have := length_le d; omega⟩ hc hcl
  simp only at t1 t2 t3 t4
  rw [t1] at t2
  refine ⟨_, ⟨_, _, hv c hc hcl (hn ▸ hr), rfl⟩, ?_⟩
  rw [← hn]
  have hclose := normMag_close _ _ t2 hr
  generalize max 1 ((widths d).getD c 0 - 1) = b at *
  have e : (n : ℚ) = sgn (decide (n < 0)) * (n.natAbs : ℚ) := by
    rw [Nat.cast_natAbs]
    by_cases h0 : n < 0
    · rw [abs_of_neg h0]; simp [sgn, h0]
    · rw [abs_of_nonneg (by omega)]; simp [sgn, h0]
  have ea : |(n : ℚ)| = (n.natAbs : ℚ) := by rw [Nat.cast_natAbs]; push_cast; rfl
  rw [ea, e, mul_div_assoc, ← mul_sub, abs_mul, sgn_abs, one_mul]
  exact hclose

/-- Lane `c` of the unpacked element. -/
theorem resample_length (t : UnpackType) (min max : Lanes) (data : List Lanes) : (resample t min max data).length = data.length := by
  cases t <;> simp [resample]

theorem resample_get (t : UnpackType) (min max : Lanes) (data : List Lanes) (i : Nat) :
    (resample t min max data)[i]? = data[i]?.map (resampleOne t min max) := by
  cases t <;> simp only [resample, List.getElem?_map]
  cases data[i]? <;> rfl

theorem zip_get (f : BitVec 32 → BitVec 32 → BitVec 32) (u v : Lanes) (c : Nat) : (u.zip f v).get c = f (u.get c) (v.get c) := by
  match c with
  | 0 => rfl
  | 1 => rfl
  | 2 => rfl
  | _ + 3 => rfl

/-- What the unpacking of a value `x` should give. -/
def unpacked (t : UnpackType) (min max x : ℚ) : ℚ :=
  match t with
  | .none => x
  | .add => x + min
  | .mul => x * min
  | .madd => max + x * min

/-- No intermediate result is out of the range of floats. -/
def InRange (t : UnpackType) (min max x : ℚ) : Prop :=
  match t with
  | .none => True
  | .add => |x + min| ≤ 2 ^ 127
  | .mul => |x * min| ≤ 2 ^ 127
  | .madd => |x * min| ≤ 2 ^ 125 ∧ |max| ≤ 2 ^ 126

/-- C77: unpacking gives every lane of every element the value its kind of unpacking asks for, up to the rounding of one product and one
sum, whatever the numbers, as long as neither the product nor the sum leaves the range of floats. -/
theorem resample_close (t : UnpackType) (mn mx : Lanes) (data : List Lanes) (i : Nat) (d : Lanes) (hi : data[i]? = some d) (c : Nat)
    (x lo hi' : ℚ) (hx : FIs (d.get c) x) (hlo : FIs (mn.get c) lo) (hhi : FIs (mx.get c) hi')
    (hr : InRange t lo hi' x) :
    ∃ d' r, (resample t mn mx data)[i]? = some d' ∧ FIs (d'.get c) r ∧
      |r - unpacked t lo hi' x| ≤ (|unpacked t lo hi' x| + (if t = .madd then |x * lo| else 0)) / 2 ^ 23 + 1 / 2 ^ 148 := by
  have hg := resample_get t mn mx data i
  rw [hi, Option.map_some] at hg
  refine ⟨resampleOne t mn mx d, ?_⟩
  have hhalf : ∀ q : ℚ, 0 ≤ q → q / 2 ^ 24 ≤ q / 2 ^ 23 := fun q hq => div_le_div_of_nonneg_left hq (by positivity) (by norm_num)
  cases t with
  | none =>
    refine ⟨x, hg, hx, ?_⟩
    simp only [unpacked, sub_self, abs_zero]
    positivity
  | add =>
    obtain ⟨r, h1, h2⟩ := add_err_s hx hlo hr
    refine ⟨r, hg, by simp only [resampleOne, zip_get]; exact h1, ?_⟩
    simp only [unpacked, reduceCtorEq, if_false, add_zero]
    have := hhalf _ (abs_nonneg (x + lo))
    have : (1 : ℚ) / 2 ^ 150 ≤ 1 / 2 ^ 148 := by norm_num
    linarith
  | mul =>
    obtain ⟨r, h1, h2⟩ := mul_err_s hx hlo hr
    refine ⟨r, hg, by simp only [resampleOne, zip_get]; exact h1, ?_⟩
    simp only [unpacked, reduceCtorEq, if_false, add_zero]
    have := hhalf _ (abs_nonneg (x * lo))
    have : (1 : ℚ) / 2 ^ 150 ≤ 1 / 2 ^ 148 := by norm_num
    linarith
  | madd =>
    obtain ⟨hp, hm⟩ : |x * lo| ≤ 2 ^ 125 ∧ |hi'| ≤ 2 ^ 126 := hr
    obtain ⟨p, h1, h2⟩ := mul_err_s hx hlo (hp.trans (by norm_num))
    have hpp : |p| ≤ |x * lo| + (|x * lo| / 2 ^ 24 + 1 / 2 ^ 150) := by
      have : p = x * lo + (p - x * lo) := by ring
      rw [this]
      exact (abs_add_le _ _).trans (by linarith)
    have hsum : |hi' + p| ≤ 2 ^ 127 := by
      refine (abs_add_le _ _).trans ?_
      have h126 : (2 : ℚ) ^ 125 + 2 ^ 125 / 2 ^ 24 + 1 / 2 ^ 150 ≤ 2 ^ 126 := by norm_num
      have : |x * lo| / 2 ^ 24 ≤ 2 ^ 125 / 2 ^ 24 := div_le_div_of_nonneg_right hp (by positivity)
      have e127 : (2 : ℚ) ^ 127 = 2 ^ 126 + 2 ^ 126 := by norm_num
      linarith
    obtain ⟨r, h3, h4⟩ := add_err_s hhi h1 hsum
    refine ⟨r, hg, by simp only [resampleOne, zip_get]; exact h3, ?_⟩
    simp only [unpacked, if_true]
    have ha := abs_add_le (hi' + x * lo) (p - x * lo)
    have e1 : hi' + x * lo + (p - x * lo) = hi' + p := by ring
    rw [e1] at ha
    have hb := abs_add_le (r - (hi' + p)) (p - x * lo)
    have e2 : r - (hi' + p) + (p - x * lo) = r - (hi' + x * lo) := by ring
    rw [e2] at hb
    have hq : |hi' + p| / 2 ^ 24 ≤ (|hi' + x * lo| + (|x * lo| / 2 ^ 24 + 1 / 2 ^ 150)) / 2 ^ 24 :=
      div_le_div_of_nonneg_right (by linarith) (by positivity)
    have h0 := abs_nonneg (hi' + x * lo)
    have h0' := abs_nonneg (x * lo)
    generalize |hi' + x * lo| = P at *
    generalize |x * lo| = Q at *
    norm_num at *
    linarith

/-- The number a channel of an unsigned normalised format stands for (32 bit channels without their lowest bit). -/
def unormOf (d : DataType) (c : Nat) (element : List Byte) : ℚ :=
  (unormCode ((widths d).getD c 0) (channel d c element) : ℚ) / (2 ^ unormWidth ((widths d).getD c 0) - 1 : Nat)

theorem unormOf_range (d : DataType) (c : Nat) (e : List Byte) : 0 ≤ unormOf d c e ∧ unormOf d c e ≤ 1 := by
  have hlt := channel_lt d c e
  unfold unormOf
  refine ⟨by positivity, ?_⟩
  apply div_le_one_of_le₀ _ (by positivity)
  have : unormCode ((widths d).getD c 0) (channel d c e) ≤ 2 ^ unormWidth ((widths d).getD c 0) - 1 := by
    generalize (widths d).getD c 0 = w at *
    unfold unormCode unormWidth
    by_cases h32 : w = 32
    · subst h32; simp only [if_true]; omega
    · rw [if_neg h32, if_neg h32]; omega
  exact_mod_cast this

/-- C77: sampling a normalised vertex element and unpacking it to its bounding box gives, for every element and clean channel,
`max + n / M * min` to within `2^-20` of the box. -/
theorem unpack_unorm (d : DataType) (outSize count stride : Nat) (mem : List Byte) (hs : stride = 0 ∨ size d ≤ stride)
    (h : ∀ i, i < effCount outSize count → i * effStride d stride + normNeeds d ≤ mem.length)
    (mn mx : Lanes) (c : Nat) (hc : c < (widths d).length) (hcl : cleanChannel d c = true) (lo hi : ℚ) (hlo : FIs (mn.get c) lo)
    (hhi : FIs (mx.get c) hi) (blo : |lo| ≤ 2 ^ 124) (bhi : |hi| ≤ 2 ^ 126) :
    ∃ cd out, codec .UNORM d = some cd ∧ sample cd d false outSize mem count stride = .ok out ∧
      (resample .madd mn mx out).length = effCount outSize count ∧
      ∀ i, i < effCount outSize count → ∃ v r, (resample .madd mn mx out)[i]? = some v ∧ FIs (v.get c) r ∧
        |r - (hi + unormOf d c (element d stride i mem) * lo)| ≤ (|hi| + |lo|) / 2 ^ 20 + 1 / 2 ^ 148 := by
  have hv : ∀ i, i < effCount outSize count → ∃ l, getUnorm d (mem.drop (i * effStride d stride)) = some l ∧
      ∃ r, FIs (l.get c) r ∧ |r - unormOf d c (element d stride i mem)| ≤ unormOf d c (element d stride i mem) / 2 ^ 22 := by
    intro i hi'
    obtain ⟨l, hl, hcc⟩ := unorm_close d (mem.drop (i * effStride d stride)) (by rw [List.length_drop]; have := h i hi'; omega)
    exact ⟨l, hl, hcc c hc hcl⟩
  obtain ⟨out, h1, h2, h3⟩ := sample_each ⟨false, getUnorm d⟩ d outSize count stride mem hs (fun i hi' => by
    obtain ⟨l, hl, _⟩ := hv i hi'
    simp only; rw [hl]; rfl)
  refine ⟨_, out, rfl, h1, by rw [resample_length, h2], ?_⟩
  intro i hi'
  obtain ⟨l, hl, x, hx, hxc⟩ := hv i hi'
  have h3i := h3 i hi'
  simp only at h3i
  rw [hl] at h3i
  obtain ⟨u0, u1⟩ := unormOf_range d c (element d stride i mem)
  generalize unormOf d c (element d stride i mem) = u at *
  have hx' := abs_le.1 hxc
  have hu22 : u / 2 ^ 22 ≤ 1 / 2 ^ 22 := div_le_div_of_nonneg_right u1 (by positivity)
  have hxb : |x| ≤ 2 := by
    rw [abs_le]
    have : (1 : ℚ) / 2 ^ 22 ≤ 1 := by norm_num
    constructor <;> linarith
  have hxlo : |x * lo| ≤ 2 * |lo| := by rw [abs_mul]; exact mul_le_mul_of_nonneg_right hxb (abs_nonneg _)
  have e125 : (2 : ℚ) ^ 125 = 2 * 2 ^ 124 := by norm_num
  obtain ⟨v, r, g1, g2, g3⟩ := resample_close .madd mn mx out i l h3i c x lo hi hx hlo hhi ⟨by rw [e125]; linarith, bhi⟩
  refine ⟨v, r, g1, g2, ?_⟩
  simp only [unpacked, if_true] at g3
  have hd : |(hi + x * lo) - (hi + u * lo)| ≤ |lo| / 2 ^ 22 := by
    have e : (hi + x * lo) - (hi + u * lo) = (x - u) * lo := by ring
    rw [e, abs_mul]
    have : |x - u| * |lo| ≤ 1 / 2 ^ 22 * |lo| := mul_le_mul_of_nonneg_right (hxc.trans hu22) (abs_nonneg _)
    linarith
  have hsum : |hi + x * lo| ≤ |hi| + 2 * |lo| := (abs_add_le _ _).trans (by linarith)
  have ht := abs_add_le (r - (hi + x * lo)) ((hi + x * lo) - (hi + u * lo))
  have e : r - (hi + x * lo) + ((hi + x * lo) - (hi + u * lo)) = r - (hi + u * lo) := by ring
  rw [e] at ht
  have h0 := abs_nonneg hi
  have h0' := abs_nonneg lo
  have hq : (|hi + x * lo| + |x * lo|) / 2 ^ 23 ≤ (|hi| + 4 * |lo|) / 2 ^ 23 := div_le_div_of_nonneg_right (by linarith) (by positivity)
  have e1 : (|hi| + 4 * |lo|) / 2 ^ 23 + |lo| / 2 ^ 22 ≤ (|hi| + |lo|) / 2 ^ 20 := by
    rw [← sub_nonneg]
    have : (|hi| + |lo|) / 2 ^ 20 - ((|hi| + 4 * |lo|) / 2 ^ 23 + |lo| / 2 ^ 22) = (7 * |hi| + 2 * |lo|) / 2 ^ 23 := by ring
    rw [this]; positivity
  linarith

/-- A bounding box from -1 (max) with extent 2 (min), 16 bit positions: `0xffff` is unpacked to 1, `0` to -1. -/
example : ∃ out, sample ⟨false, getUnorm .R16G16B16A16⟩ .R16G16B16A16 false 1 [0xff, 0xff, 0, 0, 0, 0x80, 0, 0] 0 0 = .ok out ∧
    resample .madd (Lanes.all 0x40000000) (Lanes.all 0xbf800000) out = [⟨0x3f800000, 0xbf800000, 0x37800000, 0xbf800000⟩] := by
  refine ⟨[⟨0x3f800000, 0, 0x3f000080, 0⟩], by decide +kernel, by decide +kernel⟩

end PreCore.Uni
