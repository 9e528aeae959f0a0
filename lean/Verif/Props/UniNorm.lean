import Verif.Props.UniFormat
/-!
# C56: normalised vertex formats
-/
namespace PreCore.F32

/-- Magnitude of a bit pattern without sign, below infinity. -/
def magOf (b : Nat) : Nat := if b / 2 ^ 23 = 0 then b else (2 ^ 23 + b % 2 ^ 23) * 2 ^ (b / 2 ^ 23 - 1)

theorem magOf_mono {a b : Nat} (h : a ≤ b) : magOf a ≤ magOf b := by
  unfold magOf
  have hd : a / 2 ^ 23 ≤ b / 2 ^ 23 := Nat.div_le_div_right h
  by_cases ha : a / 2 ^ 23 = 0
  · rw [if_pos ha]
    by_cases hb : b / 2 ^ 23 = 0
    · rw [if_pos hb]; exact h
    · rw [if_neg hb]
      have h1 : 2 ^ 23 * 1 ≤ (2 ^ 23 + b % 2 ^ 23) * 2 ^ (b / 2 ^ 23 - 1) := Nat.mul_le_mul (by omega) (Nat.two_pow_pos _)
      omega
  · rw [if_neg ha, if_neg (by omega)]
    by_cases he : a / 2 ^ 23 = b / 2 ^ 23
    · rw [he]; exact Nat.mul_le_mul_right _ (by omega)
    · have h1 : (2 ^ 23 + a % 2 ^ 23) * 2 ^ (a / 2 ^ 23 - 1) ≤ 2 ^ 24 * 2 ^ (a / 2 ^ 23 - 1) := Nat.mul_le_mul_right _ (by omega)
      have h2 : 2 ^ 24 * 2 ^ (a / 2 ^ 23 - 1) ≤ 2 ^ 23 * 2 ^ (b / 2 ^ 23 - 1) := by
        rw [← Nat.pow_add, ← Nat.pow_add]; exact Nat.pow_le_pow_right (by decide) (by omega)
      have h3 : 2 ^ 23 * 2 ^ (b / 2 ^ 23 - 1) ≤ (2 ^ 23 + b % 2 ^ 23) * 2 ^ (b / 2 ^ 23 - 1) := Nat.mul_le_mul_right _ (by omega)
      omega

theorem val_mag (s : Bool) (b : Nat) (h : b < 0x7f800000) (x : F32) (hx : x.toNat = (if s then 2 ^ 31 else 0) + b) :
    val x = .fin s (magOf b) := by
  rw [val_of s b (by omega) x hx, if_neg (by omega)]
  unfold magOf
  split <;> rfl

/-- The rounded quotient before the limit. -/
def roundQ' (n d : Nat) : Nat :=
  let k := (n / d).log2 - 23
  let q := n / (d * 2 ^ k)
  let r := n % (d * 2 ^ k)
  k * 2 ^ 23 + (if 2 * r > d * 2 ^ k ∨ (2 * r = d * 2 ^ k ∧ q % 2 = 1) then q + 1 else q)

theorem roundQ_eq (n d : Nat) : roundQ n d = min (roundQ' n d) 0x7f800000 := rfl

/-- Rounding to the nearest multiple of `D`, ties to even, is monotone. -/
theorem rne_mono (D n m : Nat) (hD : 0 < D) (h : n ≤ m) :
    (if 2 * (n % D) > D ∨ (2 * (n % D) = D ∧ n / D % 2 = 1) then n / D + 1 else n / D) ≤
    (if 2 * (m % D) > D ∨ (2 * (m % D) = D ∧ m / D % 2 = 1) then m / D + 1 else m / D) := by
  have hq : n / D ≤ m / D := Nat.div_le_div_right h
  by_cases he : n / D = m / D
  · have hn := Nat.div_add_mod n D
    have hm := Nat.div_add_mod m D
    rw [he] at hn ⊢
    have hr : n % D ≤ m % D := by omega
    split <;> split <;> omega
  · split <;> split <;> omega

theorem ite_bound (P : Prop) [Decidable P] (q z : Nat) (h : q < 2 ^ 24) : z + (if P then q + 1 else q) ≤ z + 2 ^ 24 := by
  split <;> omega

theorem roundQ'_mono (d n m : Nat) (hd : 0 < d) (h : n ≤ m) : roundQ' n d ≤ roundQ' m d := by
  have hq : n / d ≤ m / d := Nat.div_le_div_right h
  have hl : (n / d).log2 ≤ (m / d).log2 := by
    by_cases h0 : n / d = 0
    · rw [h0, Nat.log2_zero]; omega
    · have h1 : m / d ≠ 0 := by generalize n / d = a at *; generalize m / d = b at *; omega
      rw [Nat.le_log2 h1]
      exact Nat.le_trans (Nat.log2_self_le h0) hq
  by_cases hk : (n / d).log2 - 23 = (m / d).log2 - 23
  · unfold roundQ'
    simp only
    rw [hk]
    have := rne_mono (d * 2 ^ ((m / d).log2 - 23)) n m (Nat.mul_pos hd (Nat.two_pow_pos _)) h
    omega
  · have hm0 : m / d ≠ 0 := by
      intro hc; rw [hc, Nat.log2_zero] at hk hl; omega
    have hlow : ((m / d).log2 - 23) * 2 ^ 23 + 2 ^ 23 ≤ roundQ' m d := by
      unfold roundQ'
      simp only
      have hq2 : 2 ^ 23 ≤ m / (d * 2 ^ ((m / d).log2 - 23)) := by
        rw [← Nat.div_div_eq_div_mul, Nat.le_div_iff_mul_le (Nat.two_pow_pos _), ← Nat.pow_add,
          show 23 + ((m / d).log2 - 23) = (m / d).log2 by omega]
        exact Nat.log2_self_le hm0
      split <;> omega
    have hup : roundQ' n d ≤ ((n / d).log2 - 23) * 2 ^ 23 + 2 ^ 24 := by
      unfold roundQ'
      simp only
      have hq2 : n / (d * 2 ^ ((n / d).log2 - 23)) < 2 ^ 24 := by
        rw [← Nat.div_div_eq_div_mul, Nat.div_lt_iff_lt_mul (Nat.two_pow_pos _), ← Nat.pow_add]
        by_cases h0 : n / d = 0
        · rw [h0]; exact Nat.two_pow_pos _
        · exact Nat.lt_of_lt_of_le Nat.lt_log2_self (Nat.pow_le_pow_right (by decide) (by omega))
      generalize n / (d * 2 ^ ((n / d).log2 - 23)) = q at *
      generalize ((n / d).log2 - 23) * 2 ^ 23 = z
      clear hlow hm0 hk hl hq
      exact ite_bound _ q z hq2
    have : (n / d).log2 - 23 + 1 ≤ (m / d).log2 - 23 := by omega
    omega

theorem roundQ_mono (d n m : Nat) (hd : 0 < d) (h : n ≤ m) : roundQ n d ≤ roundQ m d := by
  rw [roundQ_eq, roundQ_eq]
  have := roundQ'_mono d n m hd h
  omega

theorem makeQ_toNat (s : Bool) (n d : Nat) : (makeQ s n d).toNat = (if s then 2 ^ 31 else 0) + roundQ n d := by
  unfold makeQ
  have : roundQ n d ≤ 0x7f800000 := by rw [roundQ_eq]; omega
  rw [BitVec.toNat_ofNat, Nat.mod_eq_of_lt]
  cases s
  · rw [if_neg (by decide)]; omega
  · rw [if_pos rfl]; omega

theorem val_makeQ (s : Bool) (n d : Nat) (h : roundQ n d < 0x7f800000) : val (makeQ s n d) = .fin s (magOf (roundQ n d)) :=
  val_mag s _ h _ (makeQ_toNat s n d)

theorem mul_fin (x y : F32) (s : Bool) (m n : Nat) (hx : val x = .fin s m) (hy : val y = .fin false n)
    (h : roundQ (m * n) (2 ^ 149) < 0x7f800000) : val (mul x y) = .fin s (magOf (roundQ (m * n) (2 ^ 149))) := by
  unfold mul
  rw [hx, hy]
  show val (makeQ (s != false) (m * n) (2 ^ 149)) = _
  rw [Bool.bne_false, val_makeQ _ _ _ h]

end PreCore.F32

namespace PreCore.Uni
open PreCore PreCore.F32 PreCore.EsFloat

/-- Magnitude of the factor for `b` bits. -/
def fracMag (b : Nat) : Nat := magOf (getFraction b).toNat

/-- The magnitude of `n` scaled by the factor for `b` bits, with both roundings. -/
def normMag (b n : Nat) : Nat := magOf (roundQ (magOf (roundQ (n * 2 ^ 149) 1) * fracMag b) (2 ^ 149))

/-- The widths the codecs scale by. -/
def scaleBits : List Nat := [1, 2, 4, 5, 6, 7, 8, 9, 10, 11, 15, 16, 23, 24, 31]

theorem normMag_mono (b n m : Nat) (h : n ≤ m) : normMag b n ≤ normMag b m := by
  unfold normMag
  apply magOf_mono
  apply roundQ_mono _ _ _ (Nat.two_pow_pos _)
  apply Nat.mul_le_mul_right
  apply magOf_mono
  exact roundQ_mono _ _ _ (by decide) (Nat.mul_le_mul_right _ h)

theorem normMag_ends : ∀ b ∈ scaleBits, normMag b 0 = 0 ∧ normMag b (2 ^ b - 1) = 2 ^ 149 := by decide +kernel

theorem frac_val : ∀ b ∈ scaleBits, val (fraction b) = .fin false (fracMag b) := by decide +kernel

theorem normMag_bits : ∀ b ∈ scaleBits, roundQ (magOf (roundQ ((2 ^ b - 1) * 2 ^ 149) 1) * fracMag b) (2 ^ 149) = 0x3f800000 := by decide +kernel

theorem int_bits : ∀ b ∈ scaleBits, roundQ (2 ^ b * 2 ^ 149) 1 < 0x7f800000 := by decide +kernel

/-- What the magnitudes are at the ends, and between. -/
theorem normMag_range (b n : Nat) (hb : b ∈ scaleBits) (h : n ≤ 2 ^ b - 1) : normMag b n ≤ 2 ^ 149 := by
  rw [← (normMag_ends b hb).2]; exact normMag_mono b n _ h

/-- Scaling a lane: the sign of the integer and the scaled magnitude. -/
theorem scale_lane (b : Nat) (hb : b ∈ scaleBits) (v : BitVec 32) (h : v.toInt.natAbs ≤ 2 ^ b - 1) :
    val (mul (ofInt32 v) (fraction b)) = .fin v.msb (normMag b v.toInt.natAbs) := by
  have h1 : roundQ (v.toInt.natAbs * 2 ^ 149) 1 < 0x7f800000 :=
    Nat.lt_of_le_of_lt (roundQ_mono 1 _ _ (by decide) (Nat.mul_le_mul_right _ (Nat.le_trans h (Nat.sub_le _ _)))) (int_bits b hb)
  have h2 : val (ofInt32 v) = .fin v.msb (magOf (roundQ (v.toInt.natAbs * 2 ^ 149) 1)) := val_makeQ _ _ _ h1
  have h3 : roundQ (magOf (roundQ (v.toInt.natAbs * 2 ^ 149) 1) * fracMag b) (2 ^ 149) ≤ 0x3f800000 := by
    rw [← normMag_bits b hb]
    apply roundQ_mono _ _ _ (Nat.two_pow_pos _)
    apply Nat.mul_le_mul_right
    apply magOf_mono
    exact roundQ_mono _ _ _ (by decide) (Nat.mul_le_mul_right _ h)
  exact mul_fin _ _ _ _ _ h2 (frac_val b hb) (Nat.lt_of_le_of_lt h3 (by decide))

/-- Bits of precision of an unsigned channel: a 32 bit channel loses its lowest bit. -/
def unormWidth (w : Nat) : Nat := if w = 32 then 31 else w

/-- The number that is scaled. -/
def unormCode (w n : Nat) : Nat := if w = 32 then n / 2 else n

theorem Lanes.get_map (f : BitVec 32 → BitVec 32) (l : Lanes) (c : Nat) (hc : c < 4) : (l.map f).get c = f (l.get c) := by
  have h4 : c = 0 ∨ c = 1 ∨ c = 2 ∨ c = 3 := by omega
  rcases h4 with rfl | rfl | rfl | rfl <;> rfl

/-- Component `c` of a table row. -/
def row (f : Nat × Nat × Nat × Nat) : Nat → Nat
  | 0 => f.1 | 1 => f.2.1 | 2 => f.2.2.1 | _ => f.2.2.2

theorem lanes_get_eq (l l' : Lanes) (f : Nat × Nat × Nat × Nat) (g : BitVec 32 → Nat → BitVec 32)
    (hx : l'.x = g l.x f.1) (hy : l'.y = g l.y f.2.1) (hz : l'.z = g l.z f.2.2.1) (hw : l'.w = g l.w f.2.2.2) (c : Nat) :
    l'.get c = g (l.get c) (row f c) := by
  match c with
  | 0 => exact hx
  | 1 => exact hy
  | 2 => exact hz
  | _ + 3 => exact hw

theorem scale_x (l : Lanes) (f) : (scale l f).x = mul (ofInt32 l.x) (fraction f.1) := by unfold scale; exact Eq.refl _
theorem scale_y (l : Lanes) (f) : (scale l f).y = mul (ofInt32 l.y) (fraction f.2.1) := by unfold scale; exact Eq.refl _
theorem scale_z (l : Lanes) (f) : (scale l f).z = mul (ofInt32 l.z) (fraction f.2.2.1) := by unfold scale; exact Eq.refl _
theorem scale_w (l : Lanes) (f) : (scale l f).w = mul (ofInt32 l.w) (fraction f.2.2.2) := by unfold scale; exact Eq.refl _

theorem scale_get (l : Lanes) (f : Nat × Nat × Nat × Nat) (c : Nat) :
    (scale l f).get c = mul (ofInt32 (l.get c)) (fraction (row f c)) :=
  lanes_get_eq l (scale l f) f (fun v n => mul (ofInt32 v) (fraction n)) (scale_x l f) (scale_y l f) (scale_z l f) (scale_w l f) c

theorem unorm_tables (d : DataType) (c : Fin 4) : c.val < (widths d).length → cleanChannel d c.val = true →
    row (unormBits d) c.val = unormWidth ((widths d).getD c.val 0) ∧ row (unormBits d) c.val ∈ scaleBits ∧
    ((widths d).getD c.val 0 = 32 ↔ is32 d = true) ∧ 1 ≤ (widths d).getD c.val 0 ∧ (widths d).getD c.val 0 ≤ 32 := by
  revert c; cases d <;> decide

theorem length_le (d : DataType) : (widths d).length ≤ 4 := by cases d <;> decide

theorem natAbs_small (v : BitVec 32) (h : v.toNat < 2 ^ 31) : v.toInt.natAbs = v.toNat ∧ v.msb = false := by
  rw [toInt_def, if_pos h]
  refine ⟨rfl, ?_⟩
  rw [BitVec.msb_eq_decide, decide_eq_false_iff_not]; omega

/-- What the unsigned normalised codecs produce. -/
theorem unorm_value (d : DataType) (mem : List Byte) (h : normNeeds d ≤ mem.length) :
    ∃ l, getUnorm d mem = some l ∧ ∀ c, c < (widths d).length → cleanChannel d c = true →
      val (l.get c) = .fin false (normMag (unormWidth ((widths d).getD c 0))
        (unormCode ((widths d).getD c 0) (channel d c (mem.take (size d))))) := by
  obtain ⟨v, hv, hc⟩ := noFrac_exact d mem h
  refine ⟨scale (if is32 d then v.map (· >>> 1) else v) (unormBits d), ?_, ?_⟩
  · unfold getUnorm; rw [hv]; rfl
  intro c hcl hcc
  have hc4 : c < 4 := by have := length_le d; omega
  obtain ⟨t1, t2, t3, t4, t5⟩ := unorm_tables d ⟨c, hc4⟩ hcl hcc
  simp only at t1 t2 t3 t4 t5
  have hlane := hc c hc4 hcc
  have hlt := channel_lt d c (mem.take (size d))
  rw [scale_get, t1]
  rw [t1] at t2
  generalize channel d c (mem.take (size d)) = n at *
  generalize (widths d).getD c 0 = w at *
  by_cases h32 : w = 32
  · subst h32
    have e : ((if is32 d then v.map (· >>> 1) else v).get c) = (v.get c) >>> 1 := by
      rw [if_pos (t3.1 rfl)]; exact Lanes.get_map _ v c hc4
    rw [e]
    have hn : ((v.get c) >>> 1).toNat = n / 2 := by
      rw [BitVec.toNat_ushiftRight, hlane, Nat.shiftRight_eq_div_pow]
    obtain ⟨a1, a2⟩ := natAbs_small ((v.get c) >>> 1) (by omega)
    have hu : unormWidth 32 = 31 := rfl
    have hcode : unormCode 32 n = n / 2 := rfl
    rw [hu] at t2 ⊢
    rw [scale_lane 31 t2 _ (by rw [a1, hn]; omega), a2, a1, hn, hcode]
  · have e : ((if is32 d then v.map (· >>> 1) else v).get c) = v.get c := by
      rw [if_neg (fun hx => h32 (t3.2 hx))]
    rw [e]
    have hp : (2 : Nat) ^ w ≤ 2 ^ 31 := Nat.pow_le_pow_right (by decide) (by omega)
    obtain ⟨a1, a2⟩ := natAbs_small (v.get c) (by omega)
    have hu : unormWidth w = w := if_neg h32
    have hcode : unormCode w n = n := if_neg h32
    rw [hu] at t2 ⊢
    rw [scale_lane w t2 _ (by rw [a1, hlane]; omega), a2, a1, hlane, hcode]

/-- C56, unsigned: 0 is 0.0, all ones is exactly 1.0, larger numbers give values that are not smaller, none exceeds 1.0
(1.0 has magnitude 2^149 in units of 2^-149). -/
theorem unorm_normalised (d : DataType) (mem mem' : List Byte) (h : normNeeds d ≤ mem.length) (h' : normNeeds d ≤ mem'.length)
    (c : Nat) (hc : c < (widths d).length) (hcl : cleanChannel d c = true)
    (hle : channel d c (mem.take (size d)) ≤ channel d c (mem'.take (size d))) :
    ∃ l l' m m', getUnorm d mem = some l ∧ getUnorm d mem' = some l' ∧ val (l.get c) = .fin false m ∧ val (l'.get c) = .fin false m' ∧
      m ≤ m' ∧ m' ≤ 2 ^ 149 ∧ (channel d c (mem.take (size d)) = 0 → m = 0) ∧
      (channel d c (mem'.take (size d)) = 2 ^ ((widths d).getD c 0) - 1 → m' = 2 ^ 149) := by
  obtain ⟨l, hl, hv⟩ := unorm_value d mem h
  obtain ⟨l', hl', hv'⟩ := unorm_value d mem' h'
  obtain ⟨t1, t2, t3, t4, t5⟩ := unorm_tables d ⟨c, by have := length_le d; omega⟩ hc hcl
  simp only at t1 t2 t3 t4 t5
  rw [t1] at t2
  have hlt' := channel_lt d c (mem'.take (size d))
  refine ⟨l, l', _, _, hl, hl', hv c hc hcl, hv' c hc hcl, ?_, ?_, ?_, ?_⟩
  · apply normMag_mono
    unfold unormCode
    split <;> omega
  · apply normMag_range _ _ t2
    unfold unormCode unormWidth
    generalize channel d c (mem'.take (size d)) = n at *
    generalize (widths d).getD c 0 = w at *
    by_cases hw : w = 32
    · subst hw; rw [if_pos rfl, if_pos rfl]; omega
    · rw [if_neg hw, if_neg hw]; omega
  · intro h0
    rw [h0]
    have : unormCode ((widths d).getD c 0) 0 = 0 := by unfold unormCode; split <;> rfl
    rw [this]; exact (normMag_ends _ t2).1
  · intro h1
    rw [h1]
    have : unormCode ((widths d).getD c 0) (2 ^ ((widths d).getD c 0) - 1) = 2 ^ (unormWidth ((widths d).getD c 0)) - 1 := by
      unfold unormCode unormWidth
      by_cases hw : (widths d).getD c 0 = 32
      · rw [hw, if_pos rfl, if_pos rfl]
      · rw [if_neg hw, if_neg hw]
    rw [this]; exact (normMag_ends _ t2).2

example : getUnorm .R8G8 [0, 0xff] = some ⟨0, 0x3f800000, 0, 0⟩ ∧ channel .R8G8 1 [0, 0xff] = 2 ^ 8 - 1 := by decide +kernel

theorem norm_tables (d : DataType) (c : Fin 4) : c.val < (widths d).length → cleanSigned d c.val = true →
    row (normBits d) c.val = max 1 ((widths d).getD c.val 0 - 1) ∧ row (normBits d) c.val ∈ scaleBits ∧
    1 ≤ (widths d).getD c.val 0 ∧ (widths d).getD c.val 0 ≤ 32 := by
  revert c; cases d <;> decide

/-- C56, signed: the value has the sign of the number and the magnitude its absolute value would have as an unsigned number of one bit
less; see `normMag_mono`, `normMag_ends` and `normMag_range`. The most negative number is excluded. -/
theorem norm_value (d : DataType) (mem : List Byte) (h : normNeeds d ≤ mem.length) :
    ∃ l, getNorm d mem = some l ∧ ∀ c, c < (widths d).length → cleanSigned d c = true →
      (signedOf ((widths d).getD c 0) (channel d c (mem.take (size d)))).natAbs ≤ 2 ^ (max 1 ((widths d).getD c 0 - 1)) - 1 →
      val (l.get c) = .fin (decide (signedOf ((widths d).getD c 0) (channel d c (mem.take (size d))) < 0))
        (normMag (max 1 ((widths d).getD c 0 - 1)) (signedOf ((widths d).getD c 0) (channel d c (mem.take (size d)))).natAbs) := by
  obtain ⟨v, hv, hc⟩ := signed_exact d mem h
  refine ⟨scale v (normBits d), ?_, ?_⟩
  · unfold getNorm; rw [hv]; rfl
  intro c hcl hcc hr
  have hc4 : c < 4 := by have := length_le d; omega
  obtain ⟨t1, t2, t3, t4⟩ := norm_tables d ⟨c, hc4⟩ hcl hcc
  simp only at t1 t2 t3 t4
  have hlane := hc c hc4 hcc
  rw [scale_get, t1]
  rw [t1] at t2
  rw [← hlane] at hr ⊢
  rw [scale_lane _ t2 _ hr]
  congr 1
  rw [BitVec.msb_eq_toInt]

/-- C56, signed: zero, the largest and the smallest allowed numbers, order and range. -/
theorem norm_normalised (d : DataType) (mem : List Byte) (h : normNeeds d ≤ mem.length) (c : Nat) (hc : c < (widths d).length)
    (hcl : cleanSigned d c = true)
    (hr : (signedOf ((widths d).getD c 0) (channel d c (mem.take (size d)))).natAbs ≤ 2 ^ (max 1 ((widths d).getD c 0 - 1)) - 1) :
    ∃ l m, getNorm d mem = some l ∧
      val (l.get c) = .fin (decide (signedOf ((widths d).getD c 0) (channel d c (mem.take (size d))) < 0)) m ∧ m ≤ 2 ^ 149 ∧
      (signedOf ((widths d).getD c 0) (channel d c (mem.take (size d))) = 0 → m = 0) ∧
      ((signedOf ((widths d).getD c 0) (channel d c (mem.take (size d)))).natAbs = 2 ^ (max 1 ((widths d).getD c 0 - 1)) - 1 → m = 2 ^ 149) := by
  obtain ⟨l, hl, hv⟩ := norm_value d mem h
  obtain ⟨t1, t2, t3, t4⟩ := norm_tables d ⟨c, by have := length_le d; omega⟩ hc hcl
  simp only at t1 t2 t3 t4
  rw [t1] at t2
  refine ⟨l, _, hl, hv c hc hcl hr, normMag_range _ _ t2 hr, ?_, ?_⟩
  · intro h0; rw [h0]; exact (normMag_ends _ t2).1
  · intro h1; rw [h1]; exact (normMag_ends _ t2).2

example : getNorm .R8G8 [0x81, 0x7f] = some ⟨0xbf800000, 0x3f800000, 0, 0⟩ := by decide +kernel

/-- C56 is violated: the most negative number of a signed channel is below -1. -/
theorem norm_min_violated :
    ∃ l m, getNorm .R8 [0x80] = some l ∧ val l.x = .fin true m ∧ 2 ^ 149 < m := by
  exact ⟨⟨0xbf810204, 0, 0, 0⟩, _, by decide +kernel, rfl, by decide +kernel⟩

/-- C56 is violated: full red of a 5-6-5 colour is not 1.0, whatever the other channels. -/
theorem unorm_red_violated (mem : List Byte) (h : 2 ≤ mem.length) (hf : channel .R5G6B5 0 (mem.take 2) = 31) :
    ∃ l m, getUnorm .R5G6B5 mem = some l ∧ val l.x = .fin false m ∧ m < 2 ^ 149 := by
  obtain ⟨v, hv, _⟩ := noFrac_exact .R5G6B5 mem h
  have hx := ((noFrac_leaks mem).2.1 v h hv).1
  rw [hf] at hx
  obtain ⟨a1, a2⟩ := natAbs_small v.x (by omega)
  refine ⟨scale v (unormBits .R5G6B5), normMag 6 62, ?_, ?_, by decide +kernel⟩
  · unfold getUnorm; rw [hv]; rfl
  · show val (mul (ofInt32 v.x) (fraction 6)) = _
    rw [scale_lane 6 (by decide) _ (by rw [a1, hx]; decide), a1, a2, hx]

/-- C56 is violated: full blue of an 11-11-10 colour depends on the green channel. -/
theorem unorm_blue_violated :
    (getUnorm .R11G11B10 [0, 0, 0xc0, 0xff]).map (fun l => l.z) = some 0x3f7fdffc#32 ∧
    (getUnorm .R11G11B10 [0, 0, 0xe0, 0xff]).map (fun l => l.z) = some 0x3f800000#32 ∧
    channel .R11G11B10 2 [0, 0, 0xc0, 0xff] = 2 ^ 10 - 1 := by decide +kernel

end PreCore.Uni
