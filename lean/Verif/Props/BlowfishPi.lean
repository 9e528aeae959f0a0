import Mathlib.Analysis.SpecialFunctions.Complex.Arctan
import Mathlib.Analysis.SpecificLimits.Normed
import Mathlib.Algebra.Order.Floor.Semifield
import Mathlib.Tactic.NormNum
import Mathlib.Tactic.Linarith
import Mathlib.Tactic.FieldSimp
import Mathlib.Tactic.Ring
import Verif.Model.BlowfishTables
import Verif.Props.Blowfish
/-!
# C57: the literal tables are the digits of π

Schneier: the P-array and the S-boxes are filled, in this order, with the fractional part of π in hexadecimal.
π is computed by Machin's formula with exact rational partial sums (binary splitting), checked by the kernel.
-/
namespace PreCore.Crypt.Pi
open Finset Filter Topology

/-- Word `i` of the fractional part of π: bits `32 i` to `32 i + 31` behind the binary point. -/
noncomputable def piWord (i : Nat) : Nat := ⌊Real.pi * 2 ^ (32 * (i + 1))⌋₊ % 2 ^ 32

/-! ## Machin's formula -/

theorem machin : Real.pi = 16 * Real.arctan (1 / 5) - 4 * Real.arctan (1 / 239) := by
  have h1 : Real.arctan (1 / 5) + Real.arctan (1 / 5) = Real.arctan (5 / 12) := by
    rw [Real.arctan_add (by norm_num)]; norm_num
  have h2 : Real.arctan (5 / 12) + Real.arctan (5 / 12) = Real.arctan (120 / 119) := by
    rw [Real.arctan_add (by norm_num)]; norm_num
  have h3 : Real.arctan (120 / 119) + Real.arctan (-(1 / 239)) = Real.arctan 1 := by
    rw [Real.arctan_add (by norm_num)]; norm_num
  rw [Real.arctan_neg, Real.arctan_one] at h3
  linarith

/-! ## Partial sums -/

/-- Product of the denominators of the pairs `a .. a + 2^d - 1`. -/
def B : Nat → Nat → Nat
  | 0, a => (4 * a + 1) * (4 * a + 3)
  | d + 1, a => B d a * B d (a + 2 ^ d)

/-- Numerator of the pairs `a .. a + 2^d - 1` over `B d a * x^(4 * 2^d)`. -/
def T (x : Nat) : Nat → Nat → Nat
  | 0, a => (4 * a + 3) * x ^ 2 - (4 * a + 1)
  | d + 1, a => T x d a * (B d (a + 2 ^ d) * x ^ (4 * 2 ^ d)) + B d a * T x d (a + 2 ^ d)

/-- `arctan (1/x)` in units of `2^-M`. -/
def fixed (x d M : Nat) : Nat := 2 ^ M * x * T x d 0 / (B d 0 * x ^ (4 * 2 ^ d))

/-- Two neighbouring terms of the arctangent series. -/
noncomputable def pair (x : ℝ) (j : Nat) : ℝ :=
  (1 / x) ^ (2 * (2 * j) + 1) / ((2 * (2 * j) + 1 : Nat) : ℝ) - (1 / x) ^ (2 * (2 * j + 1) + 1) / ((2 * (2 * j + 1) + 1 : Nat) : ℝ)

theorem B_pos : ∀ d a, 0 < B d a
  | 0, a => by simp [B]
  | d + 1, a => by rw [B]; exact Nat.mul_pos (B_pos d a) (B_pos d _)

theorem T_sum (x : Nat) (hx : 2 ≤ x) : ∀ d a,
    ∑ j ∈ range (2 ^ d), pair x (a + j) * (x : ℝ) ^ (4 * a) = x * ((T x d a : ℝ) / (B d a * (x : ℝ) ^ (4 * 2 ^ d))) := by
  have hx0 : (x : ℝ) ≠ 0 := by positivity
  intro d
  induction d with
  | zero =>
    intro a
    have hle : 4 * a + 1 ≤ (4 * a + 3) * x ^ 2 := by nlinarith [Nat.pow_le_pow_left hx 2]
    simp only [pow_zero, sum_range_one, pair, T, B]
    push_cast [Nat.cast_sub hle]
    have e1 : (4 * (a : ℝ) + 1) ≠ 0 := by positivity
    have e3 : (4 * (a : ℝ) + 3) ≠ 0 := by positivity
    have h1 : (2 * (2 * ((a : ℝ) + 0)) + 1) = 4 * a + 1 := by ring
    have h3 : (2 * (2 * ((a : ℝ) + 0) + 1) + 1) = 4 * a + 3 := by ring
    simp only [add_zero] at h1 h3 ⊢
    rw [h1, h3, show 2 * (2 * a) + 1 = 4 * a + 1 by ring, show 2 * (2 * a + 1) + 1 = 4 * a + 3 by ring]
    simp only [one_div, inv_pow, pow_add]
    field_simp
  | succ d ih =>
    intro a
    rw [pow_succ, mul_two, sum_range_add, ih a]
    have hs : ∑ j ∈ range (2 ^ d), pair x (a + (2 ^ d + j)) * (x : ℝ) ^ (4 * a) =
        (x * ((T x d (a + 2 ^ d) : ℝ) / (B d (a + 2 ^ d) * (x : ℝ) ^ (4 * 2 ^ d)))) / (x : ℝ) ^ (4 * 2 ^ d) := by
      rw [← ih (a + 2 ^ d), sum_div]
      apply sum_congr rfl
      intro j _
      rw [add_assoc, mul_add 4 a, pow_add (x : ℝ) (4 * a)]
      field_simp
    rw [hs, T, B]
    have b1 : (B d a : ℝ) ≠ 0 := by have := B_pos d a; positivity
    have b2 : (B d (a + 2 ^ d) : ℝ) ≠ 0 := by have := B_pos d (a + 2 ^ d); positivity
    push_cast
    rw [mul_add 4, pow_add (x : ℝ)]
    field_simp

theorem partial_sum (x : Nat) (d : Nat) (hx : 2 ≤ x) :
    ∑ i ∈ range (2 * 2 ^ d), (-1 : ℝ) ^ i * ((1 / (x : ℝ)) ^ (2 * i + 1) / ((2 * i + 1 : Nat) : ℝ)) =
      x * (T x d 0 : ℝ) / (B d 0 * (x : ℝ) ^ (4 * 2 ^ d)) := by
  have h := T_sum x hx d 0
  simp only [Nat.mul_zero, pow_zero, mul_one, Nat.zero_add] at h
  rw [mul_div_assoc, ← h]
  generalize 2 ^ d = n
  induction n with
  | zero => simp
  | succ n ih =>
    rw [Nat.mul_succ, sum_range_succ, sum_range_succ, ih, sum_range_succ, pair]
    have e : (-1 : ℝ) ^ (2 * n) = 1 := by rw [pow_mul]; simp
    rw [e, pow_succ (-1 : ℝ), e]
    ring

/-- The arctangent lies between the partial sum and the partial sum with the next term. -/
theorem arctan_between (x d : Nat) (hx : 2 ≤ x) :
    x * (T x d 0 : ℝ) / (B d 0 * (x : ℝ) ^ (4 * 2 ^ d)) ≤ Real.arctan (1 / x) ∧
    Real.arctan (1 / x) ≤ x * (T x d 0 : ℝ) / (B d 0 * (x : ℝ) ^ (4 * 2 ^ d)) + (1 / (x : ℝ)) ^ (4 * 2 ^ d + 1) := by
  have hx1 : (1 : ℝ) < x := by exact_mod_cast (by omega : 1 < x)
  have hx0 : (0 : ℝ) < x := by linarith
  have hlt : (1 / (x : ℝ)) < 1 := by rw [div_lt_one hx0]; exact hx1
  have hnn : (0 : ℝ) ≤ 1 / x := by positivity
  have hsum := Real.hasSum_arctan (x := 1 / (x : ℝ)) (by rw [Real.norm_of_nonneg hnn]; exact hlt)
  have ht := hsum.tendsto_sum_nat
  have ht' : Tendsto (fun n ↦ ∑ i ∈ range n, (-1 : ℝ) ^ i * ((1 / (x : ℝ)) ^ (2 * i + 1) / ((2 * i + 1 : Nat) : ℝ))) atTop
      (𝓝 (Real.arctan (1 / x))) := by
    refine ht.congr fun n => sum_congr rfl fun i _ => ?_
    rw [mul_div_assoc]
  have hanti : Antitone (fun i : Nat => (1 / (x : ℝ)) ^ (2 * i + 1) / ((2 * i + 1 : Nat) : ℝ)) := by
    intro i j hij
    simp only
    apply div_le_div₀ (by positivity) (pow_le_pow_of_le_one hnn hlt.le (by omega)) (by positivity)
    exact_mod_cast (by omega : 2 * i + 1 ≤ 2 * j + 1)
  have lo := hanti.alternating_series_le_tendsto ht' (2 ^ d)
  have hi := hanti.tendsto_le_alternating_series ht' (2 ^ d)
  rw [partial_sum x d hx] at lo
  rw [sum_range_succ, partial_sum x d hx] at hi
  refine ⟨lo, hi.trans ?_⟩
  have e : (-1 : ℝ) ^ (2 * 2 ^ d) = 1 := by rw [pow_mul]; simp
  rw [e, one_mul, show 2 * (2 * 2 ^ d) + 1 = 4 * 2 ^ d + 1 by ring]
  gcongr
  apply div_le_self (by positivity)
  exact_mod_cast (by omega : 1 ≤ 4 * 2 ^ d + 1)

theorem fixed_between (x d M : Nat) (hx : 2 ≤ x) (hM : 2 ^ M ≤ x ^ (4 * 2 ^ d + 1)) :
    (fixed x d M : ℝ) ≤ 2 ^ M * Real.arctan (1 / x) ∧ 2 ^ M * Real.arctan (1 / x) ≤ fixed x d M + 2 := by
  obtain ⟨lo, hi⟩ := arctan_between x d hx
  have hx0 : (0 : ℝ) < x := by exact_mod_cast (by omega : 0 < x)
  have hb : (0 : ℝ) < B d 0 * (x : ℝ) ^ (4 * 2 ^ d) := by have := B_pos d 0; positivity
  have hbn : 0 < B d 0 * x ^ (4 * 2 ^ d) := Nat.mul_pos (B_pos d 0) (Nat.pow_pos (by omega))
  have e : (2 : ℝ) ^ M * (x * (T x d 0 : ℝ) / (B d 0 * (x : ℝ) ^ (4 * 2 ^ d))) =
      ((2 ^ M * x * T x d 0 : Nat) : ℝ) / ((B d 0 * x ^ (4 * 2 ^ d) : Nat) : ℝ) := by
    push_cast; ring
  have p2 : (0 : ℝ) < 2 ^ M := by positivity
  constructor
  · refine le_trans ?_ (mul_le_mul_of_nonneg_left lo p2.le)
    rw [e]; exact Nat.cast_div_le
  · refine (mul_le_mul_of_nonneg_left hi p2.le).trans ?_
    rw [mul_add, e]
    have h1 : ((2 ^ M * x * T x d 0 : Nat) : ℝ) / ((B d 0 * x ^ (4 * 2 ^ d) : Nat) : ℝ) ≤ fixed x d M + 1 := by
      rw [div_le_iff₀ (by exact_mod_cast hbn)]
      have := Nat.lt_mul_div_succ (2 ^ M * x * T x d 0) hbn
      have h' : 2 ^ M * x * T x d 0 ≤ (fixed x d M + 1) * (B d 0 * x ^ (4 * 2 ^ d)) := by
        rw [Nat.mul_comm (fixed x d M + 1)]; exact this.le
      exact_mod_cast h'
    have h2 : (2 : ℝ) ^ M * (1 / (x : ℝ)) ^ (4 * 2 ^ d + 1) ≤ 1 := by
      rw [one_div, inv_pow, mul_inv_le_iff₀ (by positivity), one_mul]
      exact_mod_cast hM
    linarith

/-! ## The tables -/

/-- The words of a list as one number behind the leading 3. -/
def word (l : List Nat) : Nat := l.foldl (fun acc w => acc * 2 ^ 32 + w) 3

set_option maxRecDepth 100000 in
set_option exponentiation.threshold 100000 in
theorem lo_check : word (pboxLit ++ sboxLit) * 2 ^ 32 + 4 * (fixed 239 11 33376 + 2) ≤ 16 * fixed 5 12 33376 := by
  decide +kernel

set_option maxRecDepth 100000 in
set_option exponentiation.threshold 100000 in
theorem hi_check : 16 * (fixed 5 12 33376 + 2) < (word (pboxLit ++ sboxLit) + 1) * 2 ^ 32 + 4 * fixed 239 11 33376 := by
  decide +kernel

set_option exponentiation.threshold 100000 in
theorem pow5 : 2 ^ 33376 ≤ 5 ^ (4 * 2 ^ 12 + 1) := by decide +kernel
set_option exponentiation.threshold 100000 in
theorem pow239 : 2 ^ 33376 ≤ 239 ^ (4 * 2 ^ 11 + 1) := by decide +kernel

theorem lits : (pboxLit ++ sboxLit).length = 1042 ∧ ∀ w ∈ pboxLit ++ sboxLit, w < 2 ^ 32 := by
  constructor
  · decide +kernel
  · decide +kernel

theorem foldl_top (l : List Nat) (hl : ∀ w ∈ l, w < 2 ^ 32) (c : Nat) :
    l.foldl (fun acc w => acc * 2 ^ 32 + w) c / 2 ^ (32 * l.length) = c := by
  induction l generalizing c with
  | nil => simp
  | cons w l ih =>
    have hw : w < 2 ^ 32 := hl w (by simp)
    rw [List.foldl_cons, List.length_cons, Nat.mul_succ, Nat.pow_add, ← Nat.div_div_eq_div_mul,
      ih (fun v hv => hl v (by simp [hv]))]
    omega

theorem foldl_digit (l : List Nat) (hl : ∀ w ∈ l, w < 2 ^ 32) : ∀ (c i : Nat) (hi : i < l.length),
    l.foldl (fun acc w => acc * 2 ^ 32 + w) c / 2 ^ (32 * (l.length - 1 - i)) % 2 ^ 32 = l[i] := by
  induction l with
  | nil => intro c i hi; simp at hi
  | cons w l ih =>
    intro c i hi
    have hl' : ∀ v ∈ l, v < 2 ^ 32 := fun v hv => hl v (by simp [hv])
    have hw : w < 2 ^ 32 := hl w (by simp)
    rw [List.foldl_cons]
    cases i with
    | zero =>
      have : (w :: l).length - 1 - 0 = l.length := by simp
      rw [this, foldl_top l hl']
      simp only [List.getElem_cons_zero]
      omega
    | succ i =>
      simp only [List.length_cons] at hi
      have : (w :: l).length - 1 - (i + 1) = l.length - 1 - i := by simp only [List.length_cons]; omega
      rw [this, ih hl' _ i (by omega)]
      rfl

/-- The tables behind the leading 3 are π cut at bit 33344. -/
theorem word_pi : ⌊Real.pi * 2 ^ 33344⌋₊ = word (pboxLit ++ sboxLit) := by
  have h5 := fixed_between 5 12 33376 (by omega) pow5
  have h239 := fixed_between 239 11 33376 (by omega) pow239
  have lo := lo_check
  have hi := hi_check
  revert h5 h239 lo hi
  generalize fixed 5 12 33376 = f5
  generalize fixed 239 11 33376 = f239
  generalize word (pboxLit ++ sboxLit) = w
  intro h5 h239 lo hi
  have e : (2 : ℝ) ^ 33376 = 2 ^ 33344 * 2 ^ 32 := by rw [← pow_add]
  rw [e] at h5 h239
  have hm := machin
  revert h5 h239
  generalize hP : (2 : ℝ) ^ 33344 = P
  have hP0 : (0 : ℝ) < P := by rw [← hP]; positivity
  intro h5 h239
  push_cast at h5 h239
  generalize Real.arctan (1 / 5) = a at *
  generalize Real.arctan (1 / 239) = b at *
  have lo' : (w : ℝ) * 2 ^ 32 + 4 * (f239 + 2) ≤ 16 * f5 := by exact_mod_cast lo
  have hi' : 16 * ((f5 : ℝ) + 2) < (w + 1) * 2 ^ 32 + 4 * f239 := by exact_mod_cast hi
  rw [hm]
  rw [Nat.floor_eq_iff]
  · constructor
    · nlinarith
    · nlinarith
  · have : (0 : ℝ) ≤ w := by positivity
    nlinarith

/-- **C57** Every entry of `BF_PBOXES` followed by `BF_SBOXES` is the corresponding word of π. -/
theorem tables_are_pi (i : Nat) (hi : i < 1042) : (pboxLit ++ sboxLit).getD i 0 = piWord i := by
  obtain ⟨hlen, hlt⟩ := lits
  have hd := foldl_digit _ hlt 3 i (by omega)
  rw [List.getD_eq_getElem?_getD, List.getElem?_eq_getElem (by omega), Option.getD_some, ← hd, piWord]
  have : (List.foldl (fun acc w => acc * 2 ^ 32 + w) 3 (pboxLit ++ sboxLit)) = ⌊Real.pi * 2 ^ 33344⌋₊ := word_pi.symm
  have hE : ∀ n k m : Nat, n = k + m → Real.pi * 2 ^ n / ((2 ^ m : Nat) : ℝ) = Real.pi * 2 ^ k := by
    intro n k m h
    push_cast
    rw [div_eq_iff (by positivity), mul_assoc, ← pow_add, h]
  rw [this, hlen, ← Nat.floor_div_natCast, hE 33344 (32 * (i + 1)) (32 * (1042 - 1 - i)) (by omega)]

/-- The published initial array: π in words. -/
noncomputable def piTable (i : Nat) : BitVec 32 := if i < 1042 then BitVec.ofNat 32 (piWord i) else 0#32

theorem init_pi : (fun i => if i < 18 then pbox0 i else sbox0 (i - 18)) = piTable := by
  funext i
  have hp : pboxLit.length = 18 := by decide +kernel
  have hs : sboxLit.length = 1024 := by decide +kernel
  unfold piTable pbox0 sbox0
  by_cases h : i < 1042
  · rw [if_pos h, ← tables_are_pi i h]
    simp only [List.getD_eq_getElem?_getD]
    by_cases h1 : i < 18
    · rw [if_pos h1, List.getElem?_append_left (by omega)]
    · rw [if_neg h1, List.getElem?_append_right (by omega), hp]
  · rw [if_neg h, if_neg (by omega), List.getD_eq_getElem?_getD, List.getElem?_eq_none (by omega)]
    rfl

/-- **C57** Blowfish as published, with π as its initial array: for every non-empty key of 7-bit characters `SetKey` succeeds and
`EncodeBlock` then encrypts every block as Schneier's algorithm does. Missing: key characters above 0x7f (C50). -/
theorem blowfish_published_partial (rev : Bool) (key : List Byte) (hk : key ≠ []) (ascii : ∀ c ∈ key, c.toNat < 128) :
    ∃ bx, setKey pbox0 sbox0 rev key = some bx ∧ ∀ b : BitVec 64,
      ((encodeBlock bx b).extractLsb' 0 32, (encodeBlock bx b).extractLsb' 32 32) =
        Blowfish.encrypt (Blowfish.keySetup (orderOf rev) piTable (keyWordSpec rev key)) (orderOf rev)
          (b.extractLsb' 0 32, b.extractLsb' 32 32) := by
  obtain ⟨bx, h1, h2, h3⟩ := setKey_textbook_partial pbox0 sbox0 rev key hk ascii
  refine ⟨bx, h1, fun b => ?_⟩
  rw [encodeBlock_textbook, h2, h3, init_pi]

/-- A non-trivial instance of the table theorem: the first words of the P-array and of the last S-box. -/
example : piWord 0 = 0x243f6a88 ∧ piWord 1041 = 0x3ac372e6 := by
  rw [← tables_are_pi 0 (by omega), ← tables_are_pi 1041 (by omega)]
  decide +kernel
example : ∃ bx, setKey pbox0 sbox0 true [0x61#8, 0x62#8] = some bx :=
  let ⟨bx, h, _⟩ := blowfish_published_partial true [0x61#8, 0x62#8] (by simp) (by simp)
  ⟨bx, h⟩

end PreCore.Crypt.Pi
