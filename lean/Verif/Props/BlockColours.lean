import Verif.Lemmas.Float32Err
import Verif.Model.BlockColours
import Verif.Props.BlockDecoder
/-!
# C76: the colours of BC1, BC2 and BC3 blocks
-/
namespace PreCore.Block
open PreCore.F32

/-- `v` is the 8 bit value of the fraction `n / d`: cut off, or one less when the fraction is a whole number. -/
def Eight (v : Byte) (n d : Nat) : Prop := d * v.toNat ≤ n ∧ n ≤ d * (v.toNat + 1)

theorem toUInt8_is {x : F32} {r : ℚ} (h : Is x r) (hr : r < 256) :
    ∃ v : Byte, toUInt8 x = some v ∧ (v.toNat : ℚ) ≤ r ∧ r < v.toNat + 1 := by
  obtain ⟨m, hm, rfl⟩ := h
  have hu := unit_pos
  have hlt : m / 2 ^ 149 < 256 := by
    rw [div_lt_iff₀ hu] at hr
    unfold unit at hr
    have : m < 256 * 2 ^ 149 := by exact_mod_cast hr
    exact (Nat.div_lt_iff_lt_mul (Nat.two_pow_pos _)).2 this
  refine ⟨BitVec.ofNat 8 (m / 2 ^ 149), ?_, ?_⟩
  · unfold toUInt8; rw [hm]; simp only; rw [if_pos hlt]
  · have e : (BitVec.ofNat 8 (m / 2 ^ 149)).toNat = m / 2 ^ 149 := by
      rw [BitVec.toNat_ofNat, Nat.mod_eq_of_lt hlt]
    rw [e]
    have h1 := Nat.div_mul_le_self m (2 ^ 149)
    have h2 := Nat.lt_div_mul_add (a := m) (b := 2 ^ 149) (Nat.two_pow_pos _)
    generalize m / 2 ^ 149 = q at *
    constructor
    · rw [le_div_iff₀ hu]; unfold unit; exact_mod_cast h1
    · rw [div_lt_iff₀ hu]; unfold unit
      have : m < (q + 1) * 2 ^ 149 := by rw [Nat.add_mul, Nat.one_mul]; exact h2
      exact_mod_cast this

theorem is_of {x : F32} {m : Nat} {v : ℚ} (h : val x = .fin false m) (hv : v * unit = m) : Is x v :=
  ⟨m, h, by rw [← hv, mul_div_assoc, div_self unit_pos.ne', mul_one]⟩

theorem close_of {x : F32} {m : Nat} (v e : ℚ) (h : val x = .fin false m) (h1 : (v - e) * unit ≤ m) (h2 : (m : ℚ) ≤ (v + e) * unit) :
    ∃ i, Is x i ∧ |i - v| ≤ e := by
  refine ⟨_, ⟨m, h, rfl⟩, ?_⟩
  rw [abs_le]
  have hu := unit_pos
  constructor
  · have : v - e ≤ (m : ℚ) / unit := by rw [le_div_iff₀ hu]; exact h1
    linarith
  · have : (m : ℚ) / unit ≤ v + e := by rw [div_le_iff₀ hu]; exact h2
    linarith

/-- The constants of the code. -/
theorem inv31 : ∃ i, Is (divFin one (lit 31)) i ∧ |i - 1 / 31| ≤ 1 / 2 ^ 28 :=
  close_of (m := 1082401 * 2 ^ 124) _ _ (by decide +kernel) (by unfold unit; norm_num) (by unfold unit; norm_num)
theorem inv63 : ∃ i, Is (divFin one (lit 63)) i ∧ |i - 1 / 63| ≤ 1 / 2 ^ 29 :=
  close_of (m := 8521761 * 2 ^ 120) _ _ (by decide +kernel) (by unfold unit; norm_num) (by unfold unit; norm_num)
theorem thirds2 : ∃ i, Is twoThirds i ∧ |i - 2 / 3| ≤ 1 / 2 ^ 24 :=
  close_of (m := 11184811 * 2 ^ 125) _ _ (by decide +kernel) (by unfold unit; norm_num) (by unfold unit; norm_num)
theorem thirds1 : ∃ i, Is oneThird i ∧ |i - 1 / 3| ≤ 1 / 2 ^ 24 :=
  close_of (m := 11184811 * 2 ^ 124) _ _ (by decide +kernel) (by unfold unit; norm_num) (by unfold unit; norm_num)
theorem is255 : Is (lit 255) 255 := is_of (m := 255 * 2 ^ 149) (by decide +kernel) (by unfold unit; norm_num)
theorem is127 : Is (lit 127) 127 := is_of (m := 127 * 2 ^ 149) (by decide +kernel) (by unfold unit; norm_num)

theorem int_val : ∀ a : Fin 64, val (ofInt32 (BitVec.ofNat 32 a.val)) = .fin false (a.val * 2 ^ 149) := by decide +kernel

/-- A channel is its field over the largest field value, up to rounding. -/
theorem channel_close (M a : Nat) (hM : M = 31 ∨ M = 63) (ha : a ≤ M) :
    ∃ r, Is (channel M a) r ∧ |r - (a : ℚ) / M| ≤ 1 / 2 ^ 21 := by
  have hx : Is (ofInt32 (BitVec.ofNat 32 a)) a :=
    is_of (int_val ⟨a, by omega⟩) (by unfold unit; push_cast; rfl)
  have a0 : (0 : ℚ) ≤ a := by positivity
  rcases hM with rfl | rfl
  · obtain ⟨i, hi, he⟩ := inv31
    have ha' : (a : ℚ) ≤ 31 := by exact_mod_cast ha
    obtain ⟨r, hr, hc⟩ := mul_close (1 / 2 ^ 21) hx hi (by simp : |(a : ℚ) - a| ≤ 0) he a0 (by norm_num) ha' (le_refl _)
      (by norm_num) (by norm_num)
    refine ⟨r, hr, ?_⟩
    rw [mul_one_div] at hc
    exact hc
  · obtain ⟨i, hi, he⟩ := inv63
    have ha' : (a : ℚ) ≤ 63 := by exact_mod_cast ha
    obtain ⟨r, hr, hc⟩ := mul_close (1 / 2 ^ 21) hx hi (by simp : |(a : ℚ) - a| ≤ 0) he a0 (by norm_num) ha' (le_refl _)
      (by norm_num) (by norm_num)
    refine ⟨r, hr, ?_⟩
    rw [mul_one_div] at hc
    exact hc

theorem frac01 (M a : Nat) (hM : M = 31 ∨ M = 63) (ha : a ≤ M) : (0 : ℚ) ≤ (a : ℚ) / M ∧ (a : ℚ) / M ≤ 1 := by
  have hM0 : (0 : ℚ) < M := by rcases hM with rfl | rfl <;> norm_num
  refine ⟨by positivity, ?_⟩
  rw [div_le_one hM0]; exact_mod_cast ha

/-- From a value near `n / d` to its 8 bit number. -/
theorem eight_of {x : F32} {r : ℚ} (n d : Nat) (hd : 0 < d) (hd' : d ≤ 200) (hr : Is x r) (hc : |r - (n : ℚ) / d| ≤ 1 / 1000)
    (hn : n ≤ 255 * d) : ∃ v : Byte, toUInt8 x = some v ∧ Eight v n d := by
  have hdq : (0 : ℚ) < d := by exact_mod_cast hd
  have hc' := abs_le.1 hc
  have hmax : (n : ℚ) / d ≤ 255 := by rw [div_le_iff₀ hdq]; exact_mod_cast hn
  obtain ⟨v, hv, h1, h2⟩ := toUInt8_is hr (by linarith)
  refine ⟨v, hv, ?_, ?_⟩
  · have h3 : (v.toNat : ℚ) - 1 / 1000 ≤ n / d := by linarith
    rw [le_div_iff₀ hdq] at h3
    have h4 : ((d * v.toNat : Nat) : ℚ) < ((n + 1 : Nat) : ℚ) := by
      push_cast
      have : (d : ℚ) ≤ 200 := by exact_mod_cast hd'
      nlinarith
    have h5 : d * v.toNat < n + 1 := by exact_mod_cast h4
    omega
  · have h3 : (n : ℚ) / d ≤ v.toNat + 1 + 1 / 1000 := by linarith
    rw [div_le_iff₀ hdq] at h3
    have h4 : (n : ℚ) < ((d * (v.toNat + 1) + 1 : Nat) : ℚ) := by
      push_cast
      have : (d : ℚ) ≤ 200 := by exact_mod_cast hd'
      nlinarith
    have h5 : n < d * (v.toNat + 1) + 1 := by exact_mod_cast h4
    omega

/-- The third and fourth colour: two thirds of one end and one third of the other. -/
theorem third_close {t u : F32} {i j τ υ : ℚ} (ht : Is t i) (hu : Is u j) (hi : |i - τ| ≤ 1 / 2 ^ 24) (hj : |j - υ| ≤ 1 / 2 ^ 24)
    (hτ : 0 ≤ τ) (hυ : 0 ≤ υ) (hs : τ + υ = 1) (M a b : Nat) (hM : M = 31 ∨ M = 63) (ha : a ≤ M) (hb : b ≤ M) :
    ∃ r, Is (mul (add (mul (channel M a) t) (mul (channel M b) u)) (lit 255)) r ∧
      |r - ((a : ℚ) / M * τ + (b : ℚ) / M * υ) * 255| ≤ 1 / 1000 := by
  obtain ⟨x, hx, ex⟩ := channel_close M a hM ha
  obtain ⟨y, hy, ey⟩ := channel_close M b hM hb
  obtain ⟨a0, a1⟩ := frac01 M a hM ha
  obtain ⟨b0, b1⟩ := frac01 M b hM hb
  generalize (a : ℚ) / M = α at *
  generalize (b : ℚ) / M = β at *
  obtain ⟨p, hp, ep⟩ := mul_close (Cb := 1) (1 / 2 ^ 20) hx ht ex hi a0 hτ a1 (by linarith) (by norm_num) (by norm_num)
  obtain ⟨q, hq, eq⟩ := mul_close (Cb := 1) (1 / 2 ^ 20) hy hu ey hj b0 hυ b1 (by linarith) (by norm_num) (by norm_num)
  have hsum : α * τ + β * υ ≤ 1 := by nlinarith
  obtain ⟨s, hs', es⟩ := add_close (C := 1) (1 / 2 ^ 18) hp hq ep eq hsum (by norm_num) (by norm_num)
  have hs0 : 0 ≤ α * τ + β * υ := by positivity
  exact mul_close (1 / 1000) hs' is255 es (by simp : |(255 : ℚ) - 255| ≤ 0) hs0 (by norm_num) hsum (le_refl _) (by norm_num)
    (by norm_num)

theorem half_close (M a b : Nat) (hM : M = 31 ∨ M = 63) (ha : a ≤ M) (hb : b ≤ M) :
    ∃ r, Is (mul (add (channel M a) (channel M b)) (lit 127)) r ∧ |r - ((a : ℚ) / M + (b : ℚ) / M) * 127| ≤ 1 / 1000 := by
  obtain ⟨x, hx, ex⟩ := channel_close M a hM ha
  obtain ⟨y, hy, ey⟩ := channel_close M b hM hb
  obtain ⟨a0, a1⟩ := frac01 M a hM ha
  obtain ⟨b0, b1⟩ := frac01 M b hM hb
  generalize (a : ℚ) / M = α at *
  generalize (b : ℚ) / M = β at *
  have hsum : α + β ≤ 2 := by linarith
  obtain ⟨s, hs', es⟩ := add_close (C := 2) (1 / 2 ^ 18) hx hy ex ey hsum (by norm_num) (by norm_num)
  exact mul_close (1 / 1000) hs' is127 es (by simp : |(127 : ℚ) - 127| ≤ 0) (by linarith) (by norm_num) hsum (le_refl _)
    (by norm_num) (by norm_num)

/-- The end colours, every field value: exactly the scaled value cut off. -/
theorem ends31 : ∀ a : Fin 32, toUInt8 (mul (channel 31 a.val) (lit 255)) = some (BitVec.ofNat 8 (255 * a.val / 31)) := by
  decide +kernel
theorem ends63 : ∀ a : Fin 64, toUInt8 (mul (channel 63 a.val) (lit 255)) = some (BitVec.ofNat 8 (255 * a.val / 63)) := by
  decide +kernel

/-- Exact value of an end colour. -/
theorem ends (M a : Nat) (hM : M = 31 ∨ M = 63) (ha : a ≤ M) :
    toUInt8 (mul (channel M a) (lit 255)) = some (BitVec.ofNat 8 (255 * a / M)) := by
  rcases hM with rfl | rfl
  · exact ends31 ⟨a, by omega⟩
  · exact ends63 ⟨a, by omega⟩

/-! ## Specification -/

/-- The 8 bit number of a field of an end colour: the fraction of the largest field value, scaled to 255 and cut off. -/
def scaled (M a : Nat) : Byte := BitVec.ofNat 8 (255 * a / M)

/-- What a channel of colour `i` of a four colour block should be: the ends, then one third and two thirds of the way from the
first to the second. -/
def Four (M a b : Nat) (i : Nat) (v : Byte) : Prop :=
  match i with
  | 0 => v = scaled M a
  | 1 => v = scaled M b
  | 2 => Eight v (255 * (2 * a + b)) (3 * M)
  | _ => Eight v (255 * (a + 2 * b)) (3 * M)

/-- What the code makes of the third colour of a three colour block: 127/255 of the sum instead of half of it. -/
def Three (M a b : Nat) (i : Nat) (v : Byte) : Prop :=
  match i with
  | 0 => v = scaled M a
  | 1 => v = scaled M b
  | _ => Eight v (127 * (a + b)) M

theorem mix4_zero (a b : F32) : mix4 a b 0 = mul a (lit 255) := by rw [mix4]
theorem mix4_one (a b : F32) : mix4 a b 1 = mul b (lit 255) := by rw [mix4]
theorem mix4_two (a b : F32) : mix4 a b 2 = mul (add (mul a twoThirds) (mul b oneThird)) (lit 255) := by rw [mix4]
theorem mix4_more (a b : F32) (n : Nat) : mix4 a b (n + 3) = mul (add (mul a oneThird) (mul b twoThirds)) (lit 255) := by
  rw [mix4] <;> omega
theorem mix3_zero (a b : F32) : mix3 a b 0 = mul a (lit 255) := by rw [mix3]
theorem mix3_one (a b : F32) : mix3 a b 1 = mul b (lit 255) := by rw [mix3]
theorem mix3_more (a b : F32) (n : Nat) : mix3 a b (n + 2) = mul (add a b) (lit 127) := by rw [mix3] <;> omega

theorem mix4_ok (M a b i : Nat) (hM : M = 31 ∨ M = 63) (ha : a ≤ M) (hb : b ≤ M) :
    ∃ v, toUInt8 (mix4 (channel M a) (channel M b) i) = some v ∧ Four M a b i v := by
  have hM0 : (M : ℚ) ≠ 0 := by rcases hM with rfl | rfl <;> norm_num
  have hM1 : 0 < M ∧ M ≤ 63 := by omega
  obtain ⟨x, hx, ex⟩ := thirds2
  obtain ⟨y, hy, ey⟩ := thirds1
  match i with
  | 0 => rw [mix4_zero]; exact ⟨_, ends M a hM ha, rfl⟩
  | 1 => rw [mix4_one]; exact ⟨_, ends M b hM hb, rfl⟩
  | 2 =>
    rw [mix4_two]
    obtain ⟨r, hr, hc⟩ := third_close hx hy ex ey (by norm_num) (by norm_num) (by norm_num) M a b hM ha hb
    refine eight_of (255 * (2 * a + b)) (3 * M) (by omega) (by omega) hr ?_ (by rw [show 255 * (3 * M) = 255 * (2 * M + M) by omega]; apply Nat.mul_le_mul_left; omega)
    have : ((255 * (2 * a + b) : Nat) : ℚ) / ((3 * M : Nat) : ℚ) = ((a : ℚ) / M * (2 / 3) + (b : ℚ) / M * (1 / 3)) * 255 := by
      push_cast; field_simp
    rw [this]; exact hc
  | n + 3 =>
    rw [mix4_more]
    obtain ⟨r, hr, hc⟩ := third_close hy hx ey ex (by norm_num) (by norm_num) (by norm_num) M a b hM ha hb
    refine eight_of (255 * (a + 2 * b)) (3 * M) (by omega) (by omega) hr ?_ (by rw [show 255 * (3 * M) = 255 * (M + 2 * M) by omega]; apply Nat.mul_le_mul_left; omega)
    have : ((255 * (a + 2 * b) : Nat) : ℚ) / ((3 * M : Nat) : ℚ) = ((a : ℚ) / M * (1 / 3) + (b : ℚ) / M * (2 / 3)) * 255 := by
      push_cast; field_simp
    rw [this]; exact hc

theorem mix3_ok (M a b i : Nat) (hM : M = 31 ∨ M = 63) (ha : a ≤ M) (hb : b ≤ M) :
    ∃ v, toUInt8 (mix3 (channel M a) (channel M b) i) = some v ∧ Three M a b i v := by
  have hM0 : (M : ℚ) ≠ 0 := by rcases hM with rfl | rfl <;> norm_num
  match i with
  | 0 => rw [mix3_zero]; exact ⟨_, ends M a hM ha, rfl⟩
  | 1 => rw [mix3_one]; exact ⟨_, ends M b hM hb, rfl⟩
  | n + 2 =>
    rw [mix3_more]
    obtain ⟨r, hr, hc⟩ := half_close M a b hM ha hb
    refine eight_of (127 * (a + b)) M (by omega) (by omega) hr ?_ (by omega)
    have : ((127 * (a + b) : Nat) : ℚ) / (M : ℚ) = ((a : ℚ) / M + (b : ℚ) / M) * 127 := by
      push_cast; field_simp
    rw [this]; exact hc

/-- The largest value of the three fields, as in the format: 5 bits, 6 bits, 5 bits. -/
def depth : Nat → Nat
  | 1 => 63
  | _ => 31

/-- Field `j` (blue, green, red) of a 16 bit colour, little endian in two bytes: bits 0-4, 5-10, 11-15. -/
def field565 (lo hi : Byte) (j : Nat) : Nat :=
  let c := lo.toNat + 256 * hi.toNat
  match j with
  | 0 => c % 2 ^ 5
  | 1 => c / 2 ^ 5 % 2 ^ 6
  | _ => c / 2 ^ 11 % 2 ^ 5

theorem field565_le (lo hi : Byte) (j : Nat) : field565 lo hi j ≤ depth j := by
  have := lo.isLt; have := hi.isLt
  match j with
  | 0 => simp only [field565, depth]; omega
  | 1 => simp only [field565, depth]; omega
  | n + 2 => simp only [field565, depth]; omega

theorem depth_or (j : Nat) : depth j = 31 ∨ depth j = 63 := by
  match j with
  | 0 => exact .inl rfl
  | 1 => exact .inr rfl
  | n + 2 => exact .inl rfl

theorem fields_eq (lo hi : Byte) : fields lo hi = [field565 lo hi 0, field565 lo hi 1, field565 lo hi 2] := by
  have := lo.isLt; have := hi.isLt
  simp only [fields, field565, List.cons.injEq, and_true]
  refine ⟨?_, ?_, ?_⟩ <;> omega

theorem entry_ok (mix : F32 → F32 → Nat → F32) (P : Nat → Nat → Nat → Nat → Byte → Prop)
    (hmix : ∀ M a b i : Nat, (M = 31 ∨ M = 63) → a ≤ M → b ≤ M → ∃ v, toUInt8 (mix (channel M a) (channel M b) i) = some v ∧ P M a b i v)
    (a b c d : Byte) (i : Nat) : ∃ x y z, entry mix [a, b, c, d] i = some [x, y, z] ∧
      ∀ j, j < 3 → P (depth j) (field565 a b j) (field565 c d j) i ([x, y, z].getD j 0#8) := by
  have h := fun j => hmix (depth j) (field565 a b j) (field565 c d j) i (depth_or j) (field565_le a b j) (field565_le c d j)
  obtain ⟨x, hx, px⟩ := h 0
  obtain ⟨y, hy, py⟩ := h 1
  obtain ⟨z, hz, pz⟩ := h 2
  refine ⟨x, y, z, ?_, ?_⟩
  · simp only [entry, fields_eq, fieldMax, List.zip_cons_cons, List.zip_nil_right, List.mapM_cons, List.mapM_nil]
    simp only [depth] at hx hy hz
    rw [hx, hy, hz]; rfl
  · intro j hj
    match j, hj with
    | 0, _ => exact px
    | 1, _ => exact py
    | 2, _ => exact pz

/-- No conversion of a colour to 8 bits is undefined. -/
theorem entry4_defined (a b c d : Byte) (i : Nat) : (entry mix4 [a, b, c, d] i).isSome = true ∧ (entry mix3 [a, b, c, d] i).isSome = true := by
  obtain ⟨x, y, z, h, -⟩ := entry_ok mix4 Four mix4_ok a b c d i
  obtain ⟨x', y', z', h', -⟩ := entry_ok mix3 Three mix3_ok a b c d i
  rw [h, h']; exact ⟨rfl, rfl⟩

theorem four_cases (e : List Byte) : (∃ a b c d, e = [a, b, c, d]) ∨ ∀ a b c d, e ≠ [a, b, c, d] := by
  by_cases h : ∃ a b c d, e = [a, b, c, d]
  · exact .inl h
  · exact .inr fun a b c d he => h ⟨a, b, c, d, he⟩

theorem palette4_is : Palette palette4 := by
  intro e i
  rcases four_cases e with ⟨a, b, c, d, rfl⟩ | h
  · obtain ⟨x, y, z, h, -⟩ := entry_ok mix4 Four mix4_ok a b c d i
    unfold palette4; rw [h]; rfl
  · unfold palette4 entry
    split
    · exact absurd rfl (h _ _ _ _)
    · rfl

theorem paletteA_is : Palette paletteA := by
  intro e i
  rcases four_cases e with ⟨a, b, c, d, rfl⟩ | h
  · obtain ⟨x, y, z, h, -⟩ := entry_ok mix4 Four mix4_ok a b c d i
    obtain ⟨x', y', z', h', -⟩ := entry_ok mix3 Three mix3_ok a b c d i
    unfold paletteA; simp only; rw [h, h']; split <;> rfl
  · unfold paletteA
    split
    · exact absurd rfl (h _ _ _ _)
    · rfl

/-- Channel `j` of texel `k` of the colour block at byte `p`, in terms of the two end colours at `p` and the index bits after them. -/
def FourColoured (data : Nat → Byte) (p k j : Nat) (v : Byte) : Prop :=
  Four (depth j) (field565 (data p) (data (p + 1)) j) (field565 (data (p + 2)) (data (p + 3)) j) (fieldAt data (8 * (p + 4) + 2 * k) 2) v

theorem palette4_texel (data : Nat → Byte) (p k j : Nat) (hj : j < 3) :
    FourColoured data p k j ((colourTexel palette4 data p k).getD j 0#8) := by
  obtain ⟨x, y, z, h, hp⟩ := entry_ok mix4 Four mix4_ok (data p) (data (p + 1)) (data (p + 2)) (data (p + 3)) (fieldAt data (8 * (p + 4) + 2 * k) 2)
  unfold colourTexel palette4
  rw [h]
  exact hp j hj

/-- C76, BC1: every channel of every texel of a decoded block is the colour its index bits select, interpolated from the two end
colours of the block; no other byte changes. -/
theorem bc1_colours (data : Nat → Byte) (o : Nat) (w h width : BitVec 32) (H : Nat) (hi : Inside w h width H 3) (buf : Buf) :
    (∀ k, k < 16 → ∀ j, j < 3 → FourColoured data 0 k j (decodeBC1 palette4 data o w h width buf (o + texelAddr w.toNat h.toNat width.toNat 3 k + j))) ∧
    (∀ a, (∀ k, k < 16 → ∀ j, j < 3 → a ≠ o + texelAddr w.toNat h.toNat width.toNat 3 k + j) → decodeBC1 palette4 data o w h width buf a = buf a) := by
  obtain ⟨h1, h2⟩ := bc1_decodes palette4 palette4_is data o w h width H hi buf
  refine ⟨fun k hk j hj => ?_, h2⟩
  rw [h1 k hk j hj]
  exact palette4_texel data 0 k j hj

/-- C76, BC2. -/
theorem bc2_colours (data : Nat → Byte) (o : Nat) (w h width : BitVec 32) (H : Nat) (hi : Inside w h width H 4) (buf : Buf) (k : Nat) (hk : k < 16)
    (j : Nat) (hj : j < 3) :
    FourColoured data 8 k j (decodeBC2 palette4 data o w h width buf (o + texelAddr w.toNat h.toNat width.toNat 4 k + j)) := by
  rw [((bc2_decodes palette4 palette4_is data o w h width H hi buf).1 k hk).2 j hj]
  exact palette4_texel data 8 k j hj

/-- C76, BC3. -/
theorem bc3_colours (data : Nat → Byte) (o : Nat) (w h width : BitVec 32) (H : Nat) (hi : Inside w h width H 4) (buf : Buf) (k : Nat) (hk : k < 16)
    (j : Nat) (hj : j < 3) :
    FourColoured data 8 k j (decodeBC3 palette4 data o w h width buf (o + texelAddr w.toNat h.toNat width.toNat 4 k + j)) := by
  rw [((bc3_decodes palette4 palette4_is data o w h width H hi buf).1 k hk).2 j hj]
  exact palette4_texel data 8 k j hj

/-- C76, BC1 with transparency: the third colour is 127/255 of the sum of the ends. -/
theorem bc1A_colours_partial (data : Nat → Byte) (hcut : fourColours data = false) (o : Nat) (w h width : BitVec 32) (H : Nat) (hi : Inside w h width H 4)
    (buf : Buf) (k : Nat) (hk : k < 16) (j : Nat) (hj : j < 3) :
    Three (depth j) (field565 (data 0) (data 1) j) (field565 (data 2) (data 3) j) (fieldAt data (32 + 2 * k) 2)
      (decodeBC1A paletteA data o w h width buf (o + texelAddr w.toNat h.toNat width.toNat 4 k + j)) := by
  rw [((bc1A_decodes_partial paletteA paletteA_is data hcut o w h width H hi buf).1 k hk).2 j hj]
  obtain ⟨x, y, z, h, hp⟩ := entry_ok mix3 Three mix3_ok (data 0) (data 1) (data 2) (data 3) (fieldAt data (32 + 2 * k) 2)
  have hn : ¬ ((data 2).toNat + 256 * (data 3).toNat < (data 0).toNat + 256 * (data 1).toNat) := by
    simpa [fourColours] using hcut
  unfold colourTexel paletteA
  simp only [Nat.zero_add, if_neg hn]
  rw [h]
  exact hp j hj

/-- The middle of white and white is not white in a three colour block: 254 instead of 255. -/
theorem midpoint_violated : ∃ data : Nat → Byte, fourColours data = false ∧ (∀ j, j < 3 → field565 (data 0) (data 1) j = depth j ∧ field565 (data 2) (data 3) j = depth j) ∧
    decodeBC1A paletteA data 0 0 0 1 (fun _ => 0#8) 0 = 254#8 := by
  refine ⟨fun i => if i = 4 then 2#8 else if i < 4 then 255#8 else 0#8, by decide +kernel, by decide +kernel, by decide +kernel⟩

/-- The colour one third of the way is not always the scaled value cut off: where that is a whole number, rounding can lose one. -/
theorem third_cut_violated : ∃ a b : Nat, a ≤ 31 ∧ b ≤ 31 ∧ 255 * (2 * a + b) = 85 * (3 * 31) ∧
    toUInt8 (mix4 (channel 31 a) (channel 31 b) 2) = some 84#8 := ⟨3, 25, by decide, by decide, by decide, by decide +kernel⟩

/-- A block with a red and a blue end, the texel with index 2. -/
example : Inside 1 0 2 1 3 ∧ decodeBC1 palette4 (fun i => if i = 1 then 0xf8#8 else if i = 2 then 0x1f#8 else if i = 4 then 2#8 else 0#8) 0 1 0 2 (fun _ => 0#8)
    (texelAddr 1 0 2 3 0 + 2) = 170#8 := ⟨⟨by decide, by decide, by decide⟩, by decide +kernel⟩

end PreCore.Block
