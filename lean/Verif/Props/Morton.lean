import Verif.Model.Morton
/-!
# C34: swizzled texture addresses

The specification interleaves the bits of the two coordinates: below twice the number of common bits, even address bits
come from `x` and odd ones from `y`; the rest of the longer coordinate follows.
-/
namespace PreCore.Morton

theorem commonMasks_spec (m : Nat) (hm : m ≤ 14) : ∀ (fuel b : Nat) (s : Settings), 4 ≤ b → m ≤ fuel + b →
    ∃ s', commonMasks m fuel b s = some s' ∧
      (∀ j, s'.xmask j = if b ≤ j + 4 ∧ j + 4 < m then 1#64 <<< (j + 4) else s.xmask j) ∧
      (∀ j, s'.ymask j = if b ≤ j + 4 ∧ j + 4 < m then 1#64 <<< (j + 4) else s.ymask j) := by
  intro fuel
  induction fuel with
  | zero =>
    intro b s hb hf
    refine ⟨s, rfl, ?_, ?_⟩ <;> intro j <;> rw [if_neg (by omega)]
  | succ f ih =>
    intro b s hb hf
    unfold commonMasks
    by_cases hlt : b < m
    · have h10 : b - 4 < 10 := by omega
      simp only [hlt, if_true, maskIndex, hb, setMask, h10, Option.bind_eq_bind, Option.bind_some]
      obtain ⟨s', h1, h2, h3⟩ := ih (b + 1) { s with xmask := fun j => if j = b - 4 then 1#64 <<< b else s.xmask j, ymask := fun j => if j = b - 4 then 1#64 <<< b else s.ymask j } (by omega) (by omega)
      refine ⟨s', h1, ?_, ?_⟩ <;> intro j
      · rw [h2]; simp only
        by_cases hj : j = b - 4
        · subst hj
          rw [if_neg (by omega), if_pos rfl, if_pos (by omega), show b - 4 + 4 = b by omega]
        · by_cases hc : b ≤ j + 4 ∧ j + 4 < m
          · rw [if_pos (by omega), if_pos hc]
          · rw [if_neg (by omega), if_neg hc, if_neg hj]
      · rw [h3]; simp only
        by_cases hj : j = b - 4
        · subst hj
          rw [if_neg (by omega), if_pos rfl, if_pos (by omega), show b - 4 + 4 = b by omega]
        · by_cases hc : b ≤ j + 4 ∧ j + 4 < m
          · rw [if_pos (by omega), if_pos hc]
          · rw [if_neg (by omega), if_neg hc, if_neg hj]
    · simp only [hlt, if_false]
      refine ⟨s, rfl, ?_, ?_⟩ <;> intro j <;> rw [if_neg (by omega)]

/-- The sizes the code supports: squares up to 2^14, and rectangles whose shorter side is between 2^4 and 2^13. -/
def Supported (a b : Nat) : Prop :=
  (a = b ∧ a ≤ 14) ∨ (a ≠ b ∧ 4 ≤ min a b ∧ min a b ≤ 13)

theorem log2_size (a : Nat) (h : a < 64) : Nat.log2 (BitVec.ofNat 64 (2 ^ a)).toNat = a := by
  rw [BitVec.toNat_ofNat, Nat.mod_eq_of_lt (a := 2 ^ a) (Nat.pow_lt_pow_right (by decide) h), Nat.log2_two_pow]

theorem size_sub_one (a : Nat) (h : a < 64) (i : Nat) : (BitVec.ofNat 64 (2 ^ a) - 1#64).getLsbD i = decide (i < a) := by
  have h1 : BitVec.ofNat 64 (2 ^ a) - 1#64 = BitVec.ofNat 64 (2 ^ a - 1) := by
    apply BitVec.eq_of_toNat_eq
    have hp : 2 ^ a < 2 ^ 64 := Nat.pow_lt_pow_right (by decide) h
    have h0 : 0 < 2 ^ a := Nat.two_pow_pos a
    simp only [BitVec.toNat_sub, BitVec.toNat_ofNat]
    omega
  rw [h1, BitVec.getLsbD_ofNat, Nat.testBit_two_pow_sub_one]
  by_cases hi : i < a
  · simp [hi, show i < 64 by omega]
  · simp [hi]

/-- The masks of the constructor, bit by bit. -/
theorem settings_spec (a b : Nat) (ha : a < 64) (hb : b < 64) (h : Supported a b) :
    ∃ s, settings (BitVec.ofNat 64 (2 ^ a)) (BitVec.ofNat 64 (2 ^ b)) = some s ∧
      (∀ j, j < 10 → ∀ i, (s.xmask j).getLsbD i =
        ((decide (i = j + 4) && decide (j + 4 < min a b)) || (decide (j + 4 = b) && decide (b ≤ i) && decide (i < a)))) ∧
      (∀ j, j < 10 → ∀ i, (s.ymask j).getLsbD i =
        ((decide (i = j + 4) && decide (j + 4 < min a b)) || (decide (j + 4 = a) && decide (a ≤ i) && decide (i < b)))) := by
  unfold settings
  simp only [log2_size a ha, log2_size b hb]
  have hmin : (if a > b then b else a) = min a b := by split <;> omega
  rw [hmin]
  have hm : min a b ≤ 14 := by rcases h with ⟨rfl, h⟩ | ⟨_, _, h⟩ <;> omega
  obtain ⟨s, h1, h2, h3⟩ := commonMasks_spec (min a b) hm 64 4 ⟨BitVec.ofNat 64 (2 ^ a), BitVec.ofNat 64 (2 ^ b), fun _ => 0#64, fun _ => 0#64⟩ (by omega) (by omega)
  rw [h1]
  simp only [Option.bind_eq_bind, Option.bind_some]
  have hone : ∀ n i, n < 64 → (1#64 <<< n).getLsbD i = decide (i = n) := by
    intro n i hn
    simp only [BitVec.getLsbD_shiftLeft, BitVec.getLsbD_one]
    by_cases hi : i = n
    · subst hi; simp [hn]
    · by_cases hl : i < n
      · simp [hl, hi]
      · have : ¬ i - n = 0 := by omega
        simp [hi, this]
  have hx : ∀ j, j < 10 → ∀ i, (s.xmask j).getLsbD i = (decide (i = j + 4) && decide (j + 4 < min a b)) := by
    intro j hj i
    rw [h2]
    by_cases hc : j + 4 < min a b
    · rw [if_pos ⟨by omega, hc⟩, hone _ _ (by omega)]; simp [hc]
    · rw [if_neg (by omega)]; simp [hc]
  have hy : ∀ j, j < 10 → ∀ i, (s.ymask j).getLsbD i = (decide (i = j + 4) && decide (j + 4 < min a b)) := by
    intro j hj i
    rw [h3]
    by_cases hc : j + 4 < min a b
    · rw [if_pos ⟨by omega, hc⟩, hone _ _ (by omega)]; simp [hc]
    · rw [if_neg (by omega)]; simp [hc]
  have hmask : ∀ i, ((BitVec.ofNat 64 (2 ^ b) - 1#64) ^^^ (BitVec.ofNat 64 (2 ^ a) - 1#64)).getLsbD i =
      (decide (i < b) ^^ decide (i < a)) := by
    intro i
    rw [BitVec.getLsbD_xor, size_sub_one a ha, size_sub_one b hb]
  by_cases hab : a = b
  · subst hab
    simp only [ne_eq, not_true, if_false]
    refine ⟨s, rfl, ?_, ?_⟩ <;> intro j hj i
    · rw [hx j hj]
      have : (decide (j + 4 = a) && decide (a ≤ i) && decide (i < a)) = false := by
        by_cases h : a ≤ i
        · simp [show ¬ i < a by omega]
        · simp [h]
      rw [this, Bool.or_false]
    · rw [hy j hj]
      have : (decide (j + 4 = a) && decide (a ≤ i) && decide (i < a)) = false := by
        by_cases h : a ≤ i
        · simp [show ¬ i < a by omega]
        · simp [h]
      rw [this, Bool.or_false]
  · simp only [ne_eq, hab, not_false_eq_true, if_true]
    obtain ⟨h4, h13⟩ : 4 ≤ min a b ∧ min a b ≤ 13 := by rcases h with ⟨h, _⟩ | ⟨_, h⟩; exact absurd h hab; exact h
    by_cases hgt : a > b
    · have h10 : b - 4 < 10 := by omega
      have hb4 : 4 ≤ b := by omega
      simp only [hgt, if_true, maskIndex, hb4, setMask, h10, Option.bind_some]
      refine ⟨_, rfl, ?_, ?_⟩ <;> intro j hj i
      · by_cases hjb : j = b - 4
        · have e : (decide (i = j + 4) && decide (j + 4 < min a b)) = false := by
            rw [show decide (j + 4 < min a b) = false by simp; omega]; simp
          simp only [hjb, if_true, hmask, show b - 4 + 4 = b by omega]
          rw [hjb, show b - 4 + 4 = b by omega] at e
          rw [e]
          by_cases h1 : i < b
          · simp [h1, show i < a by omega, show ¬ b ≤ i by omega]
          · simp [h1, show b ≤ i by omega]
        · simp only [hjb, if_false, hx j hj]
          simp [show ¬ j + 4 = b by omega]
      · rw [hy j hj]
        by_cases h1 : a ≤ i
        · simp [show ¬ i < b by omega]
        · simp [h1]
    · have h10 : a - 4 < 10 := by omega
      have hb4 : 4 ≤ a := by omega
      simp only [hgt, if_false, maskIndex, hb4, if_true, setMask, h10, Option.bind_some]
      refine ⟨_, rfl, ?_, ?_⟩ <;> intro j hj i
      · rw [hx j hj]
        by_cases h1 : b ≤ i
        · simp [show ¬ i < a by omega]
        · simp [h1]
      · by_cases hjb : j = a - 4
        · have e : (decide (i = j + 4) && decide (j + 4 < min a b)) = false := by
            rw [show decide (j + 4 < min a b) = false by simp; omega]; simp
          simp only [hjb, if_true, hmask, show a - 4 + 4 = a by omega]
          rw [hjb, show a - 4 + 4 = a by omega] at e
          rw [e]
          by_cases h1 : i < a
          · simp [h1, show i < b by omega, show ¬ a ≤ i by omega]
          · simp [h1, show a ≤ i by omega]
        · simp only [hjb, if_false, hy j hj]
          simp [show ¬ j + 4 = a by omega]

/-- All fourteen masks of a coordinate: four constants, then the ten of the settings. -/
def full (f : Nat → Sz) (j : Nat) : Sz := if j < 4 then 1#64 <<< j else f (j - 4)

/-- The address without the gates: the union of all the shifted pieces. -/
theorem addr_pieces (x y : Sz) (s : Settings)
    (g4 : s.xmask 4 = 0#64 → s.ymask 4 = 0#64 → ∀ j, 4 < j → j < 10 → s.xmask j = 0#64 ∧ s.ymask j = 0#64)
    (g7 : s.xmask 7 = 0#64 → s.ymask 7 = 0#64 → ∀ j, 7 < j → j < 10 → s.xmask j = 0#64 ∧ s.ymask j = 0#64) (k : Nat) :
    (mortonAddr x y s).getLsbD k = true ↔ k < 64 ∧
      ∃ j, j < 14 ∧ ((j ≤ k ∧ x.getLsbD (k - j) = true ∧ (full s.xmask j).getLsbD (k - j) = true) ∨
        (j + 1 ≤ k ∧ y.getLsbD (k - (j + 1)) = true ∧ (full s.ymask j).getLsbD (k - (j + 1)) = true)) := by
  have hsplit : ∀ P : Nat → Prop, (∃ j, j < 14 ∧ P j) ↔ P 0 ∨ P 1 ∨ P 2 ∨ P 3 ∨ P 4 ∨ P 5 ∨ P 6 ∨ P 7 ∨ P 8 ∨ P 9 ∨ P 10 ∨ P 11 ∨ P 12 ∨ P 13 := by
    intro P
    constructor
    · rintro ⟨j, hj, h⟩
      have : j = 0 ∨ j = 1 ∨ j = 2 ∨ j = 3 ∨ j = 4 ∨ j = 5 ∨ j = 6 ∨ j = 7 ∨ j = 8 ∨ j = 9 ∨ j = 10 ∨ j = 11 ∨ j = 12 ∨ j = 13 := by omega
      rcases this with rfl | rfl | rfl | rfl | rfl | rfl | rfl | rfl | rfl | rfl | rfl | rfl | rfl | rfl <;> simp [h]
    · rintro (h | h | h | h | h | h | h | h | h | h | h | h | h | h) <;> exact ⟨_, by omega, h⟩
  rw [hsplit]
  have hfull : ∀ f : Nat → Sz, full f 0 = 1#64 ∧ full f 1 = 2#64 ∧ full f 2 = 4#64 ∧ full f 3 = 8#64 ∧ full f 4 = f 0 ∧ full f 5 = f 1 ∧
      full f 6 = f 2 ∧ full f 7 = f 3 ∧ full f 8 = f 4 ∧ full f 9 = f 5 ∧ full f 10 = f 6 ∧ full f 11 = f 7 ∧ full f 12 = f 8 ∧ full f 13 = f 9 := by
    intro f
    refine ⟨?_, ?_, ?_, ?_, rfl, rfl, rfl, rfl, rfl, rfl, rfl, rfl, rfl, rfl⟩ <;> rfl
  have hun : (mortonAddr x y s) = 
      ((x &&& 1#64) ||| (x &&& 2#64) <<< 1 ||| (x &&& 4#64) <<< 2 ||| (x &&& 8#64) <<< 3 ||| (x &&& s.xmask 0) <<< 4 ||| (x &&& s.xmask 1) <<< 5
      ||| (x &&& s.xmask 2) <<< 6 ||| (x &&& s.xmask 3) <<< 7 ||| (y &&& 1#64) <<< 1 ||| (y &&& 2#64) <<< 2 ||| (y &&& 4#64) <<< 3 ||| (y &&& 8#64) <<< 4
      ||| (y &&& s.ymask 0) <<< 5 ||| (y &&& s.ymask 1) <<< 6 ||| (y &&& s.ymask 2) <<< 7 ||| (y &&& s.ymask 3) <<< 8) |||
      ((x &&& s.xmask 4) <<< 8 ||| (x &&& s.xmask 5) <<< 9 ||| (x &&& s.xmask 6) <<< 10 ||| (y &&& s.ymask 4) <<< 9 ||| (y &&& s.ymask 5) <<< 10
      ||| (y &&& s.ymask 6) <<< 11) ||| ((x &&& s.xmask 7) <<< 11 ||| (x &&& s.xmask 8) <<< 12 ||| (x &&& s.xmask 9) <<< 13 |||
      (y &&& s.ymask 7) <<< 12 ||| (y &&& s.ymask 8) <<< 13 ||| (y &&& s.ymask 9) <<< 14) := by
    unfold mortonAddr
    by_cases h4 : s.xmask 4 ≠ 0#64 ∨ s.ymask 4 ≠ 0#64
    · by_cases h7 : s.xmask 7 ≠ 0#64 ∨ s.ymask 7 ≠ 0#64
      · simp only [h4, h7, if_true]
      · simp only [h4, h7, if_true, if_false]
        have e1 : s.xmask 7 = 0#64 := by simpa using fun h => h7 (Or.inl h)
        have e2 : s.ymask 7 = 0#64 := by simpa using fun h => h7 (Or.inr h)
        have e := g7 e1 e2
        simp only [e1, e2, e 8 (by omega) (by omega), e 9 (by omega) (by omega), BitVec.and_zero, BitVec.zero_shiftLeft, BitVec.or_zero]
    · simp only [h4, if_false]
      have e1 : s.xmask 4 = 0#64 := by simpa using fun h => h4 (Or.inl h)
      have e2 : s.ymask 4 = 0#64 := by simpa using fun h => h4 (Or.inr h)
      have e := g4 e1 e2
      simp only [e1, e2, e 5 (by omega) (by omega), e 6 (by omega) (by omega), e 7 (by omega) (by omega), e 8 (by omega) (by omega),
        e 9 (by omega) (by omega), BitVec.and_zero, BitVec.zero_shiftLeft, BitVec.or_zero]
  rw [hun]
  obtain ⟨a0, a1, a2, a3, a4, a5, a6, a7, a8, a9, a10, a11, a12, a13⟩ := hfull s.xmask
  obtain ⟨b0, b1, b2, b3, b4, b5, b6, b7, b8, b9, b10, b11, b12, b13⟩ := hfull s.ymask
  rw [a0, a1, a2, a3, a4, a5, a6, a7, a8, a9, a10, a11, a12, a13, b0, b1, b2, b3, b4, b5, b6, b7, b8, b9, b10, b11, b12, b13]
  have hsh : ∀ (v m : Sz) (n : Nat), ((v &&& m) <<< n).getLsbD k = true ↔ k < 64 ∧ n ≤ k ∧ v.getLsbD (k - n) = true ∧ m.getLsbD (k - n) = true := by
    intro v m n
    simp only [BitVec.getLsbD_shiftLeft, BitVec.getLsbD_and, Bool.and_eq_true, decide_eq_true_eq, Bool.not_eq_true', decide_eq_false_iff_not]
    constructor
    · rintro ⟨⟨h1, h2⟩, h3⟩; exact ⟨h1, by omega, h3⟩
    · rintro ⟨h1, h2, h3⟩; exact ⟨⟨h1, by omega⟩, h3⟩
  have hsh0 : ∀ (v m : Sz), (v &&& m).getLsbD k = true ↔ k < 64 ∧ 0 ≤ k ∧ v.getLsbD (k - 0) = true ∧ m.getLsbD (k - 0) = true := by
    intro v m
    simp only [BitVec.getLsbD_and, Bool.and_eq_true, Nat.sub_zero, Nat.zero_le, true_and]
    constructor
    · intro h; exact ⟨BitVec.lt_of_getLsbD h.1, h⟩
    · exact fun h => h.2
  simp only [BitVec.getLsbD_or, Bool.or_eq_true, hsh, hsh0]
  by_cases hk : k < 64
  · simp only [hk, true_and, Nat.reduceAdd]
    constructor
    · intro h
      rcases h with ((h | h) | h)
      · rcases h with (((((((((((((((h | h) | h) | h) | h) | h) | h) | h) | h) | h) | h) | h) | h) | h) | h) | h) <;> simp only [h, true_or, or_true, and_self]
      · rcases h with (((((h | h) | h) | h) | h) | h) <;> simp only [h, true_or, or_true, and_self]
      · rcases h with (((((h | h) | h) | h) | h) | h) <;> simp only [h, true_or, or_true, and_self]
    · rintro (h | h | h | h | h | h | h | h | h | h | h | h | h | h) <;> rcases h with h | h <;> simp only [h, true_or, or_true, and_self]
  · simp [hk]

/-- The specification: which coordinate bit is address bit `k`, for coordinates of `a` and `b` bits. `rest` is the
position where the remaining bits of the longer coordinate start. -/
def specBit (a b : Nat) (x y : Sz) (k : Nat) : Bool :=
  if k < 2 * min a b then (if k % 2 = 0 then x.getLsbD (k / 2) else y.getLsbD (k / 2))
  else if b ≤ a then x.getLsbD (k - b)
  else decide (2 * a < k) && y.getLsbD (k - a - 1)

theorem addr_bits (a b : Nat) (ha : a < 64) (hb : b < 64) (h : Supported a b) (hab : a + b < 64) (s : Settings)
    (hs : settings (BitVec.ofNat 64 (2 ^ a)) (BitVec.ofNat 64 (2 ^ b)) = some s)
    (x y : Sz) (hx : x.toNat < 2 ^ a) (hy : y.toNat < 2 ^ b) (k : Nat) :
    (mortonAddr x y s).getLsbD k = specBit a b x y k := by
  obtain ⟨s', hs', hX, hY⟩ := settings_spec a b ha hb h
  obtain rfl : s' = s := by rw [hs] at hs'; exact (Option.some.inj hs').symm
  have hxb : ∀ i, x.getLsbD i = true → i < a := by
    intro i hi
    apply Nat.lt_of_not_le; intro hge
    rw [BitVec.getLsbD, Nat.testBit_lt_two_pow (Nat.lt_of_lt_of_le hx (Nat.pow_le_pow_right (by decide) hge))] at hi
    cases hi
  have hyb : ∀ i, y.getLsbD i = true → i < b := by
    intro i hi
    apply Nat.lt_of_not_le; intro hge
    rw [BitVec.getLsbD, Nat.testBit_lt_two_pow (Nat.lt_of_lt_of_le hy (Nat.pow_le_pow_right (by decide) hge))] at hi
    cases hi
  have zero_of : ∀ v : Sz, (∀ i, v.getLsbD i = false) → v = 0#64 := by
    intro v hv
    apply BitVec.eq_of_getLsbD_eq
    intro i _
    rw [hv]; simp
  have bad : ∀ v : Sz, v = 0#64 → ∀ i, v.getLsbD i = false := by rintro v rfl i; simp
  have gate : ∀ g, g < 10 → s'.xmask g = 0#64 → s'.ymask g = 0#64 → ∀ j, g < j → j < 10 → s'.xmask j = 0#64 ∧ s'.ymask j = 0#64 := by
    intro g hg e1 e2 j hj hj10
    have e1 := bad _ e1
    have e2 := bad _ e2
    -- the common masks have ended at or before `g`
    have hend : min a b ≤ g + 4 := by
      rw [Nat.le_iff_lt_or_eq, ← Nat.le_iff_lt_or_eq, Nat.not_lt.symm]
      intro hlt
      have := e1 (g + 4)
      rw [hX g hg] at this
      simp [hlt] at this
    have hne : a ≠ b → min a b ≠ g + 4 := by
      intro hab' heq
      rcases Nat.lt_or_gt_of_ne hab' with hl | hl
      · have := e2 a
        rw [hY g hg] at this
        simp [show g + 4 = a by omega, hl] at this
      · have := e1 b
        rw [hX g hg] at this
        simp [show g + 4 = b by omega, hl] at this
    constructor
    · apply zero_of
      intro i
      rw [hX j hj10]
      by_cases h1 : j + 4 = b
      · have : ¬ b < a := by omega
        rw [show decide (j + 4 < min a b) = false by simp; omega]
        by_cases hi : b ≤ i
        · simp [show ¬ i < a by omega]
        · simp [hi]
      · simp [h1]; omega
    · apply zero_of
      intro i
      rw [hY j hj10]
      by_cases h1 : j + 4 = a
      · have : ¬ a < b := by omega
        rw [show decide (j + 4 < min a b) = false by simp; omega]
        by_cases hi : a ≤ i
        · simp [show ¬ i < b by omega]
        · simp [hi]
      · simp [h1]; omega
  have hone : ∀ n i, n < 64 → ((1#64 <<< n).getLsbD i = true ↔ i = n) := by
    intro n i hn
    simp only [BitVec.getLsbD_shiftLeft, BitVec.getLsbD_one]
    by_cases hi : i = n
    · subst hi; simp [hn]
    · by_cases hl : i < n
      · simp [hl, hi]
      · have : ¬ i - n = 0 := by omega
        simp [hi, this]
  have hfx : ∀ j i, j < 14 → i < a → ((full s'.xmask j).getLsbD i = true ↔ (i = j ∧ (j < min a b ∨ j < 4)) ∨ (4 ≤ j ∧ j = b ∧ b ≤ i)) := by
    intro j i hj hi
    unfold full
    by_cases h4 : j < 4
    · rw [if_pos h4, hone j i (by omega)]; omega
    · rw [if_neg h4, hX _ (by omega)]
      simp only [Bool.or_eq_true, Bool.and_eq_true, decide_eq_true_eq]
      omega
  have hfy : ∀ j i, j < 14 → i < b → ((full s'.ymask j).getLsbD i = true ↔ (i = j ∧ (j < min a b ∨ j < 4)) ∨ (4 ≤ j ∧ j = a ∧ a ≤ i)) := by
    intro j i hj hi
    unfold full
    by_cases h4 : j < 4
    · rw [if_pos h4, hone j i (by omega)]; omega
    · rw [if_neg h4, hY _ (by omega)]
      simp only [Bool.or_eq_true, Bool.and_eq_true, decide_eq_true_eq]
      omega
  rw [Bool.eq_iff_iff, addr_pieces x y s' (gate 4 (by omega)) (gate 7 (by omega))]
  unfold Supported at h
  constructor
  · rintro ⟨hk, j, hj, hc | hc⟩
    · obtain ⟨h1, h2, h3⟩ := hc
      have hia := hxb _ h2
      rw [hfx j _ hj hia] at h3
      unfold specBit
      rcases h3 with ⟨h3, h4⟩ | ⟨h3, h4, h5⟩
      · have e : k / 2 = k - j := by omega
        rw [if_pos (by omega), if_pos (by omega), e]; exact h2
      · rw [if_neg (by omega), if_pos (by omega), ← h4]; exact h2
    · obtain ⟨h1, h2, h3⟩ := hc
      have hia := hyb _ h2
      rw [hfy j _ hj hia] at h3
      unfold specBit
      rcases h3 with ⟨h3, h4⟩ | ⟨h3, h4, h5⟩
      · have e : k / 2 = k - (j + 1) := by omega
        rw [if_pos (by omega), if_neg (by omega), e]; exact h2
      · rw [if_neg (by omega), if_neg (by omega), show k - a - 1 = k - (j + 1) by omega, h2]
        simp; omega
  · intro hsp
    unfold specBit at hsp
    by_cases h1 : k < 2 * min a b
    · rw [if_pos h1] at hsp
      by_cases h2 : k % 2 = 0
      · rw [if_pos h2] at hsp
        have := hxb _ hsp
        refine ⟨by omega, k / 2, by omega, Or.inl ⟨by omega, ?_, ?_⟩⟩
        · rw [show k - k / 2 = k / 2 by omega]; exact hsp
        · rw [show k - k / 2 = k / 2 by omega, hfx _ _ (by omega) this]; omega
      · rw [if_neg h2] at hsp
        have := hyb _ hsp
        refine ⟨by omega, k / 2, by omega, Or.inr ⟨by omega, ?_, ?_⟩⟩
        · rw [show k - (k / 2 + 1) = k / 2 by omega]; exact hsp
        · rw [show k - (k / 2 + 1) = k / 2 by omega, hfy _ _ (by omega) this]; omega
    · rw [if_neg h1] at hsp
      by_cases h2 : b ≤ a
      · rw [if_pos h2] at hsp
        have := hxb _ hsp
        refine ⟨by omega, b, by omega, Or.inl ⟨by omega, hsp, ?_⟩⟩
        rw [hfx _ _ (by omega) this]; omega
      · rw [if_neg h2] at hsp
        simp only [Bool.and_eq_true, decide_eq_true_eq] at hsp
        have := hyb _ hsp.2
        refine ⟨?_, a, by omega, Or.inr ⟨by omega, ?_, ?_⟩⟩
        · omega
        · rw [show k - (a + 1) = k - a - 1 by omega]; exact hsp.2
        · rw [show k - (a + 1) = k - a - 1 by omega, hfy _ _ (by omega) this]; omega

theorem toNat_lt_of_bits (v : Sz) (n : Nat) (h : ∀ i, n ≤ i → v.getLsbD i = false) : v.toNat < 2 ^ n :=
  Nat.lt_pow_two_of_testBit _ h

theorem eq_of_bits (v w : Sz) (h : ∀ i, v.getLsbD i = w.getLsbD i) : v = w :=
  BitVec.eq_of_getLsbD_eq (fun i _ => h i)

theorem bit_false (v : Sz) (n i : Nat) (h : v.toNat < 2 ^ n) (hi : n ≤ i) : v.getLsbD i = false :=
  Nat.testBit_lt_two_pow (Nat.lt_of_lt_of_le h (Nat.pow_le_pow_right (by decide) hi))

/-- C34: two pixels never share an address. -/
theorem morton_injective (a b : Nat) (h : Supported a b) (hab : a + b < 64) (s : Settings)
    (hs : settings (BitVec.ofNat 64 (2 ^ a)) (BitVec.ofNat 64 (2 ^ b)) = some s)
    (x y x' y' : Sz) (hx : x.toNat < 2 ^ a) (hy : y.toNat < 2 ^ b) (hx' : x'.toNat < 2 ^ a) (hy' : y'.toNat < 2 ^ b)
    (he : mortonAddr x y s = mortonAddr x' y' s) : x = x' ∧ y = y' := by
  have hbits : ∀ k, specBit a b x y k = specBit a b x' y' k := by
    intro k
    rw [← addr_bits a b (by omega) (by omega) h hab s hs x y hx hy, ← addr_bits a b (by omega) (by omega) h hab s hs x' y' hx' hy', he]
  constructor
  · apply eq_of_bits
    intro i
    by_cases hi : a ≤ i
    · rw [bit_false x a i hx hi, bit_false x' a i hx' hi]
    · by_cases hm : i < min a b
      · have := hbits (2 * i)
        unfold specBit at this
        rwa [if_pos (by omega), if_pos (by omega), if_pos (by omega), if_pos (by omega), show 2 * i / 2 = i by omega] at this
      · have := hbits (i + b)
        unfold specBit at this
        rwa [if_neg (by omega), if_pos (by omega), if_neg (by omega), if_pos (by omega), show i + b - b = i by omega] at this
  · apply eq_of_bits
    intro i
    by_cases hi : b ≤ i
    · rw [bit_false y b i hy hi, bit_false y' b i hy' hi]
    · by_cases hm : i < min a b
      · have := hbits (2 * i + 1)
        unfold specBit at this
        rwa [if_pos (by omega), if_neg (by omega), if_pos (by omega), if_neg (by omega), show (2 * i + 1) / 2 = i by omega] at this
      · have := hbits (i + a + 1)
        unfold specBit at this
        rwa [if_neg (by omega), if_neg (by omega), if_neg (by omega), if_neg (by omega), show i + a + 1 - a - 1 = i by omega,
          show decide (2 * a < i + a + 1) = true by simp; omega, Bool.true_and, Bool.true_and] at this

/-- A word with given bits. -/
theorem exists_word (f : Nat → Bool) : ∃ v : Sz, ∀ i, i < 64 → v.getLsbD i = f i := by
  have key : ∀ n, n ≤ 64 → ∃ v : Sz, ∀ i, v.getLsbD i = (decide (i < n) && f i) := by
    intro n
    induction n with
    | zero => intro _; exact ⟨0#64, by simp⟩
    | succ n ih =>
      intro hn
      obtain ⟨v, hv⟩ := ih (by omega)
      refine ⟨v ||| (if f n then 1#64 <<< n else 0#64), fun i => ?_⟩
      rw [BitVec.getLsbD_or, hv]
      have hone : (1#64 <<< n).getLsbD i = decide (i = n) := by
        simp only [BitVec.getLsbD_shiftLeft, BitVec.getLsbD_one]
        by_cases hi : i = n
        · subst hi; simp; omega
        · by_cases hl : i < n
          · simp [hl, hi]
          · have : ¬ i - n = 0 := by omega
            simp [hi, this]
      by_cases hi : i = n
      · subst hi
        cases hf : f i <;> simp [hone]
      · have e : decide (i < n + 1) = decide (i < n) := by rw [decide_eq_decide]; omega
        rw [e]
        cases f n <;> simp [hone, hi]
  obtain ⟨v, hv⟩ := key 64 (Nat.le_refl _)
  exact ⟨v, fun i hi => by rw [hv]; simp [hi]⟩

/-- C34 for textures at least as wide as high: the addresses of the pixels are exactly `0 .. width * height - 1`, each
hit by exactly one pixel. -/
theorem morton_bijective_partial (a b : Nat) (h : Supported a b) (hwide : b ≤ a) (hab : a + b < 64) :
    ∃ s, settings (BitVec.ofNat 64 (2 ^ a)) (BitVec.ofNat 64 (2 ^ b)) = some s ∧
      (∀ x y : Sz, x.toNat < 2 ^ a → y.toNat < 2 ^ b → (mortonAddr x y s).toNat < 2 ^ a * 2 ^ b) ∧
      (∀ n : Sz, n.toNat < 2 ^ a * 2 ^ b → ∃ x y : Sz, x.toNat < 2 ^ a ∧ y.toNat < 2 ^ b ∧ mortonAddr x y s = n ∧
        ∀ x' y' : Sz, x'.toNat < 2 ^ a → y'.toNat < 2 ^ b → mortonAddr x' y' s = n → x' = x ∧ y' = y) := by
  obtain ⟨s, hs, -, -⟩ := settings_spec a b (by omega) (by omega) h
  refine ⟨s, hs, ?_, ?_⟩
  · intro x y hx hy
    rw [← Nat.pow_add]
    apply toNat_lt_of_bits
    intro i hi
    rw [addr_bits a b (by omega) (by omega) h hab s hs x y hx hy]
    unfold specBit
    rw [if_neg (by omega), if_pos hwide]
    exact bit_false x a _ hx (by omega)
  · intro n hn
    rw [← Nat.pow_add] at hn
    obtain ⟨x, hx⟩ := exists_word (fun i => if i < b then n.getLsbD (2 * i) else n.getLsbD (i + b))
    obtain ⟨y, hy⟩ := exists_word (fun i => if i < b then n.getLsbD (2 * i + 1) else false)
    have hxl : x.toNat < 2 ^ a := by
      apply toNat_lt_of_bits
      intro i hi
      by_cases h64 : i < 64
      · rw [hx i h64, if_neg (by omega)]; exact bit_false n _ _ hn (by omega)
      · exact BitVec.getLsbD_of_ge _ _ (by omega)
    have hyl : y.toNat < 2 ^ b := by
      apply toNat_lt_of_bits
      intro i hi
      by_cases h64 : i < 64
      · rw [hy i h64, if_neg (by omega)]
      · exact BitVec.getLsbD_of_ge _ _ (by omega)
    have heq : mortonAddr x y s = n := by
      apply eq_of_bits
      intro k
      rw [addr_bits a b (by omega) (by omega) h hab s hs x y hxl hyl]
      unfold specBit
      by_cases hk : k < 2 * min a b
      · rw [if_pos hk]
        by_cases h2 : k % 2 = 0
        · rw [if_pos h2, hx _ (by omega), if_pos (by omega), show 2 * (k / 2) = k by omega]
        · rw [if_neg h2, hy _ (by omega), if_pos (by omega), show 2 * (k / 2) + 1 = k by omega]
      · rw [if_neg hk, if_pos hwide]
        by_cases h64 : k - b < 64
        · rw [hx _ h64, if_neg (by omega), show k - b + b = k by omega]
        · rw [BitVec.getLsbD_of_ge _ _ (by omega), bit_false n _ _ hn (by omega)]
    refine ⟨x, y, hxl, hyl, heq, ?_⟩
    intro x' y' hx' hy' he
    exact morton_injective a b h hab s hs x' y' x y hx' hy' hxl hyl (by rw [he, heq])

/-- C34 does not hold for textures higher than wide: address bit `2 * log2 width` is never used, and for every such
size there is a pixel whose address is `width * height`, one past the end of the texture. -/
theorem tall_violated (a b : Nat) (h : Supported a b) (htall : a < b) (hab : a + b < 64) :
    ∃ s, settings (BitVec.ofNat 64 (2 ^ a)) (BitVec.ofNat 64 (2 ^ b)) = some s ∧
      ∃ x y : Sz, x.toNat < 2 ^ a ∧ y.toNat < 2 ^ b ∧ (mortonAddr x y s).toNat = 2 ^ a * 2 ^ b := by
  obtain ⟨s, hs, -, -⟩ := settings_spec a b (by omega) (by omega) h
  have hp : (BitVec.ofNat 64 (2 ^ (b - 1))).toNat = 2 ^ (b - 1) := by
    rw [BitVec.toNat_ofNat, Nat.mod_eq_of_lt (Nat.pow_lt_pow_right (by decide) (by omega))]
  have hx : (0#64).toNat < 2 ^ a := Nat.two_pow_pos a
  have hy : (BitVec.ofNat 64 (2 ^ (b - 1))).toNat < 2 ^ b := by rw [hp]; exact Nat.pow_lt_pow_right (by decide) (by omega)
  refine ⟨s, hs, 0#64, BitVec.ofNat 64 (2 ^ (b - 1)), hx, hy, ?_⟩
  rw [← Nat.pow_add]
  have : mortonAddr 0#64 (BitVec.ofNat 64 (2 ^ (b - 1))) s = BitVec.ofNat 64 (2 ^ (a + b)) := by
    apply eq_of_bits
    intro k
    rw [addr_bits a b (by omega) (by omega) h hab s hs _ _ hx hy]
    have hbit : ∀ n i, n < 64 → (BitVec.ofNat 64 (2 ^ n)).getLsbD i = decide (i = n) := by
      intro n i hn
      rw [BitVec.getLsbD_ofNat, Nat.testBit_two_pow]
      by_cases hi : i = n
      · subst hi; simp [hn]
      · simp [hi, Ne.symm hi]
    unfold specBit
    rw [hbit _ _ hab, hbit _ _ (by omega), hbit _ _ (by omega)]
    by_cases hk : k < 2 * min a b
    · rw [if_pos hk]
      have e1 : ¬ k / 2 = b - 1 := by omega
      have e2 : ¬ k = a + b := by omega
      simp [e1, e2]
    · rw [if_neg hk, if_neg (by omega)]
      by_cases e2 : k = a + b
      · subst e2
        simp; omega
      · by_cases e3 : 2 * a < k
        · simp [e2]; omega
        · simp [e2, e3]
  rw [this, BitVec.toNat_ofNat, Nat.mod_eq_of_lt (Nat.pow_lt_pow_right (by decide) hab)]

/-- A rectangular texture with a side shorter than 16 makes the constructor write outside of its arrays. -/
theorem small_rectangle_violated (a b : Nat) (hne : a ≠ b) (hsmall : min a b < 4) (ha : a < 64) (hb : b < 64) :
    settings (BitVec.ofNat 64 (2 ^ a)) (BitVec.ofNat 64 (2 ^ b)) = none := by
  unfold settings
  simp only [log2_size a ha, log2_size b hb]
  have hmin : (if a > b then b else a) = min a b := by split <;> omega
  rw [hmin]
  have hc : ∀ s, commonMasks (min a b) 64 4 s = some s := by
    intro s
    unfold commonMasks
    rw [if_neg (by omega)]
  rw [hc]
  simp only [Option.bind_eq_bind, Option.bind_some, ne_eq, hne, not_false_eq_true, if_true]
  have hout : ∀ n, n < 4 → ∀ (f : Nat → Sz) v, setMask f (maskIndex n) v = none := by
    intro n hn f v
    unfold setMask maskIndex
    rw [if_neg (show ¬ 4 ≤ n by omega), if_neg (by omega)]
  by_cases hgt : a > b
  · simp only [hgt, if_true, hout b (by omega), Option.bind_none]
  · simp only [hgt, if_false, hout a (by omega), Option.bind_none]

/-- A 256 x 64 texture: its settings exist, and one of its pixels. -/
example : Supported 8 6 ∧ ((settings 256#64 64#64).map (mortonAddr 200#64 63#64)) = some 0x3aea#64 := by
  refine ⟨?_, by decide +kernel⟩
  unfold Supported
  decide

/-- 16 x 32: the pixel (0, 16) is at 512 = 16 * 32. -/
example : ((settings 16#64 32#64).map (mortonAddr 0#64 16#64)) = some 512#64 := by decide +kernel

end PreCore.Morton
