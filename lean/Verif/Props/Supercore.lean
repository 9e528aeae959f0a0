import Verif.Model.Supercore
import Verif.Props.Stream
/-!
# C21 (GetPadding), C22, C52, C53: small arithmetic and text helpers
-/
namespace PreCore.Supercore

/-! ## C21: GetPadding -/

/-- C21: for a power-of-two alignment (any of the 64 possible), `value + GetPadding(value, alignment)` is the least
multiple of the alignment not below `value`, whenever that number is representable. -/
theorem getPadding_spec (value : BitVec 64) (k : Nat) (hk : k < 64)
    (hfit : value.toNat + 2 ^ k ≤ 2 ^ 64) :
    Stream.NextMultiple (2 ^ k) value.toNat (value.toNat + (getPadding value (BitVec.ofNat 64 (2 ^ k))).toNat) := by
  have hk2 : 0 < 2 ^ k := Nat.two_pow_pos k
  have hlt : (2 : Nat) ^ k < 2 ^ 64 := Nat.pow_lt_pow_right (by omega) hk
  have e1 : (BitVec.ofNat 64 (2 ^ k) - 1#64).toNat = 2 ^ k - 1 := by
    rw [BitVec.toNat_sub, BitVec.toNat_ofNat, BitVec.toNat_ofNat, Nat.mod_eq_of_lt hlt]
    omega
  have e2 : (value &&& (BitVec.ofNat 64 (2 ^ k) - 1#64)).toNat = value.toNat % 2 ^ k := by
    rw [BitVec.toNat_and, e1, Nat.and_two_pow_sub_one_eq_mod]
  have e3 : (getPadding value (BitVec.ofNat 64 (2 ^ k))).toNat = (2 ^ k - value.toNat % 2 ^ k) % 2 ^ k := by
    have hm := Nat.mod_lt value.toNat hk2
    unfold getPadding
    simp only
    by_cases h : value &&& (BitVec.ofNat 64 (2 ^ k) - 1#64) = 0#64
    · rw [if_pos h]
      have : value.toNat % 2 ^ k = 0 := by rw [← e2, h]; rfl
      rw [this]; simp
    · rw [if_neg h]
      have hne : value.toNat % 2 ^ k ≠ 0 := by
        rw [← e2]; intro hh; exact h (BitVec.eq_of_toNat_eq hh)
      rw [BitVec.toNat_sub, BitVec.toNat_ofNat, Nat.mod_eq_of_lt hlt, e2,
        Nat.mod_eq_of_lt (a := 2 ^ k - value.toNat % 2 ^ k) (by omega)]
      omega
  rw [e3]
  exact Stream.next_multiple k value.toNat

example : (7#64).toNat + 2 ^ 3 ≤ 2 ^ 64 ∧ getPadding 7#64 (BitVec.ofNat 64 (2 ^ 3)) = 1#64 := by decide

/-! ## C22: powers of two -/

theorem and_pred_zero : ∀ n : Nat, n ≠ 0 → (n &&& (n - 1) = 0 ↔ ∃ k, n = 2 ^ k) := by
  intro n
  induction n using Nat.strongRecOn with
  | ind n ih =>
    intro h0
    obtain ⟨m, hm⟩ : ∃ m, n = 2 * m ∨ n = 2 * m + 1 := ⟨n / 2, by omega⟩
    rcases hm with hm | hm
    · have hm0 : m ≠ 0 := by omega
      have e : n &&& (n - 1) = 2 * (m &&& (m - 1)) := by
        apply Nat.eq_of_testBit_eq
        intro i
        rw [Nat.testBit_and]
        cases i with
        | zero => simp [Nat.testBit_zero]; omega
        | succ i =>
          rw [Nat.testBit_succ, Nat.testBit_succ, Nat.testBit_succ]
          rw [show n / 2 = m by omega, show (n - 1) / 2 = m - 1 by omega, show 2 * (m &&& (m - 1)) / 2 = m &&& (m - 1) by omega,
            Nat.testBit_and]
      rw [e]
      have := ih m (by omega) hm0
      constructor
      · intro h
        obtain ⟨k, hk⟩ := this.1 (by omega)
        exact ⟨k + 1, by rw [Nat.pow_succ]; omega⟩
      · rintro ⟨k, hk⟩
        cases k with
        | zero => simp at hk; omega
        | succ k =>
          rw [Nat.pow_succ] at hk
          have := this.2 ⟨k, by omega⟩
          omega
    · have e : n &&& (n - 1) = 2 * m := by
        apply Nat.eq_of_testBit_eq
        intro i
        rw [Nat.testBit_and]
        cases i with
        | zero => simp [Nat.testBit_zero]; omega
        | succ i =>
          rw [Nat.testBit_succ, Nat.testBit_succ, Nat.testBit_succ]
          rw [show n / 2 = m by omega, show (n - 1) / 2 = m by omega, show 2 * m / 2 = m by omega, Bool.and_self]
      rw [e]
      constructor
      · intro h; exact ⟨0, by simp; omega⟩
      · rintro ⟨k, hk⟩
        cases k with
        | zero => simp at hk; omega
        | succ k => rw [Nat.pow_succ] at hk; omega

/-- C22: for every width, `IsPow2(n)` holds exactly for 0 and the powers of two. -/
theorem isPow2_iff {w : Nat} (hw : 0 < w) (x : BitVec w) : isPow2 x = true ↔ x.toNat = 0 ∨ ∃ k, x.toNat = 2 ^ k := by
  unfold isPow2
  rw [beq_iff_eq]
  by_cases h0 : x.toNat = 0
  · have : x = 0#w := BitVec.eq_of_toNat_eq (by simpa using h0)
    subst this; simp
  · have hx := x.isLt
    have e : (x - 1#w).toNat = x.toNat - 1 := by
      rw [BitVec.toNat_sub, BitVec.toNat_ofNat]
      have h1 : 1 % 2 ^ w = 1 := Nat.mod_eq_of_lt (Nat.one_lt_two_pow (by omega))
      rw [h1, show 2 ^ w - 1 + x.toNat = (x.toNat - 1) + 2 ^ w by omega, Nat.add_mod_right, Nat.mod_eq_of_lt (by omega)]
    constructor
    · intro h
      right
      apply (and_pred_zero _ h0).1
      rw [← e, ← BitVec.toNat_and, h]; simp
    · rintro (h | h)
      · exact absurd h h0
      · apply BitVec.eq_of_toNat_eq
        rw [BitVec.toNat_and, e, (and_pred_zero _ h0).2 h]; simp

example : isPow2 64#32 = true ∧ isPow2 65#32 = false := by decide

/-! ## C22: trimming -/

/-- Specification: the characters trimmed away. -/
def IsBlank (nl : Bool) (c : Byte) : Prop := c = 0x20#8 ∨ c = 0x09#8 ∨ (nl = true ∧ c = 0x0a#8)

theorem blank_iff (nl : Bool) (c : Byte) : blank nl c = true ↔ IsBlank nl c := by
  simp [blank, IsBlank, or_assoc]

/-- C22: `SkipStartWhitespace` removes exactly the maximal leading run of blanks. -/
theorem skipStart_spec (nl : Bool) (s : List Byte) : ∃ pre, s = pre ++ (skipStart nl s).1 ∧
    (∀ c ∈ pre, IsBlank nl c) ∧ (∀ c, (skipStart nl s).1.head? = some c → ¬ IsBlank nl c) := by
  induction s with
  | nil => exact ⟨[], rfl, by simp, by simp [skipStart]⟩
  | cons c cs ih =>
    simp only [skipStart]
    by_cases h : blank nl c = true
    · rw [if_pos h]
      obtain ⟨pre, h1, h2, h3⟩ := ih
      refine ⟨c :: pre, by rw [List.cons_append, ← h1], ?_, h3⟩
      intro d hd
      rcases List.mem_cons.1 hd with rfl | hd
      · exact (blank_iff _ _).1 h
      · exact h2 d hd
    · rw [if_neg h]
      refine ⟨[], rfl, by simp, fun d hd => ?_⟩
      simp at hd; subst hd
      exact fun hb => h ((blank_iff _ _).2 hb)

theorem skipEndRev_eq (nl : Bool) (s : List Byte) : skipEndRev nl s = skipStart nl s := by
  induction s with
  | nil => rfl
  | cons c cs ih => simp only [skipEndRev, skipStart, ih]

/-- C22: `SkipEndWhitespace` removes exactly the maximal trailing run of blanks. -/
theorem skipEnd_spec (nl : Bool) (s : List Byte) : ∃ post, s = (skipEnd nl s).1 ++ post ∧
    (∀ c ∈ post, IsBlank nl c) ∧ (∀ c, (skipEnd nl s).1.getLast? = some c → ¬ IsBlank nl c) := by
  obtain ⟨pre, h1, h2, h3⟩ := skipStart_spec nl s.reverse
  unfold skipEnd
  simp only [skipEndRev_eq]
  refine ⟨pre.reverse, ?_, fun c hc => h2 c (by simpa using hc), fun c hc => h3 c ?_⟩
  · rw [← List.reverse_append, ← h1, List.reverse_reverse]
  · rwa [List.getLast?_reverse] at hc

/-- C22: trimming keeps everything between the first and the last non-blank, in order, and is idempotent. -/
theorem trim_spec (s : List Byte) : ∃ pre post, s = pre ++ (trim s).1 ++ post ∧
    (∀ c ∈ pre, IsBlank false c) ∧ (∀ c ∈ post, IsBlank false c) ∧
    (∀ c, (trim s).1.head? = some c → ¬ IsBlank false c) ∧
    (∀ c, (trim s).1.getLast? = some c → ¬ IsBlank false c) ∧ (trim (trim s).1).1 = (trim s).1 := by
  obtain ⟨pre, h1, h2, h3⟩ := skipStart_spec false s
  obtain ⟨post, g1, g2, g3⟩ := skipEnd_spec false (skipStart false s).1
  have hd : ∀ c, (trim s).1.head? = some c → ¬ IsBlank false c := by
    intro c hc
    apply h3
    rw [g1, List.head?_append]
    show ((trim s).1.head?).or _ = _
    rw [hc]; rfl
  refine ⟨pre, post, ?_, h2, g2, hd, g3, ?_⟩
  · rw [List.append_assoc]; show s = pre ++ ((skipEnd false (skipStart false s).1).1 ++ post); rw [← g1, ← h1]
  · have key : ∀ t : List Byte, (∀ c, t.head? = some c → ¬ IsBlank false c) → (skipStart false t).1 = t := by
      intro t ht
      cases t with
      | nil => rfl
      | cons c cs =>
        simp only [skipStart]
        rw [if_neg (fun hb => ht c rfl ((blank_iff _ _).1 hb))]
    have h4 := key _ hd
    have h5 : (skipEnd false (trim s).1).1 = (trim s).1 := by
      unfold skipEnd
      simp only [skipEndRev_eq]
      rw [key _ (fun c hc => g3 c (by rw [List.head?_reverse] at hc; exact hc)), List.reverse_reverse]
    show (skipEnd false (skipStart false (trim s).1).1).1 = _
    rw [h4, h5]

example : (trim [0x20#8, 0x61#8, 0x20#8, 0x62#8, 0x09#8]).1 = [0x61#8, 0x20#8, 0x62#8] := by decide

/-- C22 is violated w.r.t. memory safety: a character outside of the view is read exactly when the view is empty or all
blank (the element access is evaluated before the emptiness test). -/
theorem trim_overread_violated (nl : Bool) (s : List Byte) :
    ((skipStart nl s).2 = true ↔ ∀ c ∈ s, IsBlank nl c) ∧ ((skipEnd nl s).2 = true ↔ ∀ c ∈ s, IsBlank nl c) := by
  have key : ∀ s : List Byte, (skipStart nl s).2 = true ↔ ∀ c ∈ s, IsBlank nl c := by
    intro s
    induction s with
    | nil => simp [skipStart]
    | cons c cs ih =>
      simp only [skipStart]
      by_cases h : blank nl c = true
      · rw [if_pos h, ih]; simp [(blank_iff _ _).1 h]
      · rw [if_neg h]
        simp only [Bool.false_eq_true, false_iff]
        intro hh; exact h ((blank_iff _ _).2 (hh c (by simp)))
  refine ⟨key s, ?_⟩
  unfold skipEnd
  simp only [skipEndRev_eq]
  rw [key]; simp

/-! ## C52: FourCC constants -/

/-- C52, partial: for 7-bit characters a FourCC constant is the number whose little endian bytes are the characters.
Missing: characters above 0x7f (violated below). -/
theorem fourCC_bytes_partial (c0 c1 c2 c3 : Byte) (h0 : c0.msb = false) (h1 : c1.msb = false) (h2 : c2.msb = false) :
    leBytes 4 (compileFourCC c0 c1 c2 c3) = [c0, c1, c2, c3] := by
  have bits : ∀ i, i < 32 → (compileFourCC c0 c1 c2 c3).getLsbD i =
      if i < 8 then c0.getLsbD i else if i < 16 then c1.getLsbD (i - 8)
      else if i < 24 then c2.getLsbD (i - 16) else c3.getLsbD (i - 24) := by
    intro i hi
    unfold compileFourCC fourCCStep
    simp only [BitVec.getLsbD_or, BitVec.getLsbD_shiftLeft, BitVec.getLsbD_signExtend, h0, h1, h2,
      BitVec.getLsbD_zero, Bool.false_or]
    by_cases a : i < 8
    · simp [a, hi, show i < 16 by omega, show i < 24 by omega]
    · by_cases b : i < 16
      · simp [a, b, hi, show i < 24 by omega, show i - 8 < 8 by omega, show i - 8 < 32 by omega]
      · by_cases c : i < 24
        · simp [a, b, c, hi, show ¬ i - 8 < 8 by omega, show i - 16 < 8 by omega, show i - 16 < 32 by omega]
        · simp [a, b, c, hi, show ¬ i - 8 < 8 by omega, show ¬ i - 16 < 8 by omega, show i - 24 < 8 by omega,
            show i - 24 < 32 by omega]
  have r4 : List.range 4 = [0, 1, 2, 3] := by decide
  unfold leBytes
  rw [r4]
  simp only [List.map_cons, List.map_nil, byteAt]
  have hb : ∀ (j : Nat) (c : Byte), j < 4 → (∀ i, i < 8 → (compileFourCC c0 c1 c2 c3).getLsbD (8 * j + i) = c.getLsbD i) →
      (compileFourCC c0 c1 c2 c3).extractLsb' (8 * j) 8 = c := by
    intro j c hj h
    apply BitVec.eq_of_getLsbD_eq
    intro i hi
    rw [BitVec.getLsbD_extractLsb', h i hi]; simp [hi]
  rw [hb 0 c0 (by omega) (fun i hi => by rw [bits _ (by omega), if_pos (by omega)]; simp),
    hb 1 c1 (by omega) (fun i hi => by
      rw [bits _ (by omega), if_neg (by omega), if_pos (by omega)]; congr 1; omega),
    hb 2 c2 (by omega) (fun i hi => by
      rw [bits _ (by omega), if_neg (by omega), if_neg (by omega), if_pos (by omega)]; congr 1; omega),
    hb 3 c3 (by omega) (fun i hi => by
      rw [bits _ (by omega), if_neg (by omega), if_neg (by omega), if_neg (by omega)]; congr 1; omega)]

example : (0x44#8 : Byte).msb = false ∧ compileFourCC 0x41#8 0x42#8 0x43#8 0x44#8 = 0x44434241#32 := by decide

/-- C52 is violated: a first character above 0x7f turns all higher characters into 0xff (the PNG signature "\x89PNG"). -/
theorem fourCC_violated (c0 c1 c2 c3 : Byte) (h0 : c0.msb = true) :
    compileFourCC c0 c1 c2 c3 = 0xffffff00#32 ||| c0.setWidth 32 := by
  apply BitVec.eq_of_getLsbD_eq
  intro i hi
  unfold compileFourCC fourCCStep
  simp only [BitVec.getLsbD_or, BitVec.getLsbD_shiftLeft, BitVec.getLsbD_signExtend, h0,
      BitVec.getLsbD_zero, Bool.false_or, BitVec.getLsbD_setWidth]
  by_cases a : i < 8
  · have : BitVec.getLsbD 0xffffff00#32 i = false := by
      have : ∀ i < 8, BitVec.getLsbD 0xffffff00#32 i = false := by decide
      exact this i a
    simp only [this, a, hi, show i < 8 * 1 by omega, show i < 8 * 2 by omega, show i < 8 * 3 by omega]
    simp [a, hi]
  · have : BitVec.getLsbD 0xffffff00#32 i = true := by
      have : ∀ i < 32, ¬ i < 8 → BitVec.getLsbD 0xffffff00#32 i = true := by decide
      exact this i hi a
    simp [a, hi, this]

example : compileFourCC 0x89#8 0x50#8 0x4e#8 0x47#8 = 0xffffff89#32 := by decide

/-! ## C53: hexadecimal digits -/

/-- Specification of a hexadecimal digit's value. -/
def hexValue (c : Nat) : Option Nat :=
  if 0x30 ≤ c ∧ c ≤ 0x39 then some (c - 0x30)
  else if 0x41 ≤ c ∧ c ≤ 0x46 then some (c - 0x41 + 10)
  else if 0x61 ≤ c ∧ c ≤ 0x66 then some (c - 0x61 + 10) else none

/-- C53, partial: the table (all its 103 entries up to 'f') gives each hex digit its value and every other character a
value that is not a digit. Missing: 'g' (violated below); characters after 'g' are outside the table. -/
theorem atoh_partial : ∀ c < 103, (atohLUT[c]?) = some ((hexValue c).getD 0x2e) := by decide +kernel

/-- C53 is violated: 'g' hits the terminator of the literal and decodes as the digit 0; later characters read past the
table. -/
theorem atoh_violated : atohLUT[0x67]? = some 0 ∧ hexValue 0x67 = none ∧ ∀ c, 0x67 < c → atohLUT[c]? = none := by
  refine ⟨by decide, by decide, fun c hc => List.getElem?_eq_none ?_⟩
  have : atohLUT.length = 104 := by decide
  omega

end PreCore.Supercore
