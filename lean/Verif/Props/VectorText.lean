import Verif.Model.VectorText
import Verif.Props.ReflectorText
import Verif.Props.PrinterColour
/-! # C136: the text of an integer vector is its components -/
namespace PreCore.VectorText
open PreCore.CNum PreCore.Spec

/-- `t` is the number `z` in decimal digits, with a minus if it is negative. -/
def Decimal (t : List Byte) (z : Int) : Prop :=
  ∃ (neg : Bool) (cs : List Byte) (ds : List Nat), t = (if neg then [0x2d#8] else []) ++ cs ∧ DigitChars 10 cs ds ∧ ds ≠ [] ∧
    signedVal neg (positional 10 ds) = z

/-- The text cut at its blanks. -/
def words (t : List Byte) : List (List Byte) := t.splitOn 0x20#8

theorem comp_decimal (z : Int) : Decimal (showInt z) z := by
  obtain ⟨ds, h1, h2, h3⟩ := Refl.showNat_digits z.natAbs
  refine ⟨decide (z < 0), showNat z.natAbs, ds, ?_, h1, h2, ?_⟩
  · unfold showInt
    by_cases h : z < 0 <;> simp [h]
  · rw [h3, Refl.signedVal_showInt]

theorem comp_clean (z : Int) : 0x20#8 ∉ showInt z := by
  intro h
  rcases PrinterColour.showInt_chars z _ h with h | h
  · simp at h
  · simp at h

theorem words_join (ts : List (List Byte)) (h : ∀ t ∈ ts, 0x20#8 ∉ t) (hne : ts ≠ []) : words ([0x20#8].intercalate ts) = ts :=
  List.splitOn_intercalate _ h hne

/-- C136: cut at its blanks, `to_string` of a vector is its components as decimal numbers, in order. -/
theorem text_is_components (x y z w : Int) :
    (∃ a b, words (toString2 x y) = [a, b] ∧ Decimal a x ∧ Decimal b y) ∧
    (∃ a b c, words (toString3 x y z) = [a, b, c] ∧ Decimal a x ∧ Decimal b y ∧ Decimal c z) ∧
    (∃ a b c d, words (toString4 x y z w) = [a, b, c, d] ∧ Decimal a x ∧ Decimal b y ∧ Decimal c z ∧ Decimal d w) := by
  refine ⟨⟨_, _, ?_, comp_decimal x, comp_decimal y⟩, ⟨_, _, _, ?_, comp_decimal x, comp_decimal y, comp_decimal z⟩,
    ⟨_, _, _, _, ?_, comp_decimal x, comp_decimal y, comp_decimal z, comp_decimal w⟩⟩
  · rw [← words_join [showInt x, showInt y] (by simp [comp_clean]) (by simp)]
    simp [toString2, comp, List.intercalate]
  · rw [← words_join [showInt x, showInt y, showInt z] (by simp [comp_clean]) (by simp)]
    simp [toString3, comp, List.intercalate]
  · rw [← words_join [showInt x, showInt y, showInt z, showInt w] (by simp [comp_clean]) (by simp)]
    simp [toString4, comp, List.intercalate]

/-- C136: the same of a stream, for components of more than 8 bits. -/
theorem stream_is_components_partial (bits : Nat) (hb : bits ≠ 8) (x y z w : Int) :
    (∃ a b, words (stream2 bits x y) = [a, b] ∧ Decimal a x ∧ Decimal b y) ∧
    (∃ a b c, words (stream3 bits x y z) = [a, b, c] ∧ Decimal a x ∧ Decimal b y ∧ Decimal c z) ∧
    (∃ a b c d, words (stream4 bits x y z w) = [a, b, c, d] ∧ Decimal a x ∧ Decimal b y ∧ Decimal c z ∧ Decimal d w) := by
  have h2 : stream2 bits x y = toString2 x y := by simp [stream2, streamComp, hb, toString2, comp]
  have h3 : stream3 bits x y z = toString3 x y z := by simp [stream3, streamComp, hb, toString3, comp]
  have h4 : stream4 bits x y z w = toString4 x y z w := by simp [stream4, streamComp, hb, toString4, comp]
  rw [h2, h3, h4]
  exact text_is_components x y z w

/-- C136: vectors with the same text are the same. -/
theorem text_injective (x y z w x' y' z' w' : Int) :
    (toString2 x y = toString2 x' y' → x = x' ∧ y = y') ∧
    (toString3 x y z = toString3 x' y' z' → x = x' ∧ y = y' ∧ z = z') ∧
    (toString4 x y z w = toString4 x' y' z' w' → x = x' ∧ y = y' ∧ z = z' ∧ w = w') := by
  have inj := PrinterColour.showInt_injective
  have w2 : ∀ x y, words (toString2 x y) = [showInt x, showInt y] := fun x y => by
    rw [← words_join [showInt x, showInt y] (by simp [comp_clean]) (by simp)]; simp [toString2, comp, List.intercalate]
  have w3 : ∀ x y z, words (toString3 x y z) = [showInt x, showInt y, showInt z] := fun x y z => by
    rw [← words_join [showInt x, showInt y, showInt z] (by simp [comp_clean]) (by simp)]; simp [toString3, comp, List.intercalate]
  have w4 : ∀ x y z w, words (toString4 x y z w) = [showInt x, showInt y, showInt z, showInt w] := fun x y z w => by
    rw [← words_join [showInt x, showInt y, showInt z, showInt w] (by simp [comp_clean]) (by simp)]; simp [toString4, comp, List.intercalate]
  refine ⟨fun h => ?_, fun h => ?_, fun h => ?_⟩
  · have := congrArg words h
    rw [w2, w2] at this
    simp at this
    exact ⟨inj _ _ this.1, inj _ _ this.2⟩
  · have := congrArg words h
    rw [w3, w3] at this
    simp at this
    exact ⟨inj _ _ this.1, inj _ _ this.2.1, inj _ _ this.2.2⟩
  · have := congrArg words h
    rw [w4, w4] at this
    simp at this
    exact ⟨inj _ _ this.1, inj _ _ this.2.1, inj _ _ this.2.2.1, inj _ _ this.2.2.2⟩

theorem decimal_digits {t : List Byte} {z : Int} (h : Decimal t z) : 0x20#8 ∉ t ∧ t ≠ [] ∧ ∀ c, t = [c] → z = (c.toNat : Int) - 48 := by
  obtain ⟨neg, cs, ds, rfl, h1, h2, rfl⟩ := h
  have hd : ∀ cs ds, DigitChars 10 cs ds → ∀ c ∈ cs, 48 ≤ c.toNat := by
    intro cs ds h
    induction h with
    | nil => intro c hc; cases hc
    | cons hc _ ih =>
      intro c hc'
      rcases List.mem_cons.1 hc' with rfl | hc'
      · obtain ⟨a, b | b⟩ := hc <;> omega
      · exact ih c hc'
  refine ⟨?_, ?_, ?_⟩
  · intro hm
    rcases List.mem_append.1 hm with hm | hm
    · cases neg <;> simp at hm
    · have := hd _ _ h1 _ hm
      simp at this
  · cases h1 with
    | nil => exact absurd rfl h2
    | cons _ _ => simp
  · intro c hc
    cases h1 with
    | nil => exact absurd rfl h2
    | cons h3 h4 =>
      cases neg with
      | true => simp at hc
      | false =>
        simp at hc
        obtain ⟨rfl, rfl⟩ := hc
        cases h4
        obtain ⟨a, b | b⟩ := h3
        · simp [signedVal, positional]; omega
        · omega

/-- C136 is violated for streams and 8 bit components: the text of no vector of `int8` or `uint8` components is the components, as each one is
written as the character with that code. For example (32, 32) is written as three blanks. -/
theorem stream_bytes_violated (x y : Int) :
    ¬ ∃ a b, words (stream2 8 x y) = [a, b] ∧ Decimal a x ∧ Decimal b y := by
  rintro ⟨a, b, hw, ha, -⟩
  obtain ⟨a1, a2, a3⟩ := decimal_digits ha
  have ht : [0x20#8].intercalate [a, b] = stream2 8 x y := by rw [← hw]; exact List.intercalate_splitOn _
  have ht : a ++ (0x20#8 :: b) = [BitVec.ofInt 8 x, 0x20#8, BitVec.ofInt 8 y] := by
    simpa [List.intercalate, stream2, streamComp] using ht
  match a, a1, a2, a3, ht with
  | [], _, h, _, _ => exact h rfl
  | [c], _, _, h, ht =>
    have hc : c = BitVec.ofInt 8 x := by simpa using congrArg List.head? ht
    have := h c rfl
    have hn : (c.toNat : Int) = x % 256 := by rw [hc]; simp [BitVec.toNat_ofInt]; omega
    omega
  | [c, d], h, _, _, ht => simp at ht; exact h (by simp [ht.2.1])
  | c :: d :: e :: l, _, _, _, ht =>
    have := congrArg List.length ht
    simp at this

example : toString3 (-5) 0 120 = [0x2d#8, 0x35#8, 0x20#8, 0x30#8, 0x20#8, 0x31#8, 0x32#8, 0x30#8] := by
  simp [toString3, comp, showInt, showNat]
example : words (toString2 (-5) 7) = [[0x2d#8, 0x35#8], [0x37#8]] := by
  simp [toString2, comp, showInt, showNat, words]; rfl
example : stream2 16 32 32 = toString2 32 32 ∧ stream2 8 32 32 = [0x20#8, 0x20#8, 0x20#8] := by
  constructor <;> simp [stream2, streamComp, toString2, comp]
end PreCore.VectorText
