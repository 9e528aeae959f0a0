import Verif.Model.VectorTextFloat
import Verif.Props.VectorText
import Verif.Props.FloatPrint
/-! # C162: the text of a float vector is its components, rounded -/
namespace PreCore.VectorText
open PreCore.CNum PreCore.Spec PreCore.Flt PreCore.Refl PreCore.FloatTextProps

/-! ## Specification -/

/-- `t` is the float `b` as a decimal number rounded to the nearest millionth, halves to even, with its sign. -/
def Millionths (F : Fmt) (t : Text) (b : BitVec F.width) : Prop :=
  ∀ v, FloatValue F.mb F.eb b.toNat v → ∃ (neg : Bool) (k : Nat), DecimalNumber t neg ((k : ℚ) / 10 ^ 6) ∧ (neg = true ↔ 2 ^ (F.mb + F.eb) ≤ b.toNat) ∧
    |(k : ℚ) / 10 ^ 6 - (|v|)| ≤ 1 / 10 ^ 6 / 2 ∧ (|(k : ℚ) / 10 ^ 6 - (|v|)| = 1 / 10 ^ 6 / 2 → k % 2 = 0)

/-- `t` is the float `b` as a decimal number rounded to six significant digits, with its sign. -/
def SixDigits (F : Fmt) (t : Text) (b : BitVec F.width) : Prop :=
  ∀ v, FloatValue F.mb F.eb b.toNat v → ∃ (neg : Bool) (y : ℚ), DecimalNumber t neg y ∧ (neg = true ↔ 2 ^ (F.mb + F.eb) ≤ b.toNat) ∧
    (v = 0 → y = 0) ∧ (v ≠ 0 → Rounded 6 |v| y)

/-- `t` is `inf` for an infinity and `nan` for a NaN (exponent bits all set, fraction zero or not), after a minus sign if the sign bit is set. -/
def SpecialText (F : Fmt) (t : Text) (b : BitVec F.width) : Prop :=
  (2 ^ F.eb - 1) * 2 ^ F.mb ≤ b.toNat % 2 ^ (F.mb + F.eb) →
    t = (if 2 ^ (F.mb + F.eb) ≤ b.toNat then [0x2d#8] else []) ++
      (if b.toNat % 2 ^ (F.mb + F.eb) = (2 ^ F.eb - 1) * 2 ^ F.mb then [0x69#8, 0x6e#8, 0x66#8] else [0x6e#8, 0x61#8, 0x6e#8])

/-- One of the two formats. -/
def Component (F : Fmt) : Prop := F = f32 ∨ F = f64

/-! ## Components -/

theorem six_digits (N : Nat) : ∃ ids fs, DigitChars 10 (showNat (N / 10 ^ 6)) ids ∧ Frac (0x2e#8 :: padded 6 (N % 10 ^ 6)) fs ∧ ids ++ fs ≠ [] ∧
    (positional 10 (ids ++ fs) : ℚ) * 10 ^ ((0 : Int) - fs.length) = (N : ℚ) / 10 ^ 6 := by
  obtain ⟨ids, h1, h3, h2⟩ := Refl.showNat_digits (N / 10 ^ 6)
  obtain ⟨ds, g1, g2, g3, g4⟩ := padded_digits 6 (N % 10 ^ 6)
  have hl := g4 (by decide) (Nat.mod_lt _ (by decide))
  refine ⟨ids, ds, h1, .some g1, fun h => g3 (List.append_eq_nil_iff.1 h).2, ?_⟩
  have hp : positional 10 (ids ++ ds) = N := by
    rw [positional_append, h2, g2, hl, Nat.mul_comm]
    exact Nat.div_add_mod N (10 ^ 6)
  rw [hp, hl, zero_sub, zpow_neg, div_eq_mul_inv]
  rfl

theorem printed6 {F : Fmt} (h : Component F) : Printed F 6 := by
  rcases h with rfl | rfl
  · exact printed32
  · exact ⟨printed64.sup, printed64.scaled, by decide, by decide⟩

theorem fixed6_millionths {F : Fmt} (hF : Component F) (b : BitVec F.width) : Millionths F (fixed6 F b) b := by
  have hok := (printed6 hF).sup.ok
  intro v hv
  rw [floatValue_iff hok b.toNat b.isLt] at hv
  obtain ⟨hp, rfl⟩ := hv
  have hval : F.val b = .fin (decide (2 ^ (F.mb + F.eb) ≤ b.toNat)) (magOf F.mb (b.toNat % 2 ^ (F.mb + F.eb))) := by
    unfold Fmt.val; simp only [if_pos hp]
  have hU : (0 : ℚ) < 2 ^ F.u := by positivity
  unfold fixed6
  rw [hval]
  simp only
  generalize hneg : decide (2 ^ (F.mb + F.eb) ≤ b.toNat) = neg
  generalize magOf F.mb (b.toNat % 2 ^ (F.mb + F.eb)) = m
  have habs : |signedQ neg ((m : ℚ) / 2 ^ F.u)| = (m : ℚ) / 2 ^ F.u := by
    have : (0 : ℚ) ≤ (m : ℚ) / 2 ^ F.u := by positivity
    cases neg
    · exact abs_of_nonneg this
    · simp only [signedQ, if_true]; rw [abs_neg]; exact abs_of_nonneg this
  rw [habs]
  have e1 := rhe_abs (m * 10 ^ 6) (2 ^ F.u) (Nat.two_pow_pos _)
  have e2 := rhe_tie (m * 10 ^ 6) (2 ^ F.u) (Nat.two_pow_pos _)
  generalize rhe (m * 10 ^ 6) (2 ^ F.u) = k at *
  push_cast at e1 e2
  have e3 : (k : ℚ) / 10 ^ 6 - (m : ℚ) / 2 ^ F.u = ((k : ℚ) - (m : ℚ) * 10 ^ 6 / 2 ^ F.u) / 10 ^ 6 := by field_simp
  have e4 : |(k : ℚ) / 10 ^ 6 - (m : ℚ) / 2 ^ F.u| = |(k : ℚ) - (m : ℚ) * 10 ^ 6 / 2 ^ F.u| / 10 ^ 6 := by
    rw [e3, abs_div, abs_of_pos (by norm_num : (0 : ℚ) < 10 ^ 6)]
  obtain ⟨ids, fs, h1, h2, h3, h4⟩ := six_digits k
  refine ⟨neg, k, ?_, by rw [← hneg]; simp, ?_, fun h => e2 ?_⟩
  · have := DecimalNumber.mk (sgn_sign neg) h1 h2 h3 .none
    rw [h4] at this
    simpa [sgn, List.append_assoc] using this
  · rw [e4]; linarith
  · rw [e4] at h; linarith

theorem print_six {F : Fmt} (hF : Component F) (b : BitVec F.width) : SixDigits F (F.print 6 b) b := by
  intro v hv
  obtain ⟨y, h1, h2, h3⟩ := print_finite (printed6 hF) b hv
  exact ⟨_, y, h1, by simp, h2, h3⟩

theorem decimal_no_blank {t : Text} {neg : Bool} {v : ℚ} (h : DecimalNumber t neg v) : 0x20#8 ∉ t := by
  intro hm
  have := number_chars h _ hm
  unfold NumChar at this
  simp at this

theorem finite_or (F : Fmt) (hF : F.Ok) (b : BitVec F.width) : (∃ v, FloatValue F.mb F.eb b.toNat v) ∨ ∃ neg, F.val b = .inf neg ∨ F.val b = .nan neg := by
  by_cases hp : b.toNat % 2 ^ (F.mb + F.eb) < F.inf
  · exact .inl ⟨_, (floatValue_iff hF b.toNat b.isLt _).2 ⟨hp, rfl⟩⟩
  · right
    unfold Fmt.val
    simp only [if_neg hp]
    split
    · exact ⟨_, .inl rfl⟩
    · exact ⟨_, .inr rfl⟩

theorem fixed6_no_blank {F : Fmt} (hF : Component F) (b : BitVec F.width) : 0x20#8 ∉ fixed6 F b := by
  rcases finite_or F (printed6 hF).sup.ok b with ⟨v, hv⟩ | ⟨neg, h | h⟩
  · obtain ⟨_, _, h, -⟩ := fixed6_millionths hF b v hv
    exact decimal_no_blank h
  · unfold fixed6; rw [h]; cases neg <;> simp
  · unfold fixed6; rw [h]; cases neg <;> simp

theorem print_no_blank {F : Fmt} (hF : Component F) (b : BitVec F.width) : 0x20#8 ∉ F.print 6 b := by
  rcases finite_or F (printed6 hF).sup.ok b with ⟨v, hv⟩ | ⟨neg, h | h⟩
  · obtain ⟨_, _, h, -⟩ := print_six hF b v hv
    exact decimal_no_blank h
  · unfold Fmt.print; rw [h]; cases neg <;> simp
  · unfold Fmt.print; rw [h]; cases neg <;> simp

/-- C162: cut at its blanks, `to_string` of a vector of floats or doubles is its components, each rounded to six decimals. -/
theorem float_text_is_components (F : Fmt) (hF : Component F) (x y z w : BitVec F.width) :
    (∃ a b, words (toStringF2 F x y) = [a, b] ∧ Millionths F a x ∧ Millionths F b y) ∧
    (∃ a b c, words (toStringF3 F x y z) = [a, b, c] ∧ Millionths F a x ∧ Millionths F b y ∧ Millionths F c z) ∧
    (∃ a b c d, words (toStringF4 F x y z w) = [a, b, c, d] ∧ Millionths F a x ∧ Millionths F b y ∧ Millionths F c z ∧ Millionths F d w) := by
  have m := fixed6_millionths hF
  have n := fixed6_no_blank hF
  refine ⟨⟨_, _, ?_, m x, m y⟩, ⟨_, _, _, ?_, m x, m y, m z⟩, ⟨_, _, _, _, ?_, m x, m y, m z, m w⟩⟩
  · rw [← words_join [fixed6 F x, fixed6 F y] (by simp [n]) (by simp)]
    simp [toStringF2, List.intercalate]
  · rw [← words_join [fixed6 F x, fixed6 F y, fixed6 F z] (by simp [n]) (by simp)]
    simp [toStringF3, List.intercalate]
  · rw [← words_join [fixed6 F x, fixed6 F y, fixed6 F z, fixed6 F w] (by simp [n]) (by simp)]
    simp [toStringF4, List.intercalate]

/-- C162: the same of a stream, each component rounded to six significant digits. -/
theorem float_stream_is_components (F : Fmt) (hF : Component F) (x y z w : BitVec F.width) :
    (∃ a b, words (streamF2 F x y) = [a, b] ∧ SixDigits F a x ∧ SixDigits F b y) ∧
    (∃ a b c, words (streamF3 F x y z) = [a, b, c] ∧ SixDigits F a x ∧ SixDigits F b y ∧ SixDigits F c z) ∧
    (∃ a b c d, words (streamF4 F x y z w) = [a, b, c, d] ∧ SixDigits F a x ∧ SixDigits F b y ∧ SixDigits F c z ∧ SixDigits F d w) := by
  have m := print_six hF
  have n := print_no_blank hF
  refine ⟨⟨_, _, ?_, m x, m y⟩, ⟨_, _, _, ?_, m x, m y, m z⟩, ⟨_, _, _, _, ?_, m x, m y, m z, m w⟩⟩
  · rw [← words_join [F.print 6 x, F.print 6 y] (by simp [n]) (by simp)]
    simp [streamF2, List.intercalate]
  · rw [← words_join [F.print 6 x, F.print 6 y, F.print 6 z] (by simp [n]) (by simp)]
    simp [streamF3, List.intercalate]
  · rw [← words_join [F.print 6 x, F.print 6 y, F.print 6 z, F.print 6 w] (by simp [n]) (by simp)]
    simp [streamF4, List.intercalate]

/-! ## Different texts -/

theorem val_special (F : Fmt) (b : BitVec F.width) (h : (2 ^ F.eb - 1) * 2 ^ F.mb ≤ b.toNat % 2 ^ (F.mb + F.eb)) :
    F.val b = if b.toNat % 2 ^ (F.mb + F.eb) = (2 ^ F.eb - 1) * 2 ^ F.mb then .inf (decide (2 ^ (F.mb + F.eb) ≤ b.toNat))
      else .nan (decide (2 ^ (F.mb + F.eb) ≤ b.toNat)) := by
  unfold Fmt.val Fmt.inf
  simp only
  rw [if_neg (by omega)]

theorem fixed6_special (F : Fmt) (b : BitVec F.width) : SpecialText F (fixed6 F b) b := by
  intro h
  unfold fixed6
  rw [val_special F b h]
  by_cases hc : b.toNat % 2 ^ (F.mb + F.eb) = (2 ^ F.eb - 1) * 2 ^ F.mb
  · rw [if_pos hc, if_pos hc]; simp
  · rw [if_neg hc, if_neg hc]; simp

theorem print_special (F : Fmt) (P : Nat) (b : BitVec F.width) : SpecialText F (F.print P b) b := by
  intro h
  unfold Fmt.print
  rw [val_special F b h]
  by_cases hc : b.toNat % 2 ^ (F.mb + F.eb) = (2 ^ F.eb - 1) * 2 ^ F.mb
  · rw [if_pos hc, if_pos hc]; simp
  · rw [if_neg hc, if_neg hc]; simp

/-- C162: components that are infinite or NaN are written as `inf` and `nan`, by `to_string` and by a stream. -/
theorem float_text_specials (F : Fmt) (hF : Component F) (x y z w : BitVec F.width) :
    ((∃ a b, words (toStringF2 F x y) = [a, b] ∧ SpecialText F a x ∧ SpecialText F b y) ∧
     (∃ a b c, words (toStringF3 F x y z) = [a, b, c] ∧ SpecialText F a x ∧ SpecialText F b y ∧ SpecialText F c z) ∧
     (∃ a b c d, words (toStringF4 F x y z w) = [a, b, c, d] ∧ SpecialText F a x ∧ SpecialText F b y ∧ SpecialText F c z ∧ SpecialText F d w)) ∧
    ((∃ a b, words (streamF2 F x y) = [a, b] ∧ SpecialText F a x ∧ SpecialText F b y) ∧
     (∃ a b c, words (streamF3 F x y z) = [a, b, c] ∧ SpecialText F a x ∧ SpecialText F b y ∧ SpecialText F c z) ∧
     (∃ a b c d, words (streamF4 F x y z w) = [a, b, c, d] ∧ SpecialText F a x ∧ SpecialText F b y ∧ SpecialText F c z ∧ SpecialText F d w)) := by
  have m := fixed6_special F
  have n := fixed6_no_blank hF
  have p := print_special F 6
  have q := print_no_blank hF
  refine ⟨⟨⟨_, _, ?_, m x, m y⟩, ⟨_, _, _, ?_, m x, m y, m z⟩, ⟨_, _, _, _, ?_, m x, m y, m z, m w⟩⟩,
    ⟨_, _, ?_, p x, p y⟩, ⟨_, _, _, ?_, p x, p y, p z⟩, ⟨_, _, _, _, ?_, p x, p y, p z, p w⟩⟩
  · rw [← words_join [fixed6 F x, fixed6 F y] (by simp [n]) (by simp)]
    simp [toStringF2, List.intercalate]
  · rw [← words_join [fixed6 F x, fixed6 F y, fixed6 F z] (by simp [n]) (by simp)]
    simp [toStringF3, List.intercalate]
  · rw [← words_join [fixed6 F x, fixed6 F y, fixed6 F z, fixed6 F w] (by simp [n]) (by simp)]
    simp [toStringF4, List.intercalate]
  · rw [← words_join [F.print 6 x, F.print 6 y] (by simp [q]) (by simp)]
    simp [streamF2, List.intercalate]
  · rw [← words_join [F.print 6 x, F.print 6 y, F.print 6 z] (by simp [q]) (by simp)]
    simp [streamF3, List.intercalate]
  · rw [← words_join [F.print 6 x, F.print 6 y, F.print 6 z, F.print 6 w] (by simp [q]) (by simp)]
    simp [streamF4, List.intercalate]

/-- The hypothesis of `SpecialText` is met by minus infinity. -/
example : (2 ^ f32.eb - 1) * 2 ^ f32.mb ≤ (0xff800000#32).toNat % 2 ^ (f32.mb + f32.eb) := by decide +kernel

theorem digits_det {cs : List Byte} : ∀ {ds ds' : List Nat}, DigitChars 10 cs ds → DigitChars 10 cs ds' → ds = ds' := by
  induction cs with
  | nil => intro ds ds' h h'; cases h; cases h'; rfl
  | cons c cs ih =>
    intro ds ds' h h'
    cases h with
    | cons h1 h2 =>
      cases h' with
      | cons g1 g2 =>
        obtain ⟨a1, a2⟩ := h1
        obtain ⟨b1, b2⟩ := g1
        rw [ih h2 g2]
        congr 1
        omega

theorem digits_range {cs : List Byte} {ds : List Nat} (h : DigitChars 10 cs ds) : ∀ c ∈ cs, 48 ≤ c.toNat ∧ c.toNat ≤ 57 := by
  induction h with
  | nil => intro c hc; cases hc
  | cons h1 _ ih =>
    intro c hc
    rcases List.mem_cons.1 hc with rfl | hc
    · obtain ⟨a1, a2⟩ := h1; omega
    · exact ih c hc

theorem point_split {a b a' b' : List Byte} (ha : ∀ c ∈ a, 48 ≤ c.toNat ∧ c.toNat ≤ 57) (ha' : ∀ c ∈ a', 48 ≤ c.toNat ∧ c.toNat ≤ 57)
    (h : a ++ 0x2e#8 :: b = a' ++ 0x2e#8 :: b') : a = a' ∧ b = b' := by
  induction a generalizing a' with
  | nil =>
    cases a' with
    | nil => simpa using h
    | cons c a' =>
      simp only [List.nil_append, List.cons_append, List.cons.injEq] at h
      have := ha' c (by simp)
      rw [← h.1] at this
      simp at this
  | cons c a ih =>
    cases a' with
    | nil =>
      simp only [List.nil_append, List.cons_append, List.cons.injEq] at h
      have := ha c (by simp)
      rw [h.1] at this
      simp at this
    | cons c' a' =>
      simp only [List.cons_append, List.cons.injEq] at h
      obtain ⟨h1, h2⟩ := ih (fun x hx => ha x (by simp [hx])) (fun x hx => ha' x (by simp [hx])) h.2
      exact ⟨by rw [h.1, h1], h2⟩

theorem magnitude_inj {k k' : Nat} (h : showNat (k / 10 ^ 6) ++ 0x2e#8 :: padded 6 (k % 10 ^ 6) = showNat (k' / 10 ^ 6) ++ 0x2e#8 :: padded 6 (k' % 10 ^ 6)) :
    k = k' := by
  obtain ⟨ds, h1, -, h2⟩ := Refl.showNat_digits (k / 10 ^ 6)
  obtain ⟨es, g1, g2, -⟩ := padded_digits 6 (k % 10 ^ 6)
  obtain ⟨ds', h1', -, h2'⟩ := Refl.showNat_digits (k' / 10 ^ 6)
  obtain ⟨es', g1', g2', -⟩ := padded_digits 6 (k' % 10 ^ 6)
  obtain ⟨e1, e2⟩ := point_split (digits_range h1) (digits_range h1') h
  rw [← e1] at h1'
  rw [← e2] at g1'
  have a : k / 10 ^ 6 = k' / 10 ^ 6 := by rw [← h2, ← h2', digits_det h1 h1']
  have b : k % 10 ^ 6 = k' % 10 ^ 6 := by rw [← g2, ← g2', digits_det g1 g1']
  rw [← Nat.div_add_mod k (10 ^ 6), ← Nat.div_add_mod k' (10 ^ 6), a, b]

theorem show_head (k : Nat) (t : List Byte) : ∃ c r, showNat k ++ t = c :: r ∧ 48 ≤ c.toNat := by
  obtain ⟨ds, h1, h2, -⟩ := Refl.showNat_digits k
  have h3 := digits_range h1
  cases hs : showNat k with
  | nil => rw [hs] at h1; cases h1; exact absurd rfl h2
  | cons c r => exact ⟨c, r ++ t, rfl, (h3 c (by rw [hs]; simp)).1⟩

/-- The digits of `%f` for `k` millionths. -/
def magText (k : Nat) : Text := showNat (k / 10 ^ 6) ++ 0x2e#8 :: padded 6 (k % 10 ^ 6)

theorem sgn_inj {s t : Bool} {k l : Nat} (h : sgn s ++ magText k = sgn t ++ magText l) : s = t ∧ k = l := by
  obtain ⟨x, r, hx, hx'⟩ := show_head (k / 10 ^ 6) (0x2e#8 :: padded 6 (k % 10 ^ 6))
  obtain ⟨y, q, hy, hy'⟩ := show_head (l / 10 ^ 6) (0x2e#8 :: padded 6 (l % 10 ^ 6))
  have kx : magText k = x :: r := hx
  have ly : magText l = y :: q := hy
  cases s <;> cases t
  · exact ⟨rfl, magnitude_inj h⟩
  · rw [kx, ly] at h
    injection h with h _
    rw [h] at hx'; exact absurd hx' (by decide)
  · rw [kx, ly] at h
    injection h with h _
    rw [← h] at hy'; exact absurd hy' (by decide)
  · injection h with _ h
    exact ⟨rfl, magnitude_inj h⟩

theorem fixed6_eq {F : Fmt} (b : BitVec F.width) (hp : b.toNat % 2 ^ (F.mb + F.eb) < F.inf) : fixed6 F b =
    sgn (decide (2 ^ (F.mb + F.eb) ≤ b.toNat)) ++ magText (rhe (magOf F.mb (b.toNat % 2 ^ (F.mb + F.eb)) * 10 ^ 6) (2 ^ F.u)) := by
  have hb : F.val b = .fin (decide (2 ^ (F.mb + F.eb) ≤ b.toNat)) (magOf F.mb (b.toNat % 2 ^ (F.mb + F.eb))) := by
    unfold Fmt.val; simp only [if_pos hp]
  unfold fixed6
  rw [hb]
  rfl

theorem rhe_million (m u : Nat) : |(rhe (m * 10 ^ 6) (2 ^ u) : ℚ) - (m : ℚ) / 2 ^ u * 10 ^ 6| ≤ 1 / 2 := by
  have := rhe_abs (m * 10 ^ 6) (2 ^ u) (Nat.two_pow_pos _)
  generalize rhe (m * 10 ^ 6) (2 ^ u) = k at *
  push_cast at this
  rwa [show (m : ℚ) / 2 ^ u * 10 ^ 6 = (m : ℚ) * 1000000 / 2 ^ u by ring]

theorem fixed6_apart {F : Fmt} (hF : Component F) (b c : BitVec F.width) {v w : ℚ} (hv : FloatValue F.mb F.eb b.toNat v)
    (hw : FloatValue F.mb F.eb c.toNat w) (h : fixed6 F b = fixed6 F c) : |v - w| ≤ 1 / 10 ^ 6 := by
  have hok := (printed6 hF).sup.ok
  rw [floatValue_iff hok b.toNat b.isLt] at hv
  rw [floatValue_iff hok c.toNat c.isLt] at hw
  obtain ⟨hp, rfl⟩ := hv
  obtain ⟨hq, rfl⟩ := hw
  rw [fixed6_eq b hp, fixed6_eq c hq] at h
  obtain ⟨h1, h2⟩ := sgn_inj h
  have e1 := rhe_million (magOf F.mb (b.toNat % 2 ^ (F.mb + F.eb))) F.u
  have e2 := rhe_million (magOf F.mb (c.toNat % 2 ^ (F.mb + F.eb))) F.u
  rw [h2] at e1
  rw [h1]
  generalize (magOf F.mb (b.toNat % 2 ^ (F.mb + F.eb)) : ℚ) / 2 ^ F.u = m at *
  generalize (rhe _ _ : ℚ) = k at *
  generalize (magOf F.mb (c.toNat % 2 ^ (F.mb + F.eb)) : ℚ) / 2 ^ F.u = n at *
  generalize decide (2 ^ (F.mb + F.eb) ≤ c.toNat) = s
  have f1 := abs_le.1 e1
  have f2 := abs_le.1 e2
  cases s <;> simp only [signedQ, Bool.false_eq_true, if_false, if_true] <;> rw [abs_le] <;> constructor <;> linarith

/-- C162: vectors with the same text from `to_string` differ by at most a millionth in each component. -/
theorem float_text_apart (F : Fmt) (hF : Component F) (x y z w x' y' z' w' : BitVec F.width) (a b c d a' b' c' d' : ℚ)
    (hx : FloatValue F.mb F.eb x.toNat a) (hy : FloatValue F.mb F.eb y.toNat b) (hz : FloatValue F.mb F.eb z.toNat c)
    (hw : FloatValue F.mb F.eb w.toNat d) (hx' : FloatValue F.mb F.eb x'.toNat a') (hy' : FloatValue F.mb F.eb y'.toNat b')
    (hz' : FloatValue F.mb F.eb z'.toNat c') (hw' : FloatValue F.mb F.eb w'.toNat d') :
    (toStringF2 F x y = toStringF2 F x' y' → |a - a'| ≤ 1 / 10 ^ 6 ∧ |b - b'| ≤ 1 / 10 ^ 6) ∧
    (toStringF3 F x y z = toStringF3 F x' y' z' → |a - a'| ≤ 1 / 10 ^ 6 ∧ |b - b'| ≤ 1 / 10 ^ 6 ∧ |c - c'| ≤ 1 / 10 ^ 6) ∧
    (toStringF4 F x y z w = toStringF4 F x' y' z' w' →
      |a - a'| ≤ 1 / 10 ^ 6 ∧ |b - b'| ≤ 1 / 10 ^ 6 ∧ |c - c'| ≤ 1 / 10 ^ 6 ∧ |d - d'| ≤ 1 / 10 ^ 6) := by
  have n := fixed6_no_blank hF
  have w2 : ∀ x y, words (toStringF2 F x y) = [fixed6 F x, fixed6 F y] := fun x y => by
    rw [← words_join [fixed6 F x, fixed6 F y] (by simp [n]) (by simp)]; simp [toStringF2, List.intercalate]
  have w3 : ∀ x y z, words (toStringF3 F x y z) = [fixed6 F x, fixed6 F y, fixed6 F z] := fun x y z => by
    rw [← words_join [fixed6 F x, fixed6 F y, fixed6 F z] (by simp [n]) (by simp)]; simp [toStringF3, List.intercalate]
  have w4 : ∀ x y z w, words (toStringF4 F x y z w) = [fixed6 F x, fixed6 F y, fixed6 F z, fixed6 F w] := fun x y z w => by
    rw [← words_join [fixed6 F x, fixed6 F y, fixed6 F z, fixed6 F w] (by simp [n]) (by simp)]; simp [toStringF4, List.intercalate]
  refine ⟨fun h => ?_, fun h => ?_, fun h => ?_⟩
  · have h := congrArg words h
    rw [w2, w2] at h
    simp only [List.cons.injEq, and_true] at h
    exact ⟨fixed6_apart hF _ _ hx hx' h.1, fixed6_apart hF _ _ hy hy' h.2⟩
  · have h := congrArg words h
    rw [w3, w3] at h
    simp only [List.cons.injEq, and_true] at h
    exact ⟨fixed6_apart hF _ _ hx hx' h.1, fixed6_apart hF _ _ hy hy' h.2.1, fixed6_apart hF _ _ hz hz' h.2.2⟩
  · have h := congrArg words h
    rw [w4, w4] at h
    simp only [List.cons.injEq, and_true] at h
    exact ⟨fixed6_apart hF _ _ hx hx' h.1, fixed6_apart hF _ _ hy hy' h.2.1, fixed6_apart hF _ _ hz hz' h.2.2.1, fixed6_apart hF _ _ hw hw' h.2.2.2⟩

/-- C162 is violated for exact texts: different vectors have the same text, the smallest positive float and zero from `to_string`, and the two
floats after 1 from a stream. -/
theorem float_text_lossy_violated :
    toStringF2 f32 (0x00000001#32) (0x3f800000#32) = toStringF2 f32 (0x00000000#32) (0x3f800000#32) ∧
    streamF2 f32 (0x3f800001#32) (0x3f800000#32) = streamF2 f32 (0x3f800002#32) (0x3f800000#32) := by
  constructor <;> decide +kernel

/-- 1.5 and -0.15625. -/
example : toStringF2 f32 (0x3fc00000#32) (0xbe200000#32) =
    [0x31#8, 0x2e#8, 0x35#8, 0x30#8, 0x30#8, 0x30#8, 0x30#8, 0x30#8, 0x20#8, 0x2d#8, 0x30#8, 0x2e#8, 0x31#8, 0x35#8, 0x36#8, 0x32#8, 0x35#8, 0x30#8] ∧
    streamF2 f32 (0x3fc00000#32) (0xbe200000#32) =
    [0x31#8, 0x2e#8, 0x35#8, 0x20#8, 0x2d#8, 0x30#8, 0x2e#8, 0x31#8, 0x35#8, 0x36#8, 0x32#8, 0x35#8] := by
  constructor <;> decide +kernel

end PreCore.VectorText
