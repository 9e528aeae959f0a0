import Mathlib.Tactic.Linarith
import Mathlib.Tactic.NormNum
import Mathlib.Tactic.Ring
import Mathlib.Tactic.FieldSimp
import Mathlib.Tactic.Positivity
import Verif.Model.FloatText
import Verif.Spec.FloatText
import Verif.Lemmas.CNum
/-!
# `strtod` finds the number a decimal text denotes
-/
namespace PreCore.Flt
open CNum Refl Spec

/-- The text does not continue a mantissa. -/
def TailOK (t : Text) : Prop := ∀ c, t.head? = some c → (∀ d, ¬ IsDigit 10 c d) ∧ c ≠ 0x2e#8 ∧ c ≠ 0x78#8 ∧ c ≠ 0x58#8

theorem e_not_digit {c : Byte} (h : c = 0x65#8 ∨ c = 0x45#8) (d : Nat) : ¬ IsDigit 10 c d := by
  unfold IsDigit
  rintro ⟨h1, h2⟩
  rcases h with rfl | rfl <;> simp at h2 <;> omega

theorem tail_ok {ex rest : Text} {e : Int} (he : Spec.Expo ex e) (hr : EndsNumber rest) : TailOK (ex ++ rest) := by
  intro c hc
  cases he with
  | none =>
    obtain ⟨h1, h2, _, _, h5, h6⟩ := hr c hc
    exact ⟨h1, h2, h5, h6⟩
  | @some c' _ _ _ _ hce _ _ _ =>
    simp only [List.cons_append, List.head?_cons, Option.some.injEq] at hc
    subst hc
    refine ⟨e_not_digit hce, ?_, ?_, ?_⟩ <;> (rintro rfl; rcases hce with h | h <;> exact absurd h (by decide))

theorem digitChars_length {base : Nat} {cs ds} (h : DigitChars base cs ds) : cs.length = ds.length := by
  induction h with
  | nil => rfl
  | cons _ _ ih => simp [ih]

theorem point_not_digit (d : Nat) : ¬ IsDigit 10 0x2e#8 d := by
  unfold IsDigit; rintro ⟨h1, h2⟩; simp at h2; omega

theorem mantissa_spec {ip fp tail : Text} {ids fds : List Nat} (hi : DigitChars 10 ip ids) (hf : Frac fp fds) (ht : TailOK tail) :
    mantissa 10 (ip ++ fp ++ tail) = (ids ++ fds, fds.length, tail) := by
  have hlen := digitChars_length hi
  unfold mantissa
  cases hf with
  | none =>
    have hd : digits 10 (ip ++ [] ++ tail) = ids := by
      rw [List.append_nil]
      exact digits_append 10 (by decide) hi (fun c hc => (ht c hc).1)
    simp only [hd]
    rw [List.append_nil, ← hlen, List.drop_left]
    cases tail with
    | nil => simp
    | cons c r =>
      have := (ht c rfl).2.1
      simp [this]
  | @some cs ds hcs =>
    have hd : digits 10 (ip ++ (0x2e#8 :: cs) ++ tail) = ids := by
      rw [List.append_assoc]
      refine digits_append 10 (by decide) hi (fun c hc => ?_)
      simp only [List.cons_append, List.head?_cons, Option.some.injEq] at hc
      subst hc
      exact point_not_digit
    simp only [hd]
    rw [List.append_assoc, ← hlen, List.drop_left]
    have hd2 : digits 10 (cs ++ tail) = fds := digits_append 10 (by decide) hcs (fun c hc => (ht c hc).1)
    simp only [List.cons_append, if_true, hd2]
    rw [← digitChars_length hcs, List.drop_left]

theorem lower_e {c : Byte} (h : c = 0x65#8 ∨ c = 0x45#8) : lower c = 0x65#8 := by
  rcases h with rfl | rfl <;> decide

theorem lower_eq_e {c : Byte} (h : lower c = 0x65#8) : c = 0x65#8 ∨ c = 0x45#8 := by
  unfold lower toLower at h
  split at h
  · right
    have := congrArg BitVec.toNat h
    apply BitVec.eq_of_toNat_eq
    simp only [BitVec.toNat_add, BitVec.toNat_ofNat] at this
    simp only [BitVec.toNat_ofNat]
    omega
  · exact .inl h

theorem exponent_spec {ex rest : Text} {e : Int} (he : Spec.Expo ex e) (hr : EndsNumber rest) : exponent 0x65#8 (ex ++ rest) = e := by
  cases he with
  | none =>
    unfold exponent
    cases rest with
    | nil => rfl
    | cons c r =>
      obtain ⟨_, _, h3, h4, _, _⟩ := hr c rfl
      have : lower c ≠ 0x65#8 := fun h => by rcases lower_eq_e h with h | h <;> contradiction
      simp [this]
  | @some c sg neg cs ds hce hs hcs hne =>
    have hl := lower_e hce
    unfold exponent
    simp only [List.cons_append, hl, if_true, List.append_assoc]
    have hsg : sign (sg ++ (cs ++ rest)) = (neg, cs ++ rest) := by
      refine sign_spec hs _ (fun _ c hc => ?_)
      cases hcs with
      | nil => exact absurd rfl hne
      | cons hd _ =>
        simp only [List.cons_append, List.head?_cons, Option.some.injEq] at hc
        subst hc
        exact digit_not_sign hd
    have hdg : digits 10 (cs ++ rest) = ds := digits_append 10 (by decide) hcs (fun c hc => (hr c hc).1)
    simp only [hsg, hdg, value_zero]

theorem lower_digit {c : Byte} (h : ∃ d, IsDigit 10 c d) : lower c = c := by
  obtain ⟨d, h1, h2⟩ := h
  unfold lower toLower
  rw [if_neg]
  omega

theorem digit_range {c : Byte} {d : Nat} (h : IsDigit 10 c d) : 48 ≤ c.toNat ∧ c.toNat ≤ 57 := by
  obtain ⟨h1, h2⟩ := h
  omega

/-- First character of a number. -/
theorem head_spec {ip fp tail : Text} {ids fds : List Nat} (hi : DigitChars 10 ip ids) (hf : Frac fp fds) (hne : ids ++ fds ≠ []) :
    ∃ c r, ip ++ fp ++ tail = c :: r ∧ (c = 0x2e#8 ∨ (48 ≤ c.toNat ∧ c.toNat ≤ 57)) := by
  cases hi with
  | nil =>
    cases hf with
    | none => exact absurd rfl hne
    | some hcs => exact ⟨_, _, rfl, .inl rfl⟩
  | cons hd _ => exact ⟨_, _, rfl, .inr (digit_range hd)⟩

theorem scaled_spec (n b : Nat) (hb : 0 < b) (e : Int) : ∃ n' d, scaled n b e = .frac n' d ∧ 0 < d ∧ (n' : ℚ) / d = n * (b : ℚ) ^ e := by
  unfold scaled
  have hb' : (b : ℚ) ≠ 0 := by positivity
  split
  · rename_i h
    refine ⟨_, _, rfl, by decide, ?_⟩
    push_cast
    rw [div_one, ← zpow_natCast, Int.toNat_of_nonneg h]
  · rename_i h
    refine ⟨_, _, rfl, Nat.pow_pos hb, ?_⟩
    push_cast
    rw [← zpow_natCast, Int.toNat_of_nonneg (by omega), zpow_neg, div_inv_eq_mul]

theorem number_spec {ip fp ex rest : Text} {ids fds : List Nat} {e : Int} (hi : DigitChars 10 ip ids) (hf : Frac fp fds)
    (hne : ids ++ fds ≠ []) (he : Spec.Expo ex e) (hr : EndsNumber rest) :
    number (ip ++ fp ++ (ex ++ rest)) = some (scaled (positional 10 (ids ++ fds)) 10 (e - fds.length)) := by
  have ht := tail_ok he hr
  obtain ⟨c, r, hcr, hc⟩ := head_spec (tail := ex ++ rest) hi hf hne
  have hm := mantissa_spec hi hf ht
  have hx := exponent_spec he hr
  have hlow : lower c = c := by
    unfold lower toLower
    rw [if_neg]
    rcases hc with rfl | h
    · decide
    · omega
  -- no hexadecimal mark
  have hhex : startsCI (ip ++ fp ++ (ex ++ rest)) [0x30#8, 0x78#8] = false := by
    rw [Bool.eq_false_iff]
    intro h
    unfold startsCI at h
    simp only [beq_iff_eq] at h
    have second : ∀ y ys x xs, (x :: y :: ys : Text) = xs → xs = ip ++ fp ++ (ex ++ rest) → lower x = 0x30#8 → lower y = 0x78#8 → False := by
      intro y ys x xs h0 h1 hx1 hy1
      have hyx : y = 0x78#8 ∨ y = 0x58#8 := by
        unfold lower toLower at hy1
        split at hy1
        · right
          have := congrArg BitVec.toNat hy1
          apply BitVec.eq_of_toNat_eq
          simp only [BitVec.toNat_add, BitVec.toNat_ofNat] at this
          simp only [BitVec.toNat_ofNat]
          omega
        · exact .inl hy1
      subst h0
      have hxnd : ∀ d, ¬ IsDigit 10 y d := by
        intro d hd
        have := digit_range hd
        rcases hyx with rfl | rfl <;> simp at this
      have hyp : y ≠ 0x2e#8 := by rcases hyx with rfl | rfl <;> decide
      have hytail : ∀ l, (ex ++ rest) = y :: l → False := by
        intro l hl
        have := ht y (by rw [hl]; rfl)
        rcases hyx with h | h
        · exact this.2.2.1 h
        · exact this.2.2.2 h
      cases hi with
      | nil =>
        cases hf with
        | none => exact hne rfl
        | some hcs =>
          simp only [List.nil_append, List.cons_append, List.cons.injEq] at h1
          rw [h1.1] at hx1
          exact absurd hx1 (by decide)
      | cons hd htl =>
        simp only [List.cons_append, List.cons.injEq] at h1
        obtain ⟨-, h1⟩ := h1
        cases htl with
        | nil =>
          cases hf with
          | none => exact hytail _ h1.symm
          | some hcs =>
            simp only [List.nil_append, List.cons_append, List.cons.injEq] at h1
            exact hyp h1.1
        | cons hd2 _ =>
          simp only [List.cons_append, List.cons.injEq] at h1
          rw [h1.1] at hxnd
          exact hxnd _ hd2
    match hl : ip ++ fp ++ (ex ++ rest), h with
    | [], h => simp at h
    | [x], h => simp at h
    | x :: y :: ys, h =>
      simp only [List.length_cons, List.length_nil, Nat.reduceAdd, List.take_succ_cons, List.take_zero, List.map_cons, List.map_nil,
        List.cons.injEq, and_true] at h
      exact second y ys x _ rfl hl.symm h.1 h.2
  have first : ∀ w : Byte, ∀ ws : Text, (97 ≤ w.toNat) → startsCI (ip ++ fp ++ (ex ++ rest)) (w :: ws) = false := by
    intro w ws hw
    rw [Bool.eq_false_iff]
    intro h
    unfold startsCI at h
    rw [hcr] at h
    simp only [List.length_cons, List.take_succ_cons, List.map_cons, beq_iff_eq, List.cons.injEq] at h
    rw [hlow] at h
    rw [← h.1] at hw
    rcases hc with rfl | h
    · simp at hw
    · omega
  unfold number
  rw [first _ _ (by decide), first _ _ (by decide)]
  simp only [hhex, Bool.false_eq_true, false_and, if_false, hm]
  rw [if_neg hne, hx, value_zero]

/-- `strtod` finds the number `v` with this sign in the text. -/
def Reads (t : Text) (neg : Bool) (v : ℚ) : Prop := ∃ n d, strtod t = some (neg, .frac n d) ∧ 0 < d ∧ (n : ℚ) / d = v

/-- A decimal text is read as the number it denotes. -/
theorem strtod_decimal {t : Text} {neg : Bool} {v : ℚ} (h : Decimal t neg v) : Reads t neg v := by
  cases h with
  | @mk ws sg neg ip ids fp fds ex e rest hw hs hi hf hne he hr =>
    obtain ⟨c, r, hcr, hc⟩ := head_spec (tail := ex ++ rest) hi hf hne
    have hcw : ¬ White c := by
      unfold White
      rcases hc with rfl | h
      · rintro (h | h) <;> revert h <;> decide
      · rintro (h' | h')
        · subst h'; simp at h
        · omega
    have hcs : c ≠ 0x2d#8 ∧ c ≠ 0x2b#8 := by
      rcases hc with rfl | h
      · decide
      · constructor <;> (rintro rfl; simp at h)
    have hsk : skipSpace (ws ++ sg ++ ip ++ fp ++ ex ++ rest) = sg ++ (ip ++ fp ++ (ex ++ rest)) := by
      have e0 : ws ++ sg ++ ip ++ fp ++ ex ++ rest = ws ++ (sg ++ (ip ++ fp ++ (ex ++ rest))) := by simp [List.append_assoc]
      rw [e0, skipSpace_append hw]
      have hns : ∀ x l, ¬ White x → skipSpace (x :: l) = x :: l := by
        intro x l hx
        unfold skipSpace
        rw [if_neg (fun h => hx ((isSpace_iff x).1 h))]
      cases hs with
      | none => rw [List.nil_append, hcr]; exact hns _ _ hcw
      | plus => exact hns _ _ (by unfold White; decide)
      | minus => exact hns _ _ (by unfold White; decide)
    have hsg : sign (sg ++ (ip ++ fp ++ (ex ++ rest))) = (neg, ip ++ fp ++ (ex ++ rest)) := by
      refine sign_spec hs _ (fun _ x hx => ?_)
      rw [hcr] at hx
      simp only [List.head?_cons, Option.some.injEq] at hx
      subst hx
      exact hcs
    obtain ⟨n, d, h1, h2, h3⟩ := scaled_spec (positional 10 (ids ++ fds)) 10 (by decide) (e - fds.length)
    refine ⟨n, d, ?_, h2, h3⟩
    unfold strtod
    simp only [hsk, hsg, number_spec hi hf hne he hr, h1, Option.map_some]

/-! ## Hexadecimal texts -/

theorem digit10_16 {c : Byte} (h : ∀ d, ¬ IsDigit 16 c d) (d : Nat) : ¬ IsDigit 10 c d := by
  rintro ⟨h1, h2⟩
  exact h d ⟨by omega, h2⟩

theorem p_not_digit {c : Byte} (h : c = 0x70#8 ∨ c = 0x50#8) (d : Nat) : ¬ IsDigit 16 c d := by
  unfold IsDigit
  rintro ⟨h1, h2⟩
  rcases h with rfl | rfl <;> simp at h2 <;> omega

theorem point_not_hex (d : Nat) : ¬ IsDigit 16 0x2e#8 d := by
  unfold IsDigit; rintro ⟨h1, h2⟩; simp at h2; omega

theorem lower_eq_p {c : Byte} (h : lower c = 0x70#8) : c = 0x70#8 ∨ c = 0x50#8 := by
  unfold lower toLower at h
  split at h
  · right
    have := congrArg BitVec.toNat h
    apply BitVec.eq_of_toNat_eq
    simp only [BitVec.toNat_add, BitVec.toNat_ofNat] at this
    simp only [BitVec.toNat_ofNat]
    omega
  · exact .inl h

theorem hexTail_ok {ex rest : Text} {e : Int} (he : HexExpo ex e) (hr : EndsHex rest) (c : Byte) (hc : (ex ++ rest).head? = some c) :
    (∀ d, ¬ IsDigit 16 c d) ∧ c ≠ 0x2e#8 := by
  cases he with
  | none => exact ⟨(hr c hc).1, (hr c hc).2.1⟩
  | @some c' _ _ _ _ hce _ _ _ =>
    simp only [List.cons_append, List.head?_cons, Option.some.injEq] at hc
    subst hc
    exact ⟨p_not_digit hce, by rintro rfl; rcases hce with h | h <;> exact absurd h (by decide)⟩

theorem hexMantissa_spec {ip fp tail : Text} {ids fds : List Nat} (hi : DigitChars 16 ip ids) (hf : HexFrac fp fds)
    (ht : ∀ c, tail.head? = some c → (∀ d, ¬ IsDigit 16 c d) ∧ c ≠ 0x2e#8) :
    mantissa 16 (ip ++ fp ++ tail) = (ids ++ fds, fds.length, tail) := by
  have hlen := digitChars_length hi
  unfold mantissa
  cases hf with
  | none =>
    have hd : digits 16 (ip ++ [] ++ tail) = ids := by
      rw [List.append_nil]
      exact digits_append 16 (by decide) hi (fun c hc => (ht c hc).1)
    simp only [hd]
    rw [List.append_nil, ← hlen, List.drop_left]
    cases tail with
    | nil => simp
    | cons c r =>
      have := (ht c rfl).2
      simp [this]
  | @some cs ds hcs =>
    have hd : digits 16 (ip ++ (0x2e#8 :: cs) ++ tail) = ids := by
      rw [List.append_assoc]
      refine digits_append 16 (by decide) hi (fun c hc => ?_)
      simp only [List.cons_append, List.head?_cons, Option.some.injEq] at hc
      subst hc
      exact point_not_hex
    simp only [hd]
    rw [List.append_assoc, ← hlen, List.drop_left]
    have hd2 : digits 16 (cs ++ tail) = fds := digits_append 16 (by decide) hcs (fun c hc => (ht c hc).1)
    simp only [List.cons_append, if_true, hd2]
    rw [← digitChars_length hcs, List.drop_left]

theorem hexExponent_spec {ex rest : Text} {e : Int} (he : HexExpo ex e) (hr : EndsHex rest) : exponent 0x70#8 (ex ++ rest) = e := by
  cases he with
  | none =>
    unfold exponent
    cases rest with
    | nil => rfl
    | cons c r =>
      obtain ⟨_, _, h3, h4⟩ := hr c rfl
      have : lower c ≠ 0x70#8 := fun h => by rcases lower_eq_p h with h | h <;> contradiction
      simp [this]
  | @some c sg neg cs ds hce hs hcs hne =>
    have hl : lower c = 0x70#8 := by rcases hce with rfl | rfl <;> decide
    unfold exponent
    simp only [List.cons_append, hl, if_true, List.append_assoc]
    have hsg : sign (sg ++ (cs ++ rest)) = (neg, cs ++ rest) := by
      refine sign_spec hs _ (fun _ c hc => ?_)
      cases hcs with
      | nil => exact absurd rfl hne
      | cons hd _ =>
        simp only [List.cons_append, List.head?_cons, Option.some.injEq] at hc
        subst hc
        exact digit_not_sign hd
    have hdg : digits 10 (cs ++ rest) = ds := digits_append 10 (by decide) hcs (fun c hc => digit10_16 (hr c hc).1)
    simp only [hsg, hdg, value_zero]

/-- A hexadecimal text is read as the number it denotes. -/
theorem strtod_hex {t : Text} {neg : Bool} {v : ℚ} (h : Hexadecimal t neg v) : Reads t neg v := by
  cases h with
  | @mk ws sg neg x ip ids fp fds ex e rest hw hs hx hi hf hne he hr =>
    have hsk : skipSpace (ws ++ sg ++ [0x30#8, x] ++ ip ++ fp ++ ex ++ rest) = sg ++ (0x30#8 :: x :: (ip ++ fp ++ (ex ++ rest))) := by
      have e0 : ws ++ sg ++ [0x30#8, x] ++ ip ++ fp ++ ex ++ rest = ws ++ (sg ++ (0x30#8 :: x :: (ip ++ fp ++ (ex ++ rest)))) := by
        simp [List.append_assoc]
      rw [e0, skipSpace_append hw]
      have hns : ∀ x l, ¬ White x → skipSpace (x :: l) = x :: l := by
        intro x l hx
        unfold skipSpace
        rw [if_neg (fun h => hx ((isSpace_iff x).1 h))]
      cases hs with
      | none => exact hns _ _ (by unfold White; decide)
      | plus => exact hns _ _ (by unfold White; decide)
      | minus => exact hns _ _ (by unfold White; decide)
    have hsg : sign (sg ++ (0x30#8 :: x :: (ip ++ fp ++ (ex ++ rest)))) = (neg, 0x30#8 :: x :: (ip ++ fp ++ (ex ++ rest))) := by
      refine sign_spec hs _ (fun _ y hy => ?_)
      simp only [List.head?_cons, Option.some.injEq] at hy
      subst hy
      decide
    have hm := hexMantissa_spec hi hf (hexTail_ok he hr)
    have hxp := hexExponent_spec he hr
    have hnum : number (0x30#8 :: x :: (ip ++ fp ++ (ex ++ rest))) = some (scaled (positional 16 (ids ++ fds)) 2 (e - 4 * fds.length)) := by
      unfold number
      have w1 : startsCI (0x30#8 :: x :: (ip ++ fp ++ (ex ++ rest))) [0x69#8, 0x6e#8, 0x66#8] = false := by
        unfold startsCI
        rw [beq_eq_false_iff_ne]
        intro hh
        simp only [List.length_cons, List.take_succ_cons, List.map_cons, List.cons.injEq] at hh
        exact absurd hh.1 (by decide)
      have w2 : startsCI (0x30#8 :: x :: (ip ++ fp ++ (ex ++ rest))) [0x6e#8, 0x61#8, 0x6e#8] = false := by
        unfold startsCI
        rw [beq_eq_false_iff_ne]
        intro hh
        simp only [List.length_cons, List.take_succ_cons, List.map_cons, List.cons.injEq] at hh
        exact absurd hh.1 (by decide)
      have w3 : startsCI (0x30#8 :: x :: (ip ++ fp ++ (ex ++ rest))) [0x30#8, 0x78#8] = true := by
        unfold startsCI
        rw [beq_iff_eq]
        simp only [List.length_cons, List.length_nil, Nat.reduceAdd, List.take_succ_cons, List.take_zero, List.map_cons, List.map_nil]
        rcases hx with rfl | rfl <;> decide
      rw [w1, w2]
      simp only [Bool.false_eq_true, if_false, w3, List.drop_succ_cons, List.drop_zero, hm, true_and]
      rw [if_pos hne, hxp, value_zero]
    obtain ⟨n, d, h1, h2, h3⟩ := scaled_spec (positional 16 (ids ++ fds)) 2 (by decide) (e - 4 * fds.length)
    refine ⟨n, d, ?_, h2, ?_⟩
    · unfold strtod
      simp only [hsk, hsg, hnum, h1, Option.map_some]
    · rw [h3]
      push_cast
      rw [zpow_sub₀ (by norm_num), show (4 * (fds.length : Int)) = ((4 * fds.length : Nat) : Int) by push_cast; rfl, zpow_natCast, pow_mul,
        show (2 : ℚ) ^ 4 = 16 by norm_num]
      ring

end PreCore.Flt
