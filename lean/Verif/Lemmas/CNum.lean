import Verif.Model.Reflector
import Verif.Spec.Number
/-! # Number parsing: the conversion functions compute the specification -/
namespace PreCore.CNum
open Spec Refl

theorem digitVal_iff (base : Nat) (hb : base ≤ 36) (c : Byte) (d : Nat) : digitVal base c = some d ↔ IsDigit base c d := by
  have hc := c.isLt
  unfold digitVal IsDigit
  constructor
  · intro h
    dsimp only at h
    generalize hv : (if 48 ≤ c.toNat ∧ c.toNat ≤ 57 then c.toNat - 48
        else if 97 ≤ c.toNat ∧ c.toNat ≤ 122 then c.toNat - 87
        else if 65 ≤ c.toNat ∧ c.toNat ≤ 90 then c.toNat - 55 else 99) = v at h
    by_cases h1 : v < base
    · rw [if_pos h1] at h
      simp only [Option.some.injEq] at h
      subst h
      refine ⟨h1, ?_⟩
      split at hv
      · omega
      · split at hv
        · omega
        · split at hv <;> omega
    · rw [if_neg h1] at h; cases h
  · rintro ⟨h1, h2⟩
    have hv : (if 48 ≤ c.toNat ∧ c.toNat ≤ 57 then c.toNat - 48
        else if 97 ≤ c.toNat ∧ c.toNat ≤ 122 then c.toNat - 87
        else if 65 ≤ c.toNat ∧ c.toNat ≤ 90 then c.toNat - 55 else 99) = d := by
      rcases h2 with h2 | ⟨h2, h3, h4 | h4⟩
      · rw [if_pos (by omega)]; omega
      · rw [if_neg (by omega), if_pos (by omega)]; omega
      · rw [if_neg (by omega), if_neg (by omega), if_pos (by omega)]; omega
    simp only [hv]
    rw [if_pos h1]

theorem digitVal_none (base : Nat) (hb : base ≤ 36) (c : Byte) : digitVal base c = none ↔ ∀ d, ¬ IsDigit base c d := by
  constructor
  · intro h d hd
    rw [(digitVal_iff base hb c d).2 hd] at h; cases h
  · intro h
    cases hd : digitVal base c with
    | none => rfl
    | some d => exact absurd ((digitVal_iff base hb c d).1 hd) (h d)

theorem digits_append (base : Nat) (hb : base ≤ 36) {cs ds rest} (h : DigitChars base cs ds) (hr : Stops base rest) :
    digits base (cs ++ rest) = ds := by
  induction h with
  | nil =>
    cases rest with
    | nil => rfl
    | cons c r => simp only [List.nil_append, digits, (digitVal_none base hb c).2 (hr c rfl)]
  | cons hd _ ih => simp only [List.cons_append, digits, (digitVal_iff base hb _ _).2 hd, ih]

theorem digits_split (base : Nat) (hb : base ≤ 36) (t : List Byte) :
    ∃ cs rest, t = cs ++ rest ∧ DigitChars base cs (digits base t) ∧ Stops base rest := by
  induction t with
  | nil => exact ⟨[], [], rfl, .nil, by intro c h; cases h⟩
  | cons c t ih =>
    unfold digits
    cases hd : digitVal base c with
    | none =>
      refine ⟨[], c :: t, rfl, .nil, ?_⟩
      intro c' h'; simp only [List.head?_cons, Option.some.injEq] at h'; subst h'
      exact (digitVal_none base hb c).1 hd
    | some d =>
      obtain ⟨cs, rest, h1, h2, h3⟩ := ih
      exact ⟨c :: cs, rest, by rw [h1]; rfl, .cons ((digitVal_iff base hb c d).1 hd) h2, h3⟩

theorem value_positional (base : Nat) (ds : List Nat) : ∀ acc,
    value base acc ds = acc * base ^ ds.length + positional base ds := by
  induction ds with
  | nil => intro acc; simp [value, positional]
  | cons d ds ih =>
    intro acc
    simp only [value, positional, ih, List.length_cons, Nat.pow_succ, Nat.add_mul]
    rw [Nat.mul_assoc, Nat.mul_comm base, Nat.add_assoc]

theorem value_zero (base : Nat) (ds : List Nat) : value base 0 ds = positional base ds := by
  rw [value_positional]; simp

theorem isSpace_iff (c : Byte) : isSpace c = true ↔ White c := by
  unfold isSpace White
  simp

theorem skipSpace_append {ws : List Byte} (h : ∀ c ∈ ws, White c) (t : List Byte) : skipSpace (ws ++ t) = skipSpace t := by
  induction ws with
  | nil => rfl
  | cons c ws ih =>
    simp only [List.cons_append, skipSpace, (isSpace_iff c).2 (h c (by simp)), if_true]
    exact ih (fun c' hc' => h c' (by simp [hc']))

theorem skipSpace_split (t : List Byte) : ∃ ws, (∀ c ∈ ws, White c) ∧ t = ws ++ skipSpace t ∧
    ∀ c, (skipSpace t).head? = some c → ¬ White c := by
  induction t with
  | nil => exact ⟨[], by simp, rfl, by simp [skipSpace]⟩
  | cons c t ih =>
    obtain ⟨ws, h1, h2, h3⟩ := ih
    by_cases hc : isSpace c = true
    · refine ⟨c :: ws, ?_, ?_, ?_⟩
      · intro c' hc'
        rcases List.mem_cons.1 hc' with h | h
        · subst h; exact (isSpace_iff _).1 hc
        · exact h1 c' h
      · simp only [skipSpace, hc, if_true, List.cons_append]; rw [← h2]
      · simp only [skipSpace, hc, if_true]; exact h3
    · refine ⟨[], by simp, ?_, ?_⟩
      · simp [skipSpace, hc]
      · intro c' h'
        simp only [skipSpace, hc] at h'
        simp only [Bool.false_eq_true, if_false, List.head?_cons, Option.some.injEq] at h'
        subst h'
        intro hw; exact hc ((isSpace_iff _).2 hw)

theorem numBase_hex {t : List Byte} (h : HexText t) : numBase t = 16 := by
  unfold numBase
  rcases h with ⟨r, rfl⟩ | ⟨r, rfl⟩ <;> simp [hexMark]

theorem take2 (t : List Byte) (a b : Byte) (h : t.take 2 = [a, b]) : ∃ r, t = [a, b] ++ r :=
  ⟨t.drop 2, by rw [← h, List.take_append_drop]⟩
theorem take3 (t : List Byte) (a b c : Byte) (h : t.take 3 = [a, b, c]) : ∃ r, t = [a, b, c] ++ r :=
  ⟨t.drop 3, by rw [← h, List.take_append_drop]⟩

theorem numBase_dec {t : List Byte} (h : ¬ HexText t) : numBase t = 10 := by
  unfold numBase
  rw [if_neg]
  rintro (h' | h')
  · obtain ⟨r, hr⟩ := take2 _ _ _ h'
    exact h (Or.inl ⟨r, hr⟩)
  · obtain ⟨r, hr⟩ := take3 _ _ _ _ h'
    exact h (Or.inr ⟨r, hr⟩)

theorem hexPrefix_dec (t : List Byte) : hexPrefix 10 t = t := by
  unfold hexPrefix
  split
  · rw [if_neg (by simp)]
  · rfl

theorem digit_not_white {base : Nat} {c : Byte} {d : Nat} (h : IsDigit base c d) : ¬ White c := by
  unfold IsDigit White at *
  rintro (h' | h')
  · subst h'; simp at h; omega
  · omega

theorem sign_spec {sg neg} (hs : Sign sg neg) (r : List Byte) (hr : sg = [] → ∀ c, r.head? = some c → c ≠ 0x2d#8 ∧ c ≠ 0x2b#8) :
    sign (sg ++ r) = (neg, r) := by
  cases hs with
  | none =>
    cases r with
    | nil => rfl
    | cons c r =>
      obtain ⟨h1, h2⟩ := hr rfl c rfl
      simp [sign, h1, h2]
  | plus => simp [sign]
  | minus => simp [sign]

theorem digit_not_sign {base : Nat} {c : Byte} {d : Nat} (h : IsDigit base c d) : c ≠ 0x2d#8 ∧ c ≠ 0x2b#8 := by
  unfold IsDigit at h
  constructor <;> (intro h'; subst h'; simp at h; omega)

theorem parse_hex_digits {cs ds rest} (hd : DigitChars 16 cs ds) (hn : ds ≠ []) (hr : Stops 16 rest) :
    digits 16 (hexPrefix 16 (hexMark ++ cs ++ rest)) = ds := by
  cases hd with
  | nil => exact absurd rfl hn
  | cons h1 h2 =>
    rename_i c d cs ds
    have : hexPrefix 16 (hexMark ++ (c :: cs) ++ rest) = (c :: cs) ++ rest := by
      simp [hexMark, hexPrefix, (digitVal_iff 16 (by omega) c d).2 h1]
    rw [this]
    exact digits_append 16 (by omega) (.cons h1 h2) hr

theorem parse_hex_zero {rest} (hr : Stops 16 rest) :
    digits 16 (hexPrefix 16 (hexMark ++ rest)) = [0] := by
  have h0 : hexPrefix 16 (hexMark ++ rest) = hexMark ++ rest := by
    cases rest with
    | nil => rfl
    | cons c r => simp [hexMark, hexPrefix, (digitVal_none 16 (by omega) c).2 (hr c rfl)]
  rw [h0]
  simp [hexMark, digits, digitVal]

theorem literal_parse {t neg m} (h : Literal t neg m) : parse (numBase t) t = some (neg, m) := by
  cases h with
  | dec hw hs hd hn hr hh =>
    rename_i ws sg cs ds rest
    rw [numBase_dec hh]
    unfold parse
    rw [List.append_assoc, List.append_assoc, skipSpace_append hw]
    cases hd with
    | nil => exact absurd rfl hn
    | cons h1 h2 =>
      rename_i c d cs ds
      have hsk : skipSpace (sg ++ (c :: cs ++ rest)) = sg ++ (c :: cs ++ rest) := by
        cases hs with
        | none => 
          have := digit_not_white h1
          simp [skipSpace, mt (isSpace_iff c).1 this]
        | plus => simp [skipSpace, isSpace]
        | minus => simp [skipSpace, isSpace]
      rw [hsk, sign_spec hs _ (by
        intro _ c' hc'; simp only [List.cons_append, List.head?_cons, Option.some.injEq] at hc'; subst hc'
        exact digit_not_sign h1)]
      simp only [hexPrefix_dec]
      rw [digits_append 10 (by omega) (.cons h1 h2) hr]
      simp only [value_zero]
  | hex hd hn hr =>
    rename_i cs ds rest
    rw [numBase_hex (Or.inl ⟨cs ++ rest, by rw [List.append_assoc]⟩)]
    unfold parse
    rw [show skipSpace (hexMark ++ cs ++ rest) = hexMark ++ cs ++ rest from by simp [skipSpace, hexMark, isSpace]]
    rw [show sign (hexMark ++ cs ++ rest) = (false, hexMark ++ cs ++ rest) from by simp [sign, hexMark]]
    simp only [parse_hex_digits hd hn hr]
    cases hd with
    | nil => exact absurd rfl hn
    | cons => simp only [value_zero]
  | hexNeg hd hn hr =>
    rename_i cs ds rest
    have hcons : 0x2d#8 :: hexMark ++ cs ++ rest = 0x2d#8 :: (hexMark ++ cs ++ rest) := rfl
    rw [numBase_hex (Or.inr ⟨cs ++ rest, by rw [hcons, List.append_assoc]; rfl⟩)]
    unfold parse
    rw [hcons, show skipSpace (0x2d#8 :: (hexMark ++ cs ++ rest)) = 0x2d#8 :: (hexMark ++ cs ++ rest) from by simp [skipSpace, isSpace]]
    rw [show sign (0x2d#8 :: (hexMark ++ cs ++ rest)) = (true, hexMark ++ cs ++ rest) from by simp [sign]]
    simp only [parse_hex_digits hd hn hr]
    cases hd with
    | nil => exact absurd rfl hn
    | cons => simp only [value_zero]
  | zero hr =>
    rename_i rest
    rw [numBase_hex (Or.inl ⟨_, rfl⟩)]
    unfold parse
    rw [show skipSpace (hexMark ++ rest) = hexMark ++ rest from by simp [skipSpace, hexMark, isSpace]]
    rw [show sign (hexMark ++ rest) = (false, hexMark ++ rest) from by simp [sign, hexMark]]
    simp only [parse_hex_zero hr]
    rfl
  | zeroNeg hr =>
    rename_i rest
    rw [numBase_hex (Or.inr ⟨rest, rfl⟩), show 0x2d#8 :: hexMark ++ rest = 0x2d#8 :: (hexMark ++ rest) from rfl]
    unfold parse
    rw [show skipSpace (0x2d#8 :: (hexMark ++ rest)) = 0x2d#8 :: (hexMark ++ rest) from by simp [skipSpace, isSpace]]
    rw [show sign (0x2d#8 :: (hexMark ++ rest)) = (true, hexMark ++ rest) from by simp [sign]]
    simp only [parse_hex_zero hr]
    rfl

theorem sign_split (t : List Byte) : ∃ sg, Sign sg (sign t).1 ∧ t = sg ++ (sign t).2 := by
  cases t with
  | nil => exact ⟨[], .none, rfl⟩
  | cons c t =>
    simp only [sign]
    by_cases h1 : c = 0x2d#8
    · subst h1; exact ⟨[0x2d#8], .minus, rfl⟩
    · by_cases h2 : c = 0x2b#8
      · subst h2; exact ⟨[0x2b#8], .plus, rfl⟩
      · rw [if_neg h1, if_neg h2]; exact ⟨[], .none, rfl⟩

theorem hex_literal (r : List Byte) : (∃ m, Literal (hexMark ++ r) false m) ∧ ∃ m, Literal (0x2d#8 :: hexMark ++ r) true m := by
  obtain ⟨cs, rest, h1, h2, h3⟩ := digits_split 16 (by omega) r
  by_cases hn : digits 16 r = []
  · rw [hn] at h2
    cases h2
    simp only [List.nil_append] at h1
    subst h1
    exact ⟨⟨_, .zero h3⟩, ⟨_, .zeroNeg h3⟩⟩
  · generalize hds : digits 16 r = ds at h2 hn
    rw [h1]
    have e1 := Literal.hex h2 hn h3
    have e2 := Literal.hexNeg h2 hn h3
    simp only [List.append_assoc, List.cons_append] at e1 e2
    exact ⟨⟨_, e1⟩, ⟨_, by simp only [List.cons_append]; exact e2⟩⟩

/-- Every text that parses is a literal. -/
theorem parse_literal {t neg m} (h : parse (numBase t) t = some (neg, m)) : Literal t neg m := by
  have key : ∀ neg' m', Literal t neg' m' → Literal t neg m := by
    intro neg' m' h'
    have := literal_parse h'
    rw [h] at this
    simp only [Option.some.injEq, Prod.mk.injEq] at this
    rw [this.1, this.2]; exact h'
  by_cases hx : HexText t
  · rcases hx with ⟨r, rfl⟩ | ⟨r, rfl⟩
    · obtain ⟨m', h'⟩ := (hex_literal r).1; exact key _ _ h'
    · obtain ⟨m', h'⟩ := (hex_literal r).2; exact key _ _ h'
  · rw [numBase_dec hx] at h
    unfold parse at h
    obtain ⟨ws, hw, ht, _⟩ := skipSpace_split t
    generalize skipSpace t = s at *
    obtain ⟨sg, hs, hsg⟩ := sign_split s
    generalize sign s = p at *
    obtain ⟨n', r⟩ := p
    simp only [hexPrefix_dec] at h hs hsg
    obtain ⟨cs, rest, h1, h2, h3⟩ := digits_split 10 (by omega) r
    subst hsg
    subst ht
    generalize hds : digits 10 r = ds at h h2
    cases ds with
    | nil => simp at h
    | cons d ds =>
      simp only [Option.some.injEq, Prod.mk.injEq] at h
      obtain ⟨rfl, rfl⟩ := h
      subst h1
      rw [value_zero]
      have := Literal.dec hw hs h2 (by simp) h3 (by simpa [List.append_assoc] using hx)
      simpa [List.append_assoc] using this

theorem parse_iff {t neg m} : parse (numBase t) t = some (neg, m) ↔ Literal t neg m := ⟨parse_literal, literal_parse⟩

theorem parse_none {t} : parse (numBase t) t = none ↔ ∀ neg m, ¬ Literal t neg m := by
  constructor
  · intro h neg m hl
    rw [literal_parse hl] at h; cases h
  · intro h
    cases hp : parse (numBase t) t with
    | none => rfl
    | some p => exact absurd (parse_literal hp) (h _ _)

end PreCore.CNum
