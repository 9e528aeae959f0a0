import Verif.Model.Unicode
/-!
# C73: text conversion
-/
namespace PreCore.Uni8

/-- A Unicode scalar value. -/
def Scalar (c : Nat) : Prop := c < 0x110000 ∧ ¬ (0xd800 ≤ c ∧ c < 0xe000)

/-- UTF-8 of a text (Unicode table 3-6). -/
def utf8 (t : List Nat) : List Nat := t.flatMap fun c =>
  if c < 0x80 then [c]
  else if c < 0x800 then [0xc0 + c / 64, 0x80 + c % 64]
  else if c < 0x10000 then [0xe0 + c / 4096, 0x80 + c / 64 % 64, 0x80 + c % 64]
  else [0xf0 + c / 262144, 0x80 + c / 4096 % 64, 0x80 + c / 64 % 64, 0x80 + c % 64]

/-- UTF-16 of a text (Unicode table 3-5). -/
def utf16 (t : List Nat) : List Nat := t.flatMap fun c =>
  if c < 0x10000 then [c] else [0xd800 + (c - 0x10000) / 1024, 0xdc00 + (c - 0x10000) % 1024]

theorem get8_put8 (c : Nat) (hc : Scalar c) (r : List Nat) : get8 (put8 c ++ r) = (get8 r).map (c :: ·) := by
  obtain ⟨h1, h2⟩ := hc
  unfold put8
  split
  · rename_i h
    simp only [List.cons_append, List.nil_append]
    rw [get8.eq_def]
    simp only [h, if_true]
  · split
    · rename_i h0 h
      simp only [List.cons_append, List.nil_append, get8]
      rw [if_neg (by omega), if_neg (by omega), if_pos (by omega)]
      rw [if_pos (by simp only [isCont, Bool.and_eq_true, decide_eq_true_eq]; omega)]
      have : (0xc0 + c / 64 - 0xc0) * 64 + (0x80 + c % 64 - 0x80) = c := by omega
      rw [this]
    · split
      · rename_i h0 h00 h
        have hv : (0xe0 + c / 4096 - 0xe0) * 4096 + (0x80 + c / 64 % 64 - 0x80) * 64 + (0x80 + c % 64 - 0x80) = c := by omega
        simp only [List.cons_append, List.nil_append, get8]
        rw [if_neg (by omega), if_neg (by omega), if_neg (by omega), if_pos (by omega)]
        simp only [hv]
        rw [if_pos (by simp only [isCont, isSurrogate, Bool.and_eq_true, decide_eq_true_eq]; omega)]
      · rename_i h0 h00 h
        have hv : (0xf0 + c / 262144 - 0xf0) * 262144 + (0x80 + c / 4096 % 64 - 0x80) * 4096 +
            (0x80 + c / 64 % 64 - 0x80) * 64 + (0x80 + c % 64 - 0x80) = c := by omega
        simp only [List.cons_append, List.nil_append, get8]
        rw [if_neg (by omega), if_neg (by omega), if_neg (by omega), if_neg (by omega), if_pos (by omega)]
        simp only [hv]
        rw [if_pos (by simp only [isCont, Bool.and_eq_true, decide_eq_true_eq]; omega)]

theorem get8_utf8 (t : List Nat) (ht : ∀ c ∈ t, Scalar c) : get8 (utf8 t) = some t := by
  induction t with
  | nil => rfl
  | cons c t ih =>
    show get8 (put8 c ++ utf8 t) = _
    rw [get8_put8 c (ht c (by simp)), ih (fun x hx => ht x (by simp [hx]))]; rfl

theorem get16_put16 (c : Nat) (hc : Scalar c) (r : List Nat) : get16 (put16 c ++ r) = (get16 r).map (c :: ·) := by
  obtain ⟨h1, h2⟩ := hc
  unfold put16
  split
  · simp only [List.cons_append, List.nil_append]
    rw [get16.eq_def]
    simp only
    rw [if_pos (by simp only [isSurrogate, Bool.and_eq_true, decide_eq_true_eq]; exact h2)]
  · rename_i h
    simp only [List.cons_append, List.nil_append, get16]
    rw [if_neg (by simp only [isSurrogate, Bool.and_eq_true, decide_eq_true_eq]; omega), if_pos (by omega),
      if_pos (by omega)]
    have : 0x10000 + (0xd800 + (c - 0x10000) / 1024 - 0xd800) * 1024 + (0xdc00 + (c - 0x10000) % 1024 - 0xdc00) = c := by
      omega
    rw [this]

theorem get16_utf16 (t : List Nat) (ht : ∀ c ∈ t, Scalar c) : get16 (utf16 t) = some t := by
  induction t with
  | nil => rfl
  | cons c t ih =>
    show get16 (put16 c ++ utf16 t) = _
    rw [get16_put16 c (ht c (by simp)), ih (fun x hx => ht x (by simp [hx]))]; rfl

theorem utf16_ne (t : List Nat) (h : t ≠ []) : utf16 t ≠ [] := by
  cases t with
  | nil => exact absurd rfl h
  | cons c t => unfold utf16; rw [List.flatMap_cons]; split <;> simp

/-- **C73** UTF-8 to wide characters: UTF-16 code units, for every text. -/
theorem to_wide (t : List Nat) (ht : ∀ c ∈ t, Scalar c) : toUTF1632 (utf8 t) = .ok (utf16 t) := by
  unfold toUTF1632; rw [get8_utf8 t ht]; rfl

/-- **C73** 16 bit strings to UTF-8, for every text that is not empty. -/
theorem from_utf16 (t : List Nat) (ht : ∀ c ∈ t, Scalar c) (hne : t ≠ []) : cvt16 (utf16 t) = .ok (utf8 t) := by
  unfold cvt16; rw [if_neg (utf16_ne t hne), get16_utf16 t ht]; rfl

theorem upToZero_id (s : List Nat) (h : 0 ∉ s) : upToZero s = s := by
  unfold upToZero
  induction s with
  | nil => rfl
  | cons c s ih =>
    simp only [List.mem_cons, not_or] at h
    rw [List.takeWhile_cons, if_pos (by simpa using fun e => h.1 (Eq.symm e)), ih h.2]

theorem upToZero_term (s r : List Nat) (h : 0 ∉ s) : upToZero (s ++ 0 :: r) = s := by
  unfold upToZero
  induction s with
  | nil => simp
  | cons c s ih =>
    simp only [List.mem_cons, not_or] at h
    rw [List.cons_append, List.takeWhile_cons, if_pos (by simpa using fun e => h.1 (Eq.symm e)), ih h.2]

theorem utf16_zero (t : List Nat) (h : 0 ∉ t) : 0 ∉ utf16 t := by
  unfold utf16
  rw [List.mem_flatMap]
  rintro ⟨c, hc, hm⟩
  split at hm
  · simp only [List.mem_singleton] at hm; exact h (hm ▸ hc)
  · simp only [List.mem_cons, List.not_mem_nil, or_false] at hm; omega

/-- **C73** Zero terminated 16 bit strings in any memory. -/
theorem from_utf16z (t r : List Nat) (ht : ∀ c ∈ t, Scalar c) (hz : 0 ∉ t) (hne : t ≠ []) :
    cvt16z (utf16 t ++ 0 :: r) = .ok (utf8 t) := by
  unfold cvt16z; rw [upToZero_term _ _ (utf16_zero t hz), from_utf16 t ht hne]

/-- **C73** 32 bit strings of code points to UTF-8, for every text that is not empty. -/
theorem from_utf32 (strict : Bool) (t : List Nat) (ht : ∀ c ∈ t, Scalar c) (hne : t ≠ []) :
    cvt32 strict t = .ok (utf8 t) := by
  unfold cvt32 out32
  rw [if_neg hne, if_pos]
  · rfl
  · rw [List.all_eq_true]; intro c hc
    obtain ⟨h1, h2⟩ := ht c hc
    have : isSurrogate c = false := by
      simp only [isSurrogate, Bool.and_eq_false_iff, decide_eq_false_iff_not]; omega
    simp [h1, this]

/-- **C73** Zero terminated 32 bit strings. -/
theorem from_utf32z (strict : Bool) (t r : List Nat) (ht : ∀ c ∈ t, Scalar c) (hz : 0 ∉ t) (hne : t ≠ []) :
    cvt32z strict (t ++ 0 :: r) = .ok (utf8 t) := by
  unfold cvt32z; rw [upToZero_term _ _ hz, from_utf32 strict t ht hne]

theorem utf16_bmp (t : List Nat) (h : ∀ c ∈ t, c < 0x10000) : utf16 t = t := by
  induction t with
  | nil => rfl
  | cons c t ih =>
    have := ih (fun x hx => h x (by simp [hx]))
    unfold utf16 at this ⊢
    rw [List.flatMap_cons, this, if_pos (h c (by simp))]; rfl

/-- **C73** Text to wide characters and back is the text, when all its characters are below U+10000 and there is one.
Missing: other characters and the empty text, where the claim is false (below). -/
theorem wide_roundtrip_partial (strict : Bool) (t : List Nat) (ht : ∀ c ∈ t, Scalar c) (hb : ∀ c ∈ t, c < 0x10000)
    (hne : t ≠ []) : wideRoundTrip strict (utf8 t) = .ok (utf8 t) := by
  unfold wideRoundTrip
  rw [to_wide t ht]
  show cvt32 strict (utf16 t) = _
  rw [utf16_bmp t hb, from_utf32 strict t ht hne]

theorem put8_length (c : Nat) : (put8 c).length = if c < 0x80 then 1 else if c < 0x800 then 2 else if c < 0x10000 then 3 else 4 := by
  unfold put8; repeat' split
  all_goals rfl

/-- **C73 violated**: every text with a character above U+FFFF is changed (or refused) by the way there and back. -/
theorem wide_roundtrip_violated (strict : Bool) (t : List Nat) (ht : ∀ c ∈ t, Scalar c) (hb : ∃ c ∈ t, 0x10000 ≤ c) :
    wideRoundTrip strict (utf8 t) ≠ .ok (utf8 t) := by
  unfold wideRoundTrip
  rw [to_wide t ht]
  show cvt32 strict (utf16 t) ≠ _
  unfold cvt32 out32
  split
  · intro h; cases h
  split
  · intro h
    simp only [Res.ofOption, Res.ok.injEq] at h
    have h := congrArg List.length h
    have key : ∀ t : List Nat, (∀ c ∈ t, Scalar c) → (utf8 t).length ≤ ((utf16 t).flatMap put8).length ∧
        ((∃ c ∈ t, 0x10000 ≤ c) → (utf8 t).length < ((utf16 t).flatMap put8).length) := by
      intro t
      induction t with
      | nil => intro _; simp [utf8, utf16]
      | cons c t ih =>
        intro ht
        obtain ⟨i1, i2⟩ := ih (fun x hx => ht x (by simp [hx]))
        have e1 : utf8 (c :: t) = put8 c ++ utf8 t := rfl
        have e2 : utf16 (c :: t) = put16 c ++ utf16 t := rfl
        rw [e1, e2, List.flatMap_append, List.length_append, List.length_append]
        have hc := (ht c (by simp)).1
        by_cases hbig : 0x10000 ≤ c
        · have hl : (put8 c).length = 4 := by rw [put8_length]; simp only [show ¬ c < 0x80 by omega, show ¬ c < 0x800 by omega, show ¬ c < 0x10000 by omega, if_false]
          have hr : ((put16 c).flatMap put8).length = 6 := by
            unfold put16; rw [if_neg (by omega)]
            simp only [List.flatMap_cons, List.flatMap_nil, List.append_nil, List.length_append, put8_length]
            rw [if_neg (by omega), if_neg (by omega), if_pos (by omega), if_neg (by omega), if_neg (by omega), if_pos (by omega)]
          rw [hl, hr]
          constructor <;> omega
        · have hp : put16 c = [c] := by unfold put16; rw [if_pos (by omega)]
          rw [hp]
          simp only [List.flatMap_cons, List.flatMap_nil, List.append_nil, List.mem_cons, exists_eq_or_imp]
          constructor
          · omega
          · rintro (h | h)
            · exact absurd h hbig
            · have := i2 h; omega
    have := (key t ht).2 hb
    omega
  · intro h; cases h

/-- **C73 violated**: the empty text cannot be converted to UTF-8 (`&*begin()` of an empty string). -/
theorem empty_violated (strict : Bool) : cvt16 [] = .ub ∧ cvt32 strict [] = .ub ∧ wideRoundTrip strict [] = .ub := by
  cases strict <;> decide

/-! ### Malformed text -/

/-- One more character. -/
theorem only_step {c : Nat} {p r t : List Nat} (hc : Scalar c) (hp : put8 c = p)
    (ih : ∀ t, get8 r = some t → (∀ c ∈ t, Scalar c) ∧ utf8 t = r) (h : (get8 r).map (c :: ·) = some t) :
    (∀ c ∈ t, Scalar c) ∧ utf8 t = p ++ r := by
  obtain ⟨u, hu, rfl⟩ := Option.map_eq_some_iff.1 h
  obtain ⟨i1, i2⟩ := ih u hu
  refine ⟨?_, ?_⟩
  · intro x hx
    rcases List.mem_cons.1 hx with rfl | hx
    · exact hc
    · exact i1 x hx
  · show put8 c ++ utf8 u = _
    rw [i2, hp]

theorem isCont_iff (b : Nat) : isCont b = true ↔ 0x80 ≤ b ∧ b < 0xc0 := by
  unfold isCont; rw [Bool.and_eq_true, decide_eq_true_eq, decide_eq_true_eq]
theorem isSurrogate_iff (b : Nat) : isSurrogate b = true ↔ 0xd800 ≤ b ∧ b < 0xe000 := by
  unfold isSurrogate; rw [Bool.and_eq_true, decide_eq_true_eq, decide_eq_true_eq]

/-- The decoder accepts nothing but UTF-8. -/
theorem get8_only (s t : List Nat) (h : get8 s = some t) : (∀ c ∈ t, Scalar c) ∧ utf8 t = s := by
  induction s using get8.induct generalizing t with
  | case1 => simp only [get8, Option.some.injEq] at h; subst h; exact ⟨by simp, rfl⟩
  | case2 a r ha ih =>
    rw [get8.eq_def] at h
    simp only [ha, if_true] at h
    refine only_step (p := [a]) ⟨by omega, by omega⟩ ?_ ih h
    unfold put8; rw [if_pos ha]
  | case4 a h1 h2 h3 b r hb ih =>
    rw [get8.eq_def] at h
    simp only [h1, h2, h3, hb, if_true, if_false] at h
    rw [isCont_iff] at hb
    refine only_step (p := [a, b]) ⟨by omega, by omega⟩ ?_ ih h
    unfold put8
    rw [if_neg (by omega), if_pos (by omega)]
    simp only [List.cons.injEq, and_true]
    exact ⟨by omega, by omega⟩
  | case7 a h1 h2 h3 h4 b c r v hv ih =>
    rw [get8.eq_def] at h
    simp only [h1, h2, h3, h4, if_true, if_false] at h
    rw [if_pos hv] at h
    obtain ⟨hb, hc, hv1, hv2⟩ := hv
    rw [isCont_iff] at hb hc
    rw [isSurrogate_iff] at hv2
    refine only_step (p := [a, b, c]) ⟨by omega, hv2⟩ ?_ ih h
    unfold put8
    rw [if_neg (by omega), if_neg (by omega), if_pos (by omega)]
    simp only [List.cons.injEq, and_true]
    exact ⟨by omega, by omega, by omega⟩
  | case10 a h1 h2 h3 h4 h5 b c d r v hv ih =>
    rw [get8.eq_def] at h
    simp only [h1, h2, h3, h4, h5, if_true, if_false] at h
    rw [if_pos hv] at h
    obtain ⟨hb, hc, hd, hv1, hv2⟩ := hv
    rw [isCont_iff] at hb hc hd
    refine only_step (p := [a, b, c, d]) ⟨hv2, by omega⟩ ?_ ih h
    unfold put8
    rw [if_neg (by omega), if_neg (by omega), if_neg (by omega)]
    simp only [List.cons.injEq, and_true]
    exact ⟨by omega, by omega, by omega, by omega⟩
  | case3 a r h1 h2 => rw [get8.eq_def] at h; simp only [h1, h2, if_true, if_false] at h; cases h
  | case5 a h1 h2 h3 b r hb =>
    rw [get8.eq_def] at h; simp only [h1, h2, h3, hb, if_true, if_false] at h; cases h
  | case6 a r h1 h2 h3 hr =>
    rw [get8.eq_def] at h; simp only [h1, h2, h3, if_true, if_false] at h
    cases h
  | case8 a h1 h2 h3 h4 b c r v hv =>
    rw [get8.eq_def] at h; simp only [h1, h2, h3, h4, if_true, if_false] at h
    rw [if_neg hv] at h; cases h
  | case9 a r h1 h2 h3 h4 hr =>
    rw [get8.eq_def] at h; simp only [h1, h2, h3, h4, if_true, if_false] at h
    cases h
  | case11 a h1 h2 h3 h4 h5 b c d r v hv =>
    rw [get8.eq_def] at h; simp only [h1, h2, h3, h4, h5, if_true, if_false] at h
    rw [if_neg hv] at h; cases h
  | case12 a r h1 h2 h3 h4 h5 hr =>
    rw [get8.eq_def] at h; simp only [h1, h2, h3, h4, h5, if_true, if_false] at h
    cases h
  | case13 a r h1 h2 h3 h4 h5 =>
    rw [get8.eq_def] at h; simp only [h1, h2, h3, h4, h5, if_true, if_false] at h; cases h

theorem only_step16 {c : Nat} {p r t : List Nat} (hc : Scalar c) (hp : put16 c = p)
    (ih : ∀ t, get16 r = some t → (∀ c ∈ t, c < 0x110000 ∧ Scalar c) ∧ utf16 t = r) (h : (get16 r).map (c :: ·) = some t) :
    (∀ c ∈ t, c < 0x110000 ∧ Scalar c) ∧ utf16 t = p ++ r := by
  obtain ⟨u, hu, rfl⟩ := Option.map_eq_some_iff.1 h
  obtain ⟨i1, i2⟩ := ih u hu
  refine ⟨?_, ?_⟩
  · intro x hx
    rcases List.mem_cons.1 hx with rfl | hx
    · exact ⟨hc.1, hc⟩
    · exact i1 x hx
  · show put16 c ++ utf16 u = _
    rw [i2, hp]

theorem get16_only (s t : List Nat) (hs : ∀ x ∈ s, x < 0x10000) (h : get16 s = some t) : (∀ c ∈ t, c < 0x110000 ∧ Scalar c) ∧ utf16 t = s := by
  induction s using get16.induct generalizing t with
  | case1 => simp only [get16, Option.some.injEq] at h; subst h; exact ⟨by simp, rfl⟩
  | case2 a r ha ih =>
    rw [get16.eq_def] at h
    simp only [ha, not_false_eq_true, if_true] at h
    rw [isSurrogate_iff] at ha
    have := hs a (by simp)
    refine only_step16 (p := [a]) ⟨by omega, ha⟩ ?_ (fun t => ih t (fun x hx => hs x (by simp [hx]))) h
    unfold put16; rw [if_pos this]
  | case3 a h1 h2 b r hb ih =>
    rw [get16.eq_def] at h
    simp only [h1, h2, if_true, if_false] at h
    rw [if_pos hb] at h
    rw [Decidable.not_not, isSurrogate_iff] at h1
    refine only_step16 (p := [a, b]) ⟨by omega, by omega⟩ ?_ (fun t => ih t (fun x hx => hs x (by simp [hx]))) h
    unfold put16
    rw [if_neg (by omega)]
    simp only [List.cons.injEq, and_true]
    exact ⟨by omega, by omega⟩
  | case4 a h1 h2 b r hb =>
    rw [get16.eq_def] at h; simp only [h1, h2, if_true, if_false] at h
    rw [if_neg hb] at h; cases h
  | case5 a r h1 h2 hr =>
    rw [get16.eq_def] at h; simp only [h1, h2, if_true, if_false] at h
    cases h
  | case6 a r h1 h2 =>
    rw [get16.eq_def] at h; simp only [h1, h2, if_true, if_false] at h; cases h

/-- **C73** Malformed text is refused: a conversion that succeeds was given the UTF-8 (or UTF-16) of a text. -/
theorem malformed_refused :
    (∀ s w, toUTF1632 s = .ok w → ∃ t, (∀ c ∈ t, Scalar c) ∧ s = utf8 t ∧ w = utf16 t) ∧
    (∀ s w, (∀ x ∈ s, x < 0x10000) → cvt16 s = .ok w → ∃ t, (∀ c ∈ t, Scalar c) ∧ s = utf16 t ∧ w = utf8 t) := by
  constructor
  · intro s w h
    unfold toUTF1632 at h
    cases hg : get8 s with
    | none => rw [hg] at h; cases h
    | some t =>
      rw [hg] at h
      obtain ⟨h1, h2⟩ := get8_only s t hg
      injection h with h
      exact ⟨t, h1, h2.symm, h.symm⟩
  · intro s w hs h
    unfold cvt16 at h
    split at h
    · cases h
    cases hg : get16 s with
    | none => rw [hg] at h; cases h
    | some t =>
      rw [hg] at h
      obtain ⟨h1, h2⟩ := get16_only s t hs hg
      injection h with h
      exact ⟨t, fun c hc => (h1 c hc).2, h2.symm, h.symm⟩
/-- An overlong form, a surrogate, a cut off sequence and a lone surrogate are refused. -/
example : toUTF1632 [0xc0, 0x80] = .throws ∧ toUTF1632 [0xed, 0xa0, 0x80] = .throws ∧ toUTF1632 [0xe2, 0x82] = .throws ∧
    cvt16 [0xdc00] = .throws ∧ toUTF1632 [0xc3, 0xc0] = .throws := by decide

/-- "aé€" and U+1F600. -/
example : wideRoundTrip true (utf8 [0x61, 0xe9, 0x20ac]) = .ok (utf8 [0x61, 0xe9, 0x20ac]) ∧
    toUTF1632 (utf8 [0x1f600]) = .ok [0xd83d, 0xde00] ∧ cvt16 [0xd83d, 0xde00] = .ok (utf8 [0x1f600]) ∧
    wideRoundTrip true (utf8 [0x1f600]) = .throws ∧
    wideRoundTrip false (utf8 [0x1f600]) = .ok [0xed, 0xa0, 0xbd, 0xed, 0xb8, 0x80] := by decide

end PreCore.Uni8
