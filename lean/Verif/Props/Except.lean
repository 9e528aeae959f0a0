import Verif.Model.Except
import Verif.Lemmas.Mem
/-!
# C71: the tag shown by `InvalidHeaderError`
-/
namespace PreCore.Except

/-- The bytes of a little endian number up to the first zero byte: the tag as a text. -/
def tag (bytes : List Byte) : List Byte := bytes.takeWhile (· ≠ 0#8)

theorem length_some : ∀ (l : List Byte), 0#8 ∈ l → length l = some (tag l).length := by
  intro l
  induction l with
  | nil => intro h; simp at h
  | cons c cs ih =>
    intro h
    by_cases e : c = 0#8
    · simp [length, tag, e]
    · have : 0#8 ∈ cs := by simpa [Ne.symm e] using h
      simp only [length, e, if_false, ih this, tag]
      simp [e]

theorem length_none : ∀ (l : List Byte), 0#8 ∉ l → length l = none := by
  intro l
  induction l with
  | nil => intro _; rfl
  | cons c cs ih =>
    intro h
    simp only [List.mem_cons, not_or] at h
    simp [length, Ne.symm h.1, ih h.2]

theorem tag_take (l : List Byte) : l.take (tag l).length = tag l := by
  unfold tag
  induction l with
  | nil => rfl
  | cons c cs ih =>
    rw [List.takeWhile_cons]
    split
    · rw [List.length_cons, List.take_succ_cons, ih]
    · rfl

/-- The text for a tag. -/
def shown (t : List Byte) : List Byte := if t.all isAlnum then t else t.flatMap hexPiece

theorem bytes32 (m : BitVec 32) : toLE 8 (m.zeroExtend 64).toNat = toLE 4 m.toNat ++ [0#8, 0#8, 0#8, 0#8] := by
  have h : (m.zeroExtend 64).toNat = m.toNat := by
    simp only [BitVec.truncate_eq_setWidth, BitVec.toNat_setWidth]
    exact Nat.mod_eq_of_lt (Nat.lt_of_lt_of_le m.isLt (by decide))
  rw [h]
  have h2 : ∀ n : Nat, n < 2 ^ 32 → toLE 8 n = toLE 4 n ++ [0#8, 0#8, 0#8, 0#8] := by
    intro n hn
    simp only [toLE, List.cons_append, List.nil_append]
    have e4 : n / 256 / 256 / 256 / 256 = 0 := by omega
    rw [e4]
  exact h2 _ m.isLt

theorem tag_append_zeros (l : List Byte) : tag (l ++ [0#8, 0#8, 0#8, 0#8]) = tag l := by
  unfold tag
  induction l with
  | nil => rfl
  | cons c cs ih => simp only [List.cons_append, List.takeWhile_cons, ih]

theorem tag_length_le (l : List Byte) : (tag l).length ≤ l.length := by
  unfold tag
  exact (List.takeWhile_sublist _).length_le

/-- What is shown for every 32 bit magic number. -/
theorem what32_eq (m : BitVec 32) : what32 m = some (prefixText ++ shown (tag (toLE 4 m.toNat))) := by
  unfold what32 decompile
  simp only [bytes32]
  rw [length_some _ (by simp), tag_append_zeros]
  have hl : (tag (toLE 4 m.toNat)).length ≤ 4 := by
    have := tag_length_le (toLE 4 m.toNat); rwa [toLE_length] at this
  have ht : (toLE 4 m.toNat ++ [0#8, 0#8, 0#8, 0#8]).take (min 4 (tag (toLE 4 m.toNat)).length) = tag (toLE 4 m.toNat) := by
    rw [Nat.min_eq_right hl, List.take_append_of_le_length (by rw [toLE_length]; exact hl), tag_take]
  simp only [Option.map_some, ht, shown]

/-- A piece is "0x", the hexadecimal digits, and a blank. -/
theorem hexPiece_form : ∀ c : Byte, hexPiece c = (hexPiece c).dropLast ++ [0x20#8] ∧ 0x20#8 ∉ (hexPiece c).dropLast := by
  decide +kernel

/-- Upper case hexadecimal reading. -/
def hexValue (s : List Byte) : Nat :=
  s.foldl (fun a c => 16 * a + (if c.toNat < 0x3a then c.toNat - 0x30 else c.toNat - 0x37)) 0

theorem hexPiece_value : ∀ c : Byte, (hexPiece c).take 2 = [0x30#8, 0x78#8] ∧ hexValue ((hexPiece c).dropLast.drop 2) = c.toNat := by
  decide +kernel

theorem hexPiece_inj (a b : Byte) (h : (hexPiece a).dropLast = (hexPiece b).dropLast) : a = b := by
  apply BitVec.eq_of_toNat_eq
  rw [← (hexPiece_value a).2, ← (hexPiece_value b).2, h]

theorem split_blank (a b : List Byte) : ∀ (x y : List Byte), 0x20#8 ∉ a → 0x20#8 ∉ b →
    a ++ 0x20#8 :: x = b ++ 0x20#8 :: y → a = b ∧ x = y := by
  induction a generalizing b with
  | nil =>
    intro x y _ hb h
    cases b with
    | nil => simpa using h
    | cons c cs => simp only [List.nil_append, List.cons_append, List.cons.injEq] at h; simp [← h.1] at hb
  | cons c cs ih =>
    intro x y ha hb h
    cases b with
    | nil => simp only [List.nil_append, List.cons_append, List.cons.injEq] at h; simp [h.1] at ha
    | cons d ds =>
      simp only [List.cons_append, List.cons.injEq] at h
      simp only [List.mem_cons, not_or] at ha hb
      obtain ⟨h1, h2⟩ := ih ds x y ha.2 hb.2 h.2
      exact ⟨by rw [h.1, h1], h2⟩

theorem hex_inj : ∀ a b : List Byte, a.flatMap hexPiece = b.flatMap hexPiece → a = b := by
  intro a
  induction a with
  | nil =>
    intro b h
    cases b with
    | nil => rfl
    | cons d ds => simp [hexPiece] at h
  | cons c cs ih =>
    intro b h
    cases b with
    | nil => simp [hexPiece] at h
    | cons d ds =>
      simp only [List.flatMap_cons] at h
      rw [(hexPiece_form c).1, (hexPiece_form d).1] at h
      simp only [List.append_assoc, List.singleton_append] at h
      obtain ⟨h1, h2⟩ := split_blank _ _ _ _ (hexPiece_form c).2 (hexPiece_form d).2 h
      rw [hexPiece_inj c d h1, ih ds h2]

theorem blank_mem_hex (a : List Byte) (h : a ≠ []) : 0x20#8 ∈ a.flatMap hexPiece := by
  cases a with
  | nil => exact absurd rfl h
  | cons c cs => rw [List.flatMap_cons, (hexPiece_form c).1]; simp

theorem shown_inj (a b : List Byte) (h : shown a = shown b) : a = b := by
  unfold shown at h
  have hb : ∀ t : List Byte, t.all isAlnum = true → 0x20#8 ∉ t := by
    intro t ht hm
    have := List.all_eq_true.1 ht _ hm
    simp [isAlnum] at this
  have hne : ∀ t : List Byte, ¬ t.all isAlnum = true → t ≠ [] := by rintro t ht rfl; simp at ht
  split at h
  · rename_i h1
    split at h
    · exact h
    · rename_i h2
      have := blank_mem_hex b (hne b h2)
      rw [← h] at this; exact absurd this (hb a h1)
  · rename_i h1
    split at h
    · rename_i h2
      have := blank_mem_hex a (hne a h1)
      rw [h] at this; exact absurd this (hb b h2)
    · exact hex_inj a b h

/-- **C71** A 32 bit magic number made of letters and digits is shown as these characters. -/
theorem header_alnum (t : List Byte) (h4 : t.length ≤ 4)
    (ha : ∀ c ∈ t, (0x30 ≤ c.toNat ∧ c.toNat ≤ 0x39) ∨ (0x41 ≤ c.toNat ∧ c.toNat ≤ 0x5a) ∨ (0x61 ≤ c.toNat ∧ c.toNat ≤ 0x7a)) :
    what32 (BitVec.ofNat 32 (leNat t)) = some (prefixText ++ t) := by
  have hz : ∀ c ∈ t, c ≠ 0#8 := by
    rintro c hc rfl; have := ha _ hc; simp at this
  have hall : t.all isAlnum = true := by
    rw [List.all_eq_true]; intro c hc
    have := ha c hc; simpa [isAlnum, or_assoc] using this
  have hlt : leNat t < 2 ^ 32 := by
    refine Nat.lt_of_lt_of_le (leNat_lt t) ?_
    have : 256 ^ t.length ≤ 256 ^ 4 := Nat.pow_le_pow_right (by omega) h4
    omega
  have htag : ∀ (k : Nat) (t : List Byte), (∀ c ∈ t, c ≠ 0#8) → t.length ≤ k → tag (toLE k (leNat t)) = t := by
    intro k
    induction k with
    | zero => intro t _ hl; cases t with
      | nil => rfl
      | cons c cs => simp at hl
    | succ k ih =>
      intro t hz hl
      cases t with
      | nil => simp [leNat, toLE, tag]
      | cons c cs =>
        have hc := c.isLt
        have e1 : leNat (c :: cs) % 256 = c.toNat := by simp only [leNat]; omega
        have e2 : leNat (c :: cs) / 256 = leNat cs := by simp only [leNat]; omega
        have := ih cs (fun x hx => hz x (by simp [hx])) (by simpa using hl)
        unfold tag at this ⊢
        simp only [toLE, e2]
        have e3 : BitVec.ofNat 8 (leNat (c :: cs)) = c := by
          apply BitVec.eq_of_toNat_eq; rw [BitVec.toNat_ofNat]; simp only [leNat]; omega
        rw [List.takeWhile_cons]
        simp only [e3]
        rw [if_pos (by simpa using hz c (by simp)), this]
  rw [what32_eq, BitVec.toNat_ofNat, Nat.mod_eq_of_lt hlt, htag 4 t hz h4, shown, if_pos hall]

/-- **C71** Any other one is shown byte by byte up to the first zero byte: "0x", the hexadecimal value, a blank. -/
theorem header_hex (m : BitVec 32)
    (h : ∃ c ∈ tag (toLE 4 m.toNat), ¬ ((0x30 ≤ c.toNat ∧ c.toNat ≤ 0x39) ∨ (0x41 ≤ c.toNat ∧ c.toNat ≤ 0x5a) ∨
      (0x61 ≤ c.toNat ∧ c.toNat ≤ 0x7a))) :
    what32 m = some (prefixText ++ (tag (toLE 4 m.toNat)).flatMap hexPiece) ∧
    ∀ c : Byte, ∃ ds, hexPiece c = [0x30#8, 0x78#8] ++ ds ++ [0x20#8] ∧ hexValue ds = c.toNat ∧
      (ds.head? = some 0x30#8 → ds.length = 1) := by
  constructor
  · rw [what32_eq, shown, if_neg]
    intro hall
    obtain ⟨c, hc, hn⟩ := h
    have := List.all_eq_true.1 hall c hc
    apply hn; simpa [isAlnum, or_assoc] using this
  · intro c
    have hlead : ∀ c : Byte, ((hexPiece c).dropLast.drop 2).head? = some 0x30#8 →
        ((hexPiece c).dropLast.drop 2).length = 1 := by decide +kernel
    refine ⟨(hexPiece c).dropLast.drop 2, ?_, (hexPiece_value c).2, hlead c⟩
    conv => lhs; rw [(hexPiece_form c).1]
    congr 1
    have h2 : (hexPiece c).dropLast.take 2 = [0x30#8, 0x78#8] := by
      have h3 : 3 ≤ (hexPiece c).length := by unfold hexPiece; split <;> simp
      rw [List.dropLast_eq_take, List.take_take, Nat.min_eq_left (by omega), (hexPiece_value c).1]
    rw [← h2, List.take_append_drop]

/-- **C71** The message of a 32 bit magic number without zero bytes names this number and no other. Missing: numbers
with zero bytes, see `header_zero_violated`. -/
theorem header_inj_partial (a b : BitVec 32) (ha : 0#8 ∉ toLE 4 a.toNat) (hb : 0#8 ∉ toLE 4 b.toNat)
    (h : what32 a = what32 b) : a = b := by
  rw [what32_eq, what32_eq, Option.some.injEq] at h
  have h := shown_inj _ _ (List.append_cancel_left h)
  have ht : ∀ l : List Byte, 0#8 ∉ l → tag l = l := by
    intro l
    unfold tag
    induction l with
    | nil => intro _; rfl
    | cons c cs ih =>
      intro hl; simp only [List.mem_cons, not_or] at hl
      rw [List.takeWhile_cons, if_pos (by simpa using fun e => hl.1 (Eq.symm e)), ih hl.2]
  rw [ht _ ha, ht _ hb] at h
  apply BitVec.eq_of_toNat_eq
  have h1 := leNat_toLE 4 a.toNat
  have h2 := leNat_toLE 4 b.toNat
  rw [h, h2] at h1
  have := a.isLt; have := b.isLt
  omega

example : 0#8 ∉ toLE 4 (0x46464952#32 : BitVec 32).toNat ∧
    what32 0x46464952#32 = some (prefixText ++ [0x52#8, 0x49#8, 0x46#8, 0x46#8]) := by decide

/-- **C71 violated**: everything behind a zero byte is left out, so the message does not identify the number; a number
whose low byte is zero shows nothing. -/
theorem header_zero_violated : what32 0x00010041#32 = what32 0x00020041#32 ∧
    ∀ x : BitVec 32, x.toNat % 256 = 0 → what32 x = some prefixText := by
  refine ⟨by decide, fun x hx => ?_⟩
  rw [what32_eq]
  have : tag (toLE 4 x.toNat) = [] := by
    unfold tag; simp only [toLE]; rw [List.takeWhile_cons]
    have : BitVec.ofNat 8 x.toNat = 0#8 := by
      apply BitVec.eq_of_toNat_eq; rw [BitVec.toNat_ofNat]; simpa using hx
    simp [this]
  rw [this]; simp [shown]

/-- **C71 violated**: a 64 bit magic number without a zero byte makes the length run behind the number (undefined),
and so does a signed 32 bit number below zero without a zero byte. -/
theorem header_wide_violated : (∀ m : BitVec 64, 0#8 ∉ toLE 8 m.toNat → what64 m = none) ∧
    ∀ m : BitVec 32, m.msb = true → 0#8 ∉ toLE 4 m.toNat → whatInt m = none := by
  constructor
  · intro m h; simp [what64, decompile, length_none _ h]
  · intro m hm h
    have hz : 0#8 ∉ toLE 8 (m.signExtend 64).toNat := by
      have hb : (m.signExtend 64).toNat = m.toNat + 0xffffffff00000000 := by
        rw [BitVec.toNat_signExtend, hm]
        simp only [BitVec.toNat_setWidth, if_true]
        have := m.isLt
        omega
      have hlt := m.isLt
      rw [hb]
      simp only [toLE] at h ⊢
      generalize m.toNat = n at *
      have e : ∀ k : Nat, BitVec.ofNat 8 k = BitVec.ofNat 8 (k % 256) := by
        intro k; apply BitVec.eq_of_toNat_eq; simp
      have q0 : (n + 0xffffffff00000000) % 256 = n % 256 := by omega
      have q1 : (n + 0xffffffff00000000) / 256 % 256 = n / 256 % 256 := by omega
      have q2 : (n + 0xffffffff00000000) / 256 / 256 % 256 = n / 256 / 256 % 256 := by omega
      have q3 : (n + 0xffffffff00000000) / 256 / 256 / 256 % 256 = n / 256 / 256 / 256 % 256 := by omega
      have q4 : (n + 0xffffffff00000000) / 256 / 256 / 256 / 256 = 0xffffffff := by omega
      rw [e (n + _), e ((n + _) / 256), e ((n + _) / 256 / 256), e ((n + _) / 256 / 256 / 256), q0, q1, q2, q3, q4]
      rw [e n, e (n / 256), e (n / 256 / 256), e (n / 256 / 256 / 256)] at h
      simp only [List.mem_cons, not_or] at h ⊢
      exact ⟨h.1, h.2.1, h.2.2.1, h.2.2.2.1, by decide, by decide, by decide, by decide, by simp⟩
    simp [whatInt, decompile, length_none _ hz]

example : 0#8 ∉ toLE 8 (0x0a1a0a0d474e5089#64 : BitVec 64).toNat := by decide

end PreCore.Except
