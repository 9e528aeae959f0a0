import Verif.Lemmas.Reflector
/-!
# C23, C44, C46: integer fields, bit-field members, lookup by name
-/
namespace PreCore.Refl
open CNum Spec Supercore

/-! ## Observables -/

/-- The number held by the `n` byte unsigned field at `a`. -/
def Obj.nat (o : Obj) (a n : Nat) : Nat := leNat (o.read a n)
/-- The number held by the `n` byte two's complement field at `a`. -/
def Obj.int (o : Obj) (a n : Nat) : Int := (BitVec.ofNat (8 * n) (o.nat a n)).toInt

/-- Integer widths. -/
def IsWidth (n : Nat) : Prop := n = 1 ∨ n = 2 ∨ n = 4 ∨ n = 8

/-- `t` is `s` with blanks (spaces, tabs) in front. -/
def Indented (t s : Text) : Prop := ∃ pre, t = pre ++ s ∧ (∀ c ∈ pre, IsBlank false c) ∧ ∀ c, s.head? = some c → ¬ IsBlank false c

theorem indented_skip {t s : Text} (h : Indented t s) : (skipStart false t).1 = s := by
  obtain ⟨pre, rfl, h1, h2⟩ := h
  induction pre with
  | nil =>
    cases s with
    | nil => rfl
    | cons c s =>
      have := h2 c rfl
      rw [← blank_iff] at this
      simp only [List.nil_append, skipStart, this]
      simp
  | cons c pre ih =>
    simp only [List.cons_append, skipStart, (blank_iff false c).2 (h1 c (by simp)), if_true]
    exact ih (fun c' hc' => h1 c' (by simp [hc']))

theorem pow_256_8 (n : Nat) : (256 : Nat) ^ n = 2 ^ (8 * n) := by rw [show (256 : Nat) = 2 ^ 8 by rfl, Nat.pow_mul]

theorem store_nat (o : Obj) (a n : Nat) (v : BitVec (8 * n)) (e : Err) :
    (storeBits o a n (e, some v)).2.nat a n = v.toNat := by
  simp only [storeBits, Obj.nat, read_write_toLE, leNat_toLE, pow_256_8]
  exact Nat.mod_eq_of_lt v.isLt

theorem store_int (o : Obj) (a n : Nat) (v : BitVec (8 * n)) (e : Err) :
    (storeBits o a n (e, some v)).2.int a n = v.toInt := by
  rw [Obj.int, store_nat]; simp

theorem ofInt_toInt_fit (w : Nat) (hw : 1 ≤ w) (z : Int) (h1 : -2 ^ (w - 1) ≤ z) (h2 : z ≤ 2 ^ (w - 1) - 1) :
    (BitVec.ofInt w z).toInt = z := by
  rw [BitVec.toInt_ofInt]
  have e : (2 : Nat) ^ w = 2 * 2 ^ (w - 1) := by
    rw [← Nat.pow_succ']; congr 1; omega
  have hc : ((2 : Int) ^ (w - 1)) = ((2 ^ (w - 1) : Nat) : Int) := by push_cast; rfl
  rw [hc] at h1 h2
  apply Int.bmod_eq_of_le_mul_two <;> rw [e] <;> push_cast <;> omega

theorem setSigned_member (env : Env) (r : RType) (n : Nat) (t s : Text) (a : Nat) (o : Obj) (hi : Indented t s)
    (hty : r.type = .Integer) (hn : r.subSize.toNat = n) (hw : IsWidth n) :
    setMember env r t a o = storeBits o a n (setSigned (8 * n) s) := by
  unfold setMember member
  simp only [hty, hn, indented_skip hi]
  rcases hw with rfl | rfl | rfl | rfl <;> rfl

theorem setUnsigned_member (env : Env) (r : RType) (n : Nat) (t s : Text) (a : Nat) (o : Obj) (hi : Indented t s)
    (hty : r.type = .UnsignedInteger) (hn : r.subSize.toNat = n) (hw : IsWidth n) :
    setMember env r t a o = storeBits o a n (setUnsigned (8 * n) s) := by
  unfold setMember member
  simp only [hty, hn, indented_skip hi]
  rcases hw with rfl | rfl | rfl | rfl <;> rfl

/-- C23, signed fields of 1, 2, 4 and 8 bytes: a literal in range is stored and reported as success, above the range
the largest and (with the minus sign in front) below the range the smallest value is stored and out-of-range reported,
anything else leaves the object alone and reports an invalid format.
Missing for the full statement: a negative literal preceded by a newline, vertical tab, form feed or carriage return
(see `set_signed_violated`). -/
theorem set_signed_partial (env : Env) (c : ClassTab) (h : BitVec 32) (r : RType) (n : Nat) (t s : Text) (o : Obj)
    (hr : typeOf c h = some r) (hty : r.type = .Integer) (hn : r.subSize.toNat = n) (hw : IsWidth n)
    (hi : Indented t s) :
    (∀ neg m, Literal s neg m →
      let z := signedVal neg m
      let res := setByName env c h t o
      (-2 ^ (8 * n - 1) ≤ z → z ≤ 2 ^ (8 * n - 1) - 1 → res.1 = .None ∧ res.2.int r.offset.toNat n = z) ∧
      (2 ^ (8 * n - 1) - 1 < z → res.1 = .OutOfRange ∧ res.2.int r.offset.toNat n = 2 ^ (8 * n - 1) - 1) ∧
      (z < -2 ^ (8 * n - 1) → s.head? = some 0x2d#8 →
        res.1 = .OutOfRange ∧ res.2.int r.offset.toNat n = -2 ^ (8 * n - 1))) ∧
    ((∀ neg m, ¬ Literal s neg m) → setByName env c h t o = (.InvalidFormat, o)) := by
  have e : setByName env c h t o = storeBits o r.offset.toNat n (setSigned (8 * n) s) := by
    unfold setByName
    rw [hr]
    simp only [setValue, hty]
    exact setSigned_member env r n t s _ o hi hty hn hw
  have hn1 : 1 ≤ 8 * n := by rcases hw with rfl | rfl | rfl | rfl <;> decide
  have hn2 : 8 * n ≤ 64 := by rcases hw with rfl | rfl | rfl | rfl <;> decide
  obtain ⟨h1, h2⟩ := setSigned_spec (8 * n) hn1 hn2 s
  have hp0 : (0 : Int) < 2 ^ (8 * n - 1) := by
    have : (0 : Nat) < 2 ^ (8 * n - 1) := Nat.two_pow_pos _
    exact_mod_cast this
  constructor
  · intro neg m hl
    obtain ⟨g1, g2, g3⟩ := h1 neg m hl
    simp only [e]
    refine ⟨?_, ?_, ?_⟩
    · intro l1 l2
      rw [g1 l1 l2]
      exact ⟨rfl, by rw [store_int, ofInt_toInt_fit _ hn1 _ l1 l2]⟩
    · intro l
      rw [g2 l]
      exact ⟨rfl, by rw [store_int, ofInt_toInt_fit _ hn1 _ (by omega) (by omega)]⟩
    · intro l l'
      rw [g3 l l']
      exact ⟨rfl, by rw [store_int, ofInt_toInt_fit _ hn1 _ (by omega) (by omega)]⟩
  · intro hn
    rw [e, h2 hn]
    rfl

/-- C23, unsigned fields of 1, 2, 4 and 8 bytes: a non-negative literal in range is stored, above the range the largest
value is stored and out-of-range reported; a negative one stores its negation modulo `2^bits` and reports a sign
mismatch (out of range when it does not even fit 64 bits); anything else changes nothing. -/
theorem set_unsigned_correct (env : Env) (c : ClassTab) (h : BitVec 32) (r : RType) (n : Nat) (t s : Text) (o : Obj)
    (hr : typeOf c h = some r) (hty : r.type = .UnsignedInteger) (hn : r.subSize.toNat = n) (hw : IsWidth n)
    (hi : Indented t s) :
    (∀ m, Literal s false m →
      let res := setByName env c h t o
      (m < 2 ^ (8 * n) → res.1 = .None ∧ res.2.nat r.offset.toNat n = m) ∧
      (2 ^ (8 * n) ≤ m → res.1 = .OutOfRange ∧ res.2.nat r.offset.toNat n = 2 ^ (8 * n) - 1)) ∧
    (∀ m, Literal s true m → s.head? = some 0x2d#8 →
      let res := setByName env c h t o
      (m < 2 ^ 64 → res.1 = .SignMismatch ∧ (res.2.nat r.offset.toNat n + m) % 2 ^ (8 * n) = 0) ∧
      (2 ^ 64 ≤ m → res.1 = .OutOfRange ∧ res.2.nat r.offset.toNat n = 2 ^ (8 * n) - 1)) ∧
    ((∀ neg m, ¬ Literal s neg m) → setByName env c h t o = (.InvalidFormat, o)) := by
  have e : setByName env c h t o = storeBits o r.offset.toNat n (setUnsigned (8 * n) s) := by
    unfold setByName
    rw [hr]
    simp only [setValue, hty]
    exact setUnsigned_member env r n t s _ o hi hty hn hw
  have hn1 : 1 ≤ 8 * n := by rcases hw with rfl | rfl | rfl | rfl <;> decide
  have hn2 : 8 * n ≤ 64 := by rcases hw with rfl | rfl | rfl | rfl <;> decide
  obtain ⟨h1, h2, h3⟩ := setUnsigned_spec (8 * n) hn1 hn2 s
  have hp0 : (0 : Nat) < 2 ^ (8 * n) := Nat.two_pow_pos _
  have hmax : ∀ e, (storeBits o r.offset.toNat n (e, some (BitVec.ofNat (8 * n) (2 ^ (8 * n) - 1)))).2.nat r.offset.toNat n
      = 2 ^ (8 * n) - 1 := by
    intro e
    rw [store_nat, BitVec.toNat_ofNat]
    exact Nat.mod_eq_of_lt (by omega)
  refine ⟨?_, ?_, ?_⟩
  · intro m hl
    simp only [e]
    obtain ⟨g1, g2⟩ := h1 m hl
    constructor
    · intro l
      rw [g1 (by omega)]
      exact ⟨rfl, by rw [store_nat, BitVec.toNat_ofNat]; exact Nat.mod_eq_of_lt l⟩
    · intro l
      rw [g2 (by omega)]
      exact ⟨rfl, hmax _⟩
  · intro m hl hd
    simp only [e]
    obtain ⟨g1, g2⟩ := h2 m hl hd
    constructor
    · intro l
      rw [g1 l]
      refine ⟨rfl, ?_⟩
      rw [store_nat, BitVec.toNat_neg, BitVec.toNat_ofNat]
      have hm := Nat.mod_lt m hp0
      rw [Nat.add_mod, Nat.mod_mod]
      by_cases h0 : m % 2 ^ (8 * n) = 0
      · rw [h0]; simp
      · rw [Nat.mod_eq_of_lt (a := 2 ^ (8 * n) - m % 2 ^ (8 * n)) (by omega), Nat.sub_add_cancel (by omega), Nat.mod_self]
    · intro l
      rw [g2 l]
      exact ⟨rfl, hmax _⟩
  · intro hn
    rw [e, h3 hn]
    rfl

/-! ### A concrete class: int8 at 2, uint16 at 4 -/

def exInt8 : RType := ⟨.Integer, .None, 1, 0, 0, 2, 0x11, 0⟩
def exUInt16 : RType := ⟨.UnsignedInteger, .None, 2, 1, 0, 4, 0x22, 0⟩
def exTab : ClassTab := ⟨[exInt8, exUInt16], some [0x33, 0]⟩
def exEnv : Env := ⟨fun _ => none, fun _ => (.None, none), fun _ => (.None, none), fun _ => [], fun _ => []⟩
def exObj : Obj := ⟨fun _ => 0xaa#8, fun _ => []⟩

/-- "\n-300": the saturation looks at the first character only, so a negative number after a newline stores the largest
value: the property fails for this text. -/
theorem set_signed_violated :
    Literal [0x0a#8, 0x2d#8, 0x33#8, 0x30#8, 0x30#8] true 300 ∧
    (setByName exEnv exTab 0x11 [0x0a#8, 0x2d#8, 0x33#8, 0x30#8, 0x30#8] exObj).1 = .OutOfRange ∧
    (setByName exEnv exTab 0x11 [0x0a#8, 0x2d#8, 0x33#8, 0x30#8, 0x30#8] exObj).2.int 2 1 = 127 := by
  refine ⟨?_, by decide +kernel, by decide +kernel⟩
  apply parse_literal
  decide +kernel

/-- Non-vacuity: "  -300" is below the range of the int8 field; "70000" is above the range of the uint16 field. -/
example : Indented [0x20#8, 0x2d#8, 0x33#8, 0x30#8, 0x30#8] [0x2d#8, 0x33#8, 0x30#8, 0x30#8] ∧
    Literal [0x2d#8, 0x33#8, 0x30#8, 0x30#8] true 300 ∧ typeOf exTab 0x11 = some exInt8 ∧ typeOf exTab 0x33 = some exInt8 ∧
    typeOf exTab 0x22 = some exUInt16 ∧ IsWidth exUInt16.subSize.toNat := by
  refine ⟨⟨[0x20#8], rfl, by simp [IsBlank], by simp [IsBlank]⟩, parse_literal (by decide +kernel), ?_, ?_, ?_, ?_⟩
  · rfl
  · rfl
  · rfl
  · exact Or.inr (Or.inl rfl)

/-! ## C44 -/

theorem findHash_spec (h : BitVec 32) (l : List (BitVec 32)) : ∀ k,
    (∀ i, findHash h l k = some i ↔ k ≤ i ∧ l[i - k]? = some h ∧ ∀ j, j < i - k → l[j]? ≠ some h) ∧
    (findHash h l k = none ↔ h ∉ l) := by
  induction l with
  | nil => intro k; simp [findHash]
  | cons x xs ih =>
    intro k
    obtain ⟨i1, i2⟩ := ih (k + 1)
    unfold findHash
    by_cases hx : x = h
    · subst hx
      simp only [if_true]
      constructor
      · intro i
        constructor
        · intro hi; simp only [Option.some.injEq] at hi; subst hi; simp
        · rintro ⟨h1, h2, h3⟩
          by_cases hk : i = k
          · rw [hk]
          · exact absurd rfl (h3 0 (by omega))
      · simp
    · rw [if_neg hx]
      constructor
      · intro i
        rw [i1 i]
        constructor
        · rintro ⟨h1, h2, h3⟩
          refine ⟨by omega, ?_, ?_⟩
          · rw [show i - k = (i - (k + 1)) + 1 by omega, List.getElem?_cons_succ]; exact h2
          · intro j hj
            cases j with
            | zero => simpa using hx
            | succ j => rw [List.getElem?_cons_succ]; exact h3 j (by omega)
        · rintro ⟨h1, h2, h3⟩
          have hne : i ≠ k := by
            intro hik; subst hik; simp at h2; exact hx h2
          refine ⟨by omega, ?_, ?_⟩
          · rw [show i - k = (i - (k + 1)) + 1 by omega, List.getElem?_cons_succ] at h2; exact h2
          · intro j hj
            have := h3 (j + 1) (by omega)
            rwa [List.getElem?_cons_succ] at this
      · rw [i2]; simp [Ne.symm hx]

/-- The first index whose entry is `h`. -/
def FirstAt (l : List (BitVec 32)) (h : BitVec 32) (i : Nat) : Prop := l[i]? = some h ∧ ∀ j < i, l[j]? ≠ some h

/-- C44: a declared name finds the first field of that name, an alias is consulted only when no field has the name and
then finds the first field with that alias, and everything else is not found (and assignment by such a name changes
nothing and reports an invalid destination). The number of aliases equals the number of fields. -/
theorem lookup_correct (c : ClassTab) (h : BitVec 32) (hal : ∀ al, c.aliases = some al → al.length = c.types.length) :
    let names := c.types.map (·.valueNameHash)
    (∀ i, FirstAt names h i → typeOf c h = c.types[i]?) ∧
    (h ∉ names → ∀ al, c.aliases = some al → ∀ i, FirstAt al h i → typeOf c h = c.types[i]?) ∧
    (h ∉ names → (∀ al, c.aliases = some al → h ∉ al) → typeOf c h = none) ∧
    (typeOf c h = none → ∀ env t o, setByName env c h t o = (.InvalidDestination, o)) := by
  intro names
  obtain ⟨n1, n2⟩ := findHash_spec h names 0
  refine ⟨?_, ?_, ?_, ?_⟩
  · intro i ⟨h1, h2⟩
    unfold typeOf lookup
    rw [show findHash h (c.types.map (·.valueNameHash)) 0 = some i from (n1 i).2 ⟨by omega, h1, h2⟩]
    rfl
  · intro hn al ha i ⟨h1, h2⟩
    unfold typeOf lookup
    rw [show findHash h (c.types.map (·.valueNameHash)) 0 = none from n2.2 hn, ha]
    simp only
    rw [List.take_of_length_le (by rw [hal al ha]; omega), (findHash_spec h al 0).1 i |>.2 ⟨by omega, h1, h2⟩]
    rfl
  · intro hn ha
    unfold typeOf lookup
    rw [show findHash h (c.types.map (·.valueNameHash)) 0 = none from n2.2 hn]
    cases hc : c.aliases with
    | none => rfl
    | some al =>
      simp only
      rw [List.take_of_length_le (by rw [hal al hc]; omega), (findHash_spec h al 0).2.2 (ha al hc)]
      rfl
  · intro hn env t o
    unfold setByName
    rw [hn]

example : FirstAt (exTab.types.map (·.valueNameHash)) 0x22 1 ∧ FirstAt [0x33, 0] 0x33 0 ∧
    0x33 ∉ exTab.types.map (·.valueNameHash) := by
  refine ⟨⟨rfl, ?_⟩, ⟨rfl, by omega⟩, by decide⟩
  intro j hj
  obtain rfl : j = 0 := by omega
  decide

end PreCore.Refl
