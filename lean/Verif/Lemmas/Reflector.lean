import Verif.Lemmas.CNum
import Verif.Lemmas.Mem
import Verif.Model.ReflectorPrint
import Verif.Props.Supercore
/-! # Object memory and small facts about the reflector model -/
namespace PreCore.Refl
open CNum Spec Supercore

theorem read_length (o : Obj) (a n : Nat) : (o.read a n).length = n := by simp [Obj.read]

theorem read_getElem? (o : Obj) (a n i : Nat) (h : i < n) : (o.read a n)[i]? = some (o.mem (a + i)) := by
  simp [Obj.read, h]

theorem write_mem_out (o : Obj) (a : Nat) (bs : List Byte) (x : Nat) (h : x < a ∨ a + bs.length ≤ x) :
    (o.write a bs).mem x = o.mem x := by
  unfold Obj.write
  simp only
  rw [if_neg (by omega)]

theorem write_strs (o : Obj) (a : Nat) (bs : List Byte) : (o.write a bs).strs = o.strs := rfl

theorem read_write_same (o : Obj) (a : Nat) (bs : List Byte) : (o.write a bs).read a bs.length = bs := by
  apply List.ext_getElem?
  intro i
  by_cases h : i < bs.length
  · rw [read_getElem? _ _ _ _ h]
    unfold Obj.write
    simp only
    rw [if_pos (by omega), show a + i - a = i by omega, List.getD_eq_getElem?_getD, List.getElem?_eq_getElem h]
    rfl
  · rw [List.getElem?_eq_none (by rw [read_length]; omega), List.getElem?_eq_none (by omega)]

theorem read_write_toLE (o : Obj) (a n v : Nat) : (o.write a (toLE n v)).read a n = toLE n v := by
  have := read_write_same o a (toLE n v)
  rwa [toLE_length] at this

theorem read_congr (o o' : Obj) (a n : Nat) (h : ∀ x, a ≤ x → x < a + n → o.mem x = o'.mem x) : o.read a n = o'.read a n := by
  unfold Obj.read
  apply List.map_congr_left
  intro i hi
  exact h _ (by omega) (by have := List.mem_range.1 hi; omega)

theorem read_write_disjoint (o : Obj) (a : Nat) (bs : List Byte) (b n : Nat) (h : b + n ≤ a ∨ a + bs.length ≤ b) :
    (o.write a bs).read b n = o.read b n := by
  apply read_congr
  intro x h1 h2
  exact write_mem_out _ _ _ _ (by omega)

theorem setMember_scalar (env : Env) (r : RType) (t : Text) (a : Nat) (o : Obj) :
    setMember env r t a o = member env (t.length + 1) r t a o := rfl

/-- A minus sign in front makes the literal negative. -/
theorem literal_minus {t neg m} (h : Literal t neg m) (hm : t.head? = some 0x2d#8) : neg = true := by
  cases h with
  | dec hw hs hd hn hr hh =>
    rename_i ws sg cs ds rest
    cases ws with
    | nil =>
      cases hs with
      | none =>
        cases hd with
        | nil => exact absurd rfl hn
        | cons h1 _ =>
          simp only [List.nil_append, List.cons_append, List.head?_cons, Option.some.injEq] at hm
          exact absurd hm (digit_not_sign h1).1
      | plus => simp at hm
      | minus => rfl
    | cons c ws =>
      simp only [List.cons_append, List.head?_cons, Option.some.injEq] at hm
      subst hm
      have := hw 0x2d#8 (by simp)
      simp [White] at this
  | hex => simp [hexMark] at hm
  | hexNeg => rfl
  | zero => simp [hexMark] at hm
  | zeroNeg => rfl

theorem startsMinus_iff (t : Text) : startsMinus t = true ↔ t.head? = some 0x2d#8 := by
  simp [startsMinus]

/-- Texts whose minus sign, if any, comes first (no newline or other exotic white space before it). -/
def MinusFirst (s : Text) : Prop := ∀ neg m, Literal s neg m → neg = true → s.head? = some 0x2d#8

theorem setSigned_spec (w : Nat) (hw : 1 ≤ w) (hw2 : w ≤ 64) (s : Text) :
    (∀ neg m, Literal s neg m →
      (-2 ^ (w - 1) ≤ signedVal neg m → signedVal neg m ≤ 2 ^ (w - 1) - 1 →
        setSigned w s = (.None, some (BitVec.ofInt w (signedVal neg m)))) ∧
      (2 ^ (w - 1) - 1 < signedVal neg m → setSigned w s = (.OutOfRange, some (BitVec.ofInt w (2 ^ (w - 1) - 1)))) ∧
      (signedVal neg m < -2 ^ (w - 1) → s.head? = some 0x2d#8 →
        setSigned w s = (.OutOfRange, some (BitVec.ofInt w (-2 ^ (w - 1)))))) ∧
    ((∀ neg m, ¬ Literal s neg m) → setSigned w s = (.InvalidFormat, none)) := by
  have hp : (2 : Int) ^ (w - 1) ≤ 2 ^ 63 := by
    have : (2 : Nat) ^ (w - 1) ≤ 2 ^ 63 := Nat.pow_le_pow_right (by omega) (by omega)
    exact_mod_cast this
  have hp0 : (0 : Int) < 2 ^ (w - 1) := by
    have : (0 : Nat) < 2 ^ (w - 1) := Nat.two_pow_pos _
    exact_mod_cast this
  constructor
  · intro neg m hl
    have hs : stoll (numBase s) s = if signedVal neg m < -2 ^ 63 ∨ signedVal neg m > 2 ^ 63 - 1 then .outOfRange
        else .ok (signedVal neg m) := by
      unfold stoll; rw [literal_parse hl]; rfl
    have hmin : signedVal neg m > 0 → startsMinus s = false := by
      intro hz
      cases hb : startsMinus s with
      | false => rfl
      | true =>
        have := literal_minus hl ((startsMinus_iff s).1 hb)
        subst this
        simp only [signedVal, if_true] at hz
        omega
    unfold setSigned
    rw [hs]
    generalize signedVal neg m = z at *
    dsimp only
    generalize (2 : Int) ^ (w - 1) = p at *
    refine ⟨?_, ?_, ?_⟩
    · intro h1 h2
      rw [if_neg (by omega)]
      simp only
      rw [if_neg (by omega)]
    · intro h1
      have := hmin (by omega)
      by_cases hc : z < -2 ^ 63 ∨ z > 2 ^ 63 - 1
      · rw [if_pos hc]; simp [this]
      · rw [if_neg hc]; simp only; rw [if_pos (by omega)]; simp [this]
    · intro h1 h2
      have := (startsMinus_iff s).2 h2
      by_cases hc : z < -2 ^ 63 ∨ z > 2 ^ 63 - 1
      · rw [if_pos hc]; simp [this]
      · rw [if_neg hc]; simp only; rw [if_pos (by omega)]; simp [this]
  · intro hn
    unfold setSigned stoll
    rw [parse_none.2 hn]

theorem setUnsigned_spec (w : Nat) (hw : 1 ≤ w) (hw2 : w ≤ 64) (s : Text) :
    (∀ m, Literal s false m →
      (m ≤ 2 ^ w - 1 → setUnsigned w s = (.None, some (BitVec.ofNat w m))) ∧
      (2 ^ w - 1 < m → setUnsigned w s = (.OutOfRange, some (BitVec.ofNat w (2 ^ w - 1))))) ∧
    (∀ m, Literal s true m → s.head? = some 0x2d#8 →
      (m < 2 ^ 64 → setUnsigned w s = (.SignMismatch, some (- BitVec.ofNat w m))) ∧
      (2 ^ 64 ≤ m → setUnsigned w s = (.OutOfRange, some (BitVec.ofNat w (2 ^ w - 1))))) ∧
    ((∀ neg m, ¬ Literal s neg m) → setUnsigned w s = (.InvalidFormat, none)) := by
  have hp : (2 : Nat) ^ w ≤ 2 ^ 64 := Nat.pow_le_pow_right (by omega) (by omega)
  have hp0 : (0 : Nat) < 2 ^ w := Nat.two_pow_pos _
  refine ⟨?_, ?_, ?_⟩
  · intro m hl
    have hs : stoull (numBase s) s = if m > 2 ^ 64 - 1 then .outOfRange else .ok m := by
      unfold stoull; rw [literal_parse hl]; rfl
    have hm : startsMinus s = false := by
      cases hb : startsMinus s with
      | false => rfl
      | true => have := literal_minus hl ((startsMinus_iff s).1 hb); cases this
    unfold setUnsigned
    rw [hs]
    constructor
    · intro h
      rw [if_neg (by omega)]
      simp only [hm]
      rw [if_neg (by simp; omega)]
      simp
    · intro h
      by_cases hc : m > 2 ^ 64 - 1
      · rw [if_pos hc]
      · rw [if_neg hc]; simp only [hm]; rw [if_pos (by simpa using h)]
  · intro m hl hd
    have hs : stoull (numBase s) s = if m > 2 ^ 64 - 1 then .outOfRange else .ok ((2 ^ 64 - m) % 2 ^ 64) := by
      unfold stoull; rw [literal_parse hl]; rfl
    have hm := (startsMinus_iff s).2 hd
    unfold setUnsigned
    rw [hs]
    constructor
    · intro h
      rw [if_neg (by omega)]
      simp only [hm, if_true]
      rw [if_neg (by have := Nat.mod_lt ((2 ^ 64 - m) % 2 ^ 64) hp0; omega)]
      simp only [Prod.mk.injEq, true_and, Option.some.injEq]
      apply BitVec.eq_of_toNat_eq
      simp only [BitVec.toNat_ofNat, BitVec.toNat_neg, Nat.mod_mod]
      have hdvd : (2 : Nat) ^ w ∣ 2 ^ 64 := Nat.pow_dvd_pow 2 hw2
      rw [Nat.mod_mod_of_dvd _ hdvd]
      obtain ⟨k, hk⟩ := hdvd
      have hmm := Nat.mod_add_div m (2 ^ w)
      have hml := Nat.mod_lt m hp0
      generalize m % 2 ^ w = r at *
      generalize m / 2 ^ w = q at *
      generalize (2 : Nat) ^ w = P at *
      have hqk : q < k ∨ (q = k ∧ r = 0 ∧ False) := by
        left
        apply Nat.lt_of_mul_lt_mul_left (a := P)
        rw [← hk]; omega
      rcases hqk with hqk | ⟨_, _, h⟩
      · have e : 2 ^ 64 - m = (P - r) + P * (k - q - 1) := by
          rw [hk, ← hmm]
          obtain ⟨j, rfl⟩ : ∃ j, k = q + 1 + j := ⟨k - q - 1, by omega⟩
          rw [show q + 1 + j - q - 1 = j by omega, Nat.mul_add, Nat.mul_add, Nat.mul_one]
          omega
        rw [e, Nat.add_mul_mod_self_left]
      · exact h.elim
    · intro h
      rw [if_pos (by omega)]
  · intro hn
    unfold setUnsigned stoull
    rw [parse_none.2 hn]

end PreCore.Refl
