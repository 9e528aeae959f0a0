import Verif.Props.Jenkins
import Verif.Props.Crypt
import Verif.Spec.Lookup3
/-!
# C58: `JenkinsHash3_` is Bob Jenkins' lookup3 (`hashword`) of the zero padded text
-/
namespace PreCore.Jenkins
open PreCore

theorem rot_eq (x : BitVec 32) (k : Nat) (hk : k < 32) : rot x k = x.rotateLeft k := by
  rw [BitVec.rotateLeft_def, Nat.mod_eq_of_lt hk, rot]

def Triplet.st (t : Triplet) : Lookup3.St := ⟨t.a, t.b, t.c⟩

theorem mix_eq (t : Triplet) : t.mix.st = Lookup3.mix t.st := by
  simp only [Triplet.mix, Triplet.st, Lookup3.mix, rot_eq _ 4 (by omega), rot_eq _ 6 (by omega), rot_eq _ 8 (by omega),
    rot_eq _ 16 (by omega), rot_eq _ 19 (by omega)]

theorem finalize_eq (t : Triplet) : t.finalize.st = Lookup3.final t.st := by
  simp only [Triplet.finalize, Triplet.st, Lookup3.final, rot_eq _ 14 (by omega), rot_eq _ 11 (by omega), rot_eq _ 25 (by omega),
    rot_eq _ 16 (by omega), rot_eq _ 4 (by omega), rot_eq _ 24 (by omega)]

theorem mutateKey_eq (l : List Byte) (o : Nat) :
    mutateKey l o = l.getD (o + 3) 0 ++ l.getD (o + 2) 0 ++ l.getD (o + 1) 0 ++ l.getD o 0 := by
  have ck : ∀ i, (if o + i ≥ l.length then 0#32 else (l.getD (o + i) 0).setWidth 32) = (l.getD (o + i) 0).setWidth 32 := by
    intro i
    split
    · rename_i h
      rw [List.getD_eq_getElem?_getD, List.getElem?_eq_none (by omega)]; rfl
    · rfl
  simp only [mutateKey, ck]
  exact Crypt.pack4 _ _ _ _

theorem words_cons (l : List Byte) (h : l ≠ []) : Lookup3.wordsOf l = mutateKey l 0 :: Lookup3.wordsOf (l.drop 4) := by
  rw [mutateKey_eq]
  match l, h with
  | [a], _ => rfl
  | [a, b], _ => rfl
  | [a, b, c], _ => rfl
  | a :: b :: c :: d :: rest, _ => rfl

theorem mutateKey_drop (l : List Byte) (o k : Nat) : mutateKey (l.drop k) o = mutateKey l (k + o) := by
  rw [mutateKey_eq, mutateKey_eq]
  have : ∀ i, (l.drop k).getD i 0 = l.getD (k + i) 0 := by
    intro i; simp [List.getD_eq_getElem?_getD]
  simp only [this, Nat.add_assoc]

theorem words_length (l : List Byte) : (Lookup3.wordsOf l).length = numRKeys l.length := by
  have key : ∀ n, ∀ l : List Byte, l.length = n → (Lookup3.wordsOf l).length = numRKeys l.length := by
    intro n
    induction n using Nat.strongRecOn with
    | ind n ih =>
      intro l hl
      by_cases h : l = []
      · subst h; rfl
      · have h0 := List.length_pos_iff.mpr h
        rw [words_cons l h, List.length_cons, ih (l.drop 4).length (by simp; omega) _ rfl, List.length_drop]
        unfold numRKeys
        split <;> split <;> omega
  exact key _ l rfl

/-- The loop and the closing step on the text from position `k` on, when the text has not the length 24, 36, .... -/
theorem loop_eq (input : List Byte) (hn : input.length % 12 ≠ 0 ∨ input.length ≤ 12) :
    ∀ (f k : Nat) (t : Triplet), k % 12 = 0 → k ≤ input.length → (k = 0 ∨ k < input.length) → input.length ≤ f + k →
      (let lastKeys := if input.length = 12 then 12 else input.length % 12
       let r := mixLoop input f k t
       (if lastKeys > 0 then ((r.add (lastTrip input lastKeys)).finalize).c else r.c)) =
      (Lookup3.loop t.st (Lookup3.wordsOf (input.drop k))).c := by
  intro f
  induction f with
  | zero =>
    intro k t h1 h2 h3 h4
    have hk : input.length = 0 := by omega
    have : input = [] := List.length_eq_zero_iff.mp hk
    have hk0 : k = 0 := by omega
    subst this hk0
    rfl
  | succ f ih =>
    intro k t h1 h2 h3 h4
    have d4 : ∀ j, (input.drop k).drop j = input.drop (k + j) := by intro j; rw [List.drop_drop]
    have ne : ∀ j, j < input.length → input.drop j ≠ [] := by
      intro j hj e; have := congrArg List.length e; simp at this; omega
    have w : ∀ j, j < input.length → Lookup3.wordsOf (input.drop j) = mutateKey input j :: Lookup3.wordsOf (input.drop (j + 4)) := by
      intro j hj
      rw [words_cons _ (ne j hj), mutateKey_drop, List.drop_drop, Nat.add_zero]
    have nil : ∀ j, input.length ≤ j → Lookup3.wordsOf (input.drop j) = [] := by
      intro j hj; rw [List.drop_of_length_le hj]; rfl
    simp only [mixLoop]
    by_cases hlt : k + 12 < input.length
    · have hc : k < max input.length 12 - 12 := by omega
      simp only [hc, if_true]
      have := ih (k + 12) ((t.add ⟨mutateKey input k, mutateKey input (k + 4), mutateKey input (k + 8)⟩).mix) (by omega) (by omega)
        (by omega) (by omega)
      simp only at this
      rw [this, w k (by omega), w (k + 4) (by omega), w (k + 4 + 4) (by omega), w (k + 4 + 4 + 4) (by omega)]
      rw [mix_eq]
      rfl
    · have hc : ¬ (k < max input.length 12 - 12) := by omega
      simp only [hc, if_false]
      by_cases h0 : input.length = 0
      · have : input = [] := List.length_eq_zero_iff.mp h0
        subst this
        simp [Lookup3.wordsOf, Lookup3.loop, Triplet.st]
      · have hm : (if input.length = 12 then 12 else input.length % 12) = input.length - k := by split <;> omega
        rw [hm, if_pos (by omega)]
        have fin : ∀ t : Triplet, t.finalize.c = (Lookup3.final t.st).c := fun t => congrArg Lookup3.St.c (finalize_eq t)
        rw [fin, w k (by omega)]
        simp only [lastTrip]
        by_cases h8 : k + 8 < input.length
        · rw [if_pos (by omega), w (k + 4) (by omega), w (k + 4 + 4) (by omega), nil (k + 4 + 4 + 4) (by omega)]
          rw [show input.length - (input.length - k) = k by omega, show input.length - (input.length - k - 4) = k + 4 by omega,
            show input.length - (input.length - k - 8) = k + 4 + 4 by omega]
          rfl
        · rw [if_neg (by omega)]
          by_cases h5 : k + 4 < input.length
          · rw [if_pos (by omega), w (k + 4) (by omega), nil (k + 4 + 4) (by omega)]
            rw [show input.length - (input.length - k) = k by omega, show input.length - (input.length - k - 4) = k + 4 by omega]
            simp [Triplet.add, Triplet.st, Lookup3.loop]
          · rw [if_neg (by omega), if_pos (by omega), nil (k + 4) (by omega)]
            rw [show input.length - (input.length - k) = k by omega]
            simp [Triplet.add, Triplet.st, Lookup3.loop]

/-- **C58** (partial: texts whose length is not 24, 36, 48, ...; for those the closing step is left out, see `hash3_tail_ignored`):
`JenkinsHash3_` is `hashword` of the text as zero padded little endian words, for every text and seed. -/
theorem hash3_lookup3_partial (input : List Byte) (seed : BitVec 32) (hn : input.length % 12 ≠ 0 ∨ input.length ≤ 12) :
    hash3 input seed = Lookup3.hashword (Lookup3.wordsOf input) seed := by
  have := loop_eq input hn input.length 0 ⟨setup (BitVec.ofNat 32 (numRKeys input.length)) seed,
    setup (BitVec.ofNat 32 (numRKeys input.length)) seed, setup (BitVec.ofNat 32 (numRKeys input.length)) seed⟩ (by omega) (by omega)
    (Or.inl rfl) (by omega)
  simp only [List.drop_zero] at this
  unfold hash3 Lookup3.hashword
  simp only
  rw [this, words_length]
  have hs : ∀ n : Nat, setup (BitVec.ofNat 32 n) seed = 0xdeadbeef#32 + BitVec.ofNat 32 (4 * n) + seed := by
    intro n
    unfold setup
    congr 2
    apply BitVec.eq_of_toNat_eq
    simp [BitVec.toNat_shiftLeft, Nat.shiftLeft_eq]
    omega
  rw [hs]
  rfl

example : ([0x61#8, 0x62#8, 0x63#8, 0x64#8, 0x65#8] : List Byte).length % 12 ≠ 0 := by decide

/-- **C58 violated**: for 24 characters the result is not lookup3. -/
theorem hash3_lookup3_violated : ∃ input : List Byte, hash3 input 0 ≠ Lookup3.hashword (Lookup3.wordsOf input) 0 :=
  ⟨List.replicate 24 0x61#8, by decide +kernel⟩

end PreCore.Jenkins
