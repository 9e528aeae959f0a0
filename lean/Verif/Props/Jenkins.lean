import Verif.Lemmas.Jenkins
/-!
# C10, C11, C51: Jenkins hashes
-/
namespace PreCore.Jenkins

/-! ## C10 -/

/-- Specification of the repository's hash on plain natural numbers (no word size except the stated
reductions modulo 2^32). -/
def specStep (r : Nat) (c : Byte) : Nat :=
  let y := (r + c.toNat) * 1025
  (y ^^^ (y / 64)) % 2 ^ 32

def specFinish (r : Nat) : Nat :=
  let f := r * 9
  let g := f ^^^ (f / 2048)
  g * 32769 % 2 ^ 32

theorem fold_spec (s : List Byte) : ∀ (r : BitVec 64) (n : Nat), n < 2 ^ 32 → r.toNat = n →
    (s.foldl (oatStep 64) r).toNat = s.foldl specStep n ∧ s.foldl specStep n < 2 ^ 32 := by
  induction s with
  | nil => intro r n hn hr; exact ⟨hr, hn⟩
  | cons c s ih =>
    intro r n hn hr
    rw [List.foldl_cons, List.foldl_cons]
    have hc := c.isLt
    apply ih
    · simp only [specStep]; exact Nat.mod_lt _ (by decide)
    · simp only [oatStep, specStep, BitVec.toNat_setWidth, BitVec.toNat_xor, BitVec.toNat_add,
        BitVec.toNat_shiftLeft, BitVec.toNat_ushiftRight, Nat.shiftLeft_eq, Nat.shiftRight_eq_div_pow, hr]
      have e1 : (n + c.toNat % 2 ^ 64) % 2 ^ 64 = n + c.toNat := by omega
      rw [e1]
      have e2 : (n + c.toNat + (n + c.toNat) * 2 ^ 10 % 2 ^ 64) % 2 ^ 64 = (n + c.toNat) * 1025 := by omega
      rw [e2, Nat.mod_eq_of_lt (a := _ % 2 ^ 32) (by omega)]

/-- C10: `JenHash` is the recurrence above over the characters from left to right; 64-bit arithmetic
never overflows, so the result does not depend on the machine word. -/
theorem jenHash_spec (s : List Byte) : (jenHash s).toNat = specFinish (s.foldl specStep 0) := by
  obtain ⟨h1, h2⟩ := fold_spec s 0#64 0 (by decide) rfl
  generalize hr : s.foldl (oatStep 64) 0#64 = r at h1
  generalize s.foldl specStep 0 = n at h1 h2
  simp only [jenHash, oatHash, hr, specFinish, BitVec.toNat_setWidth, BitVec.toNat_xor, BitVec.toNat_add,
    BitVec.toNat_shiftLeft, BitVec.toNat_ushiftRight, Nat.shiftLeft_eq, Nat.shiftRight_eq_div_pow, h1]
  have e1 : (n + n * 2 ^ 3 % 2 ^ 64) % 2 ^ 64 = n * 9 := by omega
  rw [e1]
  have hg : n * 9 ^^^ n * 9 / 2 ^ 11 < 2 ^ 36 := Nat.xor_lt_two_pow (by omega) (by omega)
  have e2 : n * 9 / 2 ^ 11 = n * 9 / 2048 := rfl
  rw [e2] at hg ⊢
  generalize n * 9 ^^^ n * 9 / 2048 = g at *
  omega

/-- C10: hashing can be continued: the state after `a ++ b` is the state after `b` started from the state
after `a`, hence strings with equal states after a prefix stay equal. -/
theorem jenHash_append (a a' b : List Byte) (h : a.foldl specStep 0 = a'.foldl specStep 0) :
    jenHash (a ++ b) = jenHash (a' ++ b) := by
  apply BitVec.eq_of_toNat_eq
  rw [jenHash_spec, jenHash_spec, List.foldl_append, List.foldl_append, h]

/-- C10: the comparison operators of `JenHash` form a strict total order consistent with `==`, and `>` is
the mirror of `<`. -/
theorem jenHash_order :
    (∀ a, hashLt a a = false) ∧
    (∀ a b c, hashLt a b = true → hashLt b c = true → hashLt a c = true) ∧
    (∀ a b, hashLt a b = true ∨ hashEq a b = true ∨ hashLt b a = true) ∧
    (∀ a b, hashEq a b = true ↔ a = b) ∧
    (∀ a b, hashGt a b = hashLt b a) := by
  refine ⟨?_, ?_, ?_, ?_, ?_⟩
  · intro a; simp [hashLt, BitVec.ult]
  · intro a b c; simp only [hashLt, BitVec.ult, decide_eq_true_eq]; omega
  · intro a b
    simp only [hashLt, hashEq, BitVec.ult, decide_eq_true_eq, beq_iff_eq]
    rcases Nat.lt_trichotomy a.toNat b.toNat with h | h | h
    · exact Or.inr (Or.inr h)
    · exact Or.inr (Or.inl (BitVec.eq_of_toNat_eq h.symm))
    · exact Or.inl h
  · intro a b; simp only [hashEq, beq_iff_eq]; exact eq_comm
  · intro a b; rfl

/-- Known answers asserted by the repository (jenkinshash.hpp:80-81): a test of the model, not a theorem
about all inputs. -/
example : jenHash [0x62#8, 0x75#8, 0x67#8] = 0x54908567#32 ∧
    jenHashCannon [0x62#8, 0x75#8, 0x67#8] = 0xF37C8567#32 := by decide

/-- Jenkins' published one-at-a-time hash on natural numbers (Dr. Dobb's, 1997): one character, and the end. -/
def oneAtATime (h : Nat) (c : Byte) : Nat :=
  let h := (h + c.toNat) % 2 ^ 32
  let h := (h + h * 2 ^ 10) % 2 ^ 32
  h ^^^ h / 2 ^ 6

def oneAtATimeEnd (h : Nat) : Nat :=
  let h := (h + h * 2 ^ 3) % 2 ^ 32
  let h := h ^^^ h / 2 ^ 11
  (h + h * 2 ^ 15) % 2 ^ 32

theorem oatStep32_toNat (r : BitVec 32) (c : Byte) : (oatStep 32 r c).toNat = oneAtATime r.toNat c := by
  have hc := c.isLt
  have e : c.toNat % 2 ^ 32 = c.toNat := Nat.mod_eq_of_lt (by omega)
  simp only [oatStep, oneAtATime, BitVec.setWidth_eq, BitVec.toNat_setWidth, BitVec.toNat_xor, BitVec.toNat_add,
    BitVec.toNat_shiftLeft, BitVec.toNat_ushiftRight, Nat.shiftLeft_eq, Nat.shiftRight_eq_div_pow, e, Nat.add_mod_mod]

/-- C10: `JenHashCannon` is Jenkins' published one-at-a-time hash, for every text. -/
theorem jenHashCannon_published (s : List Byte) : (jenHashCannon s).toNat = oneAtATimeEnd (s.foldl oneAtATime 0) := by
  have hf : ∀ (s : List Byte) (r : BitVec 32), (s.foldl (oatStep 32) r).toNat = s.foldl oneAtATime r.toNat := by
    intro s
    induction s with
    | nil => intro r; rfl
    | cons c s ih => intro r; rw [List.foldl_cons, List.foldl_cons, ih, oatStep32_toNat]
  have h0 := hf s 0#32
  simp only [jenHashCannon, oatHash, oneAtATimeEnd, BitVec.setWidth_eq, BitVec.toNat_xor, BitVec.toNat_add,
    BitVec.toNat_shiftLeft, BitVec.toNat_ushiftRight, Nat.shiftLeft_eq, Nat.shiftRight_eq_div_pow, h0, Nat.add_mod_mod]
  rfl

/-! ## C51: names that differ in one character -/

/-- C51 for the 32-bit variant (`JenHashCannon`): two strings that differ in exactly one character never
collide. -/
theorem jenHashCannon_one_char (p s : List Byte) (c c' : Byte) (hc : c ≠ c') :
    jenHashCannon (p ++ c :: s) ≠ jenHashCannon (p ++ c' :: s) := by
  intro h
  simp only [jenHashCannon, oatHash, List.foldl_append, List.foldl_cons, BitVec.setWidth_eq] at h
  have h1 := fold32_inj s _ _ (finish32_inj _ _ h)
  have h2 := oatStep32_inj _ _ _ _ h1
  rw [BitVec.add_comm, BitVec.add_comm _ (c'.setWidth 32)] at h2
  have h3 := add_right_inj' _ _ _ h2
  apply hc
  have := congrArg (fun x => x.setWidth 8) h3
  simpa using this

/-- C51 is violated by the default `JenHash`, the hash of every reflected name: two identifiers that differ
in their last character only ("noghg2" and "noghg9") have the same hash. -/
theorem jenHash_one_char_violated :
    ∃ (p : List Byte) (c c' : Byte), c ≠ c' ∧ ∀ s, jenHash (p ++ c :: s) = jenHash (p ++ c' :: s) := by
  refine ⟨[0x6e#8, 0x6f#8, 0x67#8, 0x68#8, 0x67#8], 0x32#8, 0x39#8, by decide, ?_⟩
  intro s
  have := jenHash_append [0x6e#8, 0x6f#8, 0x67#8, 0x68#8, 0x67#8, 0x32#8]
    [0x6e#8, 0x6f#8, 0x67#8, 0x68#8, 0x67#8, 0x39#8] s (by decide +kernel)
  simpa using this

/-! ## C11 -/

/-- C11 is violated: for lengths 24, 36, 48, ... the last twelve characters are ignored, i.e. any two
strings of such a length that agree on all but the last twelve characters collide, for every seed. -/
theorem hash3_tail_ignored (q : Nat) (pre t t' : List Byte) (seed : BitVec 32)
    (hp : pre.length = 12 * (q + 1)) (ht : t.length = 12) (ht' : t'.length = 12) :
    hash3 (pre ++ t) seed = hash3 (pre ++ t') seed := by
  have hn : (pre ++ t).length = 12 * (q + 2) := by simp [hp, ht]; omega
  have hn' : (pre ++ t').length = 12 * (q + 2) := by simp [hp, ht']; omega
  unfold hash3
  simp only [mixLoop_full]
  rw [hn, hn']
  have hl : (if 12 * (q + 2) = 12 then 12 else 12 * (q + 2) % 12) = 0 := by
    rw [if_neg (by omega)]; omega
  rw [hl]
  simp only [Nat.lt_irrefl, gt_iff_lt, if_false]
  congr 1
  apply foldl_congr_mem
  intro j hj y
  have hj : j < q + 1 := by
    have : j < numBlocks (12 * (q + 2)) := by simpa using hj
    unfold numBlocks at this; omega
  apply blockStep_congr
  intro i h1 h2
  have : i < pre.length := by omega
  simp [List.getD_eq_getElem?_getD, List.getElem?_append_left this]

example : ∃ t t' : List Byte, t.length = 12 ∧ t'.length = 12 ∧ t ≠ t' :=
  ⟨List.replicate 12 0, List.replicate 12 1, by decide, by decide, by decide⟩

/-- Number of characters handled by the closing step (jenkinshash3.hpp:113). -/
def lastCount (n : Nat) : Nat := if n = 12 then 12 else n % 12

theorem small_table : ∀ r : Fin 13, ∀ p : Fin 13, p.val < r.val →
    hash3 (List.replicate r.val 0#8) 0#32 ≠ hash3 ((List.replicate r.val 0#8).set p.val 1#8) 0#32 := by
  decide +kernel

theorem numBlocks_small (n : Nat) (h : n ≤ 12) : numBlocks n = 0 := by unfold numBlocks; omega

theorem hash3_small (s : List Byte) (h0 : 0 < s.length) (h : s.length ≤ 12) (seed : BitVec 32) :
    hash3 s seed = (((⟨setup (BitVec.ofNat 32 (numRKeys s.length)) seed, setup (BitVec.ofNat 32 (numRKeys s.length)) seed,
      setup (BitVec.ofNat 32 (numRKeys s.length)) seed⟩ : Triplet).add (lastTrip s s.length)).finalize).c := by
  unfold hash3
  simp only [mixLoop_full, numBlocks_small s.length h, List.range_zero, List.foldl_nil]
  have : (if s.length = 12 then 12 else s.length % 12) = s.length := by
    by_cases h12 : s.length = 12
    · rw [if_pos h12, h12]
    · rw [if_neg h12]; omega
  rw [this, if_pos h0]

/-- C11, partial: for every length that is not 24, 36, 48, ..., every one of the characters of the closing
block takes part in the hash (some change of that character changes the hash of some string), for every
seed when the string is longer than 12 characters and seed 0 otherwise.
Missing: the same for characters of earlier blocks. -/
theorem hash3_last_block_matters_partial (n p : Nat) (hn : lastCount n ≠ 0) (h1 : n - lastCount n ≤ p) (h2 : p < n)
    (seed : BitVec 32) (hseed : n ≤ 12 → seed = 0#32) :
    ∃ (s : List Byte) (v : Byte), s.length = n ∧ hash3 s seed ≠ hash3 (s.set p v) seed := by
  by_cases hs : n ≤ 12
  · refine ⟨List.replicate n 0#8, 1#8, by simp, ?_⟩
    rw [hseed hs]
    exact small_table ⟨n, by omega⟩ ⟨p, by omega⟩ h2
  · have hr : lastCount n = n % 12 := by unfold lastCount; rw [if_neg (by omega)]
    rw [hr] at hn h1
    generalize hr' : n % 12 = r at *
    obtain ⟨q, hq⟩ : ∃ q, n = 12 * (q + 1) + r := ⟨n / 12 - 1, by omega⟩
    let T : Triplet := ⟨setup (BitVec.ofNat 32 (numRKeys r)) 0, setup (BitVec.ofNat 32 (numRKeys r)) 0,
      setup (BitVec.ofNat 32 (numRKeys r)) 0⟩
    let S : Triplet := ⟨setup (BitVec.ofNat 32 (numRKeys n)) seed, setup (BitVec.ofNat 32 (numRKeys n)) seed,
      setup (BitVec.ofNat 32 (numRKeys n)) seed⟩
    obtain ⟨pre, hpre, hreach⟩ := reach_state q S T
    have hash_of : ∀ last : List Byte, last.length = r →
        hash3 (pre ++ last) seed = hash3 last 0 := by
      intro last hl
      have hlen : (pre ++ last).length = n := by simp [hpre, hl]; omega
      rw [hash3_small last (by omega) (by omega)]
      unfold hash3
      simp only [mixLoop_full]
      simp only [hlen]
      have hb : numBlocks n = q + 1 := by unfold numBlocks; omega
      have e := hreach last
      simp only [S] at e
      rw [hb, e, if_neg (show ¬ n = 12 by omega), hr', if_pos (show r > 0 by omega)]
      have := lastTrip_append pre last
      rw [hl] at this
      rw [this, hl]
    refine ⟨pre ++ List.replicate r 0#8, 1#8, by simp [hpre]; omega, ?_⟩
    rw [List.set_append_right _ _ (by omega), hash_of _ (by simp), hash_of _ (by simp)]
    have := small_table ⟨r, by omega⟩ ⟨p - pre.length, by omega⟩ (by simp only; omega)
    exact this

example : lastCount 17 ≠ 0 ∧ 17 - lastCount 17 ≤ 14 ∧ 14 < 17 := by decide

end PreCore.Jenkins
