import Verif.Model.Jenkins
/-! Helper lemmas for the hashes. -/
namespace PreCore.Jenkins

theorem xorshift_inj {w : Nat} (s : Nat) (hs : 0 < s) (y z : BitVec w)
    (h : y ^^^ (y >>> s) = z ^^^ (z >>> s)) : y = z := by
  have key : ∀ n i, i + n ≥ w → y.getLsbD i = z.getLsbD i := by
    intro n
    induction n with
    | zero =>
      intro i hi
      rw [BitVec.getLsbD_of_ge y i (by omega), BitVec.getLsbD_of_ge z i (by omega)]
    | succ n ih =>
      intro i hi
      have h1 := congrArg (fun v => v.getLsbD i) h
      simp only [BitVec.getLsbD_xor, BitVec.getLsbD_ushiftRight] at h1
      have h2 := ih (s + i) (by omega)
      rw [h2] at h1
      revert h1
      cases y.getLsbD i <;> cases z.getLsbD i <;> cases z.getLsbD (s + i) <;> simp
  apply BitVec.eq_of_getLsbD_eq
  intro i _
  exact key w i (by omega)

theorem add_shl (x : BitVec 32) (k : Nat) : x + (x <<< k) = x * (BitVec.ofNat 32 (1 + 2 ^ k)) := by
  apply BitVec.eq_of_toNat_eq
  simp [BitVec.toNat_add, BitVec.toNat_mul, BitVec.toNat_shiftLeft, Nat.shiftLeft_eq]
  rw [Nat.mul_add, Nat.mul_one]

theorem mul_inj (k inv : BitVec 32) (hk : k * inv = 1#32) (x y : BitVec 32) (h : x * k = y * k) : x = y := by
  have := congrArg (· * inv) h
  simpa [BitVec.mul_assoc, hk] using this

theorem add_shl10_inj (x y : BitVec 32) (h : x + (x <<< 10) = y + (y <<< 10)) : x = y := by
  rw [add_shl, add_shl] at h
  exact mul_inj _ (3222273025#32) (by decide) x y h

theorem add_shl3_inj (x y : BitVec 32) (h : x + (x <<< 3) = y + (y <<< 3)) : x = y := by
  rw [add_shl, add_shl] at h
  exact mul_inj _ (0x38e38e39#32) (by decide) x y h

theorem add_shl15_inj (x y : BitVec 32) (h : x + (x <<< 15) = y + (y <<< 15)) : x = y := by
  rw [add_shl, add_shl] at h
  exact mul_inj _ (0x3fff8001#32) (by decide) x y h

theorem oatStep32_inj (r r' : BitVec 32) (c c' : Byte) (h : oatStep 32 r c = oatStep 32 r' c') :
    r + c.setWidth 32 = r' + c'.setWidth 32 := by
  simp only [oatStep, BitVec.setWidth_eq] at h
  exact add_shl10_inj _ _ (xorshift_inj 6 (by omega) _ _ h)

theorem add_right_inj' (r r' c : BitVec 32) (h : r + c = r' + c) : r = r' := by
  have := congrArg (· - c) h
  simpa [BitVec.add_sub_cancel] using this

theorem fold32_inj (s : List Byte) (r r' : BitVec 32) (h : s.foldl (oatStep 32) r = s.foldl (oatStep 32) r') :
    r = r' := by
  induction s generalizing r r' with
  | nil => exact h
  | cons c s ih => exact add_right_inj' _ _ _ (oatStep32_inj _ _ _ _ (ih _ _ h))

theorem finish32_inj (r r' : BitVec 32)
    (h : (let x := r + (r <<< 3); let x := x ^^^ (x >>> 11); x + (x <<< 15)) =
         (let x := r' + (r' <<< 3); let x := x ^^^ (x >>> 11); x + (x <<< 15))) : r = r' :=
  add_shl3_inj _ _ (xorshift_inj 11 (by omega) _ _ (add_shl15_inj _ _ h))

/-! ### hash3 -/

/-- one step of Mix/Finalize is invertible; inverse of `mix` -/
def Triplet.unmix (t : Triplet) : Triplet :=
  let (a, b, c) := (t.a, t.b, t.c)
  let b := b - a
  let c := c ^^^ rot b 4
  let c := c + b
  let a := a - c
  let b := b ^^^ rot a 19
  let b := b + a
  let c := c - b
  let a := a ^^^ rot c 16
  let a := a + c
  let b := b - a
  let c := c ^^^ rot b 8
  let c := c + b
  let a := a - c
  let b := b ^^^ rot a 6
  let b := b + a
  let c := c - b
  let a := a ^^^ rot c 4
  let a := a + c
  ⟨a, b, c⟩

theorem xor_cancel (a k : BitVec 32) : a ^^^ k ^^^ k = a := by
  rw [BitVec.xor_assoc, BitVec.xor_self, BitVec.xor_zero]

theorem mix_unmix (t : Triplet) : t.unmix.mix = t := by
  cases t
  simp only [Triplet.mix, Triplet.unmix, BitVec.add_sub_cancel, BitVec.sub_add_cancel, xor_cancel]

/-- the body of the block loop at block number `j` -/
def blockStep (input : List Byte) (t : Triplet) (j : Nat) : Triplet :=
  (t.add ⟨mutateKey input (12 * j), mutateKey input (12 * j + 4), mutateKey input (12 * j + 8)⟩).mix

/-- number of iterations of the block loop -/
def numBlocks (n : Nat) : Nat := (max n 12 - 12 + 11) / 12

theorem mixLoop_eq (input : List Byte) : ∀ (f j : Nat) (t : Triplet), numBlocks input.length ≤ j + f →
    mixLoop input f (12 * j) t = (List.range' j (numBlocks input.length - j)).foldl (blockStep input) t := by
  intro f
  induction f with
  | zero =>
    intro j t h
    rw [show numBlocks input.length - j = 0 by omega]; rfl
  | succ f ih =>
    intro j t h
    simp only [mixLoop]
    by_cases hk : 12 * j < max input.length 12 - 12
    · rw [if_pos hk, show 12 * j + 12 = 12 * (j + 1) by omega, ih (j + 1) _ (by omega)]
      have hj : j < numBlocks input.length := by unfold numBlocks; omega
      rw [show numBlocks input.length - j = (numBlocks input.length - (j + 1)) + 1 by omega,
        List.range'_succ, List.foldl_cons]
      rfl
    · rw [if_neg hk]
      have hj : ¬ j < numBlocks input.length := by unfold numBlocks; omega
      rw [show numBlocks input.length - j = 0 by omega]; rfl

theorem mixLoop_full (input : List Byte) (t : Triplet) :
    mixLoop input input.length 0 t = (List.range (numBlocks input.length)).foldl (blockStep input) t := by
  have := mixLoop_eq input input.length 0 t (by unfold numBlocks; omega)
  simpa [List.range_eq_range'] using this

theorem mutateKey_congr (s s' : List Byte) (off off' : Nat)
    (h : ∀ i, i < 4 → s.getD (off + i) 0 = s'.getD (off' + i) 0) : mutateKey s off = mutateKey s' off' := by
  have aux : ∀ (l : List Byte) (i : Nat), (if i ≥ l.length then 0#32 else (l.getD i 0).setWidth 32) =
      ((l.getD i 0).setWidth 32 : BitVec 32) := by
    intro l i
    by_cases hl : i ≥ l.length
    · rw [if_pos hl]; simp [List.getD_eq_getElem?_getD, List.getElem?_eq_none hl]
    · rw [if_neg hl]
  simp only [mutateKey, aux]
  rw [h 0 (by omega), h 1 (by omega), h 2 (by omega), h 3 (by omega)]

theorem foldl_congr_mem {α β : Type} (f g : β → α → β) (l : List α) (b : β)
    (h : ∀ x ∈ l, ∀ y, f y x = g y x) : l.foldl f b = l.foldl g b := by
  induction l generalizing b with
  | nil => rfl
  | cons x l ih =>
    rw [List.foldl_cons, List.foldl_cons, h x (by simp), ih _ (fun z hz => h z (by simp [hz]))]

theorem blockStep_congr (s s' : List Byte) (t : Triplet) (j : Nat)
    (h : ∀ i, 12 * j ≤ i → i < 12 * j + 12 → s.getD i 0 = s'.getD i 0) : blockStep s t j = blockStep s' t j := by
  unfold blockStep
  rw [mutateKey_congr s s' (12 * j) (12 * j) (fun i hi => h _ (by omega) (by omega)),
    mutateKey_congr s s' (12 * j + 4) (12 * j + 4) (fun i hi => h _ (by omega) (by omega)),
    mutateKey_congr s s' (12 * j + 8) (12 * j + 8) (fun i hi => h _ (by omega) (by omega))]

/-- little endian bytes of a word -/
def wbytes (x : BitVec 32) : List Byte :=
  [x.extractLsb' 0 8, x.extractLsb' 8 8, x.extractLsb' 16 8, x.extractLsb' 24 8]

theorem wbytes_pack (x : BitVec 32) :
    ((x.extractLsb' 0 8).setWidth 32 ||| ((x.extractLsb' 8 8).setWidth 32 <<< 8) |||
     ((x.extractLsb' 16 8).setWidth 32 <<< 16) ||| ((x.extractLsb' 24 8).setWidth 32 <<< 24) : BitVec 32) = x := by
  apply BitVec.eq_of_getLsbD_eq
  intro i hi
  simp only [BitVec.getLsbD_or, BitVec.getLsbD_shiftLeft, BitVec.getLsbD_setWidth, BitVec.getLsbD_extractLsb']
  by_cases h1 : i < 8
  · simp [h1, show i < 16 by omega, show i < 24 by omega, hi]
  · by_cases h2 : i < 16
    · simp [h1, h2, show i < 24 by omega, hi, show i - 8 < 8 by omega, show i - 8 < 32 by omega,
        show 8 + (i - 8) = i by omega]
    · by_cases h3 : i < 24
      · simp [h1, h2, h3, hi, show ¬ i - 8 < 8 by omega, show i - 16 < 8 by omega, show i - 16 < 32 by omega,
          show 16 + (i - 16) = i by omega]
      · simp [h1, h2, h3, hi, show ¬ i - 8 < 8 by omega, show ¬ i - 16 < 8 by omega, show i - 24 < 8 by omega,
          show i - 24 < 32 by omega, show 24 + (i - 24) = i by omega]

theorem mutateKey_wbytes (p q : List Byte) (x : BitVec 32) : mutateKey (p ++ wbytes x ++ q) p.length = x := by
  rw [mutateKey_congr (p ++ wbytes x ++ q) (wbytes x) p.length 0]
  · exact wbytes_pack x
  · intro i hi
    have : i < (wbytes x).length := by simp [wbytes]; omega
    simp [List.getD_eq_getElem?_getD, List.append_assoc, List.getElem?_append_right,
      List.getElem?_append_left this]

/-- Bytes of a triplet. -/
def tbytes (t : Triplet) : List Byte := wbytes t.a ++ wbytes t.b ++ wbytes t.c

theorem blockStep_tbytes (p q : List Byte) (j : Nat) (hp : p.length = 12 * j) (t k : Triplet) :
    blockStep (p ++ tbytes k ++ q) t j = (t.add k).mix := by
  unfold blockStep tbytes
  have e1 := mutateKey_wbytes p (wbytes k.b ++ wbytes k.c ++ q) k.a
  have e2 := mutateKey_wbytes (p ++ wbytes k.a) (wbytes k.c ++ q) k.b
  have e3 := mutateKey_wbytes (p ++ wbytes k.a ++ wbytes k.b) q k.c
  simp only [List.length_append, List.append_assoc] at e1 e2 e3 ⊢
  rw [hp] at e1 e2 e3
  have l1 : (wbytes k.a).length = 4 := rfl
  have l2 : (wbytes k.b).length = 4 := rfl
  rw [l1] at e2 e3; rw [l2] at e3
  rw [show 12 * j + (4 + 4) = 12 * j + 8 by omega] at e3
  rw [e1, e2, e3]

/-- For every number of blocks `q ≥ 1`, start state and target state there is a prefix of `12 q` bytes that
drives the block loop into the target. -/
theorem reach_state (q : Nat) (S T : Triplet) : ∃ pre : List Byte, pre.length = 12 * (q + 1) ∧
    ∀ rest, (List.range (q + 1)).foldl (blockStep (pre ++ rest)) S = T := by
  let z : List Byte := List.replicate (12 * q) 0
  let S' := (List.range q).foldl (blockStep z) S
  let u := T.unmix
  let k : Triplet := ⟨u.a - S'.a, u.b - S'.b, u.c - S'.c⟩
  refine ⟨z ++ tbytes k, ?_, ?_⟩
  · simp [z, tbytes, wbytes]; omega
  · intro rest
    rw [List.range_succ, List.foldl_append, List.foldl_cons, List.foldl_nil]
    rw [blockStep_tbytes z rest q (by simp [z])]
    have e : (List.range q).foldl (blockStep (z ++ tbytes k ++ rest)) S = S' := by
      apply foldl_congr_mem
      intro j hj t
      have hj : j < q := by simpa using hj
      apply blockStep_congr
      intro i h1 h2
      have : i < z.length := by simp [z]; omega
      simp [List.getD_eq_getElem?_getD, List.append_assoc, List.getElem?_append_left this]
    rw [e]
    have : S'.add k = u := by
      simp only [Triplet.add, k]
      have hx : ∀ x y : BitVec 32, x + (y - x) = y := by
        intro x y; rw [BitVec.add_comm, BitVec.sub_add_cancel]
      rw [hx, hx, hx]
    rw [this]
    exact mix_unmix T

theorem lastTrip_append (pre last : List Byte) : lastTrip (pre ++ last) last.length = lastTrip last last.length := by
  have sh : ∀ o, o ≤ last.length → mutateKey (pre ++ last) ((pre ++ last).length - o) = mutateKey last (last.length - o) := by
    intro o ho
    apply mutateKey_congr
    intro i hi
    simp only [List.length_append, List.getD_eq_getElem?_getD]
    rw [List.getElem?_append_right (by omega)]
    congr 2; omega
  unfold lastTrip
  simp only
  split
  · rw [sh _ (by omega), sh _ (by omega), sh _ (by omega)]
  · split
    · rw [sh _ (by omega), sh _ (by omega)]
    · split
      · rw [sh _ (by omega)]
      · rfl

end PreCore.Jenkins
