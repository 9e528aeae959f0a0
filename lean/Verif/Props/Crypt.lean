import Verif.Lemmas.Crypt
import Mathlib.Logic.Function.Iterate
/-!
# C07, C08, C09, C50: encryption
-/
namespace PreCore.Crypt

/-! ## C07 -/

/-- C07: with a non-empty key encoding succeeds, keeps the length, byte `i` of the result is byte `i`
XOR key byte `i mod |key|`, and decoding restores the buffer. -/
theorem xor_roundtrip (key buf : List Byte) (hk : key ≠ []) :
    ∃ enc, xorEncode key buf = some enc ∧ enc.length = buf.length ∧
      (∀ i (hb : i < buf.length), ∃ k, key[i % key.length]? = some k ∧ enc[i]? = some (buf[i] ^^^ k)) ∧
      xorDecode key enc = some buf := by
  have hpos : 0 < key.length := List.length_pos_iff.2 hk
  refine ⟨_, xorLoop_eq key hk buf 0, by simp, ?_, ?_⟩
  · intro i hb
    have hlt : i % key.length < key.length := Nat.mod_lt _ hpos
    exact ⟨key[i % key.length], by simp [hlt], by simp [hb, hlt]⟩
  · rw [xorDecode, xorEncode, xorLoop_eq key hk]
    congr 1
    apply List.ext_getElem
    · simp
    · intro i h1 h2
      simp [xor_cancel]

/-- C07, error branch: with an empty key any non-empty buffer hits the division by zero. -/
theorem xor_empty_key (b : Byte) (bs : List Byte) : xorEncode [] (b :: bs) = none := rfl

example : ([0x41#8, 0x42#8] : List Byte) ≠ [] := by decide

/-! ## C08 -/

/-- C08: decoding inverts encoding of one block, for every key schedule of both Blowfish classes. -/
theorem blowfish_decode_encode (bx : Boxes) (b : BitVec 64) : decodeBlock bx (encodeBlock bx b) = b := by
  rw [decodeBlock, encodeBlock, split_join, decode_encodeHalves, join_split]

/-- C08: encoding inverts decoding, so encryption is a bijection on blocks. -/
theorem blowfish_encode_decode (bx : Boxes) (b : BitVec 64) : encodeBlock bx (decodeBlock bx b) = b := by
  rw [decodeBlock, encodeBlock, split_join, encode_decodeHalves, join_split]

/-! ## C09 -/

theorem step_inverse (bx : Boxes) (m : Mode) (cv b : BitVec 64) :
    decStep bx m cv (encStep bx m cv b).1 = (b, (encStep bx m cv b).2) := by
  cases m with
  | ECB => simp [encStep, decStep, blowfish_decode_encode]
  | CBC => simp [encStep, decStep, blowfish_decode_encode, xor_cancel]
  | PCBC =>
    simp only [encStep, decStep, blowfish_decode_encode, xor_cancel]
    rw [BitVec.xor_comm b]
  | CFB => simp [encStep, decStep, xor_cancel]
  | OFB => simp [encStep, decStep, xor_cancel]

theorem step_inverse' (bx : Boxes) (m : Mode) (cv b : BitVec 64) :
    encStep bx m cv (decStep bx m cv b).1 = (b, (decStep bx m cv b).2) := by
  cases m with
  | ECB => simp [encStep, decStep, blowfish_encode_decode]
  | CBC => simp [encStep, decStep, blowfish_encode_decode, xor_cancel]
  | PCBC =>
    simp only [encStep, decStep, blowfish_encode_decode, xor_cancel]
    rw [BitVec.xor_comm b]
  | CFB => simp [encStep, decStep, xor_cancel]
  | OFB => simp [encStep, decStep, xor_cancel]

/-- The number of blocks that a loop handles: all of them up to `2^28`, none for `2^31` to `2^32` blocks. -/
theorem numBlocks_small (n : Nat) (h : n / 8 < 2 ^ 31) : numBlocks n = (n / 8 : Nat) := by
  unfold numBlocks
  rw [Int.bmod_eq_of_le] <;> omega

theorem numBlocks_huge (n : Nat) (h1 : 2 ^ 31 ≤ n / 8) (h2 : n / 8 ≤ 2 ^ 32) : numBlocks n ≤ 0 := by
  unfold numBlocks
  have := Int.bmod_def ((n / 8 : Nat) : Int) (2 ^ 32)
  rw [this]
  split <;> omega

theorem numBlocks_le (n : Nat) : (numBlocks n).toNat ≤ n / 8 := by
  unfold numBlocks
  have := Int.bmod_def ((n / 8 : Nat) : Int) (2 ^ 32)
  rw [this]
  split <;> omega

theorem blockLoop_take (f : BitVec 64 → BitVec 64 → BitVec 64 × BitVec 64) (cv : BitVec 64) (buf : List Byte) :
    blockLoop f cv (buf.take (8 * (buf.length / 8))) ++ buf.drop (8 * (buf.length / 8)) = blockLoop f cv buf := by
  fun_induction blockLoop f cv buf with
  | case1 cv b0 b1 b2 b3 b4 b5 b6 b7 rest r ih =>
    have e : 8 * ((b0 :: b1 :: b2 :: b3 :: b4 :: b5 :: b6 :: b7 :: rest).length / 8) =
        8 * (rest.length / 8) + 1 + 1 + 1 + 1 + 1 + 1 + 1 + 1 := by simp; omega
    rw [e]
    simp only [List.take_succ_cons, List.drop_succ_cons, blockLoop, List.append_assoc]
    rw [ih]
  | case2 cv tail h =>
    have hl : tail.length / 8 = 0 := by
      rcases tail with _ | ⟨a0, _ | ⟨a1, _ | ⟨a2, _ | ⟨a3, _ | ⟨a4, _ | ⟨a5, _ | ⟨a6, _ | ⟨a7, r⟩⟩⟩⟩⟩⟩⟩⟩ <;> simp
      exact absurd rfl (h a0 a1 a2 a3 a4 a5 a6 a7 r)
    simp [hl, blockLoop]

theorem overBuffer_some {f : BitVec 64 → BitVec 64 → BitVec 64 × BitVec 64} {cv : BitVec 64} {buf : List Byte}
    (h : ¬ 2 ^ 28 < numBlocks buf.length) :
    overBuffer f cv buf = some (blockLoop f cv (buf.take (8 * (numBlocks buf.length).toNat)) ++ buf.drop (8 * (numBlocks buf.length).toNat)) := by
  simp only [overBuffer, if_neg h]

theorem overBuffer_inverse (f g : BitVec 64 → BitVec 64 → BitVec 64 × BitVec 64)
    (hfg : ∀ cv b, g cv (f cv b).1 = (b, (f cv b).2)) (cv : BitVec 64) (buf : List Byte) (h : ¬ 2 ^ 28 < numBlocks buf.length) :
    ∃ enc, overBuffer f cv buf = some enc ∧ enc.length = buf.length ∧
      enc.drop (8 * (buf.length / 8)) = buf.drop (8 * (buf.length / 8)) ∧ overBuffer g cv enc = some buf := by
  have hle := numBlocks_le buf.length
  have hk : 8 * (numBlocks buf.length).toNat ≤ buf.length := by omega
  have hlen : (blockLoop f cv (buf.take (8 * (numBlocks buf.length).toNat))).length = 8 * (numBlocks buf.length).toNat := by
    rw [blockLoop_length, List.length_take]; omega
  have hlen2 : (blockLoop f cv (buf.take (8 * (numBlocks buf.length).toNat)) ++ buf.drop (8 * (numBlocks buf.length).toNat)).length =
      buf.length := by
    rw [List.length_append, hlen, List.length_drop]; omega
  refine ⟨_, overBuffer_some h, hlen2, ?_, ?_⟩
  · obtain ⟨d, hd⟩ := Nat.exists_eq_add_of_le (show 8 * (numBlocks buf.length).toNat ≤ 8 * (buf.length / 8) by omega)
    rw [hd, ← List.drop_drop, List.drop_left' hlen, List.drop_drop]
  · rw [overBuffer_some (by rw [hlen2]; exact h), hlen2, List.take_left' hlen, List.drop_left' hlen, blockLoop_inverse f g hfg,
      List.take_append_drop]

/-- C09: in every mode, for every key schedule, vector and buffer whose size does not overflow the index: encoding succeeds, keeps the
length, leaves the trailing `size % 8` bytes alone, and decoding restores the buffer. Missing: sizes above 2 GiB, see
`blowfish_large_violated`. -/
theorem blowfish_mode_roundtrip_partial (bx : Boxes) (m : Mode) (vec : BitVec 64) (buf : List Byte)
    (hs : buf.length / 8 ≤ 2 ^ 28) :
    ∃ enc, encode bx m vec buf = some enc ∧ enc.length = buf.length ∧
      enc.drop (8 * (buf.length / 8)) = buf.drop (8 * (buf.length / 8)) ∧
      decode bx m vec enc = some buf :=
  overBuffer_inverse _ _ (step_inverse bx m) vec buf (by rw [numBlocks_small _ (by omega)]; omega)

/-- C09, other direction: encoding restores a decoded buffer, so no two plain buffers share a cipher text
and every buffer is the cipher text of some buffer. -/
theorem blowfish_mode_reverse_partial (bx : Boxes) (m : Mode) (vec : BitVec 64) (buf : List Byte)
    (hs : buf.length / 8 ≤ 2 ^ 28) :
    ∃ dec, decode bx m vec buf = some dec ∧ dec.length = buf.length ∧ encode bx m vec dec = some buf := by
  obtain ⟨d, h1, h2, _, h3⟩ := overBuffer_inverse _ _ (step_inverse' bx m) vec buf (by rw [numBlocks_small _ (by omega)]; omega)
  exact ⟨d, h1, h2, h3⟩

/-- C09: OFB uses one and the same transformation in both directions. -/
theorem blowfish_ofb_symmetric (bx : Boxes) (vec : BitVec 64) (buf : List Byte) :
    encode bx .OFB vec buf = decode bx .OFB vec buf := by
  have : encStep bx .OFB = decStep bx .OFB := by funext cv b; rfl
  simp [encode, decode, this]

/-- C09 violated: from 2 GiB and a block to 16 GiB the index overflows (undefined); from 16 GiB to 32 GiB the block count is not
positive and the buffer is left as plain text, in every mode. -/
theorem blowfish_large_violated (bx : Boxes) (m : Mode) (vec : BitVec 64) (buf : List Byte) :
    (2 ^ 28 < buf.length / 8 → buf.length / 8 < 2 ^ 31 → encode bx m vec buf = none ∧ decode bx m vec buf = none) ∧
    (2 ^ 31 ≤ buf.length / 8 → buf.length / 8 ≤ 2 ^ 32 → encode bx m vec buf = some buf) := by
  refine ⟨fun h1 h2 => ?_, fun h1 h2 => ?_⟩
  · have hn := numBlocks_small buf.length h2
    have : (2 : Int) ^ 28 < numBlocks buf.length := by rw [hn]; omega
    simp only [encode, decode, overBuffer]
    rw [if_pos this, if_pos this]; exact ⟨rfl, rfl⟩
  · have hn := numBlocks_huge buf.length h1 h2
    have h0 : (numBlocks buf.length).toNat = 0 := by omega
    rw [encode, overBuffer_some (by omega), h0]
    simp [blockLoop]

example : (List.replicate 19 (7#8) : List Byte).length / 8 ≤ 2 ^ 28 := by decide
/-- There are buffers of both kinds. -/
example : ∃ a b : List Byte, (2 ^ 28 < a.length / 8 ∧ a.length / 8 < 2 ^ 31) ∧ (2 ^ 31 ≤ b.length / 8 ∧ b.length / 8 ≤ 2 ^ 32) :=
  ⟨List.replicate (2 ^ 31 + 8) 0, List.replicate (2 ^ 34) 0, by rw [List.length_replicate]; omega, by rw [List.length_replicate]; omega⟩

/-! ## C153: the chaining modes are the published ones -/

/-- Block `i` of a buffer: eight bytes, the first the least significant. -/
def block (buf : List Byte) (i : Nat) : BitVec 64 := BitVec.ofNat 64 (leNat ((buf.drop (8 * i)).take 8))

/-- What the vector is when block `i` is reached. -/
def vectorAt (f : BitVec 64 → BitVec 64 → BitVec 64 × BitVec 64) (cv : BitVec 64) (buf : List Byte) : Nat → BitVec 64
  | 0 => cv
  | i + 1 => (f (vectorAt f cv buf i) (block buf i)).2

theorem vectorAt_cons (f : BitVec 64 → BitVec 64 → BitVec 64 × BitVec 64) (cv : BitVec 64) (b0 b1 b2 b3 b4 b5 b6 b7 : Byte)
    (rest : List Byte) (i : Nat) :
    vectorAt f cv (b0 :: b1 :: b2 :: b3 :: b4 :: b5 :: b6 :: b7 :: rest) (i + 1) =
      vectorAt f (f cv (packBlock [b0, b1, b2, b3, b4, b5, b6, b7])).2 rest i := by
  induction i with
  | zero => rfl
  | succ i ih =>
    rw [vectorAt, ih, vectorAt]
    congr 2

theorem blockLoop_block (f : BitVec 64 → BitVec 64 → BitVec 64 × BitVec 64) (cv : BitVec 64) (buf : List Byte) (i : Nat)
    (hi : i < buf.length / 8) : block (blockLoop f cv buf) i = (f (vectorAt f cv buf i) (block buf i)).1 := by
  fun_induction blockLoop f cv buf generalizing i with
  | case1 cv b0 b1 b2 b3 b4 b5 b6 b7 rest r ih =>
    cases i with
    | zero =>
      show BitVec.ofNat 64 (leNat ((unpackBlock r.1 ++ _).take 8)) = _
      rw [List.take_left' (by simp [unpackBlock, toLE_length])]
      have := pack_unpack r.1
      exact this
    | succ i =>
      rw [vectorAt_cons]
      have h1 : block (unpackBlock r.1 ++ blockLoop f r.2 rest) (i + 1) = block (blockLoop f r.2 rest) i := by
        unfold block
        rw [show 8 * (i + 1) = 8 + 8 * i by omega, ← List.drop_drop, List.drop_left' (by simp [unpackBlock, toLE_length])]
      rw [h1, ih i (by simp at hi; omega)]
      rfl
  | case2 cv tail h =>
    exfalso
    rcases tail with _ | ⟨a0, _ | ⟨a1, _ | ⟨a2, _ | ⟨a3, _ | ⟨a4, _ | ⟨a5, _ | ⟨a6, _ | ⟨a7, r⟩⟩⟩⟩⟩⟩⟩⟩ <;> simp at hi
    exact h a0 a1 a2 a3 a4 a5 a6 a7 r rfl

theorem encode_small (bx : Boxes) (m : Mode) (vec : BitVec 64) (buf : List Byte) (hs : buf.length / 8 ≤ 2 ^ 28) :
    encode bx m vec buf = some (blockLoop (encStep bx m) vec buf) := by
  have hn := numBlocks_small buf.length (by omega)
  rw [encode, overBuffer_some (by rw [hn]; omega), hn, Int.toNat_natCast, blockLoop_take]

/-- The published modes, for a block cipher `E`, plain blocks `P`, cipher blocks `C` and a vector that stands for what comes before
block 0: ECB `C i = E (P i)`, CBC `C i = E (P i ^ C (i-1))`, PCBC `C i = E (P i ^ P (i-1) ^ C (i-1))`, CFB `C i = P i ^ E (C (i-1))`,
OFB `C i = P i ^ E^(i+1) (vector)`. -/
def published (E : BitVec 64 → BitVec 64) (vec : BitVec 64) (P C : Nat → BitVec 64) (i : Nat) : Mode → BitVec 64
  | .ECB => E (P i)
  | .CBC => E (P i ^^^ (if i = 0 then vec else C (i - 1)))
  | .PCBC => E (P i ^^^ (if i = 0 then vec else P (i - 1) ^^^ C (i - 1)))
  | .CFB => P i ^^^ E (if i = 0 then vec else C (i - 1))
  | .OFB => P i ^^^ E^[i + 1] vec

/-- C153: every block of the result is what the published mode says. -/
theorem blowfish_modes (bx : Boxes) (m : Mode) (vec : BitVec 64) (buf enc : List Byte) (hs : buf.length / 8 ≤ 2 ^ 28)
    (h : encode bx m vec buf = some enc) (i : Nat) (hi : i < buf.length / 8) :
    block enc i = published (encodeBlock bx) vec (block buf) (block enc) i m := by
  rw [encode_small bx m vec buf hs] at h
  cases h
  rw [blockLoop_block _ _ _ i hi]
  cases m with
  | ECB => rfl
  | CBC =>
    cases i with
    | zero => rfl
    | succ i => simp only [published, Nat.add_one_sub_one, Nat.add_eq_zero_iff, Nat.one_ne_zero, and_false, if_false]
                rw [blockLoop_block _ _ _ i (by omega)]; rfl
  | PCBC =>
    cases i with
    | zero => rfl
    | succ i => simp only [published, Nat.add_one_sub_one, Nat.add_eq_zero_iff, Nat.one_ne_zero, and_false, if_false]
                rw [blockLoop_block _ _ _ i (by omega), BitVec.xor_comm (block buf i)]; rfl
  | CFB =>
    cases i with
    | zero => rfl
    | succ i => simp only [published, Nat.add_one_sub_one, Nat.add_eq_zero_iff, Nat.one_ne_zero, and_false, if_false]
                rw [blockLoop_block _ _ _ i (by omega)]; rfl
  | OFB =>
    have : ∀ j, vectorAt (encStep bx .OFB) vec buf j = (encodeBlock bx)^[j] vec := by
      intro j
      induction j with
      | zero => rfl
      | succ j ih => rw [vectorAt, ih, Function.iterate_succ_apply']; rfl
    show block buf i ^^^ encodeBlock bx (vectorAt (encStep bx .OFB) vec buf i) = block buf i ^^^ (encodeBlock bx)^[i + 1] vec
    rw [this, Function.iterate_succ_apply']

/-- Three blocks and three more bytes meet the hypotheses in every mode. -/
example (bx : Boxes) (m : Mode) (vec : BitVec 64) : ∃ enc, encode bx m vec (List.replicate 27 (7#8)) = some enc ∧
    (List.replicate 27 (7#8) : List Byte).length / 8 = 3 := ⟨_, encode_small bx m vec _ (by decide), rfl⟩

/-! ## C50: every key byte reaches the key schedule -/

/-- Specification: key word `i` holds the key characters `4i..4i+3` (key repeated), first character in the
most significant byte for `BlowfishEncoder`, in the least significant for `BlowfishEncoder2`. -/
def keyWordSpec (rev : Bool) (key : List Byte) (i : Nat) : BitVec 32 :=
  let c (j : Nat) : BitVec 8 := key.getD ((4 * i + j) % key.length) 0
  if rev then c 0 ++ c 1 ++ c 2 ++ c 3 else c 3 ++ c 2 ++ c 1 ++ c 0

theorem signExtend_ascii : ∀ c : BitVec 8, c.toNat < 128 → c.signExtend 32 = c.setWidth 32 := by
  intro c hc
  have hm : c.msb = false := by
    rw [BitVec.msb_eq_decide]; simp; omega
  exact BitVec.signExtend_eq_setWidth_of_msb_false hm

theorem pack4 (a b c d : BitVec 8) :
    d.setWidth 32 ||| (c.setWidth 32 <<< 8) ||| (b.setWidth 32 <<< 16) ||| (a.setWidth 32 <<< 24)
      = (a ++ b ++ c ++ d : BitVec 32) := by
  apply BitVec.eq_of_getLsbD_eq
  intro i hi
  simp only [BitVec.getLsbD_or, BitVec.getLsbD_shiftLeft, BitVec.getLsbD_setWidth, BitVec.getLsbD_append]
  by_cases h1 : i < 8
  · simp [h1, show i < 16 by omega, show i < 24 by omega, hi]
  · have hd : d.getLsbD i = false := BitVec.getLsbD_of_ge d i (by omega)
    by_cases h2 : i < 16
    · simp [h1, h2, show i < 24 by omega, hi, hd, show i - 8 < 8 by omega]; omega
    · have hc : c.getLsbD (i - 8) = false := BitVec.getLsbD_of_ge c _ (by omega)
      by_cases h3 : i < 24
      · simp [h1, h2, h3, hi, hd, hc, show i - 8 - 8 = i - 16 by omega, show i - 16 < 8 by omega,
          show ¬ i - 8 < 8 by omega]; omega
      · have hb : b.getLsbD (i - 16) = false := BitVec.getLsbD_of_ge b _ (by omega)
        simp [h1, h2, h3, hi, hd, hc, hb, show i - 8 - 8 - 8 = i - 24 by omega, show i - 24 < 8 by omega,
          show ¬ i - 8 < 8 by omega, show ¬ i - 8 - 8 < 8 by omega]; omega

/-- C50 (partial: only keys of 7-bit characters): the key words are the specified packing of the key, so
every key byte within the first 72 reaches the schedule unchanged. Missing: characters >= 0x80, where the code
sign-extends (next theorem). -/
theorem keyEntry_packs_partial (rev : Bool) (key : List Byte) (hk : key ≠ [])
    (ascii : ∀ c ∈ key, c.toNat < 128) (i : Nat) :
    keyEntry rev key i = some (keyWordSpec rev key i) := by
  have hpos : 0 < key.length := List.length_pos_iff.2 hk
  have kc : ∀ n, keyChar key n = some ((key.getD (n % key.length) 0).setWidth 32) := by
    intro n
    have hlt : n % key.length < key.length := Nat.mod_lt _ hpos
    simp only [keyChar, List.getElem?_eq_getElem hlt, Option.map_some]
    rw [signExtend_ascii _ (ascii _ (List.getElem_mem hlt))]
    simp [hlt]
  cases rev
  · simp only [keyEntry, kc, keyWordSpec, bind, Option.bind, Bool.false_eq_true, if_false, ← pack4]
    rw [show i * 4 = 4 * i by omega]; rfl
  · simp only [keyEntry, kc, keyWordSpec, bind, Option.bind, if_true, ← pack4]
    rw [show i * 4 = 4 * i by omega]; rfl

example : keyEntry true [0x61#8, 0x62#8, 0x63#8] 1 = some 0x62636162#32 := by decide

/-- C50 is violated: a key character >= 0x80 in the last place of its group wipes out the three characters
before it, so different keys give the very same schedule. -/
theorem blowfish_key_bytes_ignored (P0 S0 : Nat → BitVec 32) (a b c d e f h : Byte) (hh : 128 ≤ h.toNat) :
    setKey P0 S0 true [a, b, c, h] = setKey P0 S0 true [d, e, f, h] := by
  have hm : h.msb = true := by rw [BitVec.msb_eq_decide]; simp; omega
  have key : ∀ (x y z : Byte) (i : Nat), keyEntry true [x, y, z, h] i = some (h.signExtend 32) := by
    intro x y z i
    have e0 : (i * 4) % 4 = 0 := by omega
    have e1 : (i * 4 + 1) % 4 = 1 := by omega
    have e2 : (i * 4 + 2) % 4 = 2 := by omega
    have e3 : (i * 4 + 3) % 4 = 3 := by omega
    simp only [keyEntry, keyChar, List.length_cons, List.length_nil, Nat.zero_add, Nat.reduceAdd, e0, e1, e2, e3,
      List.getElem?_cons_zero, List.getElem?_cons_succ, Option.map_some, bind, Option.bind, if_true]
    congr 1
    apply BitVec.eq_of_getLsbD_eq
    intro k hk
    simp only [BitVec.getLsbD_or, BitVec.getLsbD_shiftLeft, BitVec.getLsbD_signExtend, hm]
    by_cases h8 : k < 8
    · simp [h8, hk, show k < 16 by omega, show k < 24 by omega]
    · simp [h8, hk]
  have : keyMaterial true [a, b, c, h] = keyMaterial true [d, e, f, h] := by
    unfold keyMaterial
    congr 1
    funext i
    rw [key, key]
  rw [setKey, setKey, this]

example : (128 : Nat) ≤ (0xc3#8 : Byte).toNat := by decide

/-- C50, error branch: an empty key divides by zero. -/
theorem blowfish_empty_key (P0 S0 : Nat → BitVec 32) (rev : Bool) : setKey P0 S0 rev [] = none := by
  cases rev <;> rfl

end PreCore.Crypt
