import Verif.Model.Crypt
import Verif.Lemmas.Mem
/-! Helper lemmas for the ciphers. -/
namespace PreCore.Crypt

theorem xor_cancel {w : Nat} (a k : BitVec w) : a ^^^ k ^^^ k = a := by
  rw [BitVec.xor_assoc, BitVec.xor_self, BitVec.xor_zero]

theorem xorLoop_eq (key : List Byte) (hk : key ≠ []) (bs : List Byte) : ∀ ii,
    xorLoop key ii bs = some (bs.mapIdx (fun i b => b ^^^ key.getD ((ii + i) % key.length) 0)) := by
  have hpos : 0 < key.length := List.length_pos_iff.2 hk
  induction bs with
  | nil => intro ii; rfl
  | cons b bs ih =>
    intro ii
    have hlt : ii % key.length < key.length := Nat.mod_lt _ hpos
    simp only [xorLoop, List.getElem?_eq_getElem hlt, ih (ii + 1), Option.map_some, List.mapIdx_cons]
    congr 2
    · simp [hlt]
    · congr 1; funext i c; congr 3; omega

def swapH (h : Halves) : Halves := ⟨h.v1, h.v0⟩

theorem swapH_swapH (h : Halves) : swapH (swapH h) = h := rfl
theorem xor1_swap (bx : Boxes) (pid : Nat) (h : Halves) : xor1 bx pid (swapH h) = swapH (xor0 bx pid h) := rfl
theorem xor0_swap (bx : Boxes) (pid : Nat) (h : Halves) : xor0 bx pid (swapH h) = swapH (xor1 bx pid h) := rfl
theorem xor1_xor1 (bx : Boxes) (pid : Nat) (h : Halves) : xor1 bx pid (xor1 bx pid h) = h := by
  cases h; simp [xor1, xor_cancel]
theorem xor0_xor0 (bx : Boxes) (pid : Nat) (h : Halves) : xor0 bx pid (xor0 bx pid h) = h := by
  cases h; simp [xor0, xor_cancel]

/-- whitening of one half -/
def wh0 (k : BitVec 32) (h : Halves) : Halves := { h with v0 := h.v0 ^^^ k }
def wh1 (k : BitVec 32) (h : Halves) : Halves := { h with v1 := h.v1 ^^^ k }
theorem wh0_wh0 (k : BitVec 32) (h : Halves) : wh0 k (wh0 k h) = h := by cases h; simp [wh0, xor_cancel]
theorem wh1_wh1 (k : BitVec 32) (h : Halves) : wh1 k (wh1 k h) = h := by cases h; simp [wh1, xor_cancel]
theorem wh0_swap (k : BitVec 32) (h : Halves) : wh0 k (swapH h) = swapH (wh1 k h) := rfl
theorem wh1_swap (k : BitVec 32) (h : Halves) : wh1 k (swapH h) = swapH (wh0 k h) := rfl

theorem encodeHalves_eq (bx : Boxes) (h : Halves) : encodeHalves bx h =
    swapH (wh1 (bx.p 17) (xor0 bx 16 (xor1 bx 15 (xor0 bx 14 (xor1 bx 13 (xor0 bx 12 (xor1 bx 11 (xor0 bx 10
      (xor1 bx 9 (xor0 bx 8 (xor1 bx 7 (xor0 bx 6 (xor1 bx 5 (xor0 bx 4 (xor1 bx 3 (xor0 bx 2 (xor1 bx 1
        (wh0 (bx.p 0) h)))))))))))))))))) := rfl

theorem decodeHalves_eq (bx : Boxes) (h : Halves) : decodeHalves bx h =
    swapH (wh1 (bx.p 0) (xor0 bx 1 (xor1 bx 2 (xor0 bx 3 (xor1 bx 4 (xor0 bx 5 (xor1 bx 6 (xor0 bx 7
      (xor1 bx 8 (xor0 bx 9 (xor1 bx 10 (xor0 bx 11 (xor1 bx 12 (xor0 bx 13 (xor1 bx 14 (xor0 bx 15 (xor1 bx 16
        (wh0 (bx.p 17) h)))))))))))))))))) := rfl

theorem decode_encodeHalves (bx : Boxes) (h : Halves) : decodeHalves bx (encodeHalves bx h) = h := by
  rw [decodeHalves_eq, encodeHalves_eq]
  simp only [wh0_swap, wh1_swap, xor1_swap, xor0_swap, wh1_wh1, wh0_wh0, xor0_xor0, xor1_xor1, swapH_swapH]

theorem encode_decodeHalves (bx : Boxes) (h : Halves) : encodeHalves bx (decodeHalves bx h) = h := by
  rw [decodeHalves_eq, encodeHalves_eq]
  simp only [wh0_swap, wh1_swap, xor1_swap, xor0_swap, wh1_wh1, wh0_wh0, xor0_xor0, xor1_xor1, swapH_swapH]

theorem split_join (h : Halves) : split (join h) = h := by
  cases h with
  | mk a b =>
    simp only [split, join, Halves.mk.injEq]
    constructor
    · apply BitVec.eq_of_getLsbD_eq; intro i hi
      simp only [BitVec.getLsbD_extractLsb', BitVec.getLsbD_append]; simp [hi]
    · apply BitVec.eq_of_getLsbD_eq; intro i hi
      simp only [BitVec.getLsbD_extractLsb', BitVec.getLsbD_append]; simp [hi]

theorem join_split (b : BitVec 64) : join (split b) = b := by
  apply BitVec.eq_of_getLsbD_eq
  intro i hi
  simp only [join, split, BitVec.getLsbD_append, BitVec.getLsbD_extractLsb']
  by_cases h : i < 32
  · simp [h]
  · simp [h, show i - 32 < 32 by omega, show 32 + (i - 32) = i by omega]

theorem pack_unpack (w : BitVec 64) : packBlock (unpackBlock w) = w := by
  apply BitVec.eq_of_toNat_eq
  have := w.isLt
  simp only [packBlock, unpackBlock, leNat_toLE, BitVec.toNat_ofNat]
  omega

theorem unpack_pack (bs : List Byte) (h : bs.length = 8) : unpackBlock (packBlock bs) = bs := by
  have h1 := leNat_lt bs
  rw [h] at h1
  simp only [unpackBlock, packBlock, BitVec.toNat_ofNat]
  rw [Nat.mod_eq_of_lt (by omega), ← h, toLE_leNat]

theorem unpack_cons (w : BitVec 64) : ∃ b0 b1 b2 b3 b4 b5 b6 b7,
    unpackBlock w = [b0, b1, b2, b3, b4, b5, b6, b7] := by
  refine ⟨_, _, _, _, _, _, _, _, rfl⟩

theorem blockLoop_unpack (f : BitVec 64 → BitVec 64 → BitVec 64 × BitVec 64) (cv w : BitVec 64) (rest : List Byte) :
    blockLoop f cv (unpackBlock w ++ rest) = unpackBlock (f cv w).1 ++ blockLoop f (f cv w).2 rest := by
  obtain ⟨b0, b1, b2, b3, b4, b5, b6, b7, h⟩ := unpack_cons w
  have hp : packBlock [b0, b1, b2, b3, b4, b5, b6, b7] = w := by rw [← h, pack_unpack]
  rw [h]
  simp only [List.cons_append, List.nil_append, blockLoop, hp]

theorem blockLoop_inverse (f g : BitVec 64 → BitVec 64 → BitVec 64 × BitVec 64)
    (hfg : ∀ cv b, g cv (f cv b).1 = (b, (f cv b).2)) (cv : BitVec 64) (buf : List Byte) :
    blockLoop g cv (blockLoop f cv buf) = buf := by
  fun_induction blockLoop f cv buf with
  | case1 cv b0 b1 b2 b3 b4 b5 b6 b7 rest r ih =>
    rw [blockLoop_unpack, hfg]
    simp only
    rw [ih, unpack_pack _ rfl]; rfl
  | case2 cv tail h =>
    unfold blockLoop
    split
    · exact absurd rfl (h _ _ _ _ _ _ _ _ _)
    · rfl

theorem blockLoop_length (f : BitVec 64 → BitVec 64 → BitVec 64 × BitVec 64) (cv : BitVec 64) (buf : List Byte) :
    (blockLoop f cv buf).length = buf.length := by
  fun_induction blockLoop f cv buf with
  | case1 cv b0 b1 b2 b3 b4 b5 b6 b7 rest r ih => simp [unpackBlock, toLE_length, ih]; omega
  | case2 => rfl

theorem blockLoop_tail (f : BitVec 64 → BitVec 64 → BitVec 64 × BitVec 64) (cv : BitVec 64) (buf : List Byte) :
    (blockLoop f cv buf).drop (8 * (buf.length / 8)) = buf.drop (8 * (buf.length / 8)) := by
  fun_induction blockLoop f cv buf with
  | case1 cv b0 b1 b2 b3 b4 b5 b6 b7 rest r ih =>
    have e : 8 * ((b0 :: b1 :: b2 :: b3 :: b4 :: b5 :: b6 :: b7 :: rest).length / 8) =
        8 + 8 * (rest.length / 8) := by simp; omega
    rw [e, ← List.drop_drop, List.drop_left' (by simp [unpackBlock, toLE_length]), ih]
    rw [← List.drop_drop]; rfl
  | case2 => rfl

end PreCore.Crypt
