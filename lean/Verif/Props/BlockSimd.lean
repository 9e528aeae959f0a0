import Verif.Model.BlockSimd
import Verif.Props.BlockColours
/-!
# C129: the SSE decoder of BC1 blocks
-/
namespace PreCore.Block

/-! ## Selection -/

/-- Lane `i` of a register. -/
def V4.lane (m : V4) : Nat → BitVec 32
  | 0 => m.x
  | 1 => m.y
  | 2 => m.z
  | _ => m.w

/-- The three low bytes of lane `i`. -/
def V4.three (m : V4) (i : Nat) : List Byte :=
  [BitVec.ofNat 8 (m.lane i).toNat, BitVec.ofNat 8 ((m.lane i).toNat / 256), BitVec.ofNat 8 ((m.lane i).toNat / 65536)]

theorem finalIndices_eq : ∀ d : Byte, finalIndices d =
    [BitVec.ofNat 8 (4 * (d &&& 3#8).toNat), BitVec.ofNat 8 (4 * (d &&& 3#8).toNat + 1), BitVec.ofNat 8 (4 * (d &&& 3#8).toNat + 2), BitVec.ofNat 8 (4 * (d &&& 3#8).toNat + 3),
     BitVec.ofNat 8 (4 * ((d &&& 0xc#8) >>> 2).toNat), BitVec.ofNat 8 (4 * ((d &&& 0xc#8) >>> 2).toNat + 1), BitVec.ofNat 8 (4 * ((d &&& 0xc#8) >>> 2).toNat + 2), BitVec.ofNat 8 (4 * ((d &&& 0xc#8) >>> 2).toNat + 3),
     BitVec.ofNat 8 (4 * ((d &&& 0x30#8) >>> 4).toNat), BitVec.ofNat 8 (4 * ((d &&& 0x30#8) >>> 4).toNat + 1), BitVec.ofNat 8 (4 * ((d &&& 0x30#8) >>> 4).toNat + 2), BitVec.ofNat 8 (4 * ((d &&& 0x30#8) >>> 4).toNat + 3),
     BitVec.ofNat 8 (4 * ((d &&& 0xc0#8) >>> 6).toNat), BitVec.ofNat 8 (4 * ((d &&& 0xc0#8) >>> 6).toNat + 1), BitVec.ofNat 8 (4 * ((d &&& 0xc0#8) >>> 6).toNat + 2), BitVec.ofNat 8 (4 * ((d &&& 0xc0#8) >>> 6).toNat + 3)] := by
  decide +kernel

theorem pick (m : V4) (i : Nat) (hi : i < 4) :
    (if (BitVec.ofNat 8 (4 * i)).getLsbD 7 then 0#8 else m.bytes.getD (BitVec.ofNat 8 (4 * i) &&& 15#8).toNat 0#8) = BitVec.ofNat 8 (m.lane i).toNat ∧
    (if (BitVec.ofNat 8 (4 * i + 1)).getLsbD 7 then 0#8 else m.bytes.getD (BitVec.ofNat 8 (4 * i + 1) &&& 15#8).toNat 0#8) = BitVec.ofNat 8 ((m.lane i).toNat / 256) ∧
    (if (BitVec.ofNat 8 (4 * i + 2)).getLsbD 7 then 0#8 else m.bytes.getD (BitVec.ofNat 8 (4 * i + 2) &&& 15#8).toNat 0#8) = BitVec.ofNat 8 ((m.lane i).toNat / 65536) := by
  have h2 : ∀ n : Nat, n / 256 / 256 = n / 65536 := fun n => by rw [Nat.div_div_eq_div_mul]
  have : i = 0 ∨ i = 1 ∨ i = 2 ∨ i = 3 := by omega
  rcases this with rfl | rfl | rfl | rfl <;> simp [V4.bytes, toLE, V4.lane, h2]

theorem rowBytes_eq (m : V4) (d : Byte) : rowBytes m d =
    m.three (d &&& 3#8).toNat ++ (m.three ((d &&& 0xc#8) >>> 2).toNat ++ (m.three ((d &&& 0x30#8) >>> 4).toNat ++ m.three ((d &&& 0xc0#8) >>> 6).toNat)) := by
  have b0 : (d &&& 3#8).toNat < 4 := by revert d; decide +kernel
  have b1 : ((d &&& 0xc#8) >>> 2).toNat < 4 := by revert d; decide +kernel
  have b2 : ((d &&& 0x30#8) >>> 4).toNat < 4 := by revert d; decide +kernel
  have b3 : ((d &&& 0xc0#8) >>> 6).toNat < 4 := by revert d; decide +kernel
  unfold rowBytes
  rw [finalIndices_eq]
  generalize (d &&& 3#8).toNat = i0 at *
  generalize ((d &&& 0xc#8) >>> 2).toNat = i1 at *
  generalize ((d &&& 0x30#8) >>> 4).toNat = i2 at *
  generalize ((d &&& 0xc0#8) >>> 6).toNat = i3 at *
  obtain ⟨p0, q0, r0⟩ := pick m i0 b0
  obtain ⟨p1, q1, r1⟩ := pick m i1 b1
  obtain ⟨p2, q2, r2⟩ := pick m i2 b2
  obtain ⟨p3, q3, r3⟩ := pick m i3 b3
  have hc : (V4.bytes ⟨0x04020100, 0x09080605, 0x0e0d0c0a, 0x10101010⟩) =
      [0#8, 1#8, 2#8, 4#8, 5#8, 6#8, 8#8, 9#8, 10#8, 12#8, 13#8, 14#8, 16#8, 16#8, 16#8, 16#8] := by decide +kernel
  simp only [shuffle8, List.map_cons, List.map_nil, hc, p0, q0, r0, p1, q1, r1, p2, q2, r2, p3, q3, r3]
  rfl

/-- The colours the SSE decoder chooses from. -/
def simdPalette (e : List Byte) (i : Nat) : List Byte := (finalMix (BitVec.ofNat 32 (leNat e))).three i

theorem simdPalette_is : Palette simdPalette := fun _ _ => rfl

theorem store_append (b : Buf) (a : Nat) (xs ys : List Byte) : store (store b a xs) (a + xs.length) ys = store b a (xs ++ ys) := by
  funext t
  unfold store
  simp only [List.length_append]
  by_cases h1 : a + xs.length ≤ t ∧ t < a + xs.length + ys.length
  · rw [if_pos h1, if_pos (by omega), List.getD_eq_getElem?_getD, List.getD_eq_getElem?_getD, List.getElem?_append_right (by omega),
      show t - (a + xs.length) = t - a - xs.length by omega]
  · rw [if_neg h1]
    by_cases h2 : a ≤ t ∧ t < a + xs.length
    · rw [if_pos h2, if_pos (by omega), List.getD_eq_getElem?_getD, List.getD_eq_getElem?_getD, List.getElem?_append_left (by omega)]
    · rw [if_neg h2, if_neg (by omega)]

theorem row_eq (w h width : BitVec 32) (H : Nat) (hi : Inside w h width H 3) (data : Nat → Byte) (o r p : Nat) (hr : r < 4) (m : V4) (buf : Buf) :
    store buf (o + (pixelOffset w h width 3#32 r 0).toNat) (rowBytes m (data p)) =
      perform w h width 3#32 o (bc1Row data (fun i => m.three i.toNat) r p) buf := by
  have off : ∀ c, c < 4 → (pixelOffset w h width 3#32 r c).toNat = texelAddr w.toNat h.toNat width.toNat 3 (4 * r + c) := by
    intro c hc
    have := (pixelOffset_toNat w h width 3#32 H hi.col hi.row hi.fits (by decide) (4 * r + c) (by omega)).1
    rw [show (4 * r + c) / 4 = r by omega, show (4 * r + c) % 4 = c by omega] at this
    exact this
  have ad : ∀ c, c < 4 → texelAddr w.toNat h.toNat width.toNat 3 (4 * r + c) = texelAddr w.toNat h.toNat width.toNat 3 (4 * r + 0) + 3 * c := by
    intro c hc
    unfold texelAddr
    rw [show (4 * r + c) / 4 = r by omega, show (4 * r + c) % 4 = c by omega, show (4 * r + 0) / 4 = r by omega, show (4 * r + 0) % 4 = 0 by omega]
    omega
  unfold perform bc1Row
  simp only [List.foldl_cons, List.foldl_nil]
  rw [off 0 (by omega), off 1 (by omega), off 2 (by omega), off 3 (by omega), ad 1 (by omega), ad 2 (by omega), ad 3 (by omega), rowBytes_eq,
    ← store_append, ← store_append, ← store_append]
  rfl

/-- With three byte pixels the SSE decoder stores, texel by texel, the colour its two bits select. -/
theorem simd_eq (data : Nat → Byte) (o : Nat) (w h width : BitVec 32) (H : Nat) (hi : Inside w h width H 3) (buf : Buf) :
    decodeBC1Simd data o w h width 3#32 buf = decodeBC1 simdPalette data o w h width buf := by
  have hr : List.range 4 = [0, 1, 2, 3] := by decide
  unfold decodeBC1Simd decodeBC1 bc1Stores
  simp only [perform, List.foldl_append, hr, List.map_cons, List.map_nil, List.foldl_cons, List.foldl_nil]
  have e := fun r p hr m buf => row_eq w h width H hi data o r p hr m buf
  simp only [perform] at e
  rw [e 0 _ (by omega), e 1 _ (by omega), e 2 _ (by omega), e 3 _ (by omega)]
  rfl

/-! ## Lanes as numbers -/

/-- A byte read as a signed number. -/
def sgn (b : Nat) : Int := if b < 128 then b else (b : Int) - 256

theorem sra24 (v : BitVec 32) : (v.sshiftRight 24).toInt = sgn (v.toNat / 2 ^ 24) := by
  rw [BitVec.toInt_sshiftRight, Int.shiftRight_eq_div_pow, BitVec.toInt_eq_toNat_cond]
  have := v.isLt
  unfold sgn
  split <;> split <;> omega

theorem lane_of (n c : Nat) (hc : c < 2 ^ 32) :
    ((BitVec.ofNat 32 n * BitVec.ofNat 32 c).sshiftRight 24).toInt = sgn (n * c % 2 ^ 32 / 2 ^ 24) := by
  rw [sra24, BitVec.toNat_mul, BitVec.toNat_ofNat, BitVec.toNat_ofNat, Nat.mod_eq_of_lt hc, Nat.mod_mul_mod]

theorem sgn_bound (b : Nat) (h : b < 256) : -128 ≤ sgn b ∧ sgn b ≤ 127 := by
  unfold sgn; split <;> omega

theorem mix_lane (a b p q : BitVec 32) (hp : p.toInt = 170 ∨ p.toInt = 85) (hq : p.toInt + q.toInt = 255) (ha : -128 ≤ a.toInt ∧ a.toInt ≤ 127)
    (hb : -128 ≤ b.toInt ∧ b.toInt ≤ 127) : ((a * p + b * q).sshiftRight 8).toInt = (p.toInt * a.toInt + q.toInt * b.toInt) / 256 := by
  have hq' : q.toInt = 255 - p.toInt := by omega
  have e1 : (a * p).toInt = p.toInt * a.toInt := by
    rw [BitVec.toInt_mul, Int.bmod_eq_of_le_mul_two] <;> rcases hp with h | h <;> rw [h] <;> omega
  have e2 : (b * q).toInt = q.toInt * b.toInt := by
    rw [BitVec.toInt_mul, Int.bmod_eq_of_le_mul_two] <;> rcases hp with h | h <;> rw [hq', h] <;> omega
  rw [BitVec.toInt_sshiftRight, Int.shiftRight_eq_div_pow, BitVec.toInt_add, e1, e2, Int.bmod_eq_of_le_mul_two]
  · rfl
  · rcases hp with h | h <;> rw [hq', h] <;> omega
  · rcases hp with h | h <;> rw [hq', h] <;> omega

theorem collect_x (c : V4) (hw : c.w = 0#32) : ((collect c).x.toNat : Int) = (c.x.toInt + 256 * c.y.toInt + 65536 * c.z.toInt) % 2 ^ 32 := by
  have h : (collect c).x = c.x + 256#32 * c.y + 65536#32 * c.z := by
    unfold collect V4.hadd V4.mul
    simp only [hw]
    rw [show (0x100 : BitVec 32) = 256#32 from rfl, show (0x10000 : BitVec 32) = 65536#32 from rfl, show (1 : BitVec 32) = 1#32 from rfl,
      BitVec.mul_one, BitVec.mul_one, BitVec.add_zero, BitVec.mul_comm c.y, BitVec.mul_comm c.z]
  rw [h, BitVec.toNat_add, BitVec.toNat_add, BitVec.toNat_mul, BitVec.toNat_mul, BitVec.toInt_eq_toNat_cond, BitVec.toInt_eq_toNat_cond,
    BitVec.toInt_eq_toNat_cond, BitVec.toNat_ofNat, BitVec.toNat_ofNat]
  have := c.x.isLt
  have := c.y.isLt
  have := c.z.isLt
  generalize c.x.toNat = x at *
  generalize c.y.toNat = y at *
  generalize c.z.toNat = z at *
  clear h hw
  split <;> split <;> split <;> omega

/-- The packed end colours of fields (blue, green, red). -/
def packEnds (b0 g0 r0 b1 g1 r1 : Nat) : Nat := b0 + 32 * g0 + 2048 * r0 + 65536 * (b1 + 32 * g1 + 2048 * r1)

structure Fields (b0 g0 r0 b1 g1 r1 : Nat) : Prop where
  b0 : b0 < 32
  g0 : g0 < 64
  r0 : r0 < 32
  b1 : b1 < 32
  g1 : g1 < 64
  r1 : r1 < 32

theorem decode565_lanes {b0 g0 r0 b1 g1 r1 : Nat} (f : Fields b0 g0 r0 b1 g1 r1) :
    let c := decode565 (BitVec.ofNat 32 (packEnds b0 g0 r0 b1 g1 r1))
    c.1.x.toInt = sgn (8 * b0) ∧ c.1.y.toInt = sgn (4 * g0 + b0 / 8) ∧ c.1.z.toInt = sgn (8 * r0 + g0 / 8) ∧ c.1.w = 0#32 ∧
    c.2.x.toInt = sgn (8 * b1 + r0 / 4) ∧ c.2.y.toInt = sgn (4 * g1 + b1 / 8) ∧ c.2.z.toInt = sgn (8 * r1 + g1 / 8) ∧ c.2.w = 0#32 := by
  obtain ⟨h1, h2, h3, h4, h5, h6⟩ := f
  simp only [decode565, V4.sra, V4.mul, V4.all]
  refine ⟨?_, ?_, ?_, ?_, ?_, ?_, ?_, ?_⟩
  · rw [show (0x8000000 : BitVec 32) = BitVec.ofNat 32 0x8000000 from rfl, lane_of _ _ (by decide)]
    congr 1; unfold packEnds; omega
  · rw [show (0x200000 : BitVec 32) = BitVec.ofNat 32 0x200000 from rfl, lane_of _ _ (by decide)]
    congr 1; unfold packEnds; omega
  · rw [show (0x10000 : BitVec 32) = BitVec.ofNat 32 0x10000 from rfl, lane_of _ _ (by decide)]
    congr 1; unfold packEnds; omega
  · simp
  · rw [show (0x800 : BitVec 32) = BitVec.ofNat 32 0x800 from rfl, lane_of _ _ (by decide)]
    congr 1; unfold packEnds; omega
  · rw [show (0x20 : BitVec 32) = BitVec.ofNat 32 0x20 from rfl, lane_of _ _ (by decide)]
    congr 1; unfold packEnds; omega
  · rw [show (0x1 : BitVec 32) = BitVec.ofNat 32 0x1 from rfl, lane_of _ _ (by decide)]
    congr 1; unfold packEnds; omega
  · simp

/-- The interpolated lane. -/
def third (p : Int) (a b : Int) : Int := (p * a + (255 - p) * b) / 256

theorem finalMix_lanes {b0 g0 r0 b1 g1 r1 : Nat} (f : Fields b0 g0 r0 b1 g1 r1) :
    let m := finalMix (BitVec.ofNat 32 (packEnds b0 g0 r0 b1 g1 r1))
    (m.x.toNat : Int) = (sgn (8 * b0) + 256 * sgn (4 * g0 + b0 / 8) + 65536 * sgn (8 * r0 + g0 / 8)) % 2 ^ 32 ∧
    (m.y.toNat : Int) = (sgn (8 * b1 + r0 / 4) + 256 * sgn (4 * g1 + b1 / 8) + 65536 * sgn (8 * r1 + g1 / 8)) % 2 ^ 32 ∧
    (m.z.toNat : Int) = (third 170 (sgn (8 * b0)) (sgn (8 * b1 + r0 / 4)) + 256 * third 170 (sgn (4 * g0 + b0 / 8)) (sgn (4 * g1 + b1 / 8)) +
      65536 * third 170 (sgn (8 * r0 + g0 / 8)) (sgn (8 * r1 + g1 / 8))) % 2 ^ 32 ∧
    (m.w.toNat : Int) = (third 85 (sgn (8 * b0)) (sgn (8 * b1 + r0 / 4)) + 256 * third 85 (sgn (4 * g0 + b0 / 8)) (sgn (4 * g1 + b1 / 8)) +
      65536 * third 85 (sgn (8 * r0 + g0 / 8)) (sgn (8 * r1 + g1 / 8))) % 2 ^ 32 := by
  obtain ⟨x0, y0, z0, w0, x1, y1, z1, w1⟩ := decode565_lanes f
  obtain ⟨h1, h2, h3, h4, h5, h6⟩ := f
  simp only [finalMix]
  generalize decode565 (BitVec.ofNat 32 (packEnds b0 g0 r0 b1 g1 r1)) = c at *
  obtain ⟨c0, c1⟩ := c
  simp only at *
  have bx0 := sgn_bound (8 * b0) (by omega)
  have by0 := sgn_bound (4 * g0 + b0 / 8) (by omega)
  have bz0 := sgn_bound (8 * r0 + g0 / 8) (by omega)
  have bx1 := sgn_bound (8 * b1 + r0 / 4) (by omega)
  have by1 := sgn_bound (4 * g1 + b1 / 8) (by omega)
  have bz1 := sgn_bound (8 * r1 + g1 / 8) (by omega)
  rw [← x0] at bx0 ⊢; rw [← y0] at by0 ⊢; rw [← z0] at bz0 ⊢; rw [← x1] at bx1 ⊢; rw [← y1] at by1 ⊢; rw [← z1] at bz1 ⊢
  have hw : ∀ p q : BitVec 32, (V4.sra (V4.add (V4.mul c0 (V4.all p)) (V4.mul c1 (V4.all q))) 8).w = 0#32 := by
    intro p q; simp [V4.sra, V4.add, V4.mul, V4.all, w0, w1]
  simp only [V4.unpackLo64, V4.unpackLo32]
  refine ⟨collect_x c0 w0, collect_x c1 w1, ?_, ?_⟩
  · rw [collect_x _ (hw _ _)]
    simp only [V4.sra, V4.add, V4.mul, V4.all]
    rw [mix_lane _ _ _ _ (by decide) (by decide) bx0 bx1, mix_lane _ _ _ _ (by decide) (by decide) by0 by1, mix_lane _ _ _ _ (by decide) (by decide) bz0 bz1]
    rfl
  · rw [collect_x _ (hw _ _)]
    simp only [V4.sra, V4.add, V4.mul, V4.all]
    rw [mix_lane _ _ _ _ (by decide) (by decide) bx0 bx1, mix_lane _ _ _ _ (by decide) (by decide) by0 by1, mix_lane _ _ _ _ (by decide) (by decide) bz0 bz1]
    rfl

/-! ## Bytes of a lane -/

theorem bytes_of (L : Nat) (x y z : Int) (h : (L : Int) = (x + 256 * y + 65536 * z) % 2 ^ 32) :
    ((L % 256 : Nat) : Int) = x % 256 ∧ ((L / 256 % 256 : Nat) : Int) = (y + x / 256) % 256 ∧
      ((L / 65536 % 256 : Nat) : Int) = (z + (y + x / 256) / 256) % 256 := by
  refine ⟨?_, ?_, ?_⟩ <;> omega

/-- `v` is within `e` of `n / d`. -/
def Near (e : Nat) (v : Nat) (n d : Nat) : Prop := n ≤ d * (v + e) ∧ d * v ≤ n + d * e

/-- `v` is more than `e` away from `n / d`. -/
def Far (e : Nat) (v : Nat) (n d : Nat) : Prop := d * (v + e) < n ∨ n + d * e < d * v

theorem ends0 {b g r : Nat} (hb : b < 32) (hg : g < 64) (hr : r < 32) (L : Nat)
    (h : (L : Int) = (sgn (8 * b) + 256 * sgn (4 * g + b / 8) + 65536 * sgn (8 * r + g / 8)) % 2 ^ 32) :
    Near 7 (L % 256) (255 * b) 31 ∧ Near 7 (L / 256 % 256) (255 * g) 63 ∧ Near 7 (L / 65536 % 256) (255 * r) 31 := by
  obtain ⟨h0, h1, h2⟩ := bytes_of L _ _ _ h
  generalize L % 256 = v0 at *
  generalize L / 256 % 256 = v1 at *
  generalize L / 65536 % 256 = v2 at *
  clear h
  unfold sgn at *
  unfold Near
  refine ⟨?_, ?_, ?_⟩
  · split at h0 <;> omega
  · split at h1 <;> split at h1 <;> omega
  · split at h2 <;> split at h2 <;> split at h2 <;> omega

theorem ends1 {b g r l : Nat} (hb : b < 32) (hg : g < 64) (hr : r < 32) (hl : l < 8) (L : Nat)
    (h : (L : Int) = (sgn (8 * b + l) + 256 * sgn (4 * g + b / 8) + 65536 * sgn (8 * r + g / 8)) % 2 ^ 32) :
    Near 7 (L % 256) (255 * b) 31 ∧ Near 7 (L / 256 % 256) (255 * g) 63 ∧ Near 7 (L / 65536 % 256) (255 * r) 31 := by
  obtain ⟨h0, h1, h2⟩ := bytes_of L _ _ _ h
  generalize L % 256 = v0 at *
  generalize L / 256 % 256 = v1 at *
  generalize L / 65536 % 256 = v2 at *
  clear h
  unfold sgn at *
  unfold Near
  refine ⟨?_, ?_, ?_⟩
  · split at h0 <;> omega
  · split at h1 <;> split at h1 <;> omega
  · split at h2 <;> split at h2 <;> split at h2 <;> omega

/-! ## Interpolated colours -/

theorem third170_cases (A B : Nat) (hA : A < 256) (hB : B < 256) : ∃ t : Int, 256 * t ≤ 170 * A + 85 * B ∧ 170 * A + 85 * B < 256 * t + 256 ∧
    ((A < 128 ∧ B < 128 ∧ third 170 (sgn A) (sgn B) = t) ∨ (128 ≤ A ∧ 128 ≤ B ∧ third 170 (sgn A) (sgn B) = t - 255) ∨
     (128 ≤ A ∧ B < 128 ∧ third 170 (sgn A) (sgn B) = t - 170) ∨ (A < 128 ∧ 128 ≤ B ∧ third 170 (sgn A) (sgn B) = t - 85)) := by
  refine ⟨(170 * (A : Int) + 85 * B) / 256, by omega, by omega, ?_⟩
  unfold third sgn
  split <;> split <;> omega

theorem blue170 {b0 b1 l : Nat} (h0 : b0 < 32) (h1 : b1 < 32) (hl : l < 8) (v : Nat) (hv : (v : Int) = third 170 (sgn (8 * b0)) (sgn (8 * b1 + l)) % 256) :
    ((b0 < 16 ↔ b1 < 16) → Near 9 v (255 * (2 * b0 + 1 * b1)) 93) ∧
    (¬ (b0 < 16 ↔ b1 < 16) → Far 70 v (255 * (2 * b0 + 1 * b1)) 93) := by
  obtain ⟨t, t1, t2, t3⟩ := third170_cases (8 * b0) (8 * b1 + l) (by omega) (by omega)
  generalize third 170 (sgn (8 * b0)) (sgn (8 * b1 + l)) = x at *
  unfold Near Far
  have ht : 0 ≤ t ∧ t ≤ 254 := by omega
  rcases t3 with t3 | t3 | t3 | t3
  · have hv' : (v : Int) = (t) % 256 := by rw [hv, t3.2.2]
    refine ⟨fun _ => ?_, fun hn => absurd ?_ hn⟩
    · have hz : (v : Int) = t := by omega
      omega
    · omega
  · have hv' : (v : Int) = t + 1 := by rw [hv, t3.2.2]; omega
    refine ⟨fun _ => ?_, fun hn => absurd ?_ hn⟩
    · omega
    · omega
  · have hv' : (v : Int) = t - 170 ∨ (v : Int) = t + 86 := by rw [hv, t3.2.2]; omega
    refine ⟨fun hs => absurd hs ?_, fun _ => ?_⟩
    · omega
    · rcases hv' with hv' | hv' <;> omega
  · have hv' : (v : Int) = t - 85 ∨ (v : Int) = t + 171 := by rw [hv, t3.2.2]; omega
    refine ⟨fun hs => absurd hs ?_, fun _ => ?_⟩
    · omega
    · rcases hv' with hv' | hv' <;> omega

theorem green170 {b0 b1 g0 g1 : Nat} (h0 : b0 < 32) (h1 : b1 < 32) (h2 : g0 < 64) (h3 : g1 < 64) (x : Int) (hx : -1 ≤ x ∧ x ≤ 0)
    (v : Nat) (hv : (v : Int) = (third 170 (sgn (4 * g0 + b0 / 8)) (sgn (4 * g1 + b1 / 8)) + x) % 256) :
    ((g0 < 32 ↔ g1 < 32) → (x = -1 → 16 ≤ b0 ∧ 16 ≤ b1) → Near 9 v (255 * (2 * g0 + 1 * g1)) 189) ∧
    (¬ (g0 < 32 ↔ g1 < 32) → Far 70 v (255 * (2 * g0 + 1 * g1)) 189) := by
  obtain ⟨t, t1, t2, t3⟩ := third170_cases (4 * g0 + b0 / 8) (4 * g1 + b1 / 8) (by omega) (by omega)
  generalize third 170 (sgn (4 * g0 + b0 / 8)) (sgn (4 * g1 + b1 / 8)) = y at *
  unfold Near Far
  have ht : 0 ≤ t ∧ t ≤ 254 := by omega
  rcases t3 with t3 | t3 | t3 | t3
  · have hv' : (v : Int) = (t + x) % 256 := by rw [hv, t3.2.2]
    refine ⟨fun _ hb => ?_, fun hn => absurd ?_ hn⟩
    · have hz : (v : Int) = t + x := by omega
      omega
    · omega
  · have hv' : (v : Int) = t + x + 1 := by rw [hv, t3.2.2]; omega
    refine ⟨fun _ hb => ?_, fun hn => absurd ?_ hn⟩
    · omega
    · omega
  · have hv' : (v : Int) = t + x - 170 ∨ (v : Int) = t + x + 86 := by rw [hv, t3.2.2]; omega
    refine ⟨fun hs => absurd hs ?_, fun _ => ?_⟩
    · omega
    · rcases hv' with hv' | hv' <;> omega
  · have hv' : (v : Int) = t + x - 85 ∨ (v : Int) = t + x + 171 := by rw [hv, t3.2.2]; omega
    refine ⟨fun hs => absurd hs ?_, fun _ => ?_⟩
    · omega
    · rcases hv' with hv' | hv' <;> omega

theorem red170 {g0 g1 r0 r1 : Nat} (h0 : g0 < 64) (h1 : g1 < 64) (h2 : r0 < 32) (h3 : r1 < 32) (x : Int) (hx : -1 ≤ x ∧ x ≤ 0)
    (v : Nat) (hv : (v : Int) = (third 170 (sgn (8 * r0 + g0 / 8)) (sgn (8 * r1 + g1 / 8)) + x) % 256) :
    ((r0 < 16 ↔ r1 < 16) → (x = -1 → 32 ≤ g0 ∧ 32 ≤ g1) → Near 9 v (255 * (2 * r0 + 1 * r1)) 93) ∧
    (¬ (r0 < 16 ↔ r1 < 16) → Far 70 v (255 * (2 * r0 + 1 * r1)) 93) := by
  obtain ⟨t, t1, t2, t3⟩ := third170_cases (8 * r0 + g0 / 8) (8 * r1 + g1 / 8) (by omega) (by omega)
  generalize third 170 (sgn (8 * r0 + g0 / 8)) (sgn (8 * r1 + g1 / 8)) = y at *
  unfold Near Far
  have ht : 0 ≤ t ∧ t ≤ 254 := by omega
  rcases t3 with t3 | t3 | t3 | t3
  · have hv' : (v : Int) = (t + x) % 256 := by rw [hv, t3.2.2]
    refine ⟨fun _ hb => ?_, fun hn => absurd ?_ hn⟩
    · have hz : (v : Int) = t + x := by omega
      omega
    · omega
  · have hv' : (v : Int) = t + x + 1 := by rw [hv, t3.2.2]; omega
    refine ⟨fun _ hb => ?_, fun hn => absurd ?_ hn⟩
    · omega
    · omega
  · have hv' : (v : Int) = t + x - 170 ∨ (v : Int) = t + x + 86 := by rw [hv, t3.2.2]; omega
    refine ⟨fun hs => absurd hs ?_, fun _ => ?_⟩
    · omega
    · rcases hv' with hv' | hv' <;> omega
  · have hv' : (v : Int) = t + x - 85 ∨ (v : Int) = t + x + 171 := by rw [hv, t3.2.2]; omega
    refine ⟨fun hs => absurd hs ?_, fun _ => ?_⟩
    · omega
    · rcases hv' with hv' | hv' <;> omega

/-- The borrows between the channels. -/
theorem borrow170 {b0 g0 b1 g1 l : Nat} (h1 : b0 < 32) (h2 : g0 < 64) (h4 : b1 < 32) (h5 : g1 < 64) (hl : l < 8) :
    let x := third 170 (sgn (8 * b0)) (sgn (8 * b1 + l))
    let y := third 170 (sgn (4 * g0 + b0 / 8)) (sgn (4 * g1 + b1 / 8))
    (-1 ≤ x / 256 ∧ x / 256 ≤ 0) ∧ (-1 ≤ (y + x / 256) / 256 ∧ (y + x / 256) / 256 ≤ 0) ∧
    ((b0 < 16 ↔ b1 < 16) → x / 256 = -1 → 16 ≤ b0 ∧ 16 ≤ b1) ∧
    ((b0 < 16 ↔ b1 < 16) → (g0 < 32 ↔ g1 < 32) → (y + x / 256) / 256 = -1 → 32 ≤ g0 ∧ 32 ≤ g1) := by
  obtain ⟨t, t1, t2, t3⟩ := third170_cases (8 * b0) (8 * b1 + l) (by omega) (by omega)
  obtain ⟨u, u1, u2, u3⟩ := third170_cases (4 * g0 + b0 / 8) (4 * g1 + b1 / 8) (by omega) (by omega)
  intro x y
  change (_ ∧ _ ∧ x = t) ∨ (_ ∧ _ ∧ x = _) ∨ (_ ∧ _ ∧ x = _) ∨ (_ ∧ _ ∧ x = _) at t3
  change (_ ∧ _ ∧ y = u) ∨ (_ ∧ _ ∧ y = _) ∨ (_ ∧ _ ∧ y = _) ∨ (_ ∧ _ ∧ y = _) at u3
  generalize x = x at *
  generalize y = y at *
  have hx : -128 ≤ x ∧ x ≤ 127 := by rcases t3 with t3 | t3 | t3 | t3 <;> omega
  have hy : -128 ≤ y ∧ y ≤ 127 := by rcases u3 with u3 | u3 | u3 | u3 <;> omega
  refine ⟨by omega, by omega, ?_, ?_⟩
  · intro hs he
    rcases t3 with t3 | t3 | t3 | t3 <;> omega
  · intro hs hg he
    have ht : 0 ≤ t := by omega
    have hu : 0 ≤ u := by omega
    rcases u3 with u3 | u3 | u3 | u3
    · rcases t3 with t3 | t3 | t3 | t3
      · have : 0 ≤ x / 256 := by omega
        omega
      · have : 1 ≤ u := by omega
        omega
      · omega
      · omega
    · omega
    · omega
    · omega

theorem third85_cases (A B : Nat) (hA : A < 256) (hB : B < 256) : ∃ t : Int, 256 * t ≤ 85 * A + 170 * B ∧ 85 * A + 170 * B < 256 * t + 256 ∧
    ((A < 128 ∧ B < 128 ∧ third 85 (sgn A) (sgn B) = t) ∨ (128 ≤ A ∧ 128 ≤ B ∧ third 85 (sgn A) (sgn B) = t - 255) ∨
     (128 ≤ A ∧ B < 128 ∧ third 85 (sgn A) (sgn B) = t - 85) ∨ (A < 128 ∧ 128 ≤ B ∧ third 85 (sgn A) (sgn B) = t - 170)) := by
  refine ⟨(85 * (A : Int) + 170 * B) / 256, by omega, by omega, ?_⟩
  unfold third sgn
  split <;> split <;> omega

theorem blue85 {b0 b1 l : Nat} (h0 : b0 < 32) (h1 : b1 < 32) (hl : l < 8) (v : Nat) (hv : (v : Int) = third 85 (sgn (8 * b0)) (sgn (8 * b1 + l)) % 256) :
    ((b0 < 16 ↔ b1 < 16) → Near 9 v (255 * (1 * b0 + 2 * b1)) 93) ∧
    (¬ (b0 < 16 ↔ b1 < 16) → Far 70 v (255 * (1 * b0 + 2 * b1)) 93) := by
  obtain ⟨t, t1, t2, t3⟩ := third85_cases (8 * b0) (8 * b1 + l) (by omega) (by omega)
  generalize third 85 (sgn (8 * b0)) (sgn (8 * b1 + l)) = x at *
  unfold Near Far
  have ht : 0 ≤ t ∧ t ≤ 254 := by omega
  rcases t3 with t3 | t3 | t3 | t3
  · have hv' : (v : Int) = (t) % 256 := by rw [hv, t3.2.2]
    refine ⟨fun _ => ?_, fun hn => absurd ?_ hn⟩
    · have hz : (v : Int) = t := by omega
      omega
    · omega
  · have hv' : (v : Int) = t + 1 := by rw [hv, t3.2.2]; omega
    refine ⟨fun _ => ?_, fun hn => absurd ?_ hn⟩
    · omega
    · omega
  · have hv' : (v : Int) = t - 85 ∨ (v : Int) = t + 171 := by rw [hv, t3.2.2]; omega
    refine ⟨fun hs => absurd hs ?_, fun _ => ?_⟩
    · omega
    · rcases hv' with hv' | hv' <;> omega
  · have hv' : (v : Int) = t - 170 ∨ (v : Int) = t + 86 := by rw [hv, t3.2.2]; omega
    refine ⟨fun hs => absurd hs ?_, fun _ => ?_⟩
    · omega
    · rcases hv' with hv' | hv' <;> omega

theorem green85 {b0 b1 g0 g1 : Nat} (h0 : b0 < 32) (h1 : b1 < 32) (h2 : g0 < 64) (h3 : g1 < 64) (x : Int) (hx : -1 ≤ x ∧ x ≤ 0)
    (v : Nat) (hv : (v : Int) = (third 85 (sgn (4 * g0 + b0 / 8)) (sgn (4 * g1 + b1 / 8)) + x) % 256) :
    ((g0 < 32 ↔ g1 < 32) → (x = -1 → 16 ≤ b0 ∧ 16 ≤ b1) → Near 9 v (255 * (1 * g0 + 2 * g1)) 189) ∧
    (¬ (g0 < 32 ↔ g1 < 32) → Far 70 v (255 * (1 * g0 + 2 * g1)) 189) := by
  obtain ⟨t, t1, t2, t3⟩ := third85_cases (4 * g0 + b0 / 8) (4 * g1 + b1 / 8) (by omega) (by omega)
  generalize third 85 (sgn (4 * g0 + b0 / 8)) (sgn (4 * g1 + b1 / 8)) = y at *
  unfold Near Far
  have ht : 0 ≤ t ∧ t ≤ 254 := by omega
  rcases t3 with t3 | t3 | t3 | t3
  · have hv' : (v : Int) = (t + x) % 256 := by rw [hv, t3.2.2]
    refine ⟨fun _ hb => ?_, fun hn => absurd ?_ hn⟩
    · have hz : (v : Int) = t + x := by omega
      omega
    · omega
  · have hv' : (v : Int) = t + x + 1 := by rw [hv, t3.2.2]; omega
    refine ⟨fun _ hb => ?_, fun hn => absurd ?_ hn⟩
    · omega
    · omega
  · have hv' : (v : Int) = t + x - 85 ∨ (v : Int) = t + x + 171 := by rw [hv, t3.2.2]; omega
    refine ⟨fun hs => absurd hs ?_, fun _ => ?_⟩
    · omega
    · rcases hv' with hv' | hv' <;> omega
  · have hv' : (v : Int) = t + x - 170 ∨ (v : Int) = t + x + 86 := by rw [hv, t3.2.2]; omega
    refine ⟨fun hs => absurd hs ?_, fun _ => ?_⟩
    · omega
    · rcases hv' with hv' | hv' <;> omega

theorem red85 {g0 g1 r0 r1 : Nat} (h0 : g0 < 64) (h1 : g1 < 64) (h2 : r0 < 32) (h3 : r1 < 32) (x : Int) (hx : -1 ≤ x ∧ x ≤ 0)
    (v : Nat) (hv : (v : Int) = (third 85 (sgn (8 * r0 + g0 / 8)) (sgn (8 * r1 + g1 / 8)) + x) % 256) :
    ((r0 < 16 ↔ r1 < 16) → (x = -1 → 32 ≤ g0 ∧ 32 ≤ g1) → Near 9 v (255 * (1 * r0 + 2 * r1)) 93) ∧
    (¬ (r0 < 16 ↔ r1 < 16) → Far 70 v (255 * (1 * r0 + 2 * r1)) 93) := by
  obtain ⟨t, t1, t2, t3⟩ := third85_cases (8 * r0 + g0 / 8) (8 * r1 + g1 / 8) (by omega) (by omega)
  generalize third 85 (sgn (8 * r0 + g0 / 8)) (sgn (8 * r1 + g1 / 8)) = y at *
  unfold Near Far
  have ht : 0 ≤ t ∧ t ≤ 254 := by omega
  rcases t3 with t3 | t3 | t3 | t3
  · have hv' : (v : Int) = (t + x) % 256 := by rw [hv, t3.2.2]
    refine ⟨fun _ hb => ?_, fun hn => absurd ?_ hn⟩
    · have hz : (v : Int) = t + x := by omega
      omega
    · omega
  · have hv' : (v : Int) = t + x + 1 := by rw [hv, t3.2.2]; omega
    refine ⟨fun _ hb => ?_, fun hn => absurd ?_ hn⟩
    · omega
    · omega
  · have hv' : (v : Int) = t + x - 85 ∨ (v : Int) = t + x + 171 := by rw [hv, t3.2.2]; omega
    refine ⟨fun hs => absurd hs ?_, fun _ => ?_⟩
    · omega
    · rcases hv' with hv' | hv' <;> omega
  · have hv' : (v : Int) = t + x - 170 ∨ (v : Int) = t + x + 86 := by rw [hv, t3.2.2]; omega
    refine ⟨fun hs => absurd hs ?_, fun _ => ?_⟩
    · omega
    · rcases hv' with hv' | hv' <;> omega

/-- The borrows between the channels. -/
theorem borrow85 {b0 g0 b1 g1 l : Nat} (h1 : b0 < 32) (h2 : g0 < 64) (h4 : b1 < 32) (h5 : g1 < 64) (hl : l < 8) :
    let x := third 85 (sgn (8 * b0)) (sgn (8 * b1 + l))
    let y := third 85 (sgn (4 * g0 + b0 / 8)) (sgn (4 * g1 + b1 / 8))
    (-1 ≤ x / 256 ∧ x / 256 ≤ 0) ∧ (-1 ≤ (y + x / 256) / 256 ∧ (y + x / 256) / 256 ≤ 0) ∧
    ((b0 < 16 ↔ b1 < 16) → x / 256 = -1 → 16 ≤ b0 ∧ 16 ≤ b1) ∧
    ((b0 < 16 ↔ b1 < 16) → (g0 < 32 ↔ g1 < 32) → (y + x / 256) / 256 = -1 → 32 ≤ g0 ∧ 32 ≤ g1) := by
  obtain ⟨t, t1, t2, t3⟩ := third85_cases (8 * b0) (8 * b1 + l) (by omega) (by omega)
  obtain ⟨u, u1, u2, u3⟩ := third85_cases (4 * g0 + b0 / 8) (4 * g1 + b1 / 8) (by omega) (by omega)
  intro x y
  change (_ ∧ _ ∧ x = t) ∨ (_ ∧ _ ∧ x = _) ∨ (_ ∧ _ ∧ x = _) ∨ (_ ∧ _ ∧ x = _) at t3
  change (_ ∧ _ ∧ y = u) ∨ (_ ∧ _ ∧ y = _) ∨ (_ ∧ _ ∧ y = _) ∨ (_ ∧ _ ∧ y = _) at u3
  generalize x = x at *
  generalize y = y at *
  have hx : -128 ≤ x ∧ x ≤ 127 := by rcases t3 with t3 | t3 | t3 | t3 <;> omega
  have hy : -128 ≤ y ∧ y ≤ 127 := by rcases u3 with u3 | u3 | u3 | u3 <;> omega
  refine ⟨by omega, by omega, ?_, ?_⟩
  · intro hs he
    rcases t3 with t3 | t3 | t3 | t3 <;> omega
  · intro hs hg he
    have ht : 0 ≤ t := by omega
    have hu : 0 ≤ u := by omega
    rcases u3 with u3 | u3 | u3 | u3
    · rcases t3 with t3 | t3 | t3 | t3
      · have : 0 ≤ x / 256 := by omega
        omega
      · have : 1 ≤ u := by omega
        omega
      · omega
      · omega
    · omega
    · omega
    · omega

/-! ## The palette -/

theorem leNat_fields (d0 d1 d2 d3 : Byte) : leNat [d0, d1, d2, d3] =
    packEnds (field565 d0 d1 0) (field565 d0 d1 1) (field565 d0 d1 2) (field565 d2 d3 0) (field565 d2 d3 1) (field565 d2 d3 2) := by
  have := d0.isLt; have := d1.isLt; have := d2.isLt; have := d3.isLt
  simp only [leNat, packEnds, field565]
  omega

theorem fields_of (d0 d1 d2 d3 : Byte) :
    Fields (field565 d0 d1 0) (field565 d0 d1 1) (field565 d0 d1 2) (field565 d2 d3 0) (field565 d2 d3 1) (field565 d2 d3 2) := by
  have h := fun j => field565_le d0 d1 j
  have g := fun j => field565_le d2 d3 j
  exact ⟨Nat.lt_succ_of_le (h 0), Nat.lt_succ_of_le (h 1), Nat.lt_succ_of_le (h 2), Nat.lt_succ_of_le (g 0), Nat.lt_succ_of_le (g 1), Nat.lt_succ_of_le (g 2)⟩

theorem three_bytes (m : V4) (i j : Nat) (hj : j < 3) : ((m.three i).getD j 0#8).toNat = (m.lane i).toNat / 256 ^ j % 256 := by
  have : j = 0 ∨ j = 1 ∨ j = 2 := by omega
  rcases this with rfl | rfl | rfl <;> simp [V4.three]

/-- The fields of the two end colours lie in the same half of their range. -/
def SameHalf (M a b : Nat) : Prop := 2 * a ≤ M ↔ 2 * b ≤ M

theorem same31 (a b : Nat) : SameHalf 31 a b ↔ (a < 16 ↔ b < 16) := by unfold SameHalf; omega
theorem same63 (a b : Nat) : SameHalf 63 a b ↔ (a < 32 ↔ b < 32) := by unfold SameHalf; omega

theorem palette_ends (d0 d1 d2 d3 : Byte) (j : Nat) (hj : j < 3) :
    Near 7 ((simdPalette [d0, d1, d2, d3] 0).getD j 0#8).toNat (255 * field565 d0 d1 j) (depth j) ∧
    Near 7 ((simdPalette [d0, d1, d2, d3] 1).getD j 0#8).toNat (255 * field565 d2 d3 j) (depth j) := by
  have f := fields_of d0 d1 d2 d3
  unfold simdPalette
  rw [three_bytes _ _ _ hj, three_bytes _ _ _ hj, leNat_fields]
  obtain ⟨l0, l1, _, _⟩ := finalMix_lanes f
  have e0 := ends0 f.b0 f.g0 f.r0 _ l0
  have hl : field565 d0 d1 2 / 4 < 8 := by have := f.r0; omega
  have e1 := ends1 f.b1 f.g1 f.r1 hl _ l1
  have : j = 0 ∨ j = 1 ∨ j = 2 := by omega
  rcases this with rfl | rfl | rfl
  · rw [Nat.pow_zero, Nat.div_one, Nat.div_one]; exact ⟨e0.1, e1.1⟩
  · exact ⟨e0.2.1, e1.2.1⟩
  · exact ⟨e0.2.2, e1.2.2⟩

theorem palette_thirds (d0 d1 d2 d3 : Byte) (j : Nat) (hj : j < 3) :
    ((∀ i, i ≤ j → SameHalf (depth i) (field565 d0 d1 i) (field565 d2 d3 i)) →
      Near 9 ((simdPalette [d0, d1, d2, d3] 2).getD j 0#8).toNat (255 * (2 * field565 d0 d1 j + 1 * field565 d2 d3 j)) (3 * depth j) ∧
      Near 9 ((simdPalette [d0, d1, d2, d3] 3).getD j 0#8).toNat (255 * (1 * field565 d0 d1 j + 2 * field565 d2 d3 j)) (3 * depth j)) ∧
    (¬ SameHalf (depth j) (field565 d0 d1 j) (field565 d2 d3 j) →
      Far 70 ((simdPalette [d0, d1, d2, d3] 2).getD j 0#8).toNat (255 * (2 * field565 d0 d1 j + 1 * field565 d2 d3 j)) (3 * depth j) ∧
      Far 70 ((simdPalette [d0, d1, d2, d3] 3).getD j 0#8).toNat (255 * (1 * field565 d0 d1 j + 2 * field565 d2 d3 j)) (3 * depth j)) := by
  have f := fields_of d0 d1 d2 d3
  unfold simdPalette
  rw [three_bytes _ _ _ hj, three_bytes _ _ _ hj, leNat_fields]
  obtain ⟨_, _, l2, l3⟩ := finalMix_lanes f
  change ((V4.lane _ 2).toNat : Int) = _ at l2
  change ((V4.lane _ 3).toNat : Int) = _ at l3
  have hl : field565 d0 d1 2 / 4 < 8 := by have := f.r0; omega
  obtain ⟨p0, p1, p2⟩ := bytes_of _ _ _ _ l2
  obtain ⟨q0, q1, q2⟩ := bytes_of _ _ _ _ l3
  obtain ⟨bx, bxy, bb, bg⟩ := borrow170 f.b0 f.g0 f.b1 f.g1 hl
  obtain ⟨cx, cxy, cb, cg⟩ := borrow85 f.b0 f.g0 f.b1 f.g1 hl
  have B0 := blue170 f.b0 f.b1 hl _ p0
  have B1 := blue85 f.b0 f.b1 hl _ q0
  have G0 := green170 f.b0 f.b1 f.g0 f.g1 _ bx _ p1
  have G1 := green85 f.b0 f.b1 f.g0 f.g1 _ cx _ q1
  have R0 := red170 f.g0 f.g1 f.r0 f.r1 _ bxy _ p2
  have R1 := red85 f.g0 f.g1 f.r0 f.r1 _ cxy _ q2
  have s0 : SameHalf (depth 0) (field565 d0 d1 0) (field565 d2 d3 0) ↔ (field565 d0 d1 0 < 16 ↔ field565 d2 d3 0 < 16) := same31 _ _
  have s1 : SameHalf (depth 1) (field565 d0 d1 1) (field565 d2 d3 1) ↔ (field565 d0 d1 1 < 32 ↔ field565 d2 d3 1 < 32) := same63 _ _
  have s2 : SameHalf (depth 2) (field565 d0 d1 2) (field565 d2 d3 2) ↔ (field565 d0 d1 2 < 16 ↔ field565 d2 d3 2 < 16) := same31 _ _
  clear l2 l3 p0 p1 p2 q0 q1 q2
  have : j = 0 ∨ j = 1 ∨ j = 2 := by omega
  rcases this with rfl | rfl | rfl
  · rw [Nat.pow_zero, Nat.div_one, Nat.div_one]
    refine ⟨fun h => ?_, fun h => ?_⟩
    · have h0 := s0.1 (h 0 (by omega))
      exact ⟨B0.1 h0, B1.1 h0⟩
    · rw [s0] at h
      exact ⟨B0.2 h, B1.2 h⟩
  · refine ⟨fun h => ?_, fun h => ?_⟩
    · have h0 := s0.1 (h 0 (by omega))
      have h1 := s1.1 (h 1 (by omega))
      exact ⟨G0.1 h1 (bb h0), G1.1 h1 (cb h0)⟩
    · rw [s1] at h
      exact ⟨G0.2 h, G1.2 h⟩
  · refine ⟨fun h => ?_, fun h => ?_⟩
    · have h0 := s0.1 (h 0 (by omega))
      have h1 := s1.1 (h 1 (by omega))
      have h2 := s2.1 (h 2 (by omega))
      exact ⟨R0.1 h2 (bg h0 h1), R1.1 h2 (cg h0 h1)⟩
    · rw [s2] at h
      exact ⟨R0.2 h, R1.2 h⟩

/-! ## C129 -/

/-- The byte the SSE decoder leaves in channel `j` (blue, green, red) of texel `k` of a block. -/
def simdTexel (data : Nat → Byte) (o : Nat) (w h width : BitVec 32) (buf : Buf) (k j : Nat) : Nat :=
  (decodeBC1Simd data o w h width 3#32 buf (o + texelAddr w.toNat h.toNat width.toNat 3 k + j)).toNat

theorem simd_texel (data : Nat → Byte) (o : Nat) (w h width : BitVec 32) (H : Nat) (hi : Inside w h width H 3) (buf : Buf) (k : Nat) (hk : k < 16) (j : Nat)
    (hj : j < 3) (i : Nat) (hx : fieldAt data (32 + 2 * k) 2 = i) :
    simdTexel data o w h width buf k j = ((simdPalette [data 0, data 1, data 2, data 3] i).getD j 0#8).toNat := by
  unfold simdTexel
  rw [simd_eq data o w h width H hi buf, (bc1_decodes simdPalette simdPalette_is data o w h width H hi buf).1 k hk j hj]
  unfold colourTexel
  rw [Nat.zero_add, show 8 * (4 : Nat) = 32 from rfl, hx]

/-- C129: with three byte pixels every texel that selects an end colour gets it, each channel within 7 of the exact 8 bit
value, and nothing but the sixteen texels is written. -/
theorem simd_ends (data : Nat → Byte) (o : Nat) (w h width : BitVec 32) (H : Nat) (hi : Inside w h width H 3) (buf : Buf) :
    (∀ k, k < 16 → ∀ j, j < 3 →
      (fieldAt data (32 + 2 * k) 2 = 0 → Near 7 (simdTexel data o w h width buf k j) (255 * field565 (data 0) (data 1) j) (depth j)) ∧
      (fieldAt data (32 + 2 * k) 2 = 1 → Near 7 (simdTexel data o w h width buf k j) (255 * field565 (data 2) (data 3) j) (depth j))) ∧
    (∀ a, (∀ k, k < 16 → ∀ j, j < 3 → a ≠ o + texelAddr w.toNat h.toNat width.toNat 3 k + j) → decodeBC1Simd data o w h width 3#32 buf a = buf a) := by
  refine ⟨fun k hk j hj => ⟨fun hx => ?_, fun hx => ?_⟩, fun a ha => ?_⟩
  · rw [simd_texel data o w h width H hi buf k hk j hj _ hx]
    exact (palette_ends _ _ _ _ j hj).1
  · rw [simd_texel data o w h width H hi buf k hk j hj _ hx]
    exact (palette_ends _ _ _ _ j hj).2
  · rw [simd_eq data o w h width H hi buf]
    exact (bc1_decodes simdPalette simdPalette_is data o w h width H hi buf).2 a ha

/-- C129, part: a texel that selects an interpolated colour gets it, each channel within 9 of the exact value, as long as the
two end colours lie in the same half of that channel and of the channels before it. Missing: all other end colours, see
`simd_thirds_violated`. -/
theorem simd_thirds_partial (data : Nat → Byte) (o : Nat) (w h width : BitVec 32) (H : Nat) (hi : Inside w h width H 3) (buf : Buf) (k : Nat) (hk : k < 16)
    (j : Nat) (hj : j < 3) (hs : ∀ i, i ≤ j → SameHalf (depth i) (field565 (data 0) (data 1) i) (field565 (data 2) (data 3) i)) :
    (fieldAt data (32 + 2 * k) 2 = 2 →
      Near 9 (simdTexel data o w h width buf k j) (255 * (2 * field565 (data 0) (data 1) j + 1 * field565 (data 2) (data 3) j)) (3 * depth j)) ∧
    (fieldAt data (32 + 2 * k) 2 = 3 →
      Near 9 (simdTexel data o w h width buf k j) (255 * (1 * field565 (data 0) (data 1) j + 2 * field565 (data 2) (data 3) j)) (3 * depth j)) := by
  refine ⟨fun hx => ?_, fun hx => ?_⟩
  · rw [simd_texel data o w h width H hi buf k hk j hj _ hx]
    exact ((palette_thirds _ _ _ _ j hj).1 hs).1
  · rw [simd_texel data o w h width H hi buf k hk j hj _ hx]
    exact ((palette_thirds _ _ _ _ j hj).1 hs).2

/-- C129: whenever the end colours lie in different halves of a channel, every texel that selects an interpolated colour is
off by more than 70 of 255 in that channel: the lanes are signed. -/
theorem simd_thirds_violated (data : Nat → Byte) (o : Nat) (w h width : BitVec 32) (H : Nat) (hi : Inside w h width H 3) (buf : Buf) (k : Nat) (hk : k < 16)
    (j : Nat) (hj : j < 3) (hs : ¬ SameHalf (depth j) (field565 (data 0) (data 1) j) (field565 (data 2) (data 3) j)) :
    (fieldAt data (32 + 2 * k) 2 = 2 →
      Far 70 (simdTexel data o w h width buf k j) (255 * (2 * field565 (data 0) (data 1) j + 1 * field565 (data 2) (data 3) j)) (3 * depth j)) ∧
    (fieldAt data (32 + 2 * k) 2 = 3 →
      Far 70 (simdTexel data o w h width buf k j) (255 * (1 * field565 (data 0) (data 1) j + 2 * field565 (data 2) (data 3) j)) (3 * depth j)) := by
  refine ⟨fun hx => ?_, fun hx => ?_⟩
  · rw [simd_texel data o w h width H hi buf k hk j hj _ hx]
    exact ((palette_thirds _ _ _ _ j hj).2 hs).1
  · rw [simd_texel data o w h width H hi buf k hk j hj _ hx]
    exact ((palette_thirds _ _ _ _ j hj).2 hs).2

/-- A block: black and white ends, texel `k` of every row selects colour `k`. -/
def sampleBlock (i : Nat) : Byte := [0#8, 0#8, 0xff#8, 0xff#8, 0xe4#8, 0xe4#8, 0xe4#8, 0xe4#8].getD i 0#8

example : Inside 1#32 2#32 3#32 4 3 := ⟨by decide, by decide, by decide⟩
example : fieldAt sampleBlock (32 + 2 * 2) 2 = 2 ∧ fieldAt sampleBlock (32 + 2 * 1) 2 = 1 ∧
    ¬ SameHalf (depth 0) (field565 (sampleBlock 0) (sampleBlock 1) 0) (field565 (sampleBlock 2) (sampleBlock 3) 0) := by
  unfold SameHalf; decide +kernel
example : ∀ i, i ≤ 2 → SameHalf (depth i) (field565 0x34#8 0x12#8 i) (field565 0x36#8 0x32#8 i) := by
  unfold SameHalf; decide +kernel

/-- C129: with four byte pixels the twelve bytes of a row are still stored without gaps, so the last texel of every row of the
block is never written. -/
theorem simd_pixels_violated (data : Nat → Byte) (o : Nat) (w h width : BitVec 32) (H : Nat) (hi : Inside w h width H 4) (buf : Buf) (r : Nat) (hr : r < 4)
    (j : Nat) (hj : j < 4) :
    decodeBC1Simd data o w h width 4#32 buf (o + texelAddr w.toNat h.toNat width.toNat 4 (4 * r + 3) + j) =
      buf (o + texelAddr w.toNat h.toNat width.toNat 4 (4 * r + 3) + j) := by
  unfold decodeBC1Simd perform
  rw [← List.foldl_map (f := fun p : Nat × Nat × List Byte => (o + (pixelOffset w h width 4#32 p.1 p.2.1).toNat, p.2.2))
    (g := fun (b : Buf) (p : Nat × List Byte) => store b p.1 p.2), List.map_map]
  apply fold_out
  intro p hp
  obtain ⟨q, hq, rfl⟩ := List.mem_map.mp hp
  have hq := List.mem_range.mp hq
  have hlen : ∀ m d, (rowBytes m d).length = 12 := by intro m d; rw [rowBytes_eq]; rfl
  have off := (pixelOffset_toNat w h width 4#32 H hi.col hi.row hi.fits (by decide) (4 * q + 0) (by omega)).1
  rw [show (4 * q + 0) / 4 = q by omega, show (4 * q + 0) % 4 = 0 by omega] at off
  simp only [Function.comp, hlen, off]
  have a1 := texelAddr_apart w.toNat h.toNat width.toNat 4 (4 * q + 2) (4 * r + 3) hi.col ⟨by omega, by omega, by omega⟩
  have ad : texelAddr w.toNat h.toNat width.toNat 4 (4 * q + 2) = texelAddr w.toNat h.toNat width.toNat 4 (4 * q + 0) + 8 := by
    unfold texelAddr
    rw [show (4 * q + 2) / 4 = q by omega, show (4 * q + 2) % 4 = 2 by omega, show (4 * q + 0) / 4 = q by omega, show (4 * q + 0) % 4 = 0 by omega]
    omega
  have a0 := texelAddr_apart w.toNat h.toNat width.toNat 4 (4 * q + 0) (4 * r + 3) hi.col ⟨by omega, by omega, by omega⟩
  have a2 := texelAddr_apart w.toNat h.toNat width.toNat 4 (4 * q + 1) (4 * r + 3) hi.col ⟨by omega, by omega, by omega⟩
  have ad1 : texelAddr w.toNat h.toNat width.toNat 4 (4 * q + 1) = texelAddr w.toNat h.toNat width.toNat 4 (4 * q + 0) + 4 := by
    unfold texelAddr
    rw [show (4 * q + 1) / 4 = q by omega, show (4 * q + 1) % 4 = 1 by omega, show (4 * q + 0) / 4 = q by omega, show (4 * q + 0) % 4 = 0 by omega]
    omega
  rw [show (4#32).toNat = 4 from rfl]
  omega

example : Inside 1#32 2#32 3#32 4 4 := ⟨by decide, by decide, by decide⟩

end PreCore.Block
