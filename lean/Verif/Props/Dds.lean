import Verif.Model.Dds
/-!
# C36, C37, C54: DDS mip layout, legacy format conversion, channel masks

Specification of a mip chain: level `m` of a `w` x `h` texture has `w / 2^m` x `h / 2^m` texels.
-/
namespace PreCore.Dds

/-- Bytes of `n` texels. -/
def texelBytes (bpp n : Nat) : Nat := (n * bpp + 7) / 8

/-- The size the code gives level `m`: small levels of block compressed textures count as one 4 x 4 block. -/
def levelBytes (block : Bool) (bpp w h m : Nat) : Nat :=
  if block ∧ (w / 2 ^ m) * (h / 2 ^ m) < 16 then texelBytes bpp 16 else texelBytes bpp ((w / 2 ^ m) * (h / 2 ^ m))

/-- Bytes of the levels before level `m`. -/
def bytesBefore (block : Bool) (bpp w h : Nat) (m : Nat) : Nat :=
  ((List.range m).map (levelBytes block bpp w h)).sum

theorem mipSize_toNat (block : Bool) (bpp w h : BitVec 32) (h1 : w.toNat * h.toNat * bpp.toNat + 7 < 2 ^ 32)
    (h2 : 16 * bpp.toNat + 7 < 2 ^ 32) (hb : bpp ≠ 0#32) :
    (mipSize block bpp w h).toNat = levelBytes block bpp.toNat w.toNat h.toNat 0 := by
  have hbp : 0 < bpp.toNat := by
    rcases Nat.eq_zero_or_pos bpp.toNat with h | h
    · exact absurd (BitVec.eq_of_toNat_eq (by simpa using h)) hb
    · exact h
  have hwh : w.toNat * h.toNat < 2 ^ 32 := by
    have : w.toNat * h.toNat * 1 ≤ w.toNat * h.toNat * bpp.toNat := Nat.mul_le_mul_left _ hbp
    omega
  have hprod : (w * h).toNat = w.toNat * h.toNat := by rw [BitVec.toNat_mul, Nat.mod_eq_of_lt hwh]
  have hlt : (w * h < 16#32) = (w.toNat * h.toNat < 16) := by
    rw [BitVec.lt_def, hprod]; rfl
  have fin : ∀ a b : BitVec 32, a.toNat * b.toNat * bpp.toNat + 7 < 2 ^ 32 → ((a * b * bpp + 7#32) / 8#32).toNat = texelBytes bpp.toNat (a.toNat * b.toNat) := by
    intro a b hab
    have hx : a.toNat * b.toNat < 2 ^ 32 := by
      have : a.toNat * b.toNat * 1 ≤ a.toNat * b.toNat * bpp.toNat := Nat.mul_le_mul_left _ hbp
      omega
    rw [BitVec.toNat_udiv, BitVec.toNat_add, BitVec.toNat_mul, BitVec.toNat_mul, Nat.mod_eq_of_lt hx,
      Nat.mod_eq_of_lt (a := a.toNat * b.toNat * bpp.toNat) (by omega)]
    simp only [BitVec.toNat_ofNat]
    unfold texelBytes
    rw [Nat.mod_eq_of_lt (a := a.toNat * b.toNat * bpp.toNat + 7 % 2 ^ 32) (by omega)]
  unfold mipSize levelBytes
  simp only [hlt, Nat.pow_zero, Nat.div_one]
  by_cases hc : block = true ∧ w.toNat * h.toNat < 16
  · rw [if_pos hc, if_pos hc]
    exact fin 4#32 4#32 (by simpa using h2)
  · rw [if_neg hc, if_neg hc]
    exact fin w h h1

theorem levelBytes_succ (block : Bool) (bpp w h m : Nat) : levelBytes block bpp w h (m + 1) = levelBytes block bpp (w / 2) (h / 2) m := by
  unfold levelBytes
  rw [show 2 ^ (m + 1) = 2 * 2 ^ m by rw [Nat.pow_succ, Nat.mul_comm], ← Nat.div_div_eq_div_mul, ← Nat.div_div_eq_div_mul]

theorem bytesBefore_succ (block : Bool) (bpp w h m : Nat) :
    bytesBefore block bpp w h (m + 1) = levelBytes block bpp w h 0 + bytesBefore block bpp (w / 2) (h / 2) m := by
  unfold bytesBefore
  rw [List.range_succ_eq_map, List.map_cons, List.sum_cons, List.map_map]
  have : (levelBytes block bpp w h ∘ Nat.succ) = levelBytes block bpp (w / 2) (h / 2) := by
    funext k
    exact levelBytes_succ block bpp w h k
  rw [this]

theorem mipLoop_spec (block : Bool) (bpp : BitVec 32) (hb : bpp ≠ 0#32) (h2 : 16 * bpp.toNat + 7 < 2 ^ 32) :
    ∀ (n : Nat) (w h full : BitVec 32), w.toNat * h.toNat * bpp.toNat + 7 < 2 ^ 32 →
      full.toNat + bytesBefore block bpp.toNat w.toNat h.toNat n < 2 ^ 32 →
      (mipLoop block bpp n w h full).1.map (fun p => (p.1.toNat, p.2.toNat)) =
        (List.range n).map (fun m => (levelBytes block bpp.toNat w.toNat h.toNat m, full.toNat + bytesBefore block bpp.toNat w.toNat h.toNat m)) ∧
      (mipLoop block bpp n w h full).2.toNat = full.toNat + bytesBefore block bpp.toNat w.toNat h.toNat n := by
  intro n
  induction n with
  | zero => intro w h full _ _; simp [mipLoop, bytesBefore]
  | succ n ih =>
    intro w h full hwh hs
    have hsz := mipSize_toNat block bpp w h hwh h2 hb
    rw [bytesBefore_succ] at hs
    have hfull : (full + mipSize block bpp w h).toNat = full.toNat + levelBytes block bpp.toNat w.toNat h.toNat 0 := by
      rw [BitVec.toNat_add, hsz, Nat.mod_eq_of_lt (by omega)]
    have hw2 : (w / 2#32).toNat = w.toNat / 2 := by rw [BitVec.toNat_udiv]; rfl
    have hh2 : (h / 2#32).toNat = h.toNat / 2 := by rw [BitVec.toNat_udiv]; rfl
    have hle : w.toNat / 2 * (h.toNat / 2) * bpp.toNat ≤ w.toNat * h.toNat * bpp.toNat :=
      Nat.mul_le_mul_right _ (Nat.mul_le_mul (Nat.div_le_self _ _) (Nat.div_le_self _ _))
    obtain ⟨i1, i2⟩ := ih (w / 2#32) (h / 2#32) (full + mipSize block bpp w h) (by rw [hw2, hh2]; omega)
      (by rw [hfull, hw2, hh2]; omega)
    rw [hfull, hw2, hh2] at i1 i2
    constructor
    · simp only [mipLoop, List.map_cons, i1, hsz, List.range_succ_eq_map, List.map_map]
      congr 1
      apply List.map_congr_left
      intro m _
      simp only [Function.comp, levelBytes_succ, bytesBefore_succ, Nat.succ_eq_add_one]
      rw [Nat.add_assoc]
    · simp only [mipLoop, i2, bytesBefore_succ]
      omega

/-- C36: sizes and offsets of all levels. As long as the texture fits into 4 GiB (counted in bits for one level), level `m`
starts where the levels before it end, and the total is the sum of all levels. -/
theorem mips_tile (d : Header) (hb : d.pf.bpp ≠ 0#32) (hn : d.mipMapCount.toNat ≤ 15)
    (h1 : d.width.toNat * d.height.toNat * d.pf.bpp.toNat + 7 < 2 ^ 32) (h2 : 16 * d.pf.bpp.toNat + 7 < 2 ^ 32)
    (h3 : bytesBefore (useBlockCompression d) d.pf.bpp.toNat d.width.toNat d.height.toNat (max 1 d.mipMapCount.toNat) < 2 ^ 32) :
    ∃ mips total, computeBufferSize d = some (mips, total) ∧ mips.length = max 1 d.mipMapCount.toNat ∧
      (∀ m (hm : m < mips.length), mips[m].1.toNat = levelBytes (useBlockCompression d) d.pf.bpp.toNat d.width.toNat d.height.toNat m ∧
        mips[m].2.toNat = bytesBefore (useBlockCompression d) d.pf.bpp.toNat d.width.toNat d.height.toNat m) ∧
      total.toNat = bytesBefore (useBlockCompression d) d.pf.bpp.toNat d.width.toNat d.height.toNat mips.length := by
  have hcount : (if d.mipMapCount ≠ 0#32 then d.mipMapCount else 1#32).toNat = max 1 d.mipMapCount.toNat := by
    by_cases hz : d.mipMapCount = 0#32
    · simp [hz]
    · rw [if_pos hz]
      have : d.mipMapCount.toNat ≠ 0 := fun h => hz (BitVec.eq_of_toNat_eq (by simpa using h))
      omega
  unfold computeBufferSize
  simp only [if_neg hb, hcount]
  rw [if_pos (by omega)]
  obtain ⟨i1, i2⟩ := mipLoop_spec (useBlockCompression d) d.pf.bpp hb h2 (max 1 d.mipMapCount.toNat) d.width d.height 0#32 h1
    (by simpa using h3)
  have hlen : (mipLoop (useBlockCompression d) d.pf.bpp (max 1 d.mipMapCount.toNat) d.width d.height 0#32).1.length = max 1 d.mipMapCount.toNat := by
    have := congrArg List.length i1
    simpa using this
  refine ⟨_, _, rfl, hlen, ?_, ?_⟩
  · intro m hm
    have := congrArg (fun l => l[m]?) i1
    simp only [List.getElem?_map, List.getElem?_eq_getElem hm] at this
    rw [List.getElem?_eq_getElem (by simpa [hlen] using hm)] at this
    simp only [Option.map_some, Option.some.injEq, Prod.mk.injEq, List.getElem_range] at this
    constructor
    · exact this.1
    · rw [this.2]; simp
  · rw [hlen, i2]; simp

/-- Consecutive offsets, stated without the sums: no gap and no overlap. -/
theorem bytesBefore_next (block : Bool) (bpp w h m : Nat) :
    bytesBefore block bpp w h 0 = 0 ∧ bytesBefore block bpp w h (m + 1) = bytesBefore block bpp w h m + levelBytes block bpp w h m := by
  unfold bytesBefore
  rw [List.range_succ]
  simp

/-- What a level of a block compressed texture really needs: whole 4 x 4 blocks of `2 * bpp` bytes, at least one texel. -/
def blockBytes (bpp w h m : Nat) : Nat :=
  ((max 1 (w / 2 ^ m) + 3) / 4) * ((max 1 (h / 2 ^ m) + 3) / 4) * (2 * bpp)

/-- C36: levels whose sides are both multiples of four, or that fit into one block, have the right size. -/
theorem block_level_partial (bpp w h m : Nat)
    (hfit : (4 ∣ w / 2 ^ m ∧ 4 ∣ h / 2 ^ m ∧ 0 < w / 2 ^ m ∧ 0 < h / 2 ^ m) ∨
      (w / 2 ^ m ≤ 4 ∧ h / 2 ^ m ≤ 4)) :
    levelBytes true bpp w h m = blockBytes bpp w h m := by
  unfold levelBytes blockBytes texelBytes
  generalize w / 2 ^ m = x at *
  generalize h / 2 ^ m = y at *
  have small : x ≤ 4 → y ≤ 4 → (if true = true ∧ x * y < 16 then (16 * bpp + 7) / 8 else (x * y * bpp + 7) / 8) =
      (max 1 x + 3) / 4 * ((max 1 y + 3) / 4) * (2 * bpp) := by
    intro hx hy
    have e1 : (max 1 x + 3) / 4 = 1 := by omega
    have e2 : (max 1 y + 3) / 4 = 1 := by omega
    rw [e1, e2]
    by_cases hlt : x * y < 16
    · rw [if_pos ⟨rfl, hlt⟩]; omega
    · rw [if_neg (by simpa using hlt)]
      have : x * y ≤ 4 * 4 := Nat.mul_le_mul hx hy
      rw [show x * y = 16 by omega]; omega
  rcases hfit with ⟨⟨a, rfl⟩, ⟨b, rfl⟩, hx, hy⟩ | ⟨hx, hy⟩
  · have ha : 1 ≤ a := by omega
    have hb : 1 ≤ b := by omega
    have hab : 1 ≤ a * b := Nat.mul_pos ha hb
    have e : 4 * a * (4 * b) = 16 * (a * b) := by
      rw [Nat.mul_assoc, Nat.mul_left_comm a, ← Nat.mul_assoc]
    have e1 : (max 1 (4 * a) + 3) / 4 = a := by omega
    have e2 : (max 1 (4 * b) + 3) / 4 = b := by omega
    rw [e1, e2, e, if_neg (by omega)]
    have e3 : 16 * (a * b) * bpp = 8 * (a * b * (2 * bpp)) := by
      rw [Nat.mul_left_comm (a * b) 2 bpp, ← Nat.mul_assoc 8 2, Nat.mul_assoc]
    rw [e3]; omega
  · exact small hx hy

/-- C36: every level of a square power of two texture, to any depth of the chain. -/
theorem block_square_pow2 (bpp k m : Nat) : levelBytes true bpp (2 ^ k) (2 ^ k) m = blockBytes bpp (2 ^ k) (2 ^ k) m := by
  apply block_level_partial
  by_cases h : m + 2 ≤ k
  · left
    have e : 2 ^ k / 2 ^ m = 4 * 2 ^ (k - m - 2) := by
      rw [Nat.pow_div (by omega) (by decide), show k - m = k - m - 2 + 2 by omega, Nat.pow_add, Nat.mul_comm]
      rfl
    rw [e]
    have : 0 < 2 ^ (k - m - 2) := Nat.two_pow_pos _
    exact ⟨⟨_, rfl⟩, ⟨_, rfl⟩, by omega, by omega⟩
  · right
    have hle : 2 ^ k / 2 ^ m ≤ 2 := by
      apply Nat.div_le_of_le_mul
      rw [← Nat.pow_succ]
      exact Nat.pow_le_pow_right (by decide) (by omega)
    omega

/-- A legacy header for the examples. -/
def sample (pf : PixelFormat) (w h mips : BitVec 32) : Header := ⟨0x1007#32, h, w, mips, pf, 0x1000#32, 0#32, 0#32⟩

/-- 256 x 128 DXT5 with 8 levels meets the hypotheses of `mips_tile`; offsets and total. -/
example : useBlockCompression (sample fmtDXT5 256 128 8) = true ∧
    bytesBefore true 8 256 128 8 < 2 ^ 32 ∧ (computeBufferSize (sample fmtDXT5 256 128 8)).map (fun p => (p.1.map (·.2.toNat), p.2.toNat)) =
      some ([0, 32768, 40960, 43008, 43520, 43648, 43680, 43696], 43712) := by decide +kernel

/-- Whole number of blocks fails: level 1 of a 20 x 20 DXT1 texture gets 50 bytes; it needs 9 blocks, 72 bytes. -/
theorem block_level_violated : ∃ d : Header, (computeBufferSize d).map (fun p => p.1.map (·.1.toNat)) = some [200, 50] ∧
    useBlockCompression d = true ∧ blockBytes 4 20 20 1 = 72 ∧ ¬ 8 ∣ 50 :=
  ⟨sample fmtDXT1 20 20 2, by decide +kernel⟩

/-- A 64 x 2 DXT1 texture: 64 bytes, which is 8 blocks; 16 blocks are needed. -/
theorem block_flat_violated : levelBytes true 4 64 2 0 = 64 ∧ blockBytes 4 64 2 0 = 128 := by decide

/-- The levels of a 4 x 1 RGBA texture after the first one have no bytes although they have texels. -/
theorem empty_level_violated : (computeBufferSize (sample fmtA8R8G8B8 4 1 3)).map (fun p => p.1.map (·.1.toNat)) = some [16, 0, 0] := by
  decide +kernel

/-- The sizes are computed in 32 bit bits: a 16384 x 16384 texture of 16 bits per pixel has size 0. -/
theorem large_level_violated : (computeBufferSize (sample fmtA1R5G5B5 16384 16384 1)).map (fun p => (p.1.map (·.1.toNat), p.2.toNat)) = some ([0], 0) := by
  decide +kernel

/-- More than fifteen mips write outside of the arrays. -/
theorem many_mips_violated : computeBufferSize (sample fmtA8R8G8B8 65536 1 16) = none := by decide +kernel

/-- Typeless block formats are block compressed (`IsBC`) but are laid out as if they were not. -/
theorem typeless_violated : isBC 70#32 = true ∧ ∀ d : Header, d.dxgiFormat = 70#32 → useBlockCompression d = false := by
  refine ⟨by decide +kernel, ?_⟩
  intro d h
  unfold useBlockCompression
  rw [h, if_pos (by decide)]
  decide +kernel

/-! ## C37: conversion tables -/

/-- The formats that have a lossless legacy form. -/
def Representable (f : BitVec 32) : Prop :=
  f ∈ [R16G16B16A16_UNORM, R16G16B16A16_SNORM, R16G16B16A16_FLOAT, R10G10B10A2_UNORM, R8G8B8A8_UNORM, R16G16_UNORM, R16_FLOAT,
    R16G16_FLOAT, R32_FLOAT, R32G32_FLOAT, R32G32B32A32_FLOAT, A8_UNORM, R8G8_B8G8_UNORM, G8R8_G8B8_UNORM, BC1_UNORM, BC2_UNORM,
    BC3_UNORM, BC4_UNORM, BC4_SNORM, BC5_UNORM, BC5_SNORM, B5G6R5_UNORM, B5G5R5A1_UNORM, YUY2]

/-- The additional formats with `forceIncompatibilities`, with the format they become. -/
def degraded : List (BitVec 32 × BitVec 32) :=
  [(R8G8B8A8_UNORM_SRGB, R8G8B8A8_UNORM), (R8G8_UNORM, R8G8_UNORM), (D16_UNORM, R16_UNORM), (R16_UNORM, R16_UNORM), (R8_UNORM, R8_UNORM),
    (BC1_UNORM_SRGB, BC1_UNORM), (BC2_UNORM_SRGB, BC2_UNORM), (BC3_UNORM_SRGB, BC3_UNORM), (B8G8R8A8_UNORM, B8G8R8A8_UNORM),
    (B8G8R8A8_UNORM_SRGB, B8G8R8A8_UNORM), (B8G8R8X8_UNORM, B8G8R8X8_UNORM), (B8G8R8X8_UNORM_SRGB, B8G8R8X8_UNORM),
    (B4G4R4A4_UNORM, B4G4R4A4_UNORM)]

/-- What `FromLegacy` makes of a pixel format: format and alpha mode for a header whose alpha mode is `m`. -/
def decoded (p : PixelFormat) (m : BitVec 32) : Option (BitVec 32 × BitVec 32) :=
  match fromFourCC p.fourCC with
  | some (f, none) => some (f, m)
  | some (f, some m') => some (f, m')
  | none => (fromMasks p).map (fun f => (f, m))

theorem fromLegacy_decoded (d : Header) : fromLegacy d =
    match decoded d.pf d.alphaMode with
    | some (f, m) => ({ d with dxgiFormat := f, alphaMode := m, pf := fmtDX10 }, 0)
    | none => (d, 1) := by
  unfold fromLegacy decoded
  rcases fromFourCC d.pf.fourCC with _ | ⟨f, _ | m⟩
  · cases fromMasks d.pf <;> rfl
  · rfl
  · rfl

theorem legacyOf_some (f m : BitVec 32) (p : PixelFormat) (h : legacyOf f m = some p) : decoded p m = some (f, m) ∧ Representable f := by
  unfold legacyOf at h
  by_cases c : f = R16G16B16A16_UNORM
  · rw [if_pos c] at h; injection h with h; subst h c; exact ⟨rfl, by unfold Representable; decide⟩
  rw [if_neg c] at h; clear c
  by_cases c : f = R16G16B16A16_SNORM
  · rw [if_pos c] at h; injection h with h; subst h c; exact ⟨rfl, by unfold Representable; decide⟩
  rw [if_neg c] at h; clear c
  by_cases c : f = R16G16B16A16_FLOAT
  · rw [if_pos c] at h; injection h with h; subst h c; exact ⟨rfl, by unfold Representable; decide⟩
  rw [if_neg c] at h; clear c
  by_cases c : f = R10G10B10A2_UNORM
  · rw [if_pos c] at h; injection h with h; subst h c; exact ⟨rfl, by unfold Representable; decide⟩
  rw [if_neg c] at h; clear c
  by_cases c : f = R8G8B8A8_UNORM
  · rw [if_pos c] at h; injection h with h; subst h c; exact ⟨rfl, by unfold Representable; decide⟩
  rw [if_neg c] at h; clear c
  by_cases c : f = R16G16_UNORM
  · rw [if_pos c] at h; injection h with h; subst h c; exact ⟨rfl, by unfold Representable; decide⟩
  rw [if_neg c] at h; clear c
  by_cases c : f = R16_FLOAT
  · rw [if_pos c] at h; injection h with h; subst h c; exact ⟨rfl, by unfold Representable; decide⟩
  rw [if_neg c] at h; clear c
  by_cases c : f = R16G16_FLOAT
  · rw [if_pos c] at h; injection h with h; subst h c; exact ⟨rfl, by unfold Representable; decide⟩
  rw [if_neg c] at h; clear c
  by_cases c : f = R32_FLOAT
  · rw [if_pos c] at h; injection h with h; subst h c; exact ⟨rfl, by unfold Representable; decide⟩
  rw [if_neg c] at h; clear c
  by_cases c : f = R32G32_FLOAT
  · rw [if_pos c] at h; injection h with h; subst h c; exact ⟨rfl, by unfold Representable; decide⟩
  rw [if_neg c] at h; clear c
  by_cases c : f = R32G32B32A32_FLOAT
  · rw [if_pos c] at h; injection h with h; subst h c; exact ⟨rfl, by unfold Representable; decide⟩
  rw [if_neg c] at h; clear c
  by_cases c : f = A8_UNORM
  · rw [if_pos c] at h; injection h with h; subst h c; exact ⟨rfl, by unfold Representable; decide⟩
  rw [if_neg c] at h; clear c
  by_cases c : f = R8G8_B8G8_UNORM
  · rw [if_pos c] at h; injection h with h; subst h c; exact ⟨rfl, by unfold Representable; decide⟩
  rw [if_neg c] at h; clear c
  by_cases c : f = G8R8_G8B8_UNORM
  · rw [if_pos c] at h; injection h with h; subst h c; exact ⟨rfl, by unfold Representable; decide⟩
  rw [if_neg c] at h; clear c
  by_cases c : f = BC1_UNORM
  · rw [if_pos c] at h; injection h with h; subst h c; exact ⟨rfl, by unfold Representable; decide⟩
  rw [if_neg c] at h; clear c
  by_cases c : f = BC2_UNORM
  · rw [if_pos c] at h
    injection h with h
    subst h c
    refine ⟨?_, by unfold Representable; decide⟩
    by_cases hm : m = premultiplied
    · rw [if_pos hm, hm]; rfl
    · rw [if_neg hm]; rfl
  rw [if_neg c] at h; clear c
  by_cases c : f = BC3_UNORM
  · rw [if_pos c] at h
    injection h with h
    subst h c
    refine ⟨?_, by unfold Representable; decide⟩
    by_cases hm : m = premultiplied
    · rw [if_pos hm, hm]; rfl
    · rw [if_neg hm]; rfl
  rw [if_neg c] at h; clear c
  by_cases c : f = BC4_UNORM
  · rw [if_pos c] at h; injection h with h; subst h c; exact ⟨rfl, by unfold Representable; decide⟩
  rw [if_neg c] at h; clear c
  by_cases c : f = BC4_SNORM
  · rw [if_pos c] at h; injection h with h; subst h c; exact ⟨rfl, by unfold Representable; decide⟩
  rw [if_neg c] at h; clear c
  by_cases c : f = BC5_UNORM
  · rw [if_pos c] at h; injection h with h; subst h c; exact ⟨rfl, by unfold Representable; decide⟩
  rw [if_neg c] at h; clear c
  by_cases c : f = BC5_SNORM
  · rw [if_pos c] at h; injection h with h; subst h c; exact ⟨rfl, by unfold Representable; decide⟩
  rw [if_neg c] at h; clear c
  by_cases c : f = B5G6R5_UNORM
  · rw [if_pos c] at h; injection h with h; subst h c; exact ⟨rfl, by unfold Representable; decide⟩
  rw [if_neg c] at h; clear c
  by_cases c : f = B5G5R5A1_UNORM
  · rw [if_pos c] at h; injection h with h; subst h c; exact ⟨rfl, by unfold Representable; decide⟩
  rw [if_neg c] at h; clear c
  by_cases c : f = YUY2
  · rw [if_pos c] at h; injection h with h; subst h c; exact ⟨rfl, by unfold Representable; decide⟩
  rw [if_neg c] at h; clear c
  cases h

theorem legacyOf_none (f m : BitVec 32) (h : legacyOf f m = none) : ¬ Representable f := by
  unfold legacyOf at h
  by_cases c0 : f = R16G16B16A16_UNORM
  · rw [if_pos c0] at h; cases h
  rw [if_neg c0] at h
  by_cases c1 : f = R16G16B16A16_SNORM
  · rw [if_pos c1] at h; cases h
  rw [if_neg c1] at h
  by_cases c2 : f = R16G16B16A16_FLOAT
  · rw [if_pos c2] at h; cases h
  rw [if_neg c2] at h
  by_cases c3 : f = R10G10B10A2_UNORM
  · rw [if_pos c3] at h; cases h
  rw [if_neg c3] at h
  by_cases c4 : f = R8G8B8A8_UNORM
  · rw [if_pos c4] at h; cases h
  rw [if_neg c4] at h
  by_cases c5 : f = R16G16_UNORM
  · rw [if_pos c5] at h; cases h
  rw [if_neg c5] at h
  by_cases c6 : f = R16_FLOAT
  · rw [if_pos c6] at h; cases h
  rw [if_neg c6] at h
  by_cases c7 : f = R16G16_FLOAT
  · rw [if_pos c7] at h; cases h
  rw [if_neg c7] at h
  by_cases c8 : f = R32_FLOAT
  · rw [if_pos c8] at h; cases h
  rw [if_neg c8] at h
  by_cases c9 : f = R32G32_FLOAT
  · rw [if_pos c9] at h; cases h
  rw [if_neg c9] at h
  by_cases c10 : f = R32G32B32A32_FLOAT
  · rw [if_pos c10] at h; cases h
  rw [if_neg c10] at h
  by_cases c11 : f = A8_UNORM
  · rw [if_pos c11] at h; cases h
  rw [if_neg c11] at h
  by_cases c12 : f = R8G8_B8G8_UNORM
  · rw [if_pos c12] at h; cases h
  rw [if_neg c12] at h
  by_cases c13 : f = G8R8_G8B8_UNORM
  · rw [if_pos c13] at h; cases h
  rw [if_neg c13] at h
  by_cases c14 : f = BC1_UNORM
  · rw [if_pos c14] at h; cases h
  rw [if_neg c14] at h
  by_cases c15 : f = BC2_UNORM
  · rw [if_pos c15] at h; cases h
  rw [if_neg c15] at h
  by_cases c16 : f = BC3_UNORM
  · rw [if_pos c16] at h; cases h
  rw [if_neg c16] at h
  by_cases c17 : f = BC4_UNORM
  · rw [if_pos c17] at h; cases h
  rw [if_neg c17] at h
  by_cases c18 : f = BC4_SNORM
  · rw [if_pos c18] at h; cases h
  rw [if_neg c18] at h
  by_cases c19 : f = BC5_UNORM
  · rw [if_pos c19] at h; cases h
  rw [if_neg c19] at h
  by_cases c20 : f = BC5_SNORM
  · rw [if_pos c20] at h; cases h
  rw [if_neg c20] at h
  by_cases c21 : f = B5G6R5_UNORM
  · rw [if_pos c21] at h; cases h
  rw [if_neg c21] at h
  by_cases c22 : f = B5G5R5A1_UNORM
  · rw [if_pos c22] at h; cases h
  rw [if_neg c22] at h
  by_cases c23 : f = YUY2
  · rw [if_pos c23] at h; cases h
  rw [if_neg c23] at h
  unfold Representable
  simp only [List.mem_cons, List.not_mem_nil, or_false, not_or]
  exact ⟨c0, c1, c2, c3, c4, c5, c6, c7, c8, c9, c10, c11, c12, c13, c14, c15, c16, c17, c18, c19, c20, c21, c22, c23⟩

/-- C37: converting to the legacy form and back gives the same format and alpha mode and touches nothing else; exactly the
representable formats are accepted, the others are refused and leave the header unchanged. -/
theorem legacy_roundtrip (d : Header) :
    (Representable d.dxgiFormat ∧ ∃ p, toLegacy d false = ({ d with pf := p }, 0) ∧
      fromLegacy (toLegacy d false).1 = ({ d with pf := fmtDX10 }, 0)) ∨
    (¬ Representable d.dxgiFormat ∧ toLegacy d false = (d, 1)) := by
  unfold toLegacy
  cases h : legacyOf d.dxgiFormat d.alphaMode with
  | some p =>
    left
    obtain ⟨h1, h2⟩ := legacyOf_some _ _ _ h
    refine ⟨h2, p, rfl, ?_⟩
    rw [fromLegacy_decoded]
    simp only [h1]
  | none =>
    right
    exact ⟨legacyOf_none _ _ h, rfl⟩

theorem forced_some (f m : BitVec 32) (p : PixelFormat) (h : forcedLegacyOf f = some p) :
    ∃ g, (f, g) ∈ degraded ∧ decoded p m = some (g, m) := by
  unfold forcedLegacyOf at h
  by_cases c : f = R8G8B8A8_UNORM_SRGB
  · rw [if_pos c] at h; injection h with h; subst h
    subst c; exact ⟨R8G8B8A8_UNORM, by unfold degraded; decide, rfl⟩
  rw [if_neg c] at h; clear c
  by_cases c : f = R8G8_UNORM
  · rw [if_pos c] at h; injection h with h; subst h
    subst c; exact ⟨R8G8_UNORM, by unfold degraded; decide, rfl⟩
  rw [if_neg c] at h; clear c
  by_cases c : f = D16_UNORM ∨ f = R16_UNORM
  · rw [if_pos c] at h; injection h with h; subst h
    rcases c with c | c <;> subst c <;> exact ⟨R16_UNORM, by unfold degraded; decide, rfl⟩
  rw [if_neg c] at h; clear c
  by_cases c : f = R8_UNORM
  · rw [if_pos c] at h; injection h with h; subst h
    subst c; exact ⟨R8_UNORM, by unfold degraded; decide, rfl⟩
  rw [if_neg c] at h; clear c
  by_cases c : f = BC1_UNORM_SRGB
  · rw [if_pos c] at h; injection h with h; subst h
    subst c; exact ⟨BC1_UNORM, by unfold degraded; decide, rfl⟩
  rw [if_neg c] at h; clear c
  by_cases c : f = BC2_UNORM_SRGB
  · rw [if_pos c] at h; injection h with h; subst h
    subst c; exact ⟨BC2_UNORM, by unfold degraded; decide, rfl⟩
  rw [if_neg c] at h; clear c
  by_cases c : f = BC3_UNORM_SRGB
  · rw [if_pos c] at h; injection h with h; subst h
    subst c; exact ⟨BC3_UNORM, by unfold degraded; decide, rfl⟩
  rw [if_neg c] at h; clear c
  by_cases c : f = B8G8R8A8_UNORM ∨ f = B8G8R8A8_UNORM_SRGB
  · rw [if_pos c] at h; injection h with h; subst h
    rcases c with c | c <;> subst c <;> exact ⟨B8G8R8A8_UNORM, by unfold degraded; decide, rfl⟩
  rw [if_neg c] at h; clear c
  by_cases c : f = B8G8R8X8_UNORM ∨ f = B8G8R8X8_UNORM_SRGB
  · rw [if_pos c] at h; injection h with h; subst h
    rcases c with c | c <;> subst c <;> exact ⟨B8G8R8X8_UNORM, by unfold degraded; decide, rfl⟩
  rw [if_neg c] at h; clear c
  by_cases c : f = B4G4R4A4_UNORM
  · rw [if_pos c] at h; injection h with h; subst h
    subst c; exact ⟨B4G4R4A4_UNORM, by unfold degraded; decide, rfl⟩
  rw [if_neg c] at h; clear c
  cases h

theorem forced_none (f : BitVec 32) (h : forcedLegacyOf f = none) : f ∉ degraded.map (·.1) := by
  unfold forcedLegacyOf at h
  by_cases c0 : f = R8G8B8A8_UNORM_SRGB
  · rw [if_pos c0] at h; cases h
  rw [if_neg c0] at h
  by_cases c1 : f = R8G8_UNORM
  · rw [if_pos c1] at h; cases h
  rw [if_neg c1] at h
  by_cases c2 : f = D16_UNORM ∨ f = R16_UNORM
  · rw [if_pos c2] at h; cases h
  rw [if_neg c2] at h
  rw [not_or] at c2
  by_cases c3 : f = R8_UNORM
  · rw [if_pos c3] at h; cases h
  rw [if_neg c3] at h
  by_cases c4 : f = BC1_UNORM_SRGB
  · rw [if_pos c4] at h; cases h
  rw [if_neg c4] at h
  by_cases c5 : f = BC2_UNORM_SRGB
  · rw [if_pos c5] at h; cases h
  rw [if_neg c5] at h
  by_cases c6 : f = BC3_UNORM_SRGB
  · rw [if_pos c6] at h; cases h
  rw [if_neg c6] at h
  by_cases c7 : f = B8G8R8A8_UNORM ∨ f = B8G8R8A8_UNORM_SRGB
  · rw [if_pos c7] at h; cases h
  rw [if_neg c7] at h
  rw [not_or] at c7
  by_cases c8 : f = B8G8R8X8_UNORM ∨ f = B8G8R8X8_UNORM_SRGB
  · rw [if_pos c8] at h; cases h
  rw [if_neg c8] at h
  rw [not_or] at c8
  by_cases c9 : f = B4G4R4A4_UNORM
  · rw [if_pos c9] at h; cases h
  rw [if_neg c9] at h
  unfold degraded
  simp only [List.map_cons, List.map_nil, List.mem_cons, List.not_mem_nil, or_false, not_or]
  exact ⟨c0, c1, c2.1, c2.2, c3, c4, c5, c6, c7.1, c7.2, c8.1, c8.2, c9⟩

/-- C37 with `forceIncompatibilities`: a format that is not representable becomes the format next to it in `degraded` (the
same one, or without sRGB, or colour instead of depth), everything else is refused. -/
theorem forced_roundtrip (d : Header) (hn : ¬ Representable d.dxgiFormat) :
    (∃ g, (d.dxgiFormat, g) ∈ degraded ∧ (toLegacy d true).2 = 0 ∧
      fromLegacy (toLegacy d true).1 = ({ d with dxgiFormat := g, pf := fmtDX10 }, 0)) ∨
    (d.dxgiFormat ∉ degraded.map (·.1) ∧ toLegacy d true = (d, 1)) := by
  have hl : legacyOf d.dxgiFormat d.alphaMode = none := by
    cases h : legacyOf d.dxgiFormat d.alphaMode with
    | none => rfl
    | some p => exact absurd (legacyOf_some _ _ _ h).2 hn
  unfold toLegacy
  rw [hl]
  simp only [if_true]
  cases h : forcedLegacyOf d.dxgiFormat with
  | none => exact Or.inr ⟨forced_none _ h, rfl⟩
  | some p =>
    left
    obtain ⟨g, h1, h2⟩ := forced_some _ d.alphaMode _ h
    refine ⟨g, h1, rfl, ?_⟩
    rw [fromLegacy_decoded]
    simp only [h2]

/-- Forcing does not change what happens to representable formats. -/
theorem forced_representable (d : Header) (hr : Representable d.dxgiFormat) : toLegacy d true = toLegacy d false := by
  unfold toLegacy
  cases h : legacyOf d.dxgiFormat d.alphaMode with
  | none => exact absurd hr (legacyOf_none _ _ h)
  | some p => rfl

theorem legacyOf_bpp (f m : BitVec 32) (p : PixelFormat) (h : legacyOf f m = some p) : bpps[f.toNat]? = some p.bpp := by
  unfold legacyOf at h
  by_cases c : f = R16G16B16A16_UNORM
  · rw [if_pos c] at h; injection h with h; subst h c; rfl
  rw [if_neg c] at h; clear c
  by_cases c : f = R16G16B16A16_SNORM
  · rw [if_pos c] at h; injection h with h; subst h c; rfl
  rw [if_neg c] at h; clear c
  by_cases c : f = R16G16B16A16_FLOAT
  · rw [if_pos c] at h; injection h with h; subst h c; rfl
  rw [if_neg c] at h; clear c
  by_cases c : f = R10G10B10A2_UNORM
  · rw [if_pos c] at h; injection h with h; subst h c; rfl
  rw [if_neg c] at h; clear c
  by_cases c : f = R8G8B8A8_UNORM
  · rw [if_pos c] at h; injection h with h; subst h c; rfl
  rw [if_neg c] at h; clear c
  by_cases c : f = R16G16_UNORM
  · rw [if_pos c] at h; injection h with h; subst h c; rfl
  rw [if_neg c] at h; clear c
  by_cases c : f = R16_FLOAT
  · rw [if_pos c] at h; injection h with h; subst h c; rfl
  rw [if_neg c] at h; clear c
  by_cases c : f = R16G16_FLOAT
  · rw [if_pos c] at h; injection h with h; subst h c; rfl
  rw [if_neg c] at h; clear c
  by_cases c : f = R32_FLOAT
  · rw [if_pos c] at h; injection h with h; subst h c; rfl
  rw [if_neg c] at h; clear c
  by_cases c : f = R32G32_FLOAT
  · rw [if_pos c] at h; injection h with h; subst h c; rfl
  rw [if_neg c] at h; clear c
  by_cases c : f = R32G32B32A32_FLOAT
  · rw [if_pos c] at h; injection h with h; subst h c; rfl
  rw [if_neg c] at h; clear c
  by_cases c : f = A8_UNORM
  · rw [if_pos c] at h; injection h with h; subst h c; rfl
  rw [if_neg c] at h; clear c
  by_cases c : f = R8G8_B8G8_UNORM
  · rw [if_pos c] at h; injection h with h; subst h c; rfl
  rw [if_neg c] at h; clear c
  by_cases c : f = G8R8_G8B8_UNORM
  · rw [if_pos c] at h; injection h with h; subst h c; rfl
  rw [if_neg c] at h; clear c
  by_cases c : f = BC1_UNORM
  · rw [if_pos c] at h; injection h with h; subst h c; rfl
  rw [if_neg c] at h; clear c
  by_cases c : f = BC2_UNORM
  · rw [if_pos c] at h
    injection h with h
    subst h c
    by_cases hm : m = premultiplied
    · rw [if_pos hm]; rfl
    · rw [if_neg hm]; rfl
  rw [if_neg c] at h; clear c
  by_cases c : f = BC3_UNORM
  · rw [if_pos c] at h
    injection h with h
    subst h c
    by_cases hm : m = premultiplied
    · rw [if_pos hm]; rfl
    · rw [if_neg hm]; rfl
  rw [if_neg c] at h; clear c
  by_cases c : f = BC4_UNORM
  · rw [if_pos c] at h; injection h with h; subst h c; rfl
  rw [if_neg c] at h; clear c
  by_cases c : f = BC4_SNORM
  · rw [if_pos c] at h; injection h with h; subst h c; rfl
  rw [if_neg c] at h; clear c
  by_cases c : f = BC5_UNORM
  · rw [if_pos c] at h; injection h with h; subst h c; rfl
  rw [if_neg c] at h; clear c
  by_cases c : f = BC5_SNORM
  · rw [if_pos c] at h; injection h with h; subst h c; rfl
  rw [if_neg c] at h; clear c
  by_cases c : f = B5G6R5_UNORM
  · rw [if_pos c] at h; injection h with h; subst h c; rfl
  rw [if_neg c] at h; clear c
  by_cases c : f = B5G5R5A1_UNORM
  · rw [if_pos c] at h; injection h with h; subst h c; rfl
  rw [if_neg c] at h; clear c
  by_cases c : f = YUY2
  · rw [if_pos c] at h; injection h with h; subst h c; rfl
  rw [if_neg c] at h; clear c
  cases h

/-- The legacy form has the bits per pixel of the format table. -/
theorem legacy_bpp (d : Header) (force : Bool) (h : (toLegacy d force).2 = 0) :
    bpps[d.dxgiFormat.toNat]? = some (toLegacy d force).1.pf.bpp := by
  unfold toLegacy at h ⊢
  cases hl : legacyOf d.dxgiFormat d.alphaMode with
  | some p => exact legacyOf_bpp _ _ _ hl
  | none =>
    rw [hl] at h
    cases force with
    | false => cases h
    | true =>
      simp only [if_true] at h ⊢
      cases hf : forcedLegacyOf d.dxgiFormat with
      | none => rw [hf] at h; cases h
      | some p =>
        obtain ⟨g, h1, _⟩ := forced_some _ 0#32 _ hf
        have : ∀ q ∈ degraded, (forcedLegacyOf q.1).map (·.bpp) = bpps[q.1.toNat]? := by decide +kernel
        have := this _ h1
        simp only [hf, Option.map_some] at this
        exact this.symm

/-- A legacy file that names one of the four character codes comes back with the same code, except that `ATI1` is
rewritten as `BC4U` and `BC5U` as `ATI2`. -/
theorem fourcc_roundtrip_partial (d : Header) (hm : d.alphaMode ≠ premultiplied) (f : BitVec 32) (m : Option (BitVec 32))
    (h : fromFourCC d.pf.fourCC = some (f, m)) :
    (fromLegacy d).2 = 0 ∧ (toLegacy (fromLegacy d).1 false).2 = 0 ∧
      (toLegacy (fromLegacy d).1 false).1.pf.fourCC =
        (if d.pf.fourCC = cc 'A' 'T' 'I' '1' then cc 'B' 'C' '4' 'U' else if d.pf.fourCC = cc 'B' 'C' '5' 'U' then cc 'A' 'T' 'I' '2' else d.pf.fourCC) := by
  have hfrom : fromLegacy d = ({ d with dxgiFormat := f, alphaMode := m.getD d.alphaMode, pf := fmtDX10 }, 0) := by
    unfold fromLegacy
    rw [h]
    cases m <;> rfl
  rw [hfrom]
  generalize d.pf.fourCC = c at h ⊢
  unfold fromFourCC at h
  by_cases k : c = 36#32
  · rw [if_pos k] at h
    simp only [Option.some.injEq, Prod.mk.injEq] at h
    obtain ⟨rfl, rfl⟩ := h
    subst k; exact ⟨rfl, rfl, rfl⟩
  rw [if_neg k] at h; clear k
  by_cases k : c = 110#32
  · rw [if_pos k] at h
    simp only [Option.some.injEq, Prod.mk.injEq] at h
    obtain ⟨rfl, rfl⟩ := h
    subst k; exact ⟨rfl, rfl, rfl⟩
  rw [if_neg k] at h; clear k
  by_cases k : c = 111#32
  · rw [if_pos k] at h
    simp only [Option.some.injEq, Prod.mk.injEq] at h
    obtain ⟨rfl, rfl⟩ := h
    subst k; exact ⟨rfl, rfl, rfl⟩
  rw [if_neg k] at h; clear k
  by_cases k : c = 112#32
  · rw [if_pos k] at h
    simp only [Option.some.injEq, Prod.mk.injEq] at h
    obtain ⟨rfl, rfl⟩ := h
    subst k; exact ⟨rfl, rfl, rfl⟩
  rw [if_neg k] at h; clear k
  by_cases k : c = 113#32
  · rw [if_pos k] at h
    simp only [Option.some.injEq, Prod.mk.injEq] at h
    obtain ⟨rfl, rfl⟩ := h
    subst k; exact ⟨rfl, rfl, rfl⟩
  rw [if_neg k] at h; clear k
  by_cases k : c = 114#32
  · rw [if_pos k] at h
    simp only [Option.some.injEq, Prod.mk.injEq] at h
    obtain ⟨rfl, rfl⟩ := h
    subst k; exact ⟨rfl, rfl, rfl⟩
  rw [if_neg k] at h; clear k
  by_cases k : c = 115#32
  · rw [if_pos k] at h
    simp only [Option.some.injEq, Prod.mk.injEq] at h
    obtain ⟨rfl, rfl⟩ := h
    subst k; exact ⟨rfl, rfl, rfl⟩
  rw [if_neg k] at h; clear k
  by_cases k : c = 116#32
  · rw [if_pos k] at h
    simp only [Option.some.injEq, Prod.mk.injEq] at h
    obtain ⟨rfl, rfl⟩ := h
    subst k; exact ⟨rfl, rfl, rfl⟩
  rw [if_neg k] at h; clear k
  by_cases k : c = cc 'D' 'X' 'T' '1'
  · rw [if_pos k] at h
    simp only [Option.some.injEq, Prod.mk.injEq] at h
    obtain ⟨rfl, rfl⟩ := h
    subst k; exact ⟨rfl, rfl, rfl⟩
  rw [if_neg k] at h; clear k
  by_cases k : c = cc 'D' 'X' 'T' '2'
  · rw [if_pos k] at h
    simp only [Option.some.injEq, Prod.mk.injEq] at h
    obtain ⟨rfl, rfl⟩ := h
    subst k; exact ⟨rfl, rfl, rfl⟩
  rw [if_neg k] at h; clear k
  by_cases k : c = cc 'D' 'X' 'T' '3'
  · rw [if_pos k] at h
    simp only [Option.some.injEq, Prod.mk.injEq] at h
    obtain ⟨rfl, rfl⟩ := h
    subst k
    have hl : legacyOf BC2_UNORM d.alphaMode = some fmtDXT3 := by
      show some (if d.alphaMode = premultiplied then fmtDXT2 else fmtDXT3) = _
      rw [if_neg hm]
    unfold toLegacy
    simp only [Option.getD_none, hl]
    exact ⟨trivial, trivial, rfl⟩
  rw [if_neg k] at h; clear k
  by_cases k : c = cc 'D' 'X' 'T' '4'
  · rw [if_pos k] at h
    simp only [Option.some.injEq, Prod.mk.injEq] at h
    obtain ⟨rfl, rfl⟩ := h
    subst k; exact ⟨rfl, rfl, rfl⟩
  rw [if_neg k] at h; clear k
  by_cases k : c = cc 'D' 'X' 'T' '5'
  · rw [if_pos k] at h
    simp only [Option.some.injEq, Prod.mk.injEq] at h
    obtain ⟨rfl, rfl⟩ := h
    subst k
    have hl : legacyOf BC3_UNORM d.alphaMode = some fmtDXT5 := by
      show some (if d.alphaMode = premultiplied then fmtDXT4 else fmtDXT5) = _
      rw [if_neg hm]
    unfold toLegacy
    simp only [Option.getD_none, hl]
    exact ⟨trivial, trivial, rfl⟩
  rw [if_neg k] at h; clear k
  by_cases k : c = cc 'B' 'C' '4' 'U' ∨ c = cc 'A' 'T' 'I' '1'
  · rw [if_pos k] at h
    simp only [Option.some.injEq, Prod.mk.injEq] at h
    obtain ⟨rfl, rfl⟩ := h
    rcases k with k | k <;> subst k <;> exact ⟨rfl, rfl, rfl⟩
  rw [if_neg k] at h; clear k
  by_cases k : c = cc 'B' 'C' '4' 'S'
  · rw [if_pos k] at h
    simp only [Option.some.injEq, Prod.mk.injEq] at h
    obtain ⟨rfl, rfl⟩ := h
    subst k; exact ⟨rfl, rfl, rfl⟩
  rw [if_neg k] at h; clear k
  by_cases k : c = cc 'B' 'C' '5' 'U' ∨ c = cc 'A' 'T' 'I' '2'
  · rw [if_pos k] at h
    simp only [Option.some.injEq, Prod.mk.injEq] at h
    obtain ⟨rfl, rfl⟩ := h
    rcases k with k | k <;> subst k <;> exact ⟨rfl, rfl, rfl⟩
  rw [if_neg k] at h; clear k
  by_cases k : c = cc 'B' 'C' '5' 'S'
  · rw [if_pos k] at h
    simp only [Option.some.injEq, Prod.mk.injEq] at h
    obtain ⟨rfl, rfl⟩ := h
    subst k; exact ⟨rfl, rfl, rfl⟩
  rw [if_neg k] at h; clear k
  by_cases k : c = cc 'R' 'B' 'G' 'B'
  · rw [if_pos k] at h
    simp only [Option.some.injEq, Prod.mk.injEq] at h
    obtain ⟨rfl, rfl⟩ := h
    subst k; exact ⟨rfl, rfl, rfl⟩
  rw [if_neg k] at h; clear k
  by_cases k : c = cc 'G' 'R' 'G' 'B'
  · rw [if_pos k] at h
    simp only [Option.some.injEq, Prod.mk.injEq] at h
    obtain ⟨rfl, rfl⟩ := h
    subst k; exact ⟨rfl, rfl, rfl⟩
  rw [if_neg k] at h; clear k
  by_cases k : c = cc 'Y' 'U' 'Y' '2'
  · rw [if_pos k] at h
    simp only [Option.some.injEq, Prod.mk.injEq] at h
    obtain ⟨rfl, rfl⟩ := h
    subst k; exact ⟨rfl, rfl, rfl⟩
  rw [if_neg k] at h; clear k
  cases h

/-- The alpha mode of a header read earlier is kept: a `DXT3` texture becomes `DXT2`. -/
theorem stale_alpha_violated : ∃ d : Header, d.pf = fmtDXT3 ∧ (fromLegacy d).2 = 0 ∧ (toLegacy (fromLegacy d).1 false).1.pf = fmtDXT2 :=
  ⟨{ sample fmtDXT3 4 4 1 with alphaMode := premultiplied }, by decide +kernel⟩

/-- A texture in BC3 with premultiplied alpha. -/
example : toLegacy { sample fmtDX10 64 64 7 with dxgiFormat := BC3_UNORM, alphaMode := premultiplied } false =
    ({ sample fmtDXT4 64 64 7 with dxgiFormat := BC3_UNORM, alphaMode := premultiplied }, 0) := by decide +kernel

/-! ## C54: masks of the channels -/

/-- The channels of a format in memory order (lowest bits first), as its name spells them. -/
def channels : List (BitVec 32 × List (Char × Nat)) :=
  [(R10G10B10A2_UNORM, [('R', 10), ('G', 10), ('B', 10), ('A', 2)]), (R8G8B8A8_UNORM, [('R', 8), ('G', 8), ('B', 8), ('A', 8)]),
   (R16G16_UNORM, [('R', 16), ('G', 16)]), (A8_UNORM, [('A', 8)]), (B5G6R5_UNORM, [('B', 5), ('G', 6), ('R', 5)]),
   (B5G5R5A1_UNORM, [('B', 5), ('G', 5), ('R', 5), ('A', 1)]), (B8G8R8A8_UNORM, [('B', 8), ('G', 8), ('R', 8), ('A', 8)]),
   (B8G8R8X8_UNORM, [('B', 8), ('G', 8), ('R', 8), ('X', 8)]), (B4G4R4A4_UNORM, [('B', 4), ('G', 4), ('R', 4), ('A', 4)])]

/-- The mask of channel `c`: its bits, after the bits of the channels before it. -/
def maskOf (c : Char) : List (Char × Nat) → Nat → BitVec 32
  | [], _ => 0#32
  | (x, n) :: rest, at_ => if x = c then BitVec.ofNat 32 ((2 ^ n - 1) * 2 ^ at_) else maskOf c rest (at_ + n)

/-- The legacy masks describe the channels of the format. -/
def MasksRight (f : BitVec 32) (p : PixelFormat) : Prop :=
  ∀ l, (f, l) ∈ channels → p.r = maskOf 'R' l 0 ∧ p.g = maskOf 'G' l 0 ∧ p.b = maskOf 'B' l 0 ∧ p.a = maskOf 'A' l 0

/-- C54, the formats whose masks are right (all header contents, both modes). -/
theorem masks_partial (d : Header) (force : Bool) (h : d.dxgiFormat ∈ [R16G16_UNORM, A8_UNORM, B5G6R5_UNORM, B5G5R5A1_UNORM]) :
    MasksRight d.dxgiFormat (toLegacy d force).1.pf ∧ (toLegacy d force).2 = 0 := by
  have key : ∀ f ∈ [R16G16_UNORM, A8_UNORM, B5G6R5_UNORM, B5G5R5A1_UNORM], ∀ d : Header, d.dxgiFormat = f →
      ∃ p, toLegacy d force = ({ d with pf := p }, 0) ∧ ∀ q ∈ channels, q.1 = f → p.r = maskOf 'R' q.2 0 ∧ p.g = maskOf 'G' q.2 0 ∧ p.b = maskOf 'B' q.2 0 ∧ p.a = maskOf 'A' q.2 0 := by
    intro f hf d hd
    simp only [List.mem_cons, List.not_mem_nil, or_false] at hf
    unfold toLegacy
    rcases hf with rfl | rfl | rfl | rfl <;> rw [hd]
    · exact ⟨fmtG16R16, rfl, by decide +kernel⟩
    · exact ⟨fmtA8, rfl, by decide +kernel⟩
    · exact ⟨fmtR5G6B5, rfl, by decide +kernel⟩
    · exact ⟨fmtA1R5G5B5, rfl, by decide +kernel⟩
  obtain ⟨p, h1, h2⟩ := key _ h d rfl
  rw [h1]
  exact ⟨fun l hl => h2 _ hl rfl, rfl⟩

/-- C54 is violated: red and blue are exchanged for the 32 bit and the 4 bit per channel formats (both ways), and the alpha
bits of `R10G10B10A2` have no mask. -/
theorem masks_violated :
    (legacyOf R8G8B8A8_UNORM 0#32).map (·.r) = some (maskOf 'B' [('R', 8), ('G', 8), ('B', 8), ('A', 8)] 0) ∧
    (forcedLegacyOf B8G8R8A8_UNORM).map (·.r) = some (maskOf 'B' [('B', 8), ('G', 8), ('R', 8), ('A', 8)] 0) ∧
    (forcedLegacyOf B4G4R4A4_UNORM).map (·.r) = some (maskOf 'B' [('B', 4), ('G', 4), ('R', 4), ('A', 4)] 0) ∧
    (legacyOf R10G10B10A2_UNORM 0#32).map (·.a) = some 0#32 ∧
    fromMasks fmtA8R8G8B8 = some R8G8B8A8_UNORM ∧ maskOf 'R' [('R', 8), ('G', 8), ('B', 8), ('A', 8)] 0 ≠ fmtA8R8G8B8.r := by decide +kernel

/-- `NumMipmaps` records the count and sets the three mip flags exactly when there is more than one level. -/
theorem numMipmaps_spec (d : Header) (n : BitVec 32) :
    (numMipmaps d n).mipMapCount = n ∧
    (numMipmaps d n).caps00.getLsbD 3 = decide (1 < n.toInt) ∧ (numMipmaps d n).caps00.getLsbD 22 = decide (1 < n.toInt) ∧
    (numMipmaps d n).flags.getLsbD 17 = decide (1 < n.toInt) ∧
    (∀ i, i ≠ 3 → i ≠ 22 → (numMipmaps d n).caps00.getLsbD i = d.caps00.getLsbD i) ∧
    (∀ i, i ≠ 17 → (numMipmaps d n).flags.getLsbD i = d.flags.getLsbD i) := by
  have hset : ∀ (v : BitVec 32) (p : Nat) (b : Bool) (i : Nat), p < 32 → (Flags.set v p b).getLsbD i = if i = p then b else v.getLsbD i := by
    intro v p b i hp
    have hone : (1#32 <<< p).getLsbD i = decide (i = p) := by
      simp only [BitVec.getLsbD_shiftLeft, BitVec.getLsbD_one]
      by_cases hi : i = p
      · subst hi; simp [hp]
      · by_cases hl : i < p
        · simp [hl, hi]
        · have : ¬ i - p = 0 := by omega
          simp [hi, this]
    unfold Flags.set Flags.makeMask
    cases b with
    | true =>
      rw [if_pos rfl, BitVec.getLsbD_or, hone]
      by_cases hi : i = p <;> simp [hi]
    | false =>
      rw [if_neg (by decide), BitVec.getLsbD_and, BitVec.getLsbD_not, hone]
      by_cases hi : i = p
      · simp [hi]
      · by_cases h32 : i < 32
        · simp [hi, h32]
        · simp [hi, BitVec.getLsbD_of_ge v i (by omega)]
  refine ⟨rfl, ?_, ?_, ?_, ?_, ?_⟩
  · simp only [numMipmaps]; rw [hset _ _ _ _ (by decide), if_neg (by decide), hset _ _ _ _ (by decide), if_pos rfl]
  · simp only [numMipmaps]; rw [hset _ _ _ _ (by decide), if_pos rfl]
  · simp only [numMipmaps]; rw [hset _ _ _ _ (by decide), if_pos rfl]
  · intro i h1 h2; simp only [numMipmaps]; rw [hset _ _ _ _ (by decide), if_neg h2, hset _ _ _ _ (by decide), if_neg h1]
  · intro i h1; simp only [numMipmaps]; rw [hset _ _ _ _ (by decide), if_neg h1]

/-- `ComputeBPP` on a DX10 header reads the table; values past the last enumerator are read out of bounds. -/
theorem computeBPP_dx10 (d : Header) (h : d.pf = fmtDX10) :
    (d.dxgiFormat.toNat < 120 → ∃ b, bpps[d.dxgiFormat.toNat]? = some b ∧ computeBPP d = some { d with pf := { d.pf with bpp := b } }) ∧
    (120 ≤ d.dxgiFormat.toNat → computeBPP d = none) := by
  have hlen : bpps.length = 120 := by decide
  unfold computeBPP
  rw [if_neg (by rw [h]; decide), if_pos h]
  constructor
  · intro hl
    refine ⟨_, List.getElem?_eq_getElem (by omega), ?_⟩
    rw [List.getElem?_eq_getElem (by omega)]
    rfl
  · intro hl
    rw [List.getElem?_eq_none (by omega)]
    rfl

end PreCore.Dds
