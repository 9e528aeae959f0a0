import Verif.Model.BlockDecoder
/-!
# C35: block decoders

Specification: the block is a string of bits, lowest bit of the first byte first. Texel `k` (row `k / 4`, column `k % 4`)
of a block at block coordinates `(bx, by)` of an image `W` blocks wide is at byte
`((4 * by + k / 4) * (4 * W) + 4 * bx + k % 4) * pixel size` of the image.
-/
namespace PreCore.Block

/-- Bit `n` of the data. -/
def bitAt (data : Nat → Byte) (n : Nat) : Nat := ((data (n / 8)).getLsbD (n % 8)).toNat

/-- The number in `len` bits from bit `n` on. -/
def fieldAt (data : Nat → Byte) (n : Nat) : Nat → Nat
  | 0 => 0
  | len + 1 => fieldAt data n len + 2 ^ len * bitAt data (n + len)

/-- BC4: the value of index `i` for the end points `a0`, `a1`. -/
def bc4Value (a0 a1 i : Nat) : Nat :=
  if i = 0 then a0 else if i = 1 then a1
  else if a1 < a0 then ((8 - i) * a0 + (i - 1) * a1) / 7
  else if i = 6 then 0 else if i = 7 then 255 else ((6 - i) * a0 + (i - 1) * a1) / 5

/-- BC4: the value of texel `k` of the block at byte `p`: end points in the first two bytes, then 3 bits per texel. -/
def bc4Texel (data : Nat → Byte) (p k : Nat) : Byte :=
  BitVec.ofNat 8 (bc4Value (data p).toNat (data (p + 1)).toNat (fieldAt data (8 * (p + 2) + 3 * k) 3))

/-- BC2: the alpha of texel `k`: 4 bits scaled to 0..255. -/
def bc2Texel (data : Nat → Byte) (p k : Nat) : Byte := BitVec.ofNat 8 (fieldAt data (8 * p + 4 * k) 4 * 255 / 15)

/-- Colour of texel `k`: 2 bits select one of four colours, after the two 16 bit end colours. -/
def colourTexel (colors : List Byte → Nat → List Byte) (data : Nat → Byte) (p k : Nat) : List Byte :=
  colors [data p, data (p + 1), data (p + 2), data (p + 3)] (fieldAt data (8 * (p + 4) + 2 * k) 2)

/-- Address of texel `k` of block `(bx, by)` in an image `W` blocks wide with pixels of `pix` bytes. -/
def texelAddr (bx byy W pix k : Nat) : Nat := ((4 * byy + k / 4) * (4 * W) + 4 * bx + k % 4) * pix

/-! ## Stores -/

theorem fold_out (l : List (Nat × List Byte)) : ∀ (buf : Buf) (a : Nat), (∀ p ∈ l, ¬ (p.1 ≤ a ∧ a < p.1 + p.2.length)) →
    l.foldl (fun b p => store b p.1 p.2) buf a = buf a := by
  induction l with
  | nil => intro buf a _; rfl
  | cons p l ih =>
    intro buf a h
    rw [List.foldl_cons, ih _ a (fun q hq => h q (List.mem_cons_of_mem _ hq))]
    unfold store
    rw [if_neg (h p List.mem_cons_self)]

theorem fold_in (l : List (Nat × List Byte)) (hd : l.Pairwise (fun p q => ∀ a, ¬ ((p.1 ≤ a ∧ a < p.1 + p.2.length) ∧ (q.1 ≤ a ∧ a < q.1 + q.2.length)))) :
    ∀ (buf : Buf) (a : Nat) (p : Nat × List Byte), p ∈ l → p.1 ≤ a → a < p.1 + p.2.length →
      l.foldl (fun b p => store b p.1 p.2) buf a = p.2.getD (a - p.1) 0#8 := by
  induction hd with
  | nil => intro buf a p hp; cases hp
  | @cons q l hq _ ih =>
    intro buf a p hp h1 h2
    rw [List.foldl_cons]
    rcases List.mem_cons.mp hp with rfl | hp
    · rw [fold_out]
      · unfold store
        rw [if_pos ⟨h1, h2⟩]
      · intro r hr hc
        exact hq r hr a ⟨⟨h1, h2⟩, hc⟩
    · exact ih _ a p hp h1 h2

theorem pixelOffset_toNat (w h width pix : BitVec 32) (H : Nat) (hw : w.toNat < width.toNat) (hh : h.toNat < H)
    (hfit : 16 * width.toNat * H * pix.toNat < 2 ^ 32) (hp : 0 < pix.toNat) (k : Nat) (hk : k < 16) :
    (pixelOffset w h width pix (k / 4) (k % 4)).toNat = texelAddr w.toNat h.toNat width.toNat pix.toNat k ∧
      texelAddr w.toNat h.toNat width.toNat pix.toNat k + pix.toNat ≤ 16 * width.toNat * H * pix.toNat := by
  have hr : k / 4 < 4 := by omega
  have hc : k % 4 < 4 := by omega
  unfold texelAddr
  generalize k / 4 = r at *
  generalize k % 4 = c at *
  have hW : 0 < width.toNat := by omega
  -- the texel lies in the image
  have hin : (4 * h.toNat + r) * (4 * width.toNat) + 4 * w.toNat + c < 16 * width.toNat * H := by
    have h1 : (4 * h.toNat + r + 1) * (4 * width.toNat) ≤ (4 * H) * (4 * width.toNat) := Nat.mul_le_mul_right _ (by omega)
    have h2 : (4 * h.toNat + r + 1) * (4 * width.toNat) = (4 * h.toNat + r) * (4 * width.toNat) + 4 * width.toNat := by
      rw [Nat.add_mul, Nat.one_mul]
    have h3 : (4 * H) * (4 * width.toNat) = 16 * width.toNat * H := by
      rw [Nat.mul_mul_mul_comm, Nat.mul_comm H, ← Nat.mul_assoc]
    omega
  have hmul : ∀ x, x ≤ x * pix.toNat := fun x => Nat.le_mul_of_pos_right x hp
  have hend : ((4 * h.toNat + r) * (4 * width.toNat) + 4 * w.toNat + c) * pix.toNat + pix.toNat ≤ 16 * width.toNat * H * pix.toNat := by
    have := Nat.mul_le_mul_right pix.toNat (show (4 * h.toNat + r) * (4 * width.toNat) + 4 * w.toNat + c + 1 ≤ 16 * width.toNat * H by omega)
    rw [Nat.add_mul, Nat.one_mul] at this
    exact this
  refine ⟨?_, hend⟩
  have hsum := hmul ((4 * h.toNat + r) * (4 * width.toNat) + 4 * w.toNat + c)
  have hle : 4 * h.toNat + r ≤ (4 * h.toNat + r) * (4 * width.toNat) := Nat.le_mul_of_pos_right _ (by omega)
  have hWH : 16 * width.toNat ≤ 16 * width.toNat * H := Nat.le_mul_of_pos_right _ (by omega)
  have hWH2 := hmul (16 * width.toNat * H)
  unfold pixelOffset
  have e4 : (4#32).toNat = 4 := rfl
  have er : (BitVec.ofNat 32 r).toNat = r := by rw [BitVec.toNat_ofNat, Nat.mod_eq_of_lt (by omega)]
  have ec : (BitVec.ofNat 32 c).toNat = c := by rw [BitVec.toNat_ofNat, Nat.mod_eq_of_lt (by omega)]
  have e1 : (h * 4#32).toNat = 4 * h.toNat := by rw [BitVec.toNat_mul, e4, Nat.mod_eq_of_lt (by omega), Nat.mul_comm]
  have e2 : (w * 4#32).toNat = 4 * w.toNat := by rw [BitVec.toNat_mul, e4, Nat.mod_eq_of_lt (by omega), Nat.mul_comm]
  have e3 : (width * 4#32).toNat = 4 * width.toNat := by rw [BitVec.toNat_mul, e4, Nat.mod_eq_of_lt (by omega), Nat.mul_comm]
  have e5 : (h * 4#32 + BitVec.ofNat 32 r).toNat = 4 * h.toNat + r := by rw [BitVec.toNat_add, e1, er, Nat.mod_eq_of_lt (by omega)]
  have e6 : ((h * 4#32 + BitVec.ofNat 32 r) * (width * 4#32)).toNat = (4 * h.toNat + r) * (4 * width.toNat) := by
    rw [BitVec.toNat_mul, e5, e3, Nat.mod_eq_of_lt (by omega)]
  have e7 : ((h * 4#32 + BitVec.ofNat 32 r) * (width * 4#32) + w * 4#32).toNat = (4 * h.toNat + r) * (4 * width.toNat) + 4 * w.toNat := by
    rw [BitVec.toNat_add, e6, e2, Nat.mod_eq_of_lt (by omega)]
  have e8 : ((h * 4#32 + BitVec.ofNat 32 r) * (width * 4#32) + w * 4#32 + BitVec.ofNat 32 c).toNat = (4 * h.toNat + r) * (4 * width.toNat) + 4 * w.toNat + c := by
    rw [BitVec.toNat_add, e7, ec, Nat.mod_eq_of_lt (by omega)]
  rw [BitVec.toNat_mul, e8, Nat.mod_eq_of_lt (by omega)]

/-- Different texels of a block do not overlap. -/
theorem texelAddr_apart (bx byy W pix k k' : Nat) (hW : bx < W) (hne : k < 16 ∧ k' < 16 ∧ k ≠ k') :
    texelAddr bx byy W pix k + pix ≤ texelAddr bx byy W pix k' ∨ texelAddr bx byy W pix k' + pix ≤ texelAddr bx byy W pix k := by
  have key : ∀ k k', k < k' → k' < 16 → texelAddr bx byy W pix k + pix ≤ texelAddr bx byy W pix k' := by
    intro k k' hlt hk'
    unfold texelAddr
    have h1 : (4 * byy + k / 4) * (4 * W) + 4 * bx + k % 4 + 1 ≤ (4 * byy + k' / 4) * (4 * W) + 4 * bx + k' % 4 := by
      by_cases he : k / 4 = k' / 4
      · rw [he]; omega
      · have h2 : (4 * byy + k / 4 + 1) * (4 * W) ≤ (4 * byy + k' / 4) * (4 * W) := Nat.mul_le_mul_right _ (by omega)
        rw [Nat.add_mul, Nat.one_mul] at h2
        omega
    have := Nat.mul_le_mul_right pix h1
    rw [Nat.add_mul _ 1 pix, Nat.one_mul] at this
    exact this
  rcases Nat.lt_or_gt_of_ne hne.2.2 with h | h
  · exact Or.inl (key k k' h hne.2.1)
  · exact Or.inr (key k' k h hne.1)

/-- The geometry of a call: a block inside of an image of `width` x `H` blocks that the 32 bit arithmetic can address. -/
structure Inside (w h width : BitVec 32) (H pix : Nat) : Prop where
  col : w.toNat < width.toNat
  row : h.toNat < H
  fits : 16 * width.toNat * H * pix < 2 ^ 32

/-- Sixteen stores, one for each texel in order. -/
theorem perform_spec (w h width pix : BitVec 32) (H : Nat) (hi : Inside w h width H pix.toNat) (hp : 0 < pix.toNat) (o n : Nat)
    (f : Nat → List Byte) (hn : n ≤ pix.toNat) (hf : ∀ k, (f k).length = n) (buf : Buf) :
    (∀ k, k < 16 → ∀ j, j < n → perform w h width pix o ((List.range 16).map (fun k => (k / 4, k % 4, f k))) buf
        (o + texelAddr w.toNat h.toNat width.toNat pix.toNat k + j) = (f k).getD j 0#8) ∧
    (∀ a, (∀ k, k < 16 → ∀ j, j < n → a ≠ o + texelAddr w.toNat h.toNat width.toNat pix.toNat k + j) →
      perform w h width pix o ((List.range 16).map (fun k => (k / 4, k % 4, f k))) buf a = buf a) := by
  have hform : perform w h width pix o ((List.range 16).map (fun k => (k / 4, k % 4, f k))) buf =
      ((List.range 16).map (fun k => (o + texelAddr w.toNat h.toNat width.toNat pix.toNat k, f k))).foldl (fun b p => store b p.1 p.2) buf := by
    unfold perform
    rw [List.foldl_map, List.foldl_map]
    have : ∀ (l : List Nat) (b : Buf), (∀ k ∈ l, k < 16) →
        l.foldl (fun b k => store b (o + (pixelOffset w h width pix (k / 4) (k % 4)).toNat) (f k)) b =
        l.foldl (fun b k => store b (o + texelAddr w.toNat h.toNat width.toNat pix.toNat k) (f k)) b := by
      intro l
      induction l with
      | nil => intro b _; rfl
      | cons k l ih =>
        intro b hl
        rw [List.foldl_cons, List.foldl_cons, (pixelOffset_toNat w h width pix H hi.col hi.row hi.fits hp k (hl k List.mem_cons_self)).1]
        exact ih _ (fun q hq => hl q (List.mem_cons_of_mem _ hq))
    exact this _ _ (fun k hk => List.mem_range.mp hk)
  have hpw : ((List.range 16).map (fun k => (o + texelAddr w.toNat h.toNat width.toNat pix.toNat k, f k))).Pairwise
      (fun p q => ∀ a, ¬ ((p.1 ≤ a ∧ a < p.1 + p.2.length) ∧ (q.1 ≤ a ∧ a < q.1 + q.2.length))) := by
    rw [List.pairwise_map]
    apply List.Pairwise.imp_of_mem _ List.nodup_range
    intro k k' hk hk' hne a
    rintro ⟨⟨a1, a2⟩, a3, a4⟩
    simp only [hf] at *
    have := texelAddr_apart w.toNat h.toNat width.toNat pix.toNat k k' hi.col ⟨List.mem_range.mp hk, List.mem_range.mp hk', hne⟩
    omega
  rw [hform]
  constructor
  · intro k hk j hj
    have := fold_in _ hpw buf (o + texelAddr w.toNat h.toNat width.toNat pix.toNat k + j) (o + texelAddr w.toNat h.toNat width.toNat pix.toNat k, f k)
      (List.mem_map.mpr ⟨k, List.mem_range.mpr hk, rfl⟩) (Nat.le_add_right _ _) (by rw [hf]; simp only; omega)
    rw [this]
    congr 1
    simp only
    omega
  · intro a ha
    apply fold_out
    intro p hp'
    obtain ⟨k, hk, rfl⟩ := List.mem_map.mp hp'
    simp only [hf]
    intro hc
    exact ha k (List.mem_range.mp hk) (a - (o + texelAddr w.toNat h.toNat width.toNat pix.toNat k)) (by omega) (by omega)

/-! ## The stores of the decoders are the texels of the specification, in order -/

theorem fieldAt_two (data : Nat → Byte) (n : Nat) : fieldAt data n 2 = bitAt data n + 2 * bitAt data (n + 1) := by
  simp [fieldAt]

theorem fieldAt_three (data : Nat → Byte) (n : Nat) : fieldAt data n 3 = bitAt data n + 2 * bitAt data (n + 1) + 4 * bitAt data (n + 2) := by
  simp [fieldAt]

theorem fieldAt_four (data : Nat → Byte) (n : Nat) :
    fieldAt data n 4 = bitAt data n + 2 * bitAt data (n + 1) + 4 * bitAt data (n + 2) + 8 * bitAt data (n + 3) := by
  simp [fieldAt]

theorem bitAt_byte (data : Nat → Byte) (p i : Nat) (hi : i < 8) : bitAt data (8 * p + i) = ((data p).getLsbD i).toNat := by
  unfold bitAt
  rw [show (8 * p + i) / 8 = p by omega, show (8 * p + i) % 8 = i by omega]

theorem alphaTable_value (a0 a1 i : Nat) (hi : i < 8) : alphaTable a0 a1 i = bc4Value a0 a1 i := by
  unfold alphaTable bc4Value
  have : i = 0 ∨ i = 1 ∨ i = 2 ∨ i = 3 ∨ i = 4 ∨ i = 5 ∨ i = 6 ∨ i = 7 := by omega
  by_cases h : a1 < a0
  · simp only [gt_iff_lt, h, if_true]
    rcases this with rfl | rfl | rfl | rfl | rfl | rfl | rfl | rfl <;> simp
  · simp only [gt_iff_lt, h, if_false]
    rcases this with rfl | rfl | rfl | rfl | rfl | rfl | rfl | rfl <;> simp

theorem bc4Stores_texels (data : Nat → Byte) (p : Nat) :
    bc4Stores data p = (List.range 16).map (fun k => (k / 4, k % 4, [bc4Texel data p k])) := by
  have hbits : ∀ (q i : Nat), i < 8 → bitAt data (8 * q + i) = ((data q).getLsbD i).toNat := fun q i hi => bitAt_byte data q i hi
  have single : ∀ (q i k : Nat) (x : BitVec 8), i ≤ 5 → 8 * (p + 2) + 3 * k = 8 * q + i →
      x.toNat = ((data q).getLsbD i).toNat + 2 * ((data q).getLsbD (i + 1)).toNat + 4 * ((data q).getLsbD (i + 2)).toNat →
      BitVec.ofNat 8 (alphaTable (data p).toNat (data (p + 1)).toNat x.toNat) = bc4Texel data p k := by
    intro q i k x hi hpos hx
    unfold bc4Texel
    rw [fieldAt_three, hpos, Nat.add_assoc (8 * q), Nat.add_assoc (8 * q), hbits q i (by omega), hbits q (i + 1) (by omega), hbits q (i + 2) (by omega), ← hx,
      alphaTable_value]
    rw [hx]
    have := Bool.toNat_lt ((data q).getLsbD i)
    have := Bool.toNat_lt ((data q).getLsbD (i + 1))
    have := Bool.toNat_lt ((data q).getLsbD (i + 2))
    omega
  have split6 : ∀ (q k : Nat) (x : BitVec 8), 8 * (p + 2) + 3 * k = 8 * q + 6 →
      x.toNat = ((data q).getLsbD 6).toNat + 2 * ((data q).getLsbD 7).toNat + 4 * ((data (q + 1)).getLsbD 0).toNat →
      BitVec.ofNat 8 (alphaTable (data p).toNat (data (p + 1)).toNat x.toNat) = bc4Texel data p k := by
    intro q k x hpos hx
    unfold bc4Texel
    rw [fieldAt_three, hpos, show 8 * q + 6 + 1 = 8 * q + 7 by omega, show 8 * q + 6 + 2 = 8 * (q + 1) + 0 by omega, hbits q 6 (by omega), hbits q 7 (by omega),
      hbits (q + 1) 0 (by omega), ← hx, alphaTable_value]
    rw [hx]
    have := Bool.toNat_lt ((data q).getLsbD 6)
    have := Bool.toNat_lt ((data q).getLsbD 7)
    have := Bool.toNat_lt ((data (q + 1)).getLsbD 0)
    omega
  have split7 : ∀ (q k : Nat) (x : BitVec 8), 8 * (p + 2) + 3 * k = 8 * q + 7 →
      x.toNat = ((data q).getLsbD 7).toNat + 2 * ((data (q + 1)).getLsbD 0).toNat + 4 * ((data (q + 1)).getLsbD 1).toNat →
      BitVec.ofNat 8 (alphaTable (data p).toNat (data (p + 1)).toNat x.toNat) = bc4Texel data p k := by
    intro q k x hpos hx
    unfold bc4Texel
    rw [fieldAt_three, hpos, show 8 * q + 7 + 1 = 8 * (q + 1) + 0 by omega, show 8 * q + 7 + 2 = 8 * (q + 1) + 1 by omega, hbits q 7 (by omega),
      hbits (q + 1) 0 (by omega), hbits (q + 1) 1 (by omega), ← hx, alphaTable_value]
    rw [hx]
    have := Bool.toNat_lt ((data q).getLsbD 7)
    have := Bool.toNat_lt ((data (q + 1)).getLsbD 0)
    have := Bool.toNat_lt ((data (q + 1)).getLsbD 1)
    omega
  have v0 : ∀ c : BitVec 8, (c &&& 7#8).toNat = (c.getLsbD 0).toNat + 2 * (c.getLsbD 1).toNat + 4 * (c.getLsbD 2).toNat := by decide +kernel
  have v1 : ∀ c : BitVec 8, ((c &&& 0x38#8) >>> 3).toNat = (c.getLsbD 3).toNat + 2 * (c.getLsbD 4).toNat + 4 * (c.getLsbD 5).toNat := by decide +kernel
  have v3 : ∀ c : BitVec 8, ((c &&& 0xE#8) >>> 1).toNat = (c.getLsbD 1).toNat + 2 * (c.getLsbD 2).toNat + 4 * (c.getLsbD 3).toNat := by decide +kernel
  have v4 : ∀ c : BitVec 8, ((c &&& 0x70#8) >>> 4).toNat = (c.getLsbD 4).toNat + 2 * (c.getLsbD 5).toNat + 4 * (c.getLsbD 6).toNat := by decide +kernel
  have v6 : ∀ c : BitVec 8, ((c &&& 0x1c#8) >>> 2).toNat = (c.getLsbD 2).toNat + 2 * (c.getLsbD 3).toNat + 4 * (c.getLsbD 4).toNat := by decide +kernel
  have v7 : ∀ c : BitVec 8, ((c &&& 0xE0#8) >>> 5).toNat = (c.getLsbD 5).toNat + 2 * (c.getLsbD 6).toNat + 4 * (c.getLsbD 7).toNat := by decide +kernel
  have l6 : ∀ c : BitVec 8, (c &&& 0xc0#8) >>> 6 = BitVec.ofNat 8 ((c.getLsbD 6).toNat + 2 * (c.getLsbD 7).toNat) := by decide +kernel
  have r6 : ∀ c : BitVec 8, (c &&& 1#8) <<< 2 = BitVec.ofNat 8 (4 * (c.getLsbD 0).toNat) := by decide +kernel
  have l7 : ∀ c : BitVec 8, (c &&& 0x80#8) >>> 7 = BitVec.ofNat 8 ((c.getLsbD 7).toNat) := by decide +kernel
  have r7 : ∀ c : BitVec 8, (c &&& 3#8) <<< 1 = BitVec.ofNat 8 (2 * (c.getLsbD 0).toNat + 4 * (c.getLsbD 1).toNat) := by decide +kernel
  have o6 : ∀ a b c : Bool, (BitVec.ofNat 8 (a.toNat + 2 * b.toNat) ||| BitVec.ofNat 8 (4 * c.toNat)).toNat = a.toNat + 2 * b.toNat + 4 * c.toNat := by decide
  have o7 : ∀ a b c : Bool, (BitVec.ofNat 8 a.toNat ||| BitVec.ofNat 8 (2 * b.toNat + 4 * c.toNat)).toNat = a.toNat + 2 * b.toNat + 4 * c.toNat := by decide
  unfold bc4Stores bc4Turn
  have hr : List.range 16 = [0, 1, 2, 3, 4, 5, 6, 7, 8, 9, 10, 11, 12, 13, 14, 15] := by decide
  rw [hr]
  simp only [List.map_cons, List.map_nil, List.cons_append, List.nil_append, Nat.reduceDiv, Nat.reduceMod, Nat.reduceAdd]
  rw [single (p + 2) 0 0 _ (by omega) (by omega) (v0 _), single (p + 2) 3 1 _ (by omega) (by omega) (v1 _),
    split6 (p + 2) 2 _ (by omega) (by rw [l6, r6, o6]), single (p + 2 + 1) 1 3 _ (by omega) (by omega) (v3 _),
    single (p + 2 + 1) 4 4 _ (by omega) (by omega) (v4 _), split7 (p + 2 + 1) 5 _ (by omega) (by rw [l7, r7, o7]),
    single (p + 2 + 2) 2 6 _ (by omega) (by omega) (v6 _), single (p + 2 + 2) 5 7 _ (by omega) (by omega) (v7 _),
    single (p + 5) 0 8 _ (by omega) (by omega) (v0 _), single (p + 5) 3 9 _ (by omega) (by omega) (v1 _),
    split6 (p + 5) 10 _ (by omega) (by rw [l6, r6, o6]), single (p + 5 + 1) 1 11 _ (by omega) (by omega) (v3 _),
    single (p + 5 + 1) 4 12 _ (by omega) (by omega) (v4 _), split7 (p + 5 + 1) 13 _ (by omega) (by rw [l7, r7, o7]),
    single (p + 5 + 2) 2 14 _ (by omega) (by omega) (v6 _), single (p + 5 + 2) 5 15 _ (by omega) (by omega) (v7 _)]

theorem bc2Stores_texels (data : Nat → Byte) (p : Nat) :
    bc2Stores data p = (List.range 16).map (fun k => (k / 4, k % 4, [bc2Texel data p k])) := by
  have lo : ∀ c : BitVec 8, (c &&& 0xf#8) * 17#8 = BitVec.ofNat 8 (((c.getLsbD 0).toNat + 2 * (c.getLsbD 1).toNat + 4 * (c.getLsbD 2).toNat + 8 * (c.getLsbD 3).toNat) * 255 / 15) := by
    decide +kernel
  have hi : ∀ c : BitVec 8, ((c &&& 0xf0#8) >>> 4) * 17#8 = BitVec.ofNat 8 (((c.getLsbD 4).toNat + 2 * (c.getLsbD 5).toNat + 4 * (c.getLsbD 6).toNat + 8 * (c.getLsbD 7).toNat) * 255 / 15) := by
    decide +kernel
  have even : ∀ q k, 8 * p + 4 * k = 8 * q → (data q &&& 0xf#8) * 17#8 = bc2Texel data p k := by
    intro q k h
    unfold bc2Texel
    rw [lo, fieldAt_four, h, show 8 * q = 8 * q + 0 by omega, Nat.add_assoc (8 * q), Nat.add_assoc (8 * q), Nat.add_assoc (8 * q), bitAt_byte _ q _ (by omega),
      bitAt_byte _ q _ (by omega), bitAt_byte _ q _ (by omega), bitAt_byte _ q _ (by omega)]
  have odd : ∀ q k, 8 * p + 4 * k = 8 * q + 4 → ((data q &&& 0xf0#8) >>> 4) * 17#8 = bc2Texel data p k := by
    intro q k h
    unfold bc2Texel
    rw [hi, fieldAt_four, h, Nat.add_assoc (8 * q), Nat.add_assoc (8 * q), Nat.add_assoc (8 * q), bitAt_byte _ q _ (by omega),
      bitAt_byte _ q _ (by omega), bitAt_byte _ q _ (by omega), bitAt_byte _ q _ (by omega)]
  unfold bc2Stores bc2Row
  have hr : List.range 16 = [0, 1, 2, 3, 4, 5, 6, 7, 8, 9, 10, 11, 12, 13, 14, 15] := by decide
  rw [hr]
  simp only [List.map_cons, List.map_nil, List.cons_append, List.nil_append, Nat.reduceDiv, Nat.reduceMod]
  rw [even p 0 (by omega), odd p 1 (by omega), even (p + 1) 2 (by omega), odd (p + 1) 3 (by omega),
    even (p + 2) 4 (by omega), odd (p + 2) 5 (by omega), even (p + 2 + 1) 6 (by omega), odd (p + 2 + 1) 7 (by omega),
    even (p + 4) 8 (by omega), odd (p + 4) 9 (by omega), even (p + 4 + 1) 10 (by omega), odd (p + 4 + 1) 11 (by omega),
    even (p + 6) 12 (by omega), odd (p + 6) 13 (by omega), even (p + 6 + 1) 14 (by omega), odd (p + 6 + 1) 15 (by omega)]

theorem index2 (data : Nat → Byte) (q : Nat) :
    (data q &&& 3#8).toNat = fieldAt data (8 * q) 2 ∧ ((data q &&& 0xc#8) >>> 2).toNat = fieldAt data (8 * q + 2) 2 ∧
    ((data q &&& 0x30#8) >>> 4).toNat = fieldAt data (8 * q + 4) 2 ∧ ((data q &&& 0xc0#8) >>> 6).toNat = fieldAt data (8 * q + 6) 2 := by
  have h0 : ∀ c : BitVec 8, (c &&& 3#8).toNat = (c.getLsbD 0).toNat + 2 * (c.getLsbD 1).toNat := by decide +kernel
  have h1 : ∀ c : BitVec 8, ((c &&& 0xc#8) >>> 2).toNat = (c.getLsbD 2).toNat + 2 * (c.getLsbD 3).toNat := by decide +kernel
  have h2 : ∀ c : BitVec 8, ((c &&& 0x30#8) >>> 4).toNat = (c.getLsbD 4).toNat + 2 * (c.getLsbD 5).toNat := by decide +kernel
  have h3 : ∀ c : BitVec 8, ((c &&& 0xc0#8) >>> 6).toNat = (c.getLsbD 6).toNat + 2 * (c.getLsbD 7).toNat := by decide +kernel
  refine ⟨?_, ?_, ?_, ?_⟩
  · rw [h0, fieldAt_two, bitAt_byte data q 1 (by omega), show 8 * q = 8 * q + 0 by omega, bitAt_byte data q 0 (by omega)]
  · rw [h1, fieldAt_two, Nat.add_assoc, bitAt_byte data q _ (by omega), bitAt_byte data q _ (by omega)]
  · rw [h2, fieldAt_two, Nat.add_assoc, bitAt_byte data q _ (by omega), bitAt_byte data q _ (by omega)]
  · rw [h3, fieldAt_two, Nat.add_assoc, bitAt_byte data q _ (by omega), bitAt_byte data q _ (by omega)]

theorem bc1Stores_texels (colors : List Byte → Nat → List Byte) (data : Nat → Byte) (p : Nat) :
    bc1Stores colors data p = (List.range 16).map (fun k => (k / 4, k % 4, colourTexel colors data p k)) := by
  unfold bc1Stores bc1Row
  have hr : List.range 16 = [0, 1, 2, 3, 4, 5, 6, 7, 8, 9, 10, 11, 12, 13, 14, 15] := by decide
  rw [hr]
  obtain ⟨a0, a1, a2, a3⟩ := index2 data (p + 4)
  obtain ⟨b0, b1, b2, b3⟩ := index2 data (p + 5)
  obtain ⟨c0, c1, c2, c3⟩ := index2 data (p + 6)
  obtain ⟨d0, d1, d2, d3⟩ := index2 data (p + 7)
  unfold colourTexel
  simp only [List.map_cons, List.map_nil, List.cons_append, List.nil_append, Nat.reduceDiv, Nat.reduceMod, Nat.reduceMul, a0, a1, a2, a3, b0, b1, b2, b3, c0, c1, c2, c3, d0, d1, d2, d3]
  rw [show 8 * (p + 4) + 8 = 8 * (p + 5) by omega, show 8 * (p + 4) + 10 = 8 * (p + 5) + 2 by omega, show 8 * (p + 4) + 12 = 8 * (p + 5) + 4 by omega,
    show 8 * (p + 4) + 14 = 8 * (p + 5) + 6 by omega, show 8 * (p + 4) + 16 = 8 * (p + 6) by omega, show 8 * (p + 4) + 18 = 8 * (p + 6) + 2 by omega,
    show 8 * (p + 4) + 20 = 8 * (p + 6) + 4 by omega, show 8 * (p + 4) + 22 = 8 * (p + 6) + 6 by omega, show 8 * (p + 4) + 24 = 8 * (p + 7) by omega,
    show 8 * (p + 4) + 26 = 8 * (p + 7) + 2 by omega, show 8 * (p + 4) + 28 = 8 * (p + 7) + 4 by omega, show 8 * (p + 4) + 30 = 8 * (p + 7) + 6 by omega]
  rfl

/-! ## The decoders -/

/-- One channel: a decoder that stores one byte per texel at `o`, in an image of pixel size `pix`. -/
def ChannelDecoded (w h width : BitVec 32) (pix o : Nat) (texel : Nat → Byte) (buf buf' : Buf) : Prop :=
  (∀ k, k < 16 → buf' (o + texelAddr w.toNat h.toNat width.toNat pix k) = texel k) ∧
  (∀ a, (∀ k, k < 16 → a ≠ o + texelAddr w.toNat h.toNat width.toNat pix k) → buf' a = buf a)

theorem channel_of_stores (w h width pix : BitVec 32) (H o : Nat) (hi : Inside w h width H pix.toNat) (hp : 0 < pix.toNat)
    (s : Stores) (f : Nat → Byte) (hs : s = (List.range 16).map (fun k => (k / 4, k % 4, [f k]))) (buf : Buf) :
    ChannelDecoded w h width pix.toNat o f buf (perform w h width pix o s buf) := by
  obtain ⟨h1, h2⟩ := perform_spec w h width pix H hi hp o 1 (fun k => [f k]) hp (fun _ => rfl) buf
  rw [hs]
  constructor
  · intro k hk
    have := h1 k hk 0 (by omega)
    simpa using this
  · intro a ha
    apply h2
    intro k hk j hj
    have : j = 0 := by omega
    subst this
    exact ha k hk

/-- C35, BC4: each of the 16 texels of the block is set from its own three bits, nothing else changes, and every byte
written lies inside of the image. -/
theorem bc4_decodes (data : Nat → Byte) (o : Nat) (w h width : BitVec 32) (H : Nat) (hi : Inside w h width H 1) (buf : Buf) :
    ChannelDecoded w h width 1 o (bc4Texel data 0) buf (decodeBC4 data o w h width buf) ∧
      (∀ k, k < 16 → texelAddr w.toNat h.toNat width.toNat 1 k < 16 * width.toNat * H) := by
  refine ⟨channel_of_stores w h width 1#32 H o hi (by decide) _ _ (bc4Stores_texels data 0) buf, ?_⟩
  intro k hk
  have := (pixelOffset_toNat w h width 1#32 H hi.col hi.row hi.fits (by decide) k hk).2
  simp only [BitVec.toNat_ofNat, Nat.reducePow, Nat.reduceMod, Nat.mul_one] at this
  omega

/-- Two decoders writing different channels of the same block do not disturb each other. -/
theorem two_channels (w h width : BitVec 32) (pix o c c' : Nat) (t t' : Nat → Byte) (b b1 b2 : Buf) (hw : w.toNat < width.toNat) (hc : c < pix) (hc' : c' < pix) (hne : c ≠ c')
    (h1 : ChannelDecoded w h width pix (o + c) t b b1) (h2 : ChannelDecoded w h width pix (o + c') t' b1 b2) :
    (∀ k, k < 16 → b2 (o + texelAddr w.toNat h.toNat width.toNat pix k + c) = t k ∧ b2 (o + texelAddr w.toNat h.toNat width.toNat pix k + c') = t' k) ∧
    (∀ a, (∀ k, k < 16 → a ≠ o + texelAddr w.toNat h.toNat width.toNat pix k + c ∧ a ≠ o + texelAddr w.toNat h.toNat width.toNat pix k + c') → b2 a = b a) := by
  have apart := texelAddr_apart w.toNat h.toNat width.toNat pix
  constructor
  · intro k hk
    constructor
    · rw [h2.2, ← h1.1 k hk]
      · congr 1; omega
      · intro k' hk' he
        by_cases hkk : k = k'
        · subst hkk; omega
        · have := apart k k' hw ⟨hk, hk', hkk⟩
          omega
    · rw [← h2.1 k hk]
      congr 1; omega
  · intro a ha
    rw [h2.2, h1.2]
    · intro k hk he; exact (ha k hk).1 (by omega)
    · intro k hk he; exact (ha k hk).2 (by omega)

/-- C35, BC5 into three byte pixels: channel 1 from the first half of the block, channel 2 from the second half, channel 0
and all other pixels unchanged. -/
theorem bc5_decodes (data : Nat → Byte) (o : Nat) (w h width : BitVec 32) (H : Nat) (hi : Inside w h width H 3) (buf : Buf) :
    (∀ k, k < 16 → decodeBC5 data o w h width buf (o + texelAddr w.toNat h.toNat width.toNat 3 k + 1) = bc4Texel data 0 k ∧
      decodeBC5 data o w h width buf (o + texelAddr w.toNat h.toNat width.toNat 3 k + 2) = bc4Texel data 8 k) ∧
    (∀ a, (∀ k, k < 16 → a ≠ o + texelAddr w.toNat h.toNat width.toNat 3 k + 1 ∧ a ≠ o + texelAddr w.toNat h.toNat width.toNat 3 k + 2) →
      decodeBC5 data o w h width buf a = buf a) :=
  two_channels w h width 3 o 1 2 _ _ buf _ _ hi.col (by omega) (by omega) (by omega)
    (channel_of_stores w h width 3#32 H (o + 1) hi (by decide) _ _ (bc4Stores_texels data 0) buf)
    (channel_of_stores w h width 3#32 H (o + 2) hi (by decide) _ _ (bc4Stores_texels data 8) _)

/-- C35, BC5 into two byte pixels. -/
theorem bc5GA_decodes (data : Nat → Byte) (o : Nat) (w h width : BitVec 32) (H : Nat) (hi : Inside w h width H 2) (buf : Buf) :
    (∀ k, k < 16 → decodeBC5GA data o w h width buf (o + texelAddr w.toNat h.toNat width.toNat 2 k + 0) = bc4Texel data 0 k ∧
      decodeBC5GA data o w h width buf (o + texelAddr w.toNat h.toNat width.toNat 2 k + 1) = bc4Texel data 8 k) ∧
    (∀ a, (∀ k, k < 16 → a ≠ o + texelAddr w.toNat h.toNat width.toNat 2 k + 0 ∧ a ≠ o + texelAddr w.toNat h.toNat width.toNat 2 k + 1) →
      decodeBC5GA data o w h width buf a = buf a) :=
  two_channels w h width 2 o 0 1 _ _ buf _ _ hi.col (by omega) (by omega) (by omega)
    (channel_of_stores w h width 2#32 H (o + 0) hi (by decide) _ _ (bc4Stores_texels data 0) buf)
    (channel_of_stores w h width 2#32 H (o + 1) hi (by decide) _ _ (bc4Stores_texels data 8) _)

/-- A colour palette: three bytes for every colour. -/
def Palette (colors : List Byte → Nat → List Byte) : Prop := ∀ e i, (colors e i).length = 3

/-- The alpha channel first, the colours after it. -/
theorem alpha_then_colour (w h width : BitVec 32) (H o : Nat) (hi : Inside w h width H 4) (colors : List Byte → Nat → List Byte) (hp : Palette colors)
    (data : Nat → Byte) (p : Nat) (t : Nat → Byte) (buf b1 : Buf) (h1 : ChannelDecoded w h width 4 (o + 3) t buf b1) :
    (∀ k, k < 16 → perform w h width 4#32 o (bc1Stores colors data p) b1 (o + texelAddr w.toNat h.toNat width.toNat 4 k + 3) = t k ∧
      ∀ j, j < 3 → perform w h width 4#32 o (bc1Stores colors data p) b1 (o + texelAddr w.toNat h.toNat width.toNat 4 k + j) =
        (colourTexel colors data p k).getD j 0#8) ∧
    (∀ a, (∀ k, k < 16 → ∀ j, j < 4 → a ≠ o + texelAddr w.toNat h.toNat width.toNat 4 k + j) →
      perform w h width 4#32 o (bc1Stores colors data p) b1 a = buf a) := by
  obtain ⟨g1, g2⟩ := perform_spec w h width 4#32 H hi (by decide) o 3 (colourTexel colors data p) (by decide) (fun k => hp _ _) b1
  rw [bc1Stores_texels]
  simp only [BitVec.toNat_ofNat, Nat.reducePow, Nat.reduceMod] at g1 g2
  have apart := texelAddr_apart w.toNat h.toNat width.toNat 4
  constructor
  · intro k hk
    constructor
    · rw [g2, ← h1.1 k hk]
      · congr 1; omega
      · intro k' hk' j hj he
        by_cases hkk : k = k'
        · subst hkk; omega
        · have := apart k k' hi.col ⟨hk, hk', hkk⟩
          omega
    · intro j hj
      exact g1 k hk j hj
  · intro a ha
    rw [g2, h1.2]
    · intro k hk he; exact ha k hk 3 (by omega) (by omega)
    · intro k hk j hj; exact ha k hk j (by omega)

/-- C35, BC3: alpha of each texel from its three bits of the first half, colour from its two bits of the second half. -/
theorem bc3_decodes (colors : List Byte → Nat → List Byte) (hp : Palette colors) (data : Nat → Byte) (o : Nat) (w h width : BitVec 32) (H : Nat)
    (hi : Inside w h width H 4) (buf : Buf) :
    (∀ k, k < 16 → decodeBC3 colors data o w h width buf (o + texelAddr w.toNat h.toNat width.toNat 4 k + 3) = bc4Texel data 0 k ∧
      ∀ j, j < 3 → decodeBC3 colors data o w h width buf (o + texelAddr w.toNat h.toNat width.toNat 4 k + j) = (colourTexel colors data 8 k).getD j 0#8) ∧
    (∀ a, (∀ k, k < 16 → ∀ j, j < 4 → a ≠ o + texelAddr w.toNat h.toNat width.toNat 4 k + j) → decodeBC3 colors data o w h width buf a = buf a) :=
  alpha_then_colour w h width H o hi colors hp data 8 _ buf _ (channel_of_stores w h width 4#32 H (o + 3) hi (by decide) _ _ (bc4Stores_texels data 0) buf)

/-- C35, BC2: alpha of each texel from its four bits of the first half, colour from its two bits of the second half. -/
theorem bc2_decodes (colors : List Byte → Nat → List Byte) (hp : Palette colors) (data : Nat → Byte) (o : Nat) (w h width : BitVec 32) (H : Nat)
    (hi : Inside w h width H 4) (buf : Buf) :
    (∀ k, k < 16 → decodeBC2 colors data o w h width buf (o + texelAddr w.toNat h.toNat width.toNat 4 k + 3) = bc2Texel data 0 k ∧
      ∀ j, j < 3 → decodeBC2 colors data o w h width buf (o + texelAddr w.toNat h.toNat width.toNat 4 k + j) = (colourTexel colors data 8 k).getD j 0#8) ∧
    (∀ a, (∀ k, k < 16 → ∀ j, j < 4 → a ≠ o + texelAddr w.toNat h.toNat width.toNat 4 k + j) → decodeBC2 colors data o w h width buf a = buf a) :=
  alpha_then_colour w h width H o hi colors hp data 8 _ buf _ (channel_of_stores w h width 4#32 H (o + 3) hi (by decide) _ _ (bc2Stores_texels data 0) buf)

/-- C35, BC1 without alpha: three bytes per texel. -/
theorem bc1_decodes (colors : List Byte → Nat → List Byte) (hp : Palette colors) (data : Nat → Byte) (o : Nat) (w h width : BitVec 32) (H : Nat)
    (hi : Inside w h width H 3) (buf : Buf) :
    (∀ k, k < 16 → ∀ j, j < 3 → decodeBC1 colors data o w h width buf (o + texelAddr w.toNat h.toNat width.toNat 3 k + j) =
      (colourTexel colors data 0 k).getD j 0#8) ∧
    (∀ a, (∀ k, k < 16 → ∀ j, j < 3 → a ≠ o + texelAddr w.toNat h.toNat width.toNat 3 k + j) → decodeBC1 colors data o w h width buf a = buf a) := by
  have := perform_spec w h width 3#32 H hi (by decide) o 3 (colourTexel colors data 0) (by decide) (fun k => hp _ _) buf
  unfold decodeBC1
  rw [bc1Stores_texels]
  exact this

/-- The texels of a block lie inside of the image, whatever the pixel size. -/
theorem texel_inside (w h width pix : BitVec 32) (H : Nat) (hi : Inside w h width H pix.toNat) (hp : 0 < pix.toNat) (k : Nat) (hk : k < 16) :
    texelAddr w.toNat h.toNat width.toNat pix.toNat k + pix.toNat ≤ 16 * width.toNat * H * pix.toNat :=
  (pixelOffset_toNat w h width pix H hi.col hi.row hi.fits hp k hk).2

/-- A block at (1, 2) of a 12 x 16 image; its data and some texels. -/
def sampleData : Nat → Byte := fun i => [0xc8#8, 0x10#8, 0x88#8, 0xc6#8, 0xfa#8, 0x88#8, 0xc6#8, 0xfa#8].getD i 0#8

example : Inside 1 2 3 4 1 ∧ decodeBC4 sampleData 0 1 2 3 (fun _ => 0#8) (texelAddr 1 2 3 1 13) = bc4Texel sampleData 0 13 ∧
    bc4Texel sampleData 0 13 = 0x5e#8 := by
  refine ⟨⟨by decide, by decide, by decide⟩, by decide +kernel, by decide +kernel⟩

/-- Alpha of texel `k` in a block with transparency: index 3 is transparent. -/
def cutTexel (data : Nat → Byte) (k : Nat) : Byte := if fieldAt data (32 + 2 * k) 2 = 3 then 0#8 else 0xff#8

/-- The rows of the colour and alpha stores. -/
theorem bc1Row_texels (c : Nat → List Byte) (data : Nat → Byte) (r : Nat) :
    bc1Row data (fun i => c i.toNat) r (4 + r) = [0, 1, 2, 3].map (fun j => (r, j, c (fieldAt data (32 + 2 * (4 * r + j)) 2))) ∧
    bc1AlphaRow data r (4 + r) = [0, 1, 2, 3].map (fun j => (r, j, [cutTexel data (4 * r + j)])) := by
  obtain ⟨a0, a1, a2, a3⟩ := index2 data (4 + r)
  have e0 : 32 + 2 * (4 * r + 0) = 8 * (4 + r) := by omega
  have e1 : 32 + 2 * (4 * r + 1) = 8 * (4 + r) + 2 := by omega
  have e2 : 32 + 2 * (4 * r + 2) = 8 * (4 + r) + 4 := by omega
  have e3 : 32 + 2 * (4 * r + 3) = 8 * (4 + r) + 6 := by omega
  have h3 : ∀ d : BitVec 8, (d = 3#8) = (d.toNat = 3) := by
    intro d
    rw [← BitVec.toNat_inj]; rfl
  unfold bc1Row bc1AlphaRow cutTexel
  simp only [List.map_cons, List.map_nil, e0, e1, e2, e3, a0, a1, a2, a3, h3, and_self]

/-- C35, BC1 with transparency (first end colour not above the second): colour and alpha of each texel from its two bits. -/
theorem bc1A_decodes_partial (colors : List Byte → Nat → List Byte) (hp : Palette colors) (data : Nat → Byte) (hcut : fourColours data = false)
    (o : Nat) (w h width : BitVec 32) (H : Nat) (hi : Inside w h width H 4) (buf : Buf) :
    (∀ k, k < 16 → decodeBC1A colors data o w h width buf (o + texelAddr w.toNat h.toNat width.toNat 4 k + 3) = cutTexel data k ∧
      ∀ j, j < 3 → decodeBC1A colors data o w h width buf (o + texelAddr w.toNat h.toNat width.toNat 4 k + j) = (colourTexel colors data 0 k).getD j 0#8) ∧
    (∀ a, (∀ k, k < 16 → ∀ j, j < 4 → a ≠ o + texelAddr w.toNat h.toNat width.toNat 4 k + j) → decodeBC1A colors data o w h width buf a = buf a) := by
  -- all stores in program order: texel number and whether it is the alpha store
  let order : List (Nat × Bool) := [(0, false), (1, false), (2, false), (3, false), (0, true), (1, true), (2, true), (3, true),
    (4, false), (5, false), (6, false), (7, false), (4, true), (5, true), (6, true), (7, true),
    (8, false), (9, false), (10, false), (11, false), (8, true), (9, true), (10, true), (11, true),
    (12, false), (13, false), (14, false), (15, false), (12, true), (13, true), (14, true), (15, true)]
  let g : Nat × Bool → Nat × List Byte := fun q =>
    if q.2 then (o + 3 + texelAddr w.toNat h.toNat width.toNat 4 q.1, [cutTexel data q.1])
    else (o + texelAddr w.toNat h.toNat width.toNat 4 q.1, colourTexel colors data 0 q.1)
  have hord : ∀ q ∈ order, q.1 < 16 := by decide
  have hmem : ∀ k, k < 16 → ∀ b, (k, b) ∈ order := by decide
  have hnd : order.Nodup := by decide
  have hlen : ∀ q, (g q).2.length = if q.2 then 1 else 3 := by
    rintro ⟨k, b⟩
    cases b
    · exact hp _ _
    · rfl
  have haddr : ∀ q, (g q).1 = o + texelAddr w.toNat h.toNat width.toNat 4 q.1 + (if q.2 then 3 else 0) := by
    rintro ⟨k, b⟩
    cases b
    · rfl
    · show o + 3 + _ = _
      simp only [if_true]; omega
  have hform : decodeBC1A colors data o w h width buf = (order.map g).foldl (fun b p => store b p.1 p.2) buf := by
    have po : ∀ k, k < 16 → (pixelOffset w h width 4#32 (k / 4) (k % 4)).toNat = texelAddr w.toNat h.toNat width.toNat 4 k :=
      fun k hk => (pixelOffset_toNat w h width 4#32 H hi.col hi.row hi.fits (by decide) k hk).1
    have p0 := po 0 (by omega); have p1 := po 1 (by omega); have p2 := po 2 (by omega); have p3 := po 3 (by omega)
    have p4 := po 4 (by omega); have p5 := po 5 (by omega); have p6 := po 6 (by omega); have p7 := po 7 (by omega)
    have p8 := po 8 (by omega); have p9 := po 9 (by omega); have p10 := po 10 (by omega); have p11 := po 11 (by omega)
    have p12 := po 12 (by omega); have p13 := po 13 (by omega); have p14 := po 14 (by omega); have p15 := po 15 (by omega)
    simp only [Nat.reduceDiv, Nat.reduceMod] at p0 p1 p2 p3 p4 p5 p6 p7 p8 p9 p10 p11 p12 p13 p14 p15
    unfold decodeBC1A
    simp only [hcut, (bc1Row_texels (colors [data 0, data 1, data 2, data 3]) data _).1, (bc1Row_texels (fun _ => []) data _).2, perform, Bool.false_eq_true, if_false,
      List.map_cons, List.map_nil, List.foldl_cons, List.foldl_nil, p0, p1, p2, p3, p4, p5, p6, p7, p8, p9, p10, p11, p12, p13, p14, p15]
    simp only [order, g, List.map_cons, List.map_nil, List.foldl_cons, List.foldl_nil, if_true, Bool.false_eq_true, if_false, colourTexel]
  have hpw : (order.map g).Pairwise (fun p q => ∀ a, ¬ ((p.1 ≤ a ∧ a < p.1 + p.2.length) ∧ (q.1 ≤ a ∧ a < q.1 + q.2.length))) := by
    rw [List.pairwise_map]
    apply List.Pairwise.imp_of_mem _ hnd
    rintro ⟨k, b⟩ ⟨k', b'⟩ hk hk' hne a
    rw [hlen, hlen, haddr, haddr]
    rintro ⟨⟨a1, a2⟩, a3, a4⟩
    by_cases hkk : k = k'
    · subst hkk
      have hb : b ≠ b' := by rintro rfl; exact hne rfl
      cases b <;> cases b' <;> simp_all <;> omega
    · have := texelAddr_apart w.toNat h.toNat width.toNat 4 k k' hi.col ⟨hord _ hk, hord _ hk', hkk⟩
      cases b <;> cases b' <;> simp only [if_true, Bool.false_eq_true, if_false] at a1 a2 a3 a4 <;> omega
  rw [hform]
  constructor
  · intro k hk
    constructor
    · have := fold_in _ hpw buf (o + texelAddr w.toNat h.toNat width.toNat 4 k + 3) (g (k, true)) (List.mem_map_of_mem (hmem k hk true))
        (by rw [haddr]; simp) (by rw [haddr, hlen]; simp)
      rw [this, haddr]
      simp [g]
    · intro j hj
      have := fold_in _ hpw buf (o + texelAddr w.toNat h.toNat width.toNat 4 k + j) (g (k, false)) (List.mem_map_of_mem (hmem k hk false))
        (by rw [haddr]; simp) (by rw [haddr, hlen]; simp only [Bool.false_eq_true, if_false]; omega)
      rw [this, haddr]
      simp only [Bool.false_eq_true, if_false, g]
      congr 1
      omega
  · intro a ha
    apply fold_out
    intro p hp'
    obtain ⟨⟨k, b⟩, hk, rfl⟩ := List.mem_map.mp hp'
    rw [haddr, hlen]
    intro hc
    have h16 := hord _ hk
    cases b
    · simp only [Bool.false_eq_true, if_false] at hc
      exact ha k h16 (a - (o + texelAddr w.toNat h.toNat width.toNat 4 k)) (by omega) (by omega)
    · simp only [if_true] at hc
      exact ha k h16 3 (by omega) (by omega)

/-- The alpha channel of a four colour block is not written by the decoder with alpha. -/
theorem bc1A_alpha_violated : ∃ (colors : List Byte → Nat → List Byte) (data : Nat → Byte), Palette colors ∧ fourColours data = true ∧
    ∀ v : Byte, decodeBC1A colors data 0 0 0 1 (fun _ => v) 3 = v :=
  ⟨fun _ _ => [1#8, 2#8, 3#8], fun i => if i = 0 then 1#8 else 0#8, fun _ _ => rfl, by decide, by intro v; rfl⟩

end PreCore.Block
