import Verif.Spec.Dxgi
import Verif.Props.Dds
/-!
# C128: bits per pixel and block compression of texture formats
-/
namespace PreCore.Dds
open PreCore.Spec

/-- The formats that `ComputeBPP` gets wrong. -/
def misjudged : List String :=
  ["R8G8_B8G8_UNORM", "G8R8_G8B8_UNORM", "P010", "P016", "420_OPAQUE", "YUY2", "Y216", "NV11", "AI44", "IA44", "P8", "A8P8", "P208", "V208", "V408"]

theorem bpp_table : ∀ i : Fin 120, ∀ e b, dxgi[i.val]? = some e → bpps[i.val]? = some b →
    (match e.2.bits with
     | some n => (b = BitVec.ofNat 32 n ↔ e.1 ∉ misjudged)
     | none => b = 0#32) := by
  have key : ∀ i : Fin 120, (match dxgi[i.val]?, bpps[i.val]? with
      | some e, some b => (match e.2.bits with
        | some n => (decide (b = BitVec.ofNat 32 n) == decide (e.1 ∉ misjudged))
        | none => decide (b = 0#32))
      | _, _ => true) = true := by decide +kernel
  intro i e b he hb
  have := key i
  rw [he, hb] at this
  simp only at this
  revert this
  cases e.2.bits with
  | none => intro this; simpa using this
  | some n => intro this; simpa only [beq_iff_eq, decide_eq_decide] using this

/-- C128: `ComputeBPP` of a DX10 header without a value sets exactly the bits a pixel of the format takes, for every
format but the misjudged ones; nothing else in the header changes. -/
theorem bpp_dx10_partial (d : Header) (h : d.pf = fmtDX10) (name : String) (l : Layout) (n : Nat)
    (hf : dxgi[d.dxgiFormat.toNat]? = some (name, l)) (hl : l.bits = some n) :
    (computeBPP d = some { d with pf := { d.pf with bpp := BitVec.ofNat 32 n } } ↔ name ∉ misjudged) := by
  have hlt : d.dxgiFormat.toNat < 120 := by
    have h0 : dxgi.length = 120 := by decide +kernel
    have := (List.getElem?_eq_some_iff.1 hf).1
    omega
  obtain ⟨b, hb, hc⟩ := (computeBPP_dx10 d h).1 hlt
  have := bpp_table ⟨d.dxgiFormat.toNat, hlt⟩ _ b hf hb
  simp only [hl] at this
  rw [hc]
  rw [← this]
  constructor
  · intro e
    injection e with e
    have := congrArg (fun d : Header => d.pf.bpp) e
    exact this
  · intro e
    rw [e]

example : ∃ d : Header, d.pf = fmtDX10 ∧ dxgi[d.dxgiFormat.toNat]? = some ("B5G5R5A1_UNORM", .channels [5, 5, 5, 1]) ∧
    computeBPP d = some { d with pf := { d.pf with bpp := 16#32 } } :=
  ⟨⟨0, 4, 4, 1, fmtDX10, 0, 86#32, 0⟩, by decide +kernel, by decide +kernel, by decide +kernel⟩

/-- C128 fails for formats that store pixels in pairs: twice the size is calculated. -/
theorem bpp_pairs_violated : ∃ d : Header, d.pf = fmtDX10 ∧ dxgi[d.dxgiFormat.toNat]? = some ("R8G8_B8G8_UNORM", .pairs [8, 8, 8, 8]) ∧
    Layout.bits (.pairs [8, 8, 8, 8]) = some 16 ∧
    ((computeBPP d).bind computeBufferSize).map (fun p => p.2.toNat) = some (4 * 4 * 32 / 8) :=
  ⟨⟨0, 4, 4, 1, fmtDX10, 0, 68#32, 0⟩, by decide +kernel, by decide +kernel, by decide +kernel, by decide +kernel⟩

/-- C128 fails for palettes: the texture is taken to be empty. -/
theorem bpp_palette_violated : ∃ d : Header, d.pf = fmtDX10 ∧ dxgi[d.dxgiFormat.toNat]? = some ("P8", .channels [8]) ∧
    ((computeBPP d).bind computeBufferSize).map (fun p => p.2.toNat) = some 0 :=
  ⟨⟨0, 4, 4, 1, fmtDX10, 0, 113#32, 0⟩, by decide +kernel, by decide +kernel, by decide +kernel⟩

/-! ## Legacy headers -/

/-- The legacy codes with their layouts. -/
def legacyCodes : List (Nat × Layout) := d3dNumbers ++ fourCCs.map (fun p => (codeOf p.1, p.2))

theorem codes_cc : cc 'D' 'X' 'T' '1' = BitVec.ofNat 32 (codeOf "DXT1") ∧ cc 'U' 'Y' 'V' 'Y' = BitVec.ofNat 32 (codeOf "UYVY") := by decide +kernel

theorem push {α : Type} (F : BitVec 32 → α) (P1 P2 P3 P4 P5 P6 : Prop) [Decidable P1] [Decidable P2] [Decidable P3] [Decidable P4] [Decidable P5]
    [Decidable P6] :
    (if P1 then F 64#32 else if P2 then F 16#32 else if P3 then F 32#32 else if P4 then F 128#32 else if P5 then F 4#32 else if P6 then F 8#32 else F 0#32) =
    F (if P1 then 64#32 else if P2 then 16#32 else if P3 then 32#32 else if P4 then 128#32 else if P5 then 4#32 else if P6 then 8#32 else 0#32) := by
  split
  · rfl
  split
  · rfl
  split
  · rfl
  split
  · rfl
  split
  · rfl
  split <;> rfl

/-- What `ComputeBPP` does with each code. -/
theorem legacy_step (d : Header) (h0 : d.pf.bpp = 0#32) (h1 : d.pf.fourCC ≠ cc 'D' 'X' '1' '0') :
    computeBPP d = some { d with pf := { d.pf with bpp :=
      (match legacyCodes.find? (fun p => BitVec.ofNat 32 p.1 == d.pf.fourCC) with
       | some (_, .pairs l) => BitVec.ofNat 32 l.sum
       | some (_, l) => BitVec.ofNat 32 (l.bits.getD 0)
       | none => 0#32) } } := by
  obtain ⟨fl, hh, ww, mm, ⟨pfl, c, bpp, pr, pg, pb, pa⟩, cp, df, al⟩ := d
  simp only at h0 h1 ⊢
  subst h0
  have hne : (⟨pfl, c, 0#32, pr, pg, pb, pa⟩ : PixelFormat) ≠ fmtDX10 := by
    intro e
    exact h1 (congrArg PixelFormat.fourCC e)
  unfold computeBPP
  simp only [ne_eq, not_true_eq_false, if_false, if_neg hne]
  have hcodes : legacyCodes.map (fun p => BitVec.ofNat 32 p.1) = [36#32, 110#32, 111#32, 112#32, 113#32, 114#32, 115#32, 116#32,
      cc 'D' 'X' 'T' '1', cc 'D' 'X' 'T' '2', cc 'D' 'X' 'T' '3', cc 'D' 'X' 'T' '4', cc 'D' 'X' 'T' '5', cc 'B' 'C' '4' 'U',
      cc 'B' 'C' '4' 'S', cc 'A' 'T' 'I' '1', cc 'B' 'C' '5' 'U', cc 'B' 'C' '5' 'S', cc 'A' 'T' 'I' '2', cc 'R' 'B' 'G' 'B',
      cc 'G' 'R' 'G' 'B', cc 'Y' 'U' 'Y' '2'] := by decide +kernel
  by_cases hm : c ∈ legacyCodes.map (fun p => BitVec.ofNat 32 p.1)
  · have key : ∀ p ∈ legacyCodes, (fun c : BitVec 32 =>
      (if c = 36#32 ∨ c = 110#32 ∨ c = 113#32 ∨ c = 115#32 then 64#32
       else if c = 111#32 then 16#32
       else if c = 112#32 ∨ c = 114#32 ∨ c = cc 'R' 'B' 'G' 'B' ∨ c = cc 'G' 'R' 'G' 'B' ∨ c = cc 'Y' 'U' 'Y' '2' then 32#32
       else if c = 116#32 then 128#32
       else if c = cc 'D' 'X' 'T' '1' ∨ c = cc 'B' 'C' '4' 'U' ∨ c = cc 'A' 'T' 'I' '1' ∨ c = cc 'B' 'C' '4' 'S' then 4#32
       else if c = cc 'D' 'X' 'T' '2' ∨ c = cc 'D' 'X' 'T' '3' ∨ c = cc 'D' 'X' 'T' '4' ∨ c = cc 'D' 'X' 'T' '5' ∨ c = cc 'B' 'C' '5' 'U'
         ∨ c = cc 'A' 'T' 'I' '2' ∨ c = cc 'B' 'C' '5' 'S' then 8#32
       else 0#32) = (match legacyCodes.find? (fun p => BitVec.ofNat 32 p.1 == c) with
         | some (_, .pairs l) => BitVec.ofNat 32 l.sum
         | some (_, l) => BitVec.ofNat 32 (l.bits.getD 0)
         | none => 0#32)) (BitVec.ofNat 32 p.1) := by decide +kernel
    obtain ⟨p, hp, hpc⟩ := List.mem_map.1 hm
    have key := key p hp
    simp only [hpc] at key
    rw [← key]
    exact push (fun b => some (⟨fl, hh, ww, mm, ⟨pfl, c, b, pr, pg, pb, pa⟩, cp, df, al⟩ : Header)) _ _ _ _ _ _
  · have hnone : legacyCodes.find? (fun p => BitVec.ofNat 32 p.1 == c) = none := by
      rw [List.find?_eq_none]
      intro p hp hc
      simp only [beq_iff_eq] at hc
      exact hm (List.mem_map.2 ⟨p, hp, hc⟩)
    rw [hnone]
    rw [hcodes] at hm
    simp only [List.mem_cons, not_or, List.not_mem_nil, not_false_eq_true, and_true] at hm
    obtain ⟨m1, m2, m3, m4, m5, m6, m7, m8, m9, m10, m11, m12, m13, m14, m15, m16, m17, m18, m19, m20, m21, m22⟩ := hm
    simp only [m1, m2, m3, m4, m5, m6, m7, m8, m9, m10, m11, m12, m13, m14, m15, m16, m17, m18, m19, m20, m21, m22, or_self, if_false]

/-- C128, legacy headers: a known code sets the bits of a pixel (of both pixels of a pair), any other code nothing. -/
theorem bpp_legacy_partial (d : Header) (h0 : d.pf.bpp = 0#32) (h1 : d.pf.fourCC ≠ cc 'D' 'X' '1' '0') :
    (∀ c l n, (c, l) ∈ legacyCodes → (∀ b, l ≠ .pairs b) → l.bits = some n → d.pf.fourCC = BitVec.ofNat 32 c →
      computeBPP d = some { d with pf := { d.pf with bpp := BitVec.ofNat 32 n } }) ∧
    ((∀ c l, (c, l) ∈ legacyCodes → d.pf.fourCC ≠ BitVec.ofNat 32 c) → computeBPP d = some d) := by
  have hs := legacy_step d h0 h1
  constructor
  · intro c l n hm hp hl hc
    have key : ∀ p ∈ legacyCodes, legacyCodes.find? (fun q => BitVec.ofNat 32 q.1 == BitVec.ofNat 32 p.1) = some p := by decide +kernel
    have := key (c, l) hm
    simp only at this
    rw [hs, hc, this]
    cases l with
    | pairs b => exact absurd rfl (hp b)
    | channels b => simp only [hl, Option.getD_some]
    | block b => simp only [hl, Option.getD_some]
    | planes b => simp only [hl, Option.getD_some]
    | none => simp [Layout.bits] at hl
  · intro hm
    have : legacyCodes.find? (fun p => BitVec.ofNat 32 p.1 == d.pf.fourCC) = none := by
      rw [List.find?_eq_none]
      intro p hp hc
      simp only [beq_iff_eq] at hc
      exact hm p.1 p.2 hp hc.symm
    rw [hs, this]
    simp only
    rw [← h0]

example : (⟨0, 8, 8, 1, { fmtBC5S with bpp := 0#32 }, 0, 0, 0⟩ : Header).pf.fourCC = BitVec.ofNat 32 (codeOf "BC5S") ∧
    computeBPP ⟨0, 8, 8, 1, { fmtBC5S with bpp := 0#32 }, 0, 0, 0⟩ = some ⟨0, 8, 8, 1, fmtBC5S, 0, 0, 0⟩ := by decide +kernel

/-- C128 fails for `UYVY` from a file: its size is not known, the texture is taken to be empty. -/
theorem bpp_uyvy_violated : ∃ d : Header, d.pf = { fmtUYVY with bpp := 0#32 } ∧ d.width ≠ 0#32 ∧ d.height ≠ 0#32 ∧
    ((computeBPP d).bind computeBufferSize).map (fun p => p.2.toNat) = some 0 :=
  ⟨⟨0, 4, 4, 1, { fmtUYVY with bpp := 0#32 }, 0, 0, 0⟩, rfl, by decide, by decide, by decide +kernel⟩

/-- A value that the header has already is kept. -/
theorem bpp_kept (d : Header) (h : d.pf.bpp ≠ 0#32) : computeBPP d = some d := by
  unfold computeBPP
  rw [if_pos h]

/-! ## Block compression -/

/-- `IsBC` is true exactly for the formats that are stored in blocks. -/
theorem isBC_iff (f : BitVec 32) : isBC f = true ↔ ∃ name n, dxgi[f.toNat]? = some (name, .block n) := by
  have hlen : dxgi.length = 120 := by decide +kernel
  have key : ∀ i : Fin 120, (match dxgi[i.val]? with
      | some (_, .block _) => isBC (BitVec.ofNat 32 i.val) | _ => !isBC (BitVec.ofNat 32 i.val)) = true := by decide +kernel
  by_cases hlt : f.toNat < 120
  · have := key ⟨f.toNat, hlt⟩
    simp only [BitVec.ofNat_toNat, BitVec.setWidth_eq] at this
    constructor
    · intro h
      rw [h] at this
      split at this
      · rename_i name n he
        exact ⟨name, n, he⟩
      · cases this
    · intro ⟨name, n, h⟩
      rw [h] at this
      exact this
  · constructor
    · intro h
      exfalso
      unfold isBC at h
      rw [List.contains_iff_mem] at h
      simp only [List.mem_cons, List.not_mem_nil, or_false] at h
      apply hlt
      rcases h with h | h | h | h | h | h | h | h | h | h | h | h | h | h | h | h | h | h | h | h | h <;> (subst h; decide)
    · intro ⟨name, n, h⟩
      have := (List.getElem?_eq_some_iff.1 h).1
      omega

example : isBC 95#32 = true ∧ isBC 85#32 = false := by decide +kernel

/-- The formats whose kind of number is not fixed. -/
def typeless (name : String) : Prop := name ∈ ["BC1_TYPELESS", "BC2_TYPELESS", "BC3_TYPELESS", "BC4_TYPELESS", "BC5_TYPELESS", "BC6H_TYPELESS", "BC7_TYPELESS"]

instance : DecidablePred typeless := fun n => by unfold typeless; infer_instance

/-- Which headers are laid out in blocks: DX10 formats stored in blocks (but not the typeless ones), and without a DX10 format the codes
of block formats. -/
theorem layout_blocks (d : Header) :
    useBlockCompression d = true ↔
      (d.dxgiFormat ≠ 0#32 ∧ ∃ name n, dxgi[d.dxgiFormat.toNat]? = some (name, .block n) ∧ ¬ typeless name) ∨
      (d.dxgiFormat = 0#32 ∧ ∃ code n, (code, Layout.block n) ∈ fourCCs ∧ d.pf.fourCC = BitVec.ofNat 32 (codeOf code)) := by
  have hlen : dxgi.length = 120 := by decide +kernel
  unfold useBlockCompression
  split
  · rename_i h
    simp only [h, ne_eq, not_false_eq_true, true_and, false_and, or_false]
    generalize d.dxgiFormat = f
    have key : ∀ i : Fin 120, ([BC1_UNORM, BC1_UNORM_SRGB, BC2_UNORM, BC2_UNORM_SRGB, BC3_UNORM, BC3_UNORM_SRGB, BC4_UNORM, BC4_SNORM, BC5_UNORM, BC5_SNORM,
          BC6H_UF16, BC6H_SF16, BC7_UNORM, BC7_UNORM_SRGB].contains (BitVec.ofNat 32 i.val)) =
        (match dxgi[i.val]? with | some (name, .block _) => decide (¬ typeless name) | _ => false) := by decide +kernel
    by_cases hlt : f.toNat < 120
    · have := key ⟨f.toNat, hlt⟩
      simp only [BitVec.ofNat_toNat, BitVec.setWidth_eq] at this
      rw [this]
      constructor
      · intro hc
        split at hc
        · rename_i name n he
          exact ⟨name, n, he, of_decide_eq_true hc⟩
        · cases hc
      · intro ⟨name, n, h, ht⟩
        rw [h]
        exact decide_eq_true ht
    · constructor
      · intro h
        exfalso
        rw [List.contains_iff_mem] at h
        simp only [List.mem_cons, List.not_mem_nil, or_false] at h
        apply hlt
        rcases h with h | h | h | h | h | h | h | h | h | h | h | h | h | h <;> (subst h; decide)
      · intro ⟨name, n, h, _⟩
        have := (List.getElem?_eq_some_iff.1 h).1
        omega
  · rename_i h
    simp only [ne_eq, Decidable.not_not] at h
    simp only [h, ne_eq, not_true_eq_false, true_and, false_and, false_or]
    rw [List.contains_iff_mem]
    constructor
    · intro hc
      have key : ∀ i : Fin 11, ∃ p ∈ fourCCs, (match p.2 with | .block _ => true | _ => false) = true ∧
          [cc 'D' 'X' 'T' '1', cc 'D' 'X' 'T' '2', cc 'D' 'X' 'T' '3', cc 'D' 'X' 'T' '4', cc 'D' 'X' 'T' '5', cc 'B' 'C' '4' 'U', cc 'A' 'T' 'I' '1',
          cc 'B' 'C' '4' 'S', cc 'B' 'C' '5' 'U', cc 'A' 'T' 'I' '2', cc 'B' 'C' '5' 'S'][i.val]? = some (BitVec.ofNat 32 (codeOf p.1)) := by decide +kernel
      obtain ⟨i, hi, hie⟩ := List.mem_iff_getElem.1 hc
      have key := key ⟨i, hi⟩
      simp only [List.getElem?_eq_getElem hi, hie, Option.some.injEq] at key
      obtain ⟨⟨s, l⟩, hp, hb, he⟩ := key
      cases l with
      | block n => exact ⟨s, n, hp, he⟩
      | channels _ => cases hb
      | pairs _ => cases hb
      | planes _ => cases hb
      | none => cases hb
    · intro ⟨s, n, hp, he⟩
      have key : ∀ p ∈ fourCCs, (match p.2 with | .block _ => true | _ => false) = true →
          BitVec.ofNat 32 (codeOf p.1) ∈ [cc 'D' 'X' 'T' '1', cc 'D' 'X' 'T' '2', cc 'D' 'X' 'T' '3', cc 'D' 'X' 'T' '4', cc 'D' 'X' 'T' '5', cc 'B' 'C' '4' 'U', cc 'A' 'T' 'I' '1',
          cc 'B' 'C' '4' 'S', cc 'B' 'C' '5' 'U', cc 'A' 'T' 'I' '2', cc 'B' 'C' '5' 'S'] := by decide +kernel
      rw [he]
      exact key (s, .block n) hp (by simp only)

example : useBlockCompression ⟨0, 4, 4, 1, fmtDX10, 0, 83#32, 0⟩ = true ∧ useBlockCompression ⟨0, 4, 4, 1, fmtDXT3, 0, 0, 0⟩ = true ∧
    useBlockCompression ⟨0, 4, 4, 1, fmtDXT3, 0, 85#32, 0⟩ = false := by decide +kernel

end PreCore.Dds
