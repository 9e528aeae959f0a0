import Verif.Lemmas.BitField
/-!
# C04, C05: bit fields

Specification side: `Layout sizes i pos size` says, without reference to the C++ recursion, that member
`i` occupies `size` bits right after all previous members.
-/
namespace PreCore.BitField
open PreCore.Endian

/-- A declaration the C++ code accepts without undefined behaviour: at least two members
(a single-member field has no `Get`), no zero width member, total width within the storage word. -/
structure LayoutOk (w : Nat) (sizes : List Nat) : Prop where
  two : 2 ≤ sizes.length
  pos : ∀ s ∈ sizes, 0 < s
  fits : sizes.sum ≤ w

/-- Independent description of packed layout. -/
def Layout (sizes : List Nat) (i : Nat) (m : BitMember) : Prop :=
  sizes[i]? = some m.size ∧ m.position = (sizes.take i).sum

example : LayoutOk 32 [3, 7, 22] := ⟨by decide, by decide, by decide⟩
example : Layout [3, 7, 22] 1 ⟨3, 7⟩ := ⟨rfl, rfl⟩

theorem foldr_eq_sum (l : List Nat) : l.foldr (· + ·) 0 = l.sum := rfl

/-- C04 (layout): `Get(i)` yields the packed layout in declaration order, for every member. -/
theorem get_layout {w : Nat} {sizes : List Nat} (ok : LayoutOk w sizes) (i : Nat) (h : i < sizes.length) :
    ∃ m, get sizes i = some m ∧ Layout sizes i m ∧ m.position + m.size ≤ w := by
  refine ⟨_, get_eq sizes ok.two i h, ⟨by simp [h], rfl⟩, ?_⟩
  have h1 := prefixSum_succ sizes i h
  have h2 := prefixSum_le_total sizes (i + 1)
  rw [totalSize_eq] at h2
  have := ok.fits
  simp only [foldr_eq_sum] at h2
  simp only; omega

theorem layout_fits {w : Nat} {sizes : List Nat} (ok : LayoutOk w sizes) {i : Nat} {m : BitMember}
    (hm : Layout sizes i m) : m.position + m.size ≤ w := by
  have hi : i < sizes.length := by
    by_cases h : i < sizes.length
    · exact h
    · have := hm.1; rw [List.getElem?_eq_none (by omega)] at this; simp at this
  obtain ⟨m', _, hl, hw⟩ := get_layout ok i hi
  have e1 : m'.size = m.size := by have := hl.1; rw [hm.1] at this; simpa using this.symm
  have e2 := hl.2; have e3 := hm.2
  omega

/-- C04: distinct members of a layout occupy disjoint bit ranges. -/
theorem layout_disjoint {sizes : List Nat} {i j : Nat} {a b : BitMember} (hij : i < j)
    (ha : Layout sizes i a) (hb : Layout sizes j b) : a.position + a.size ≤ b.position := by
  have hi : i < sizes.length := by
    by_cases h : i < sizes.length
    · exact h
    · have := ha.1; rw [List.getElem?_eq_none (by omega)] at this; simp at this
  have h1 := prefixSum_succ sizes i hi
  have h2 := prefixSum_mono sizes (show i + 1 ≤ j by omega)
  have e : sizes[i] = a.size := by have := ha.1; rw [List.getElem?_eq_getElem hi] at this; simpa using this
  have e2 : prefixSum sizes i = a.position := ha.2.symm
  have e3 : prefixSum sizes j = b.position := hb.2.symm
  omega

/-- C04: a stored member is read back truncated to its width. -/
theorem field_get_set_same {w : Nat} {sizes : List Nat} (ok : LayoutOk w sizes) {i : Nat} {m : BitMember}
    (hm : Layout sizes i m) (v x : BitVec w) :
    (fieldGet m (fieldSet m v x)).toNat = x.toNat % 2 ^ m.size := by
  have hw := layout_fits ok hm
  apply Nat.eq_of_testBit_eq
  intro k
  rw [BitVec.testBit_toNat, fieldGet_getLsbD m _ k hw, fieldSet_getLsbD m _ _ _ hw, Nat.testBit_mod_two_pow,
    BitVec.testBit_toNat]
  by_cases h : k < m.size
  · simp [h]
  · simp [h]

/-- C04: storing one member leaves every other member unchanged. -/
theorem field_get_set_other {w : Nat} {sizes : List Nat} (ok : LayoutOk w sizes) {i j : Nat} {a b : BitMember}
    (hij : i ≠ j) (ha : Layout sizes i a) (hb : Layout sizes j b) (v x : BitVec w) :
    fieldGet b (fieldSet a v x) = fieldGet b v := by
  have hwa := layout_fits ok ha
  have hwb := layout_fits ok hb
  apply BitVec.eq_of_getLsbD_eq
  intro k _
  rw [fieldGet_getLsbD b _ k hwb, fieldGet_getLsbD b _ k hwb, fieldSet_getLsbD a _ _ _ hwa]
  by_cases h : k < b.size
  · rw [if_neg]
    intro hc
    rcases Nat.lt_or_gt_of_ne hij with h' | h'
    · have := layout_disjoint h' ha hb; omega
    · have := layout_disjoint h' hb ha; omega
  · simp [h]

/-- C04: bits of the storage word outside the member are never changed by `Set`. -/
theorem field_set_frame {w : Nat} {sizes : List Nat} (ok : LayoutOk w sizes) {i : Nat} {m : BitMember}
    (hm : Layout sizes i m) (v x : BitVec w) (k : Nat) (hk : k < m.position ∨ m.position + m.size ≤ k) :
    (fieldSet m v x).getLsbD k = v.getLsbD k := by
  rw [fieldSet_getLsbD m _ _ _ (layout_fits ok hm), if_neg (by omega)]

/-- C04: what `Get` returns is the bit range of the member, as a number. -/
theorem field_get_value {w : Nat} {sizes : List Nat} (ok : LayoutOk w sizes) {i : Nat} {m : BitMember}
    (hm : Layout sizes i m) (v : BitVec w) :
    (fieldGet m v).toNat = v.toNat / 2 ^ m.position % 2 ^ m.size := by
  apply Nat.eq_of_testBit_eq
  intro k
  rw [BitVec.testBit_toNat, fieldGet_getLsbD m _ k (layout_fits ok hm), Nat.testBit_mod_two_pow,
    Nat.testBit_div_two_pow, BitVec.testBit_toNat, Nat.add_comm]

example : fieldGet ⟨3, 7⟩ (fieldSet ⟨3, 7⟩ (0xffffffff#32) 0x1ff0a#32) = 0x0a#32 := by decide

/-! ## C05 -/

/-- A bit of the storage word belongs to a declared member. -/
def Declared (sizes : List Nat) (k : Nat) : Prop := k < sizes.sum

theorem declared_iff {sizes : List Nat} (k : Nat) :
    Declared sizes k ↔ ∃ i m, Layout sizes i m ∧ m.position ≤ k ∧ k < m.position + m.size := by
  unfold Declared
  constructor
  · intro h
    induction sizes generalizing k with
    | nil => simp at h
    | cons s t ih =>
      by_cases hk : k < s
      · exact ⟨0, ⟨0, s⟩, ⟨rfl, rfl⟩, Nat.zero_le _, by simpa using hk⟩
      · obtain ⟨i, m, hl, h1, h2⟩ := ih (k - s) (by simp at h; omega)
        refine ⟨i + 1, ⟨m.position + s, m.size⟩, ⟨by simpa using hl.1, ?_⟩, ?_, ?_⟩
        · have := hl.2; simp; omega
        · simp only; omega
        · simp only; omega
  · rintro ⟨i, m, hl, h1, h2⟩
    have hi : i < sizes.length := by
      by_cases h : i < sizes.length
      · exact h
      · have := hl.1; rw [List.getElem?_eq_none (by omega)] at this; simp at this
    have h3 := prefixSum_succ sizes i hi
    have h4 := prefixSum_le_total sizes (i + 1)
    rw [totalSize_eq, foldr_eq_sum] at h4
    have e : sizes[i] = m.size := by have := hl.1; rw [List.getElem?_eq_getElem hi] at this; simpa using this
    have e2 : prefixSum sizes i = m.position := hl.2.symm
    omega

theorem mem_members_layout {sizes : List Nat} (h2 : 2 ≤ sizes.length) (m : BitMember) :
    m ∈ members sizes ↔ ∃ i, Layout sizes i m := by
  rw [mem_members sizes h2]
  constructor
  · rintro ⟨i, h, rfl⟩; exact ⟨i, by simp [h], rfl⟩
  · rintro ⟨i, h⟩
    have hi : i < sizes.length := by
      by_cases h' : i < sizes.length
      · exact h'
      · have := h.1; rw [List.getElem?_eq_none (by omega)] at this; simp at this
    refine ⟨i, hi, ?_⟩
    have e1 := h.1; have e2 := h.2
    rw [List.getElem?_eq_getElem hi] at e1
    cases m; simp at e1 e2
    subst e1; subst e2; rfl

/-- C05 (meaning of the foreign layout): in the outgoing word, after undoing the byte order, member `m`
sits in the mirrored bit range `[w - position - size, w - position)` with its value intact. -/
theorem swapOut_mirrored (b : BWidth) {sizes : List Nat} (ok : LayoutOk b.bits sizes) {i : Nat}
    {m : BitMember} (hm : Layout sizes i m) (v : BitVec b.bits) :
    fieldGet ⟨b.bits - m.position - m.size, m.size⟩ (swapBytes b (swapEndian b sizes true v))
      = fieldGet m v := by
  have hw := layout_fits ok hm
  have hall : ∀ a ∈ members sizes, a.position + a.size ≤ b.bits := by
    intro a ha
    obtain ⟨j, hj⟩ := (mem_members_layout ok.two a).1 ha
    exact layout_fits ok hj
  apply BitVec.eq_of_getLsbD_eq
  intro k hk
  rw [fieldGet_getLsbD _ _ _ (by simp only; omega), fieldGet_getLsbD m _ k hw]
  simp only [swapEndian, if_true]
  rw [swapBytes_involutive, swapOutLoop_getLsbD v _ hall]
  by_cases h : k < m.size
  · simp only [h, decide_true, Bool.true_and]
    rw [Bool.eq_iff_iff, List.any_eq_true]
    constructor
    · rintro ⟨a, ha, hp⟩
      simp only [Bool.and_eq_true, decide_eq_true_eq] at hp
      obtain ⟨j, hj⟩ := (mem_members_layout ok.two a).1 ha
      have hwa := layout_fits ok hj
      have hji : j = i := by
        rcases Nat.lt_trichotomy j i with h' | h' | h'
        · have := layout_disjoint h' hj hm; omega
        · exact h'
        · have := layout_disjoint h' hm hj; omega
      subst hji
      have e1 : a.size = m.size := by have := hj.1; rw [hm.1] at this; simpa using this.symm
      have e2 : a.position = m.position := hj.2.trans hm.2.symm
      have := hp.2
      rw [e1, e2] at this
      rw [← this]; congr 1; omega
    · intro hb
      refine ⟨m, (mem_members_layout ok.two m).2 ⟨i, hm⟩, ?_⟩
      simp only [Bool.and_eq_true, decide_eq_true_eq]
      refine ⟨by omega, ?_⟩
      rw [← hb]; congr 1; omega
  · simp [h]

/-- C05: converting to the foreign layout and back keeps exactly the declared bits; all other bits come
back as zero. -/
theorem swapEndian_roundtrip (b : BWidth) {sizes : List Nat} (ok : LayoutOk b.bits sizes)
    (v : BitVec b.bits) (k : Nat) :
    (swapEndian b sizes false (swapEndian b sizes true v)).getLsbD k = true ↔
      Declared sizes k ∧ v.getLsbD k = true := by
  have hall : ∀ a ∈ members sizes, a.position + a.size ≤ b.bits := by
    intro a ha
    obtain ⟨j, hj⟩ := (mem_members_layout ok.two a).1 ha
    exact layout_fits ok hj
  simp only [swapEndian, if_true, Bool.false_eq_true, if_false]
  rw [swapBytes_involutive, swapInLoop_getLsbD _ _ hall, List.any_eq_true, declared_iff]
  constructor
  · rintro ⟨a, ha, hp⟩
    simp only [Bool.and_eq_true, decide_eq_true_eq] at hp
    obtain ⟨j, hj⟩ := (mem_members_layout ok.two a).1 ha
    have hwa := layout_fits ok hj
    refine ⟨⟨j, a, hj, hp.1⟩, ?_⟩
    have h2 := hp.2
    rw [swapOutLoop_getLsbD v _ hall, List.any_eq_true] at h2
    obtain ⟨c, hc, hq⟩ := h2
    simp only [Bool.and_eq_true, decide_eq_true_eq] at hq
    obtain ⟨l, hl⟩ := (mem_members_layout ok.two c).1 hc
    have hwc := layout_fits ok hl
    have hjl : j = l := by
      rcases Nat.lt_trichotomy j l with h' | h' | h'
      · have := layout_disjoint h' hj hl; omega
      · exact h'
      · have := layout_disjoint h' hl hj; omega
    subst hjl
    have e1 : c.size = a.size := by have := hl.1; rw [hj.1] at this; simpa using this.symm
    have e2 : c.position = a.position := hl.2.trans hj.2.symm
    have h3 := hq.2
    rw [e1, e2] at h3
    rw [← h3]; congr 1; omega
  · rintro ⟨⟨j, a, hj, h1⟩, hv⟩
    have hwa := layout_fits ok hj
    have hmem := (mem_members_layout ok.two a).2 ⟨j, hj⟩
    refine ⟨a, hmem, ?_⟩
    simp only [Bool.and_eq_true, decide_eq_true_eq]
    refine ⟨h1, ?_⟩
    rw [swapOutLoop_getLsbD v _ hall, List.any_eq_true]
    refine ⟨a, hmem, ?_⟩
    simp only [Bool.and_eq_true, decide_eq_true_eq]
    refine ⟨by omega, ?_⟩
    rw [← hv]; congr 1; omega

/-- C05: every declared member reads the same value after the round trip. -/
theorem swapEndian_roundtrip_members (b : BWidth) {sizes : List Nat} (ok : LayoutOk b.bits sizes)
    {i : Nat} {m : BitMember} (hm : Layout sizes i m) (v : BitVec b.bits) :
    fieldGet m (swapEndian b sizes false (swapEndian b sizes true v)) = fieldGet m v := by
  have hw := layout_fits ok hm
  apply BitVec.eq_of_getLsbD_eq
  intro k _
  rw [fieldGet_getLsbD m _ k hw, fieldGet_getLsbD m _ k hw]
  by_cases h : k < m.size
  · simp only [h, decide_true, Bool.true_and]
    rw [Bool.eq_iff_iff, swapEndian_roundtrip b ok]
    have : Declared sizes (m.position + k) := (declared_iff _).2 ⟨i, m, hm, by omega, by omega⟩
    simp [this]
  · simp [h]

example : LayoutOk (BWidth.wide .w16).bits [3, 7, 6] ∧ Layout [3, 7, 6] 2 ⟨10, 6⟩ :=
  ⟨⟨by decide, by decide, by decide⟩, rfl, rfl⟩

end PreCore.BitField
