import Verif.Model.BitField
import Verif.Lemmas.Endian
/-! Helper lemmas for bit fields. -/
namespace PreCore.BitField
open PreCore.Endian

/-- Sum of the first `i` sizes. -/
def prefixSum (sizes : List Nat) (i : Nat) : Nat := (sizes.take i).foldr (· + ·) 0

theorem totalSize_eq (l : List Nat) : totalSize l = l.foldr (· + ·) 0 := by
  induction l with
  | nil => rfl
  | cons a t ih => simp [totalSize, ih]

theorem totalSize_split (l : List Nat) (i : Nat) :
    prefixSum l i + totalSize (l.drop i) = totalSize l := by
  induction l generalizing i with
  | nil => simp [prefixSum, totalSize]
  | cons a t ih =>
    cases i with
    | zero => simp [prefixSum]
    | succ i => have := ih i; simp [prefixSum, totalSize] at *; omega

theorem getAux_eq (t : List Nat) : ∀ (i size : Nat) (h : i < t.length),
    getAux t i size = some ⟨size - totalSize (t.drop i), t[i]⟩ := by
  induction t with
  | nil => intro i size h; simp at h
  | cons a t ih =>
    intro i size h
    cases t with
    | nil =>
      have : i = 0 := by simpa using h
      subst this; simp [getAux]
    | cons b t =>
      cases i with
      | zero => simp [getAux]
      | succ i => simpa [getAux] using ih i size (by simpa using h)

theorem get_eq (sizes : List Nat) (h2 : 2 ≤ sizes.length) (i : Nat) (h : i < sizes.length) :
    get sizes i = some ⟨prefixSum sizes i, sizes[i]⟩ := by
  match sizes, h2, i, h with
  | a :: b :: t, _, 0, _ => simp [get, prefixSum]
  | a :: b :: t, _, i + 1, h =>
    simp only [get]
    rw [getAux_eq (b :: t) i _ (by simpa using h)]
    have := totalSize_split (a :: b :: t) (i + 1)
    simp only [List.drop_succ_cons] at this
    simp; omega

theorem prefixSum_succ (sizes : List Nat) (i : Nat) (h : i < sizes.length) :
    prefixSum sizes (i + 1) = prefixSum sizes i + sizes[i] := by
  induction sizes generalizing i with
  | nil => simp at h
  | cons a t ih =>
    cases i with
    | zero => simp [prefixSum]
    | succ i => have := ih i (by simpa using h); simp [prefixSum] at *; omega

theorem prefixSum_mono (sizes : List Nat) {i j : Nat} (hij : i ≤ j) : prefixSum sizes i ≤ prefixSum sizes j := by
  induction j with
  | zero => have : i = 0 := by omega
            subst this; exact Nat.le_refl _
  | succ j ih =>
    by_cases h : i = j + 1
    · subst h; exact Nat.le_refl _
    · refine Nat.le_trans (ih (by omega)) ?_
      by_cases hj : j < sizes.length
      · rw [prefixSum_succ sizes j hj]; omega
      · simp [prefixSum, List.take_of_length_le (show sizes.length ≤ j by omega),
          List.take_of_length_le (show sizes.length ≤ j + 1 by omega)]

theorem prefixSum_le_total (sizes : List Nat) (i : Nat) : prefixSum sizes i ≤ totalSize sizes := by
  have := totalSize_split sizes i; omega

theorem getMask_getLsbD (m : BitMember) (w k : Nat) (hm : m.position + m.size ≤ w) :
    (m.getMask w).getLsbD k = decide (m.position ≤ k ∧ k < m.position + m.size) := by
  simp only [BitMember.getMask, BitVec.getLsbD_shiftLeft, BitVec.getLsbD_ushiftRight, BitVec.getLsbD_allOnes]
  by_cases h1 : m.position ≤ k <;> by_cases h2 : k < m.position + m.size <;> simp [h1, h2] <;> omega

theorem getMirrorMask_getLsbD (m : BitMember) (w k : Nat) (hm : m.position + m.size ≤ w) :
    (m.getMirrorMask w).getLsbD k =
      decide (w - m.position - m.size ≤ k ∧ k < w - m.position) := by
  simp only [BitMember.getMirrorMask, BitVec.getLsbD_shiftLeft, BitVec.getLsbD_ushiftRight, BitVec.getLsbD_allOnes]
  by_cases h1 : w - m.position - m.size ≤ k <;> by_cases h2 : k < w - m.position <;> simp [h1, h2] <;> omega

theorem fieldGet_getLsbD {w : Nat} (m : BitMember) (v : BitVec w) (k : Nat) (hm : m.position + m.size ≤ w) :
    (fieldGet m v).getLsbD k = (decide (k < m.size) && v.getLsbD (m.position + k)) := by
  simp only [fieldGet, BitVec.getLsbD_ushiftRight, BitVec.getLsbD_and, getMask_getLsbD m w _ hm]
  by_cases h : k < m.size <;> simp [h]

theorem fieldSet_getLsbD {w : Nat} (m : BitMember) (v x : BitVec w) (k : Nat) (hm : m.position + m.size ≤ w) :
    (fieldSet m v x).getLsbD k =
      if m.position ≤ k ∧ k < m.position + m.size then x.getLsbD (k - m.position) else v.getLsbD k := by
  by_cases hk : k < w
  · simp only [fieldSet, BitVec.getLsbD_or, BitVec.getLsbD_and, BitVec.getLsbD_not, BitVec.getLsbD_shiftLeft,
      getMask_getLsbD m w _ hm]
    by_cases h : m.position ≤ k ∧ k < m.position + m.size
    · simp [h, hk]
    · simp [h, hk]
  · rw [BitVec.getLsbD_of_ge _ _ (by omega), if_neg (by omega), BitVec.getLsbD_of_ge _ _ (by omega)]

theorem swapInLoop_getLsbD {w : Nat} (u : BitVec w) (ms : List BitMember)
    (hm : ∀ m ∈ ms, m.position + m.size ≤ w) (k : Nat) :
    (swapInLoop u ms).getLsbD k = ms.any (fun m => decide (m.position ≤ k ∧ k < m.position + m.size) &&
      u.getLsbD (k - m.position + (w - m.position - m.size))) := by
  have gen : ∀ (ms : List BitMember) (acc : BitVec w), (∀ m ∈ ms, m.position + m.size ≤ w) →
      (ms.foldl (fun (newVal : BitVec w) (item : BitMember) => newVal ||| ((u &&& item.getMirrorMask w) >>>
        (w - item.position - item.size)) <<< item.position) acc).getLsbD k
      = (acc.getLsbD k || ms.any (fun m => decide (m.position ≤ k ∧ k < m.position + m.size) &&
      u.getLsbD (k - m.position + (w - m.position - m.size)))) := by
    intro ms
    induction ms with
    | nil => intro acc _; simp
    | cons m ms ih =>
      intro acc hms
      have hm := hms m (by simp)
      rw [List.foldl_cons, ih _ (fun m' h => hms m' (by simp [h]))]
      rw [BitVec.getLsbD_or, List.any_cons, Bool.or_assoc]
      congr 1
      congr 1
      simp only [BitVec.getLsbD_shiftLeft, BitVec.getLsbD_ushiftRight, BitVec.getLsbD_and,
        getMirrorMask_getLsbD m w _ hm]
      by_cases h : m.position ≤ k ∧ k < m.position + m.size
      · have e : w - m.position - m.size + (k - m.position) = k - m.position + (w - m.position - m.size) := by omega
        have f1 : k < w := by omega
        have f2 : ¬ k < m.position := by omega
        have f3 : w - m.position - m.size ≤ k - m.position + (w - m.position - m.size) ∧
          k - m.position + (w - m.position - m.size) < w - m.position := by omega
        rw [e]
        simp only [h, f1, f2, f3, and_self, decide_true, decide_false, Bool.not_false, Bool.true_and, Bool.and_true]
      · by_cases f2 : k < m.position
        · simp only [h, f2, decide_true, decide_false, Bool.not_true, Bool.and_false, Bool.false_and]
        · have f3 : ¬ (w - m.position - m.size ≤ w - m.position - m.size + (k - m.position) ∧
            w - m.position - m.size + (k - m.position) < w - m.position) := by omega
          simp only [h, f3, decide_false, Bool.and_false, Bool.false_and]
  have := gen ms 0#w hm
  simpa [swapInLoop] using this

theorem swapOutLoop_getLsbD {w : Nat} (v : BitVec w) (ms : List BitMember)
    (hm : ∀ m ∈ ms, m.position + m.size ≤ w) (k : Nat) :
    (swapOutLoop v ms).getLsbD k = ms.any (fun m =>
      decide (w - m.position - m.size ≤ k ∧ k < w - m.position) &&
      v.getLsbD (k - (w - m.position - m.size) + m.position)) := by
  have gen : ∀ (ms : List BitMember) (acc : BitVec w), (∀ m ∈ ms, m.position + m.size ≤ w) →
      (ms.foldl (fun (newVal : BitVec w) (item : BitMember) => newVal ||| ((v &&& item.getMask w) >>> item.position) <<<
        (w - item.position - item.size)) acc).getLsbD k
      = (acc.getLsbD k || ms.any (fun m => decide (w - m.position - m.size ≤ k ∧ k < w - m.position) &&
      v.getLsbD (k - (w - m.position - m.size) + m.position))) := by
    intro ms
    induction ms with
    | nil => intro acc _; simp
    | cons m ms ih =>
      intro acc hms
      have hm := hms m (by simp)
      rw [List.foldl_cons, ih _ (fun m' h => hms m' (by simp [h]))]
      rw [BitVec.getLsbD_or, List.any_cons, Bool.or_assoc]
      congr 1
      congr 1
      simp only [BitVec.getLsbD_shiftLeft, BitVec.getLsbD_ushiftRight, BitVec.getLsbD_and,
        getMask_getLsbD m w _ hm]
      by_cases h : w - m.position - m.size ≤ k ∧ k < w - m.position
      · have e : m.position + (k - (w - m.position - m.size)) = k - (w - m.position - m.size) + m.position := by omega
        have f1 : k < w := by omega
        have f2 : ¬ k < w - m.position - m.size := by omega
        have f3 : m.position ≤ k - (w - m.position - m.size) + m.position ∧
          k - (w - m.position - m.size) + m.position < m.position + m.size := by omega
        rw [e]
        simp only [h, f1, f2, f3, and_self, decide_true, decide_false, Bool.not_false, Bool.true_and, Bool.and_true]
      · by_cases f2 : k < w - m.position - m.size
        · simp only [h, f2, decide_true, decide_false, Bool.not_true, Bool.and_false, Bool.false_and]
        · have f3 : ¬ (m.position ≤ m.position + (k - (w - m.position - m.size)) ∧
            m.position + (k - (w - m.position - m.size)) < m.position + m.size) := by omega
          simp only [h, f3, decide_false, Bool.and_false, Bool.false_and]
  have := gen ms 0#w hm
  simpa [swapOutLoop] using this

theorem fbswap_fbswap (s : SWidth) (v : BitVec (8 * s.bytes)) : fbswap s (fbswap s v) = v := by
  apply eq_of_byteAt_eq
  intro i h1
  rw [byteAt_fbswap _ _ _ h1, byteAt_fbswap _ _ _ (by omega)]
  congr 1; omega

theorem swapBytes_involutive (b : BWidth) (v : BitVec b.bits) : swapBytes b (swapBytes b v) = v := by
  cases b with
  | w8 => rfl
  | wide s => exact fbswap_fbswap s v

theorem filterMap_eq_map_of {α β : Type} (f : α → Option β) (g : α → β) (l : List α)
    (h : ∀ x ∈ l, f x = some (g x)) : l.filterMap f = l.map g := by
  induction l with
  | nil => rfl
  | cons a l ih =>
    rw [List.filterMap_cons, h a (by simp), List.map_cons, ih (fun x hx => h x (by simp [hx]))]

theorem members_eq (sizes : List Nat) (h2 : 2 ≤ sizes.length) :
    members sizes = (List.range sizes.length).map (fun i => ⟨prefixSum sizes i, sizes.getD i 0⟩) := by
  unfold members
  apply filterMap_eq_map_of
  intro j hj
  have hj : j < sizes.length := by simpa using hj
  rw [get_eq sizes h2 j hj]
  simp [hj]

theorem mem_members (sizes : List Nat) (h2 : 2 ≤ sizes.length) (m : BitMember) :
    m ∈ members sizes ↔ ∃ i, ∃ h : i < sizes.length, m = ⟨prefixSum sizes i, sizes[i]⟩ := by
  rw [members_eq sizes h2]
  constructor
  · intro h
    obtain ⟨i, hi, rfl⟩ := List.mem_map.1 h
    have hi : i < sizes.length := by simpa using hi
    exact ⟨i, hi, by simp [hi]⟩
  · rintro ⟨i, hi, rfl⟩
    exact List.mem_map.2 ⟨i, by simpa using hi, by simp [hi]⟩

end PreCore.BitField
