import Verif.Model.StringViewMem
import Verif.Props.StringView
/-! # C138: views show what strings would hold, and stay in the text they were made of -/
namespace PreCore.StringView

/-! ## Specification: variables that are strings -/

/-- The bytes at addresses `a`, …, `a + n - 1`. -/
def bytesAt (m : Memory) (a n : Nat) : List Byte := (List.range n).map fun i => m (a + i)

/-- One variable gets a new value, the others keep theirs. -/
def setVar (t : Nat → List Byte) (v : Nat) (x : List Byte) : Nat → List Byte := fun k => if k = v then x else t k

/-- The same operations on strings. -/
def textStep (m : Memory) (t : Nat → List Byte) : ViewOp → (Nat → List Byte) × Bool
  | .count v a n => (setVar t v (bytesAt m a n.toNat), false)
  | .cstr v a room => (setVar t v ((bytesAt m a room).takeWhile (· ≠ 0#8)), false)
  | .range v a b => (setVar t v (bytesAt m a (b - a)), false)
  | .clear v => (setVar t v [], false)
  | .assign v u => (setVar t v (t u), false)
  | .substr v u pos len => if pos.toNat < (t u).length then (setVar t v (((t u).drop pos.toNat).take len.toNat), false) else (t, true)
  | .removePrefix v n => (setVar t v ((t v).drop n.toNat), false)
  | .removeSuffix v n => (setVar t v ((t v).take ((t v).length - n.toNat)), false)
  | .resize v n => (setVar t v ((t v).take n.toNat), false)
  | .swap v u => (setVar (setVar t v (t u)) u (t v), false)

def textRun (m : Memory) : List ViewOp → (Nat → List Byte) → (Nat → List Byte) × List Bool
  | [], t => (t, [])
  | op :: l, t => ((textRun m l (textStep m t op).1).1, (textStep m t op).2 :: (textRun m l (textStep m t op).1).2)

/-- What the documentation asks of the caller: C strings end, ranges are ranges, and no more characters are removed than there are. -/
def Allowed (m : Memory) (t : Nat → List Byte) : ViewOp → Prop
  | .cstr _ a room => room < 2 ^ 64 ∧ 0#8 ∈ bytesAt m a room
  | .range _ a b => a ≤ b ∧ b < 2 ^ 64
  | .removePrefix v n | .removeSuffix v n | .resize v n => n.toNat ≤ (t v).length
  | _ => True

/-- Every operation of the program is used as documented. -/
def AllAllowed (m : Memory) : List ViewOp → (Nat → List Byte) → Prop
  | [], _ => True
  | op :: l, t => Allowed m t op ∧ AllAllowed m l (textStep m t op).1

/-- The addresses an operation makes a view of. -/
def madeOf (m : Memory) : ViewOp → Option (Nat × Nat)
  | .count _ a n => some (a, n.toNat)
  | .cstr _ a room => some (a, ((bytesAt m a room).takeWhile (· ≠ 0#8)).length)
  | .range _ a b => some (a, b - a)
  | .clear _ => some (0, 0)
  | _ => none

/-! ## Proof -/

theorem setVar_eq (t : Nat → List Byte) (v : Nat) (x : List Byte) : setVar t v x = put t v x := rfl

theorem chars_length (m : Memory) (v : View) : (v.chars m).length = v.size.toNat := by simp [View.chars]

theorem chars_eq (m : Memory) (v : View) : v.chars m = bytesAt m v.ptr v.size.toNat := rfl

theorem bytesAt_drop (m : Memory) (a n k : Nat) : (bytesAt m a n).drop k = bytesAt m (a + k) (n - k) := by
  apply List.ext_getElem (by simp [bytesAt])
  intro i h1 h2
  simp [bytesAt, Nat.add_assoc]

theorem bytesAt_take (m : Memory) (a n k : Nat) : (bytesAt m a n).take k = bytesAt m a (min k n) := by
  apply List.ext_getElem (by simp [bytesAt])
  intro i h1 h2
  simp [bytesAt]

theorem strlen_eq (m : Memory) : ∀ room a, 0#8 ∈ bytesAt m a room →
    strlen m a room = some ((bytesAt m a room).takeWhile (· ≠ 0#8)).length ∧
      (bytesAt m a room).takeWhile (· ≠ 0#8) = bytesAt m a ((bytesAt m a room).takeWhile (· ≠ 0#8)).length := by
  intro room
  induction room with
  | zero => intro a h; simp [bytesAt] at h
  | succ n ih =>
    intro a h
    have hc : ∀ k, bytesAt m a (k + 1) = m a :: bytesAt m (a + 1) k := by
      intro k
      simp only [bytesAt, List.range_succ_eq_map, List.map_cons, List.map_map, Nat.add_zero]
      congr 1
      apply List.map_congr_left
      intro i _
      simp only [Function.comp]
      congr 1
      omega
    rw [hc] at h ⊢
    unfold strlen
    by_cases h0 : m a = 0#8
    · rw [if_pos h0, List.takeWhile_cons_of_neg (by simp [h0])]
      exact ⟨rfl, rfl⟩
    · obtain ⟨i1, i2⟩ := ih (a + 1) (by simpa [Ne.symm h0] using h)
      rw [if_neg h0, List.takeWhile_cons_of_pos (by simp [h0]), i1]
      refine ⟨rfl, ?_⟩
      rw [List.length_cons, hc, ← i2]

theorem put_chars (m : Memory) (s : Views) (v : Nat) (x : View) : (fun k => (put s v x k).chars m) = put (fun k => (s k).chars m) v (x.chars m) := by
  funext k; simp only [put]; split <;> rfl

theorem bytesAt_length (m : Memory) (a n : Nat) : (bytesAt m a n).length = n := by simp [bytesAt]

/-- One step shows what the string operation gives. -/
theorem step_refines (m : Memory) (s : Views) (op : ViewOp) (h : Allowed m (fun k => (s k).chars m) op) :
    (fun k => ((viewStep m s op).1 k).chars m) = (textStep m (fun k => (s k).chars m) op).1 ∧
      (viewStep m s op).2 = (textStep m (fun k => (s k).chars m) op).2 := by
  cases op with
  | count v a n => exact ⟨put_chars .., rfl⟩
  | cstr v a room =>
    obtain ⟨h1, h2⟩ := h
    obtain ⟨e1, e2⟩ := strlen_eq m room a h2
    refine ⟨?_, rfl⟩
    show (fun k => (put s v _ k).chars m) = _
    rw [put_chars]
    simp only [textStep, e1, Option.getD_some, chars_eq]
    congr 1
    have hl : ((bytesAt m a room).takeWhile (· ≠ 0#8)).length ≤ room := by
      have := (List.takeWhile_sublist (p := (· ≠ 0#8)) (l := bytesAt m a room)).length_le
      rwa [bytesAt_length] at this
    rw [BitVec.toNat_ofNat, Nat.mod_eq_of_lt (by omega), ← e2]
  | range v a b =>
    obtain ⟨h1, h2⟩ := h
    refine ⟨?_, rfl⟩
    show (fun k => (put s v _ k).chars m) = _
    rw [put_chars]
    simp only [textStep, chars_eq]
    congr 2
    rw [BitVec.toNat_sub, BitVec.toNat_ofNat, BitVec.toNat_ofNat]
    omega
  | clear v => exact ⟨put_chars .., rfl⟩
  | assign v u => exact ⟨put_chars .., rfl⟩
  | substr v u pos len =>
    simp only [viewStep, textStep, chars_length]
    split
    · rename_i hp
      refine ⟨?_, rfl⟩
      show (fun k => (put s v _ k).chars m) = _
      rw [put_chars, if_neg (show ¬ (s u).size.toNat < pos.toNat by omega)]
      congr 1
      simp only [chars_eq, bytesAt_drop, bytesAt_take]
      congr 1
      have : ((s u).size - pos).toNat = (s u).size.toNat - pos.toNat := by rw [BitVec.toNat_sub]; have := (s u).size.isLt; have := pos.isLt; omega
      split <;> omega
    · exact ⟨rfl, rfl⟩
  | removePrefix v n =>
    refine ⟨?_, rfl⟩
    show (fun k => (put s v _ k).chars m) = _
    rw [put_chars]
    simp only [textStep, chars_eq, bytesAt_drop]
    have h : n.toNat ≤ ((s v).chars m).length := h
    rw [chars_length] at h
    congr 2
    rw [BitVec.toNat_sub]; have := (s v).size.isLt; omega
  | removeSuffix v n =>
    refine ⟨?_, rfl⟩
    show (fun k => (put s v _ k).chars m) = _
    rw [put_chars]
    simp only [textStep, chars_eq, bytesAt_take, bytesAt_length]
    have h : n.toNat ≤ ((s v).chars m).length := h
    rw [chars_length] at h
    congr 2
    rw [BitVec.toNat_sub]; have := (s v).size.isLt; omega
  | resize v n =>
    refine ⟨?_, rfl⟩
    show (fun k => (put s v _ k).chars m) = _
    rw [put_chars]
    simp only [textStep, chars_eq, bytesAt_take]
    have h : n.toNat ≤ ((s v).chars m).length := h
    rw [chars_length] at h
    congr 2
    omega
  | swap v u =>
    refine ⟨?_, rfl⟩
    show (fun k => (put (put s v (s u)) u (s v) k).chars m) = _
    rw [put_chars, put_chars]; rfl

/-- C138: every program that uses views as documented sees the characters that strings in their place would have, and the same exceptions. -/
theorem views_are_strings (m : Memory) : ∀ (l : List ViewOp) (s : Views), AllAllowed m l (fun k => (s k).chars m) →
    (fun k => ((viewRun m l s).1 k).chars m) = (textRun m l (fun k => (s k).chars m)).1 ∧
      (viewRun m l s).2 = (textRun m l (fun k => (s k).chars m)).2 := by
  intro l
  induction l with
  | nil => intro s _; exact ⟨rfl, rfl⟩
  | cons op l ih =>
    intro s h
    obtain ⟨h1, h2⟩ := step_refines m s op h.1
    obtain ⟨i1, i2⟩ := ih (viewStep m s op).1 (by rw [h1]; exact h.2)
    simp only [viewRun, textRun]
    rw [← h1, ← h2]
    exact ⟨i1, by rw [i2]⟩

/-- The view lies in the addresses `r`. -/
def Inside (v : View) (r : Nat × Nat) : Prop := r.1 ≤ v.ptr ∧ v.ptr + v.size.toNat ≤ r.1 + r.2

theorem step_inside (m : Memory) (s : Views) (op : ViewOp) (h : Allowed m (fun k => (s k).chars m) op) (rs : List (Nat × Nat))
    (hs : ∀ k, ∃ r ∈ rs, Inside (s k) r) : ∀ k, ∃ r ∈ rs ++ (madeOf m op).toList, Inside ((viewStep m s op).1 k) r := by
  have key : ∀ v x, (∃ r ∈ rs ++ (madeOf m op).toList, Inside x r) → ∀ k, ∃ r ∈ rs ++ (madeOf m op).toList, Inside (put s v x k) r := by
    intro v x hx k
    unfold put
    split
    · exact hx
    · obtain ⟨r, h1, h2⟩ := hs k; exact ⟨r, List.mem_append_left _ h1, h2⟩
  have old : ∀ k, ∃ r ∈ rs ++ (madeOf m op).toList, Inside (s k) r := fun k => by
    obtain ⟨r, h1, h2⟩ := hs k; exact ⟨r, List.mem_append_left _ h1, h2⟩
  cases op with
  | count v a n => exact key v _ ⟨(a, n.toNat), by simp [madeOf], by simp [Inside]⟩
  | cstr v a room =>
    obtain ⟨h1, h2⟩ := h
    obtain ⟨e1, e2⟩ := strlen_eq m room a h2
    refine key v _ ⟨_, List.mem_append_right _ (by simp only [madeOf, Option.toList_some]; exact List.mem_singleton.2 rfl), ?_⟩
    simp only [Inside, e1, Option.getD_some, BitVec.toNat_ofNat]
    exact ⟨Nat.le_refl _, by have := Nat.mod_le ((bytesAt m a room).takeWhile (· ≠ 0#8)).length (2 ^ 64); omega⟩
  | range v a b =>
    obtain ⟨h1, h2⟩ := h
    refine key v _ ⟨(a, b - a), by simp [madeOf], ?_⟩
    simp only [Inside, BitVec.toNat_sub, BitVec.toNat_ofNat]
    omega
  | clear v => exact key v _ ⟨(0, 0), by simp [madeOf], by simp [Inside]⟩
  | assign v u => exact key v _ (old u)
  | substr v u pos len =>
    simp only [viewStep]
    split
    · rename_i hp
      refine key v _ ?_
      obtain ⟨r, h1, h2, h3⟩ := old u
      refine ⟨r, h1, ?_⟩
      rw [if_neg (show ¬ (s u).size.toNat < pos.toNat by omega)]
      have : ((s u).size - pos).toNat = (s u).size.toNat - pos.toNat := by rw [BitVec.toNat_sub]; have := (s u).size.isLt; have := pos.isLt; omega
      simp only [Inside]
      split <;> omega
    · exact old
  | removePrefix v n =>
    have h : n.toNat ≤ ((s v).chars m).length := h
    rw [chars_length] at h
    refine key v _ ?_
    obtain ⟨r, h1, h2, h3⟩ := old v
    refine ⟨r, h1, ?_⟩
    have : ((s v).size - n).toNat = (s v).size.toNat - n.toNat := by rw [BitVec.toNat_sub]; have := (s v).size.isLt; omega
    simp only [Inside]; omega
  | removeSuffix v n =>
    have h : n.toNat ≤ ((s v).chars m).length := h
    rw [chars_length] at h
    refine key v _ ?_
    obtain ⟨r, h1, h2, h3⟩ := old v
    refine ⟨r, h1, ?_⟩
    have : ((s v).size - n).toNat = (s v).size.toNat - n.toNat := by rw [BitVec.toNat_sub]; have := (s v).size.isLt; omega
    simp only [Inside]; omega
  | resize v n =>
    have h : n.toNat ≤ ((s v).chars m).length := h
    rw [chars_length] at h
    refine key v _ ?_
    obtain ⟨r, h1, h2, h3⟩ := old v
    exact ⟨r, h1, h2, by simp only; omega⟩
  | swap v u =>
    intro k
    simp only [viewStep, put]
    split
    · exact old v
    · split
      · exact old u
      · exact old k

/-- C138: no view ever shows an address outside of the texts that views were made of. -/
theorem views_stay_inside (m : Memory) : ∀ (l : List ViewOp) (s : Views) (rs : List (Nat × Nat)), AllAllowed m l (fun k => (s k).chars m) →
    (∀ k, ∃ r ∈ rs, Inside (s k) r) → ∀ k, ∃ r ∈ rs ++ l.filterMap (madeOf m), Inside ((viewRun m l s).1 k) r := by
  intro l
  induction l with
  | nil => intro s rs _ hs k; rw [List.filterMap_nil, List.append_nil]; exact hs k
  | cons op l ih =>
    intro s rs h hs k
    obtain ⟨h1, -⟩ := step_refines m s op h.1
    obtain ⟨r, hr, hi⟩ := ih (viewStep m s op).1 (rs ++ (madeOf m op).toList) (by rw [h1]; exact h.2) (step_inside m s op h.1 rs hs) k
    refine ⟨r, ?_, hi⟩
    rw [List.append_assoc] at hr
    rw [List.filterMap_cons]
    cases hm : madeOf m op with
    | none => simpa [hm] using hr
    | some q => simpa [hm] using hr

/-- Views of "ab.cd" at address 100: a C string, its part from 3 on, a cut one, exchanged; and a position behind the end. -/
def sampleMemory : Memory := fun a => ([0x61#8, 0x62#8, 0x2e#8, 0x63#8, 0x64#8, 0#8] : List Byte).getD (a - 100) 0x7a#8
def sampleProgram : List ViewOp :=
  [.cstr 0 100 6, .substr 1 0 3 9, .removePrefix 0 1, .removeSuffix 0 3, .swap 0 1, .substr 2 0 7 1, .resize 0 1, .range 3 101 104]
example : ((List.range 4).map fun k => ((viewRun sampleMemory sampleProgram (fun _ => ⟨0, 0⟩)).1 k).chars sampleMemory) =
    [[0x63#8], [0x62#8], [], [0x62#8, 0x2e#8, 0x63#8]] ∧
    (viewRun sampleMemory sampleProgram (fun _ => ⟨0, 0⟩)).2 = [false, false, false, false, false, true, false, false] := by decide
instance (m : Memory) (t : Nat → List Byte) (op : ViewOp) : Decidable (Allowed m t op) := by
  cases op <;> unfold Allowed <;> infer_instance
instance (m : Memory) : (l : List ViewOp) → (t : Nat → List Byte) → Decidable (AllAllowed m l t)
  | [], _ => .isTrue trivial
  | op :: l, t => by
    unfold AllAllowed
    have := instDecidableAllAllowed m l (textStep m t op).1
    infer_instance
example : AllAllowed sampleMemory sampleProgram (fun k => ((fun _ => ⟨0, 0⟩ : Views) k).chars sampleMemory) := by decide

/-! ## C13: the other operators and forms of comparison -/

/-- C13: all six operators say what the order says. -/
theorem operators_agree (s v : List Byte) :
    (opEq s v = true ↔ s = v) ∧ (opNe s v = true ↔ s ≠ v) ∧ (opLt s v = true ↔ LexLt s v) ∧ (opGt s v = true ↔ LexLt v s) ∧
    (opLe s v = true ↔ LexLt s v ∨ s = v) ∧ (opGe s v = true ↔ LexLt v s ∨ s = v) := by
  obtain ⟨h1, h2, h3⟩ := compare_spec s v
  simp only [opEq, opNe, opLt, opGt, opLe, opGe, decide_eq_true_eq, beq_iff_eq, bne_iff_ne, ne_eq, h1, h2, h3, true_and]
  constructor
  · rw [← h1, ← h2]; omega
  · rw [← h1, ← h3]; omega

/-- C13: comparing parts compares the characters from the position on, at most as many as asked for. A position that is
not in the view throws. -/
theorem compare_parts (s v : List Byte) (p n q k : Nat) :
    (p < s.length → comparePart s p n v = some (compare ((s.drop p).take n) v)) ∧
    (p < s.length → q < v.length → comparePart2 s p n v q k = some (compare ((s.drop p).take n) ((v.drop q).take k))) ∧
    (s.length ≤ p → comparePart s p n v = none ∧ comparePart2 s p n v q k = none) ∧ (v.length ≤ q → comparePart2 s p n v q k = none) := by
  have hs : ∀ (s : List Byte) p n, p < s.length → substr s p n = some ((s.drop p).take n) := by
    intro s p n h
    unfold substr
    simp only [h, if_true, show ¬ p > s.length by omega, if_false]
    split
    · rename_i hn
      congr 1
      rw [List.take_of_length_le (by simp), List.take_of_length_le (by simp; omega)]
    · rfl
  refine ⟨fun h => ?_, fun h1 h2 => ?_, fun h => ?_, fun h => ?_⟩
  · simp [comparePart, hs s p n h]
  · simp [comparePart2, hs s p n h1, hs v q k h2]
  · simp [comparePart, comparePart2, substr_throws s p n h]
  · simp [comparePart2, substr_throws v q k h]

example : comparePart [0x61#8, 0x62#8, 0x63#8] 1 9 [0x62#8, 0x63#8] = some 0 ∧ opLe [0x61#8] [0x61#8, 0#8] = true ∧
    comparePart2 [0x61#8, 0x62#8] 0 1 [0x62#8, 0x61#8] 1 5 = some 0 ∧ comparePart [] 0 0 [] = none := by decide

end PreCore.StringView
