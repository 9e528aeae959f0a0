import Verif.Model.StringView
/-!
# C12 - C15: string views
-/
namespace PreCore.StringView

/-! ## Specifications -/

/-- `v` occurs in `s` at index `i`. -/
def OccursAt (s v : List Byte) (i : Nat) : Prop :=
  i + v.length ≤ s.length ∧ ∀ j, j < v.length → s[i + j]? = v[j]?

/-- The least index satisfying `P` in `[lo, hi)`, as reported by a search. -/
def IsFirst (P : Nat → Prop) (lo hi : Nat) (r : Found) : Prop :=
  (∃ i, r = .at i ∧ lo ≤ i ∧ i < hi ∧ P i ∧ ∀ k, lo ≤ k → k < i → ¬ P k) ∨
  (r = .npos ∧ ∀ k, lo ≤ k → k < hi → ¬ P k)

/-- The greatest index satisfying `P` in `[0, hi]`, as reported by a search. -/
def IsLast (P : Nat → Prop) (hi : Nat) (r : Found) : Prop :=
  (∃ i, r = .at i ∧ i ≤ hi ∧ P i ∧ ∀ k, i < k → k ≤ hi → ¬ P k) ∨
  (r = .npos ∧ ∀ k, k ≤ hi → ¬ P k)

/-- The full property C12 for `find`. -/
def FindSpec (s v : List Byte) (pos : Nat) (r : Found) : Prop := IsFirst (OccursAt s v) pos (s.length + 1) r

/-! ## C12 -/

/-- What the inner comparison of `find` really tests. -/
def TailMatch (s v : List Byte) (i : Nat) : Prop :=
  ∀ j, j < v.length → (j ≠ 0 ∨ v.length = 1) → s[i + j]? = v[j]?

theorem findInner_zero (s v : List Byte) (i : Nat) : ∀ j, findInner s v i j = 0 ↔
    ∀ k, 0 < k → k ≤ j → v[k]? = s[i + k]? := by
  intro j
  induction j with
  | zero => simp [findInner]; omega
  | succ j ih =>
    simp only [findInner]
    by_cases h : v[j + 1]? = s[i + (j + 1)]?
    · rw [if_pos h, ih]
      constructor
      · intro hk k h1 h2
        by_cases e : k = j + 1
        · subst e; exact h
        · exact hk k h1 (by omega)
      · intro hk k h1 h2; exact hk k h1 (by omega)
    · rw [if_neg h]
      simp only [Nat.add_eq_zero_iff, Nat.one_ne_zero, and_false, false_iff]
      intro hk
      exact h (hk (j + 1) (by omega) (Nat.le_refl _))

theorem findJ_zero (s v : List Byte) (i : Nat) (hv : v ≠ []) : findJ s v i = 0 ↔ TailMatch s v i := by
  have hpos : 0 < v.length := List.length_pos_iff.2 hv
  unfold findJ TailMatch
  by_cases h1 : v.length - 1 = 0
  · have hl : v.length = 1 := by omega
    simp only [hl, Nat.sub_self, if_true]
    constructor
    · intro h j hj _
      have : j = 0 := by omega
      subst this
      by_cases e : s[i]? = v[0]?
      · simpa using e
      · rw [if_neg e] at h; simp at h
    · intro h
      have := h 0 (by omega) (Or.inr trivial)
      rw [if_pos (by simpa using this)]
  · simp only [h1, if_false]
    rw [findInner_zero]
    constructor
    · intro h j hj hc
      exact (h j (by omega) (by omega)).symm
    · intro h k hk1 hk2
      exact (h k (by omega) (Or.inl (by omega))).symm

theorem findLoop_first (s v : List Byte) (hv : v ≠ []) : ∀ f i, 
    IsFirst (TailMatch s v) i (i + f) (findLoop s v f i) := by
  intro f
  induction f with
  | zero => intro i; exact Or.inr ⟨rfl, fun k h1 h2 => by omega⟩
  | succ f ih =>
    intro i
    simp only [findLoop]
    by_cases h : findJ s v i = 0
    · rw [if_pos h]
      exact Or.inl ⟨i, rfl, Nat.le_refl _, by omega, (findJ_zero s v i hv).1 h, fun k h1 h2 => by omega⟩
    · rw [if_neg h]
      have hn : ¬ TailMatch s v i := fun hm => h ((findJ_zero s v i hv).2 hm)
      rcases ih (i + 1) with ⟨r, h1, h2, h3, h4, h5⟩ | ⟨h1, h2⟩
      · refine Or.inl ⟨r, h1, by omega, by omega, h4, fun k hk1 hk2 => ?_⟩
        by_cases e : k = i
        · subst e; exact hn
        · exact h5 k (by omega) hk2
      · refine Or.inr ⟨h1, fun k hk1 hk2 => ?_⟩
        by_cases e : k = i
        · subst e; exact hn
        · exact h2 k (by omega) (by omega)

/-- C12, partial, exact behaviour of `find` for every input: it reports the first index `>= pos` and strictly
below `size - |needle|` at which the needle matches, where for needles of two or more characters the first
character of the needle is not compared. Missing w.r.t. the full property: the last possible index, and the
comparison of the first character. -/
theorem find_behaviour_partial (s v : List Byte) (pos : Nat) (hv : v ≠ []) (hl : v.length ≤ s.length) :
    IsFirst (TailMatch s v) pos (s.length - v.length) (find s v pos) := by
  have hpos : 0 < v.length := List.length_pos_iff.2 hv
  unfold find
  rw [if_neg (by omega)]
  have := findLoop_first s v hv (s.length - v.length - pos) pos
  by_cases hp : pos ≤ s.length - v.length
  · rwa [show pos + (s.length - v.length - pos) = s.length - v.length by omega] at this
  · rw [show s.length - v.length - pos = 0 by omega] at this ⊢
    exact Or.inr ⟨rfl, fun k h1 h2 => by omega⟩

/-- C12, partial: searching one character returns its first occurrence at or after `pos`, except that the last
character of the view is never looked at. -/
theorem find_char_partial (s : List Byte) (c : Byte) (pos : Nat) :
    IsFirst (fun i => s[i]? = some c) pos (s.length - 1) (find s [c] pos) := by
  by_cases hs : s = []
  · subst hs; exact Or.inr ⟨rfl, fun k h1 h2 => by simp at h2⟩
  · have h := find_behaviour_partial s [c] pos (by simp) (List.length_pos_iff.2 hs)
    have e : ∀ i, TailMatch s [c] i ↔ s[i]? = some c := by
      intro i
      constructor
      · intro h; simpa using h 0 (by simp) (Or.inr rfl)
      · intro h j hj _
        have : j = 0 := by simpa using hj
        subst this; simpa using h
    simp only [IsFirst, e, List.length_singleton] at h
    exact h

/-- C12, partial: an occurrence that is not at the very end of the view is never missed: `find` then returns an
index not after it. -/
theorem find_not_late_partial (s v : List Byte) (pos i : Nat) (hv : v ≠ []) (hi : pos ≤ i) (ho : OccursAt s v i)
    (hend : i + v.length < s.length) : ∃ k, find s v pos = .at k ∧ pos ≤ k ∧ k ≤ i := by
  rcases find_behaviour_partial s v pos hv (by have := ho.1; omega) with ⟨r, h1, h2, h3, h4, h5⟩ | ⟨h1, h2⟩
  · refine ⟨r, h1, h2, ?_⟩
    by_cases hr : r ≤ i
    · exact hr
    · exact absurd (fun j hj _ => ho.2 j hj) (h5 i hi (by omega))
  · exact absurd (fun j hj _ => ho.2 j hj) (h2 i hi (by omega))

example : OccursAt [0x61#8, 0x62#8, 0x63#8] [0x62#8] 1 := ⟨by decide, by decide⟩

/-- C12 is violated: an occurrence at the end of the view is not found ("b" in "ab"). -/
theorem find_end_violated : ¬ FindSpec [0x61#8, 0x62#8] [0x62#8] 0 (find [0x61#8, 0x62#8] [0x62#8] 0) := by
  have : find [0x61#8, 0x62#8] [0x62#8] 0 = .npos := by decide
  rw [this]
  rintro (⟨i, h, _⟩ | ⟨_, h⟩)
  · cases h
  · exact h 1 (by decide) (by decide) ⟨by decide, by decide⟩

/-- C12 is violated: a string that does not occur is "found" because its first character is not compared
("xb" in "abc"). -/
theorem find_first_char_violated :
    ¬ FindSpec [0x61#8, 0x62#8, 0x63#8] [0x78#8, 0x62#8] 0 (find [0x61#8, 0x62#8, 0x63#8] [0x78#8, 0x62#8] 0) := by
  have : find [0x61#8, 0x62#8, 0x63#8] [0x78#8, 0x62#8] 0 = .at 0 := by decide
  rw [this]
  rintro (⟨i, h, _, _, ho, _⟩ | ⟨h, _⟩)
  · cases h
    have := ho.2 0 (by decide)
    revert this; decide
  · cases h

/-- C12 is violated: `rfind` compares the needle backwards and reads before the start of the view
("ab" in "abab"). -/
theorem rfind_violated : rfind [0x61#8, 0x62#8, 0x61#8, 0x62#8] [0x61#8, 0x62#8] npos = .ub := by decide

theorem rfindLoop_char (s : List Byte) (c : Byte) : ∀ i, i < s.length →
    IsLast (fun k => s[k]? = some c) i (rfindLoop s [c] i) := by
  intro i
  induction i with
  | zero =>
    intro h
    unfold rfindLoop rfindMatch
    simp only [Nat.le_refl, if_true, Nat.sub_zero, List.getElem?_eq_getElem h, rfindMatch]
    by_cases e : c = s[0]
    · rw [if_pos e]
      exact Or.inl ⟨0, rfl, Nat.le_refl _, by simp [h, e], fun k h1 h2 => by omega⟩
    · rw [if_neg e]
      refine Or.inr ⟨rfl, fun k hk he => e ?_⟩
      have : k = 0 := by omega
      subst this
      rw [List.getElem?_eq_getElem h] at he
      simpa using he.symm
  | succ i ih =>
    intro h
    unfold rfindLoop rfindMatch
    simp only [Nat.zero_le, if_true, Nat.sub_zero, List.getElem?_eq_getElem h, rfindMatch]
    by_cases e : c = s[i + 1]
    · rw [if_pos e]
      exact Or.inl ⟨i + 1, rfl, Nat.le_refl _, by simp [h, e], fun k h1 h2 => by omega⟩
    · rw [if_neg e]
      have hn : ¬ s[i + 1]? = some c := by
        rw [List.getElem?_eq_getElem h]; intro he; exact e (by simpa using he.symm)
      simp only
      rcases ih (by omega) with ⟨r, h1, h2, h3, h4⟩ | ⟨h1, h2⟩
      · refine Or.inl ⟨r, h1, by omega, h3, fun k hk1 hk2 => ?_⟩
        by_cases e' : k = i + 1
        · subst e'; exact hn
        · exact h4 k hk1 (by omega)
      · refine Or.inr ⟨h1, fun k hk => ?_⟩
        by_cases e' : k = i + 1
        · subst e'; exact hn
        · exact h2 k (by omega)

/-- The needle, read backwards, ends at position `i` of the view. -/
def ReversedAt (s v : List Byte) (i : Nat) : Prop := ∀ j, j < v.length → j ≤ i ∧ s[i - j]? = v[j]?

theorem rfindMatch_spec (s : List Byte) (i : Nat) (v : List Byte) : ∀ j,
    (rfindMatch s i j v = some true ↔ ∀ k, k < v.length → j + k ≤ i ∧ s[i - (j + k)]? = v[k]?) ∧
    (rfindMatch s i j v = some false → ¬ ∀ k, k < v.length → j + k ≤ i ∧ s[i - (j + k)]? = v[k]?) := by
  induction v with
  | nil => intro j; simp [rfindMatch]
  | cons c cs ih =>
    intro j
    have key : (∀ k, k < (c :: cs).length → j + k ≤ i ∧ s[i - (j + k)]? = (c :: cs)[k]?) ↔
        (j ≤ i ∧ s[i - j]? = some c) ∧ (∀ k, k < cs.length → j + 1 + k ≤ i ∧ s[i - (j + 1 + k)]? = cs[k]?) := by
      constructor
      · intro h
        refine ⟨by simpa using h 0 (by simp), fun k hk => ?_⟩
        have := h (k + 1) (by simp; omega)
        rw [List.getElem?_cons_succ] at this
        rw [show j + 1 + k = j + (k + 1) by omega]
        exact this
      · rintro ⟨h1, h2⟩ k hk
        cases k with
        | zero => simpa using h1
        | succ k =>
          rw [List.getElem?_cons_succ, show j + (k + 1) = j + 1 + k by omega]
          exact h2 k (by simp at hk; omega)
    rw [key]
    obtain ⟨i1, i2⟩ := ih (j + 1)
    unfold rfindMatch
    by_cases hj : j ≤ i
    · rw [if_pos hj]
      cases hs : s[i - j]? with
      | none => simp
      | some d =>
        simp only
        by_cases hc : c = d
        · subst hc
          rw [if_pos rfl]
          exact ⟨by rw [i1]; simp [hj], fun h => by have := i2 h; rintro ⟨_, g⟩; exact this g⟩
        · rw [if_neg hc]
          refine ⟨⟨fun h => by simp at h, fun h => ?_⟩, fun _ h => ?_⟩
          · have := h.1.2; simp at this; exact absurd this.symm hc
          · have := h.1.2; simp at this; exact absurd this.symm hc
    · rw [if_neg hj]
      refine ⟨⟨fun h => by simp at h, fun h => absurd h.1.1 hj⟩, fun h => by simp at h⟩

/-- C12: what `rfind` computes when it does not leave the view: the last position at which the reversed needle ends, searching
down from `min (size - needle size - 1) pos`. -/
theorem rfind_reversed (s v : List Byte) (pos : Nat) (hv : v.length < s.length) (hl : s.length < 2 ^ 64)
    (hok : rfind s v pos ≠ .ub) :
    IsLast (ReversedAt s v) (min (s.length - v.length - 1) pos) (rfind s v pos) := by
  have hloop : ∀ i, rfindLoop s v i ≠ .ub → IsLast (ReversedAt s v) i (rfindLoop s v i) := by
    have hm := fun i => rfindMatch_spec s i v 0
    simp only [Nat.zero_add] at hm
    intro i
    induction i with
    | zero =>
      intro h
      unfold rfindLoop at h ⊢
      cases e : rfindMatch s 0 0 v with
      | none => rw [e] at h; exact absurd rfl h
      | some b =>
        cases b
        · refine Or.inr ⟨rfl, fun k hk => ?_⟩
          obtain rfl : k = 0 := by omega
          exact (hm 0).2 e
        · exact Or.inl ⟨0, rfl, Nat.le_refl _, (hm 0).1.1 e, fun k h1 h2 => by omega⟩
    | succ i ih =>
      intro h
      unfold rfindLoop at h ⊢
      cases e : rfindMatch s (i + 1) 0 v with
      | none => rw [e] at h; exact absurd rfl h
      | some b =>
        rw [e] at h
        cases b
        · simp only at h ⊢
          have hno := (hm (i + 1)).2 e
          rcases ih h with ⟨p, h1, h2, h3, h4⟩ | ⟨h1, h2⟩
          · refine Or.inl ⟨p, h1, by omega, h3, fun k g1 g2 => ?_⟩
            rcases Nat.lt_or_ge i k with g | g
            · obtain rfl : k = i + 1 := by omega
              exact hno
            · exact h4 k g1 g
          · refine Or.inr ⟨h1, fun k g => ?_⟩
            rcases Nat.lt_or_ge i k with g' | g'
            · obtain rfl : k = i + 1 := by omega
              exact hno
            · exact h2 k g'
        · exact Or.inl ⟨i + 1, rfl, Nat.le_refl _, (hm (i + 1)).1.1 e, fun k h1 h2 => by omega⟩
  have e1 : subw s.length v.length = s.length - v.length := by unfold subw; omega
  have e2 : subw (s.length - v.length) 1 = s.length - v.length - 1 := by unfold subw; omega
  unfold rfind at hok ⊢
  simp only [e1, e2] at hok ⊢
  have hne : min (s.length - v.length - 1) pos ≠ npos := by
    unfold npos; omega
  rw [if_neg hne] at hok ⊢
  exact hloop _ hok

example : rfind [0x62#8, 0x61#8, 0x62#8, 0x63#8, 0x64#8] [0x62#8, 0x61#8] npos = .at 2 := by decide

/-- C12, partial: `rfind` of a single character in a view of two or more characters returns its last
occurrence at or before `pos`, except that the last character of the view is never looked at. -/
theorem rfind_char_partial (s : List Byte) (c : Byte) (pos : Nat) (h2 : 2 ≤ s.length) (hl : s.length < 2 ^ 64) :
    IsLast (fun k => s[k]? = some c) (min (s.length - 2) pos) (rfind s [c] pos) := by
  unfold rfind
  have e1 : subw s.length 1 = s.length - 1 := by unfold subw; omega
  have e2 : subw (s.length - 1) 1 = s.length - 2 := by unfold subw; omega
  simp only [List.length_singleton, e1, e2]
  rw [if_neg (by unfold npos; omega)]
  exact rfindLoop_char s c _ (by omega)

example : rfind [0x61#8, 0x61#8, 0x62#8] [0x61#8] npos = .at 1 := by decide

/-! ## C13 -/

/-- Specification: lexicographic order of strings by unsigned character value, a proper prefix being smaller. -/
def LexLt : List Byte → List Byte → Prop
  | [], [] => False
  | [], _ :: _ => True
  | _ :: _, [] => False
  | a :: as, b :: bs => a.toNat < b.toNat ∨ (a = b ∧ LexLt as bs)

theorem compare_cons (a b : Byte) (as bs : List Byte) : compare (a :: as) (b :: bs) =
    if a.toNat < b.toNat then -1 else if b.toNat < a.toNat then 1 else compare as bs := by
  unfold compare
  rw [show min (a :: as).length (b :: bs).length = min as.length bs.length + 1 by simp]
  simp only [traitsCompare, List.length_cons]
  split
  · simp
  · split
    · simp
    · simp

/-- C13: `compare` is 0 exactly on equal contents, negative exactly when the left side is lexicographically
smaller, positive exactly when the right side is. -/
theorem compare_spec : ∀ (s v : List Byte),
    (compare s v = 0 ↔ s = v) ∧ (compare s v < 0 ↔ LexLt s v) ∧ (compare s v > 0 ↔ LexLt v s) := by
  intro s
  induction s with
  | nil =>
    intro v
    cases v with
    | nil => simp [compare, traitsCompare, LexLt]
    | cons b bs => simp [compare, traitsCompare, LexLt]
  | cons a as ih =>
    intro v
    cases v with
    | nil => simp [compare, traitsCompare, LexLt]
    | cons b bs =>
      rw [compare_cons]
      obtain ⟨i1, i2, i3⟩ := ih bs
      by_cases h1 : a.toNat < b.toNat
      · have hne : a ≠ b := by rintro rfl; omega
        rw [if_pos h1]
        simp [LexLt, h1, hne, Ne.symm hne] <;> omega
      · rw [if_neg h1]
        by_cases h2 : b.toNat < a.toNat
        · have hne : a ≠ b := by rintro rfl; omega
          rw [if_pos h2]
          simp [LexLt, h2, hne, Ne.symm hne] <;> omega
        · have he : a = b := BitVec.eq_of_toNat_eq (by omega)
          subst he
          rw [if_neg h2]
          simp [LexLt, i1, i2, i3]

theorem lex_trans : ∀ (a b c : List Byte), LexLt a b → LexLt b c → LexLt a c := by
  intro a
  induction a with
  | nil =>
    intro b c h1 h2
    cases c with
    | nil => cases b <;> simp [LexLt] at *
    | cons => simp [LexLt]
  | cons x a ih =>
    intro b c h1 h2
    cases b with
    | nil => simp [LexLt] at h1
    | cons y b =>
      cases c with
      | nil => simp [LexLt] at h2
      | cons z c =>
        simp only [LexLt] at *
        rcases h1 with h1 | ⟨rfl, h1⟩
        · rcases h2 with h2 | ⟨rfl, h2⟩
          · left; omega
          · left; exact h1
        · rcases h2 with h2 | ⟨rfl, h2⟩
          · left; exact h2
          · right; exact ⟨rfl, ih _ _ h1 h2⟩

/-- C13: `operator==` is equality of contents, `operator<` a strict total order. -/
theorem operators_total_order :
    (∀ s v, opEq s v = true ↔ s = v) ∧ (∀ s, opLt s s = false) ∧
    (∀ a b c, opLt a b = true → opLt b c = true → opLt a c = true) ∧
    (∀ a b, opLt a b = true ∨ a = b ∨ opLt b a = true) ∧
    (∀ a b, opLt a b = true → opLt b a = false) := by
  have hlt : ∀ a b, opLt a b = true ↔ LexLt a b := fun a b => by
    rw [opLt, decide_eq_true_eq]; exact (compare_spec a b).2.1
  have hirr : ∀ a, ¬ LexLt a a := fun a h => by
    have h0 := ((compare_spec a a).1).2 rfl
    have h1 := ((compare_spec a a).2.1).2 h
    omega
  refine ⟨?_, ?_, ?_, ?_, ?_⟩
  · intro s v; rw [opEq, beq_iff_eq]; exact (compare_spec s v).1
  · intro s
    cases h : opLt s s
    · rfl
    · exact absurd ((hlt s s).1 h) (hirr s)
  · intro a b c h1 h2; rw [hlt] at *; exact lex_trans a b c h1 h2
  · intro a b
    rw [hlt, hlt]
    obtain ⟨h1, h2, h3⟩ := compare_spec a b
    rcases Int.lt_trichotomy (compare a b) 0 with h | h | h
    · exact Or.inl (h2.1 h)
    · exact Or.inr (Or.inl (h1.1 h))
    · exact Or.inr (Or.inr (h3.1 h))
  · intro a b h
    cases h' : opLt b a
    · rfl
    · rw [hlt] at *; exact absurd (lex_trans _ _ _ h h') (hirr a)

/-! ## C14 -/

theorem anyOf_iff (c : Byte) (v : List Byte) : anyOf c v = true ↔ c ∈ v := by
  induction v with
  | nil => simp [anyOf]
  | cons d ds ih =>
    simp only [anyOf, List.mem_cons]
    by_cases h : d = c
    · simp [h]
    · rw [if_neg h, ih]; simp [Ne.symm h]

/-- The character at `i` belongs to the set `v`. -/
def InSet (s v : List Byte) (i : Nat) : Prop := ∃ c, s[i]? = some c ∧ c ∈ v
/-- The character at `i` does not belong to the set `v`. -/
def NotInSet (s v : List Byte) (i : Nat) : Prop := ∃ c, s[i]? = some c ∧ c ∉ v

/-- C14: `find_first_of` returns the first index at or after `pos` whose character is in the set. -/
theorem find_first_of_correct (s v : List Byte) (pos : Nat) :
    IsFirst (InSet s v) pos s.length (findFirstOf s v pos) := by
  have gen : ∀ f i, i + f ≤ s.length → IsFirst (InSet s v) i (i + f) (findFirstOfLoop s v f i) := by
    intro f
    induction f with
    | zero => intro i _; exact Or.inr ⟨rfl, fun k h1 h2 => by omega⟩
    | succ f ih =>
      intro i hi
      have hlt : i < s.length := by omega
      simp only [findFirstOfLoop, List.getElem?_eq_getElem hlt]
      by_cases h : anyOf s[i] v = true
      · rw [if_pos h]
        exact Or.inl ⟨i, rfl, Nat.le_refl _, by omega, ⟨s[i], by simp [hlt], (anyOf_iff _ _).1 h⟩,
          fun k h1 h2 => by omega⟩
      · rw [if_neg h]
        have hn : ¬ InSet s v i := by
          rintro ⟨c, hc, hm⟩
          rw [List.getElem?_eq_getElem hlt] at hc
          cases hc; exact h ((anyOf_iff _ _).2 hm)
        rcases ih (i + 1) (by omega) with ⟨r, h1, h2, h3, h4, h5⟩ | ⟨h1, h2⟩
        · refine Or.inl ⟨r, h1, by omega, by omega, h4, fun k hk1 hk2 => ?_⟩
          by_cases e : k = i
          · subst e; exact hn
          · exact h5 k (by omega) hk2
        · refine Or.inr ⟨h1, fun k hk1 hk2 => ?_⟩
          by_cases e : k = i
          · subst e; exact hn
          · exact h2 k (by omega) (by omega)
  by_cases hp : pos ≤ s.length
  · have := gen (s.length - pos) pos (by omega)
    rwa [show pos + (s.length - pos) = s.length by omega] at this
  · unfold findFirstOf
    rw [show s.length - pos = 0 by omega]
    exact Or.inr ⟨rfl, fun k h1 h2 => by omega⟩

/-- Downward search skeleton shared by the two `find_last_*` functions. -/
theorem last_skeleton (P : Nat → Prop) (L : Nat → Found)
    (h0 : (P 0 → L 0 = .at 0) ∧ (¬ P 0 → L 0 = .npos)) (n : Nat)
    (hs : ∀ i, i + 1 ≤ n → (P (i + 1) → L (i + 1) = .at (i + 1)) ∧ (¬ P (i + 1) → L (i + 1) = L i)) :
    ∀ i, i ≤ n → IsLast P i (L i) := by
  intro i
  induction i with
  | zero =>
    intro _
    by_cases h : P 0
    · exact Or.inl ⟨0, h0.1 h, Nat.le_refl _, h, fun k h1 h2 => by omega⟩
    · refine Or.inr ⟨h0.2 h, fun k hk => ?_⟩
      have : k = 0 := by omega
      subst this; exact h
  | succ i ih =>
    intro hi
    by_cases h : P (i + 1)
    · exact Or.inl ⟨i + 1, (hs i hi).1 h, Nat.le_refl _, h, fun k h1 h2 => by omega⟩
    · rw [(hs i hi).2 h]
      rcases ih (by omega) with ⟨r, h1, h2, h3, h4⟩ | ⟨h1, h2⟩
      · refine Or.inl ⟨r, h1, by omega, h3, fun k hk1 hk2 => ?_⟩
        by_cases e : k = i + 1
        · subst e; exact h
        · exact h4 k hk1 (by omega)
      · refine Or.inr ⟨h1, fun k hk => ?_⟩
        by_cases e : k = i + 1
        · subst e; exact h
        · exact h2 k (by omega)

theorem findLastOfLoop_last (s v : List Byte) : ∀ i, i < s.length → IsLast (InSet s v) i (findLastOfLoop s v i) := by
  have inset : ∀ i (h : i < s.length), InSet s v i ↔ anyOf s[i] v = true := by
    intro i h
    rw [anyOf_iff]
    constructor
    · rintro ⟨c, hc, hm⟩
      rw [List.getElem?_eq_getElem h] at hc; cases hc; exact hm
    · intro hm; exact ⟨_, List.getElem?_eq_getElem h, hm⟩
  have val : ∀ i (h : i < s.length), (if v = [] then some false else (s[i]?).map (fun c => anyOf c v)) =
      some (anyOf s[i] v) := by
    intro i h
    by_cases hv : v = []
    · subst hv; rfl
    · rw [if_neg hv, List.getElem?_eq_getElem h]; rfl
  intro i hi
  refine last_skeleton (InSet s v) (findLastOfLoop s v) ?_ (s.length - 1) ?_ i (by omega)
  · have h0 : 0 < s.length := by omega
    unfold findLastOfLoop
    rw [val 0 h0, inset 0 h0]
    cases anyOf s[0] v <;> simp
  · intro k hk
    have hk' : k + 1 < s.length := by omega
    rw [findLastOfLoop, val _ hk', inset _ hk']
    cases anyOf s[k + 1] v <;> simp

/-- C14: on a non-empty view `find_last_of` returns the last index at or before `pos` whose character is in
the set. -/
theorem find_last_of_correct (s v : List Byte) (pos : Nat) (hs : s ≠ []) (hl : s.length < 2 ^ 64) :
    IsLast (InSet s v) (min (s.length - 1) pos) (findLastOf s v pos) := by
  have hpos : 0 < s.length := List.length_pos_iff.2 hs
  have e1 : subw s.length 1 = s.length - 1 := by unfold subw; omega
  unfold findLastOf
  simp only [e1]
  rw [if_neg (by unfold npos; omega)]
  exact findLastOfLoop_last s v _ (by omega)

example : ([0x61#8, 0x2f#8] : List Byte) ≠ [] ∧ findLastOf [0x61#8, 0x2f#8, 0x62#8] [0x2f#8] npos = .at 1 := by decide +kernel

/-- C14: on an empty view the default `pos` gives `npos`, ... -/
theorem find_last_of_empty (v : List Byte) : findLastOf [] v npos = .npos := by
  unfold findLastOf; rfl

/-- ... but any other `pos` reads outside the view (C14 violated for explicit positions on empty views). -/
theorem find_last_of_empty_violated (c : Byte) (v : List Byte) (pos : Nat) (h : pos < npos) :
    findLastOf [] (c :: v) pos = .ub := by
  have e1 : subw 0 1 = npos := by decide
  unfold findLastOf
  simp only [List.length_nil, e1]
  rw [Nat.min_eq_right (by omega), if_neg (by omega)]
  cases pos <;> simp [findLastOfLoop]

/-- C14, partial: `find_first_not_of` is right for one-character sets. Missing: larger sets (see the violation)
and the empty set. -/
theorem find_first_not_of_partial (s : List Byte) (c : Byte) (pos : Nat) :
    IsFirst (NotInSet s [c]) pos s.length (findFirstNotOf s [c] pos) := by
  have notin : ∀ i (h : i < s.length), NotInSet s [c] i ↔ notOfInner s[i] [c] = true := by
    intro i h
    simp only [notOfInner]
    constructor
    · rintro ⟨d, hd, hm⟩
      rw [List.getElem?_eq_getElem h] at hd; cases hd
      rw [if_neg (by intro e; exact hm (by simp [e]))]
    · intro hm
      refine ⟨_, List.getElem?_eq_getElem h, fun he => ?_⟩
      rw [if_pos (List.mem_singleton.1 he).symm] at hm; simp at hm
  have gen : ∀ f i, i + f ≤ s.length → IsFirst (NotInSet s [c]) i (i + f) (findFirstNotOfLoop s [c] f i) := by
    intro f
    induction f with
    | zero => intro i _; exact Or.inr ⟨rfl, fun k h1 h2 => by omega⟩
    | succ f ih =>
      intro i hi
      have hlt : i < s.length := by omega
      simp only [findFirstNotOfLoop, List.getElem?_eq_getElem hlt]
      by_cases h : notOfInner s[i] [c] = true
      · rw [if_pos h]
        exact Or.inl ⟨i, rfl, Nat.le_refl _, by omega, (notin i hlt).2 h, fun k h1 h2 => by omega⟩
      · rw [if_neg h]
        have hn : ¬ NotInSet s [c] i := fun hh => h ((notin i hlt).1 hh)
        rcases ih (i + 1) (by omega) with ⟨r, h1, h2, h3, h4, h5⟩ | ⟨h1, h2⟩
        · refine Or.inl ⟨r, h1, by omega, by omega, h4, fun k hk1 hk2 => ?_⟩
          by_cases e : k = i
          · subst e; exact hn
          · exact h5 k (by omega) hk2
        · refine Or.inr ⟨h1, fun k hk1 hk2 => ?_⟩
          by_cases e : k = i
          · subst e; exact hn
          · exact h2 k (by omega) (by omega)
  by_cases hp : pos ≤ s.length
  · have := gen (s.length - pos) pos (by omega)
    rwa [show pos + (s.length - pos) = s.length by omega] at this
  · unfold findFirstNotOf
    rw [show s.length - pos = 0 by omega]
    exact Or.inr ⟨rfl, fun k h1 h2 => by omega⟩

/-- C14, partial: the same for `find_last_not_of`. -/
theorem find_last_not_of_partial (s : List Byte) (c : Byte) (pos : Nat) (hs : s ≠ []) (hl : s.length < 2 ^ 64) :
    IsLast (NotInSet s [c]) (min (s.length - 1) pos) (findLastNotOf s [c] pos) := by
  have hpos : 0 < s.length := List.length_pos_iff.2 hs
  have e1 : subw s.length 1 = s.length - 1 := by unfold subw; omega
  unfold findLastNotOf
  simp only [e1]
  rw [if_neg (by unfold npos; omega)]
  have notin : ∀ i (h : i < s.length), NotInSet s [c] i ↔ notOfInner s[i] [c] = true := by
    intro i h
    simp only [notOfInner]
    constructor
    · rintro ⟨d, hd, hm⟩
      rw [List.getElem?_eq_getElem h] at hd; cases hd
      rw [if_neg (by intro e; exact hm (by simp [e]))]
    · intro hm
      refine ⟨_, List.getElem?_eq_getElem h, fun he => ?_⟩
      rw [if_pos (List.mem_singleton.1 he).symm] at hm; simp at hm
  have val : ∀ i (h : i < s.length), (if ([c] : List Byte) = [] then some false
      else (s[i]?).map (fun d => notOfInner d [c])) = some (notOfInner s[i] [c]) := by
    intro i h
    rw [if_neg (by simp), List.getElem?_eq_getElem h]; rfl
  refine last_skeleton (NotInSet s [c]) (findLastNotOfLoop s [c]) ?_ (s.length - 1) ?_ _ (by omega)
  · unfold findLastNotOfLoop
    rw [val 0 hpos, notin 0 hpos]
    cases notOfInner s[0] [c] <;> simp
  · intro k hk
    have hk' : k + 1 < s.length := by omega
    rw [findLastNotOfLoop, val _ hk', notin _ hk']
    cases notOfInner s[k + 1] [c] <;> simp

/-- C14 is violated: with a set of two characters a member of the set is reported ("ab", set "xa"). -/
theorem find_not_of_violated :
    findFirstNotOf [0x61#8, 0x62#8] [0x78#8, 0x61#8] 0 = .at 0 ∧ ¬ NotInSet [0x61#8, 0x62#8] [0x78#8, 0x61#8] 0 ∧
    findLastNotOf [0x62#8, 0x61#8] [0x78#8, 0x61#8] npos = .at 1 ∧
      ¬ NotInSet [0x62#8, 0x61#8] [0x78#8, 0x61#8] 1 := by
  refine ⟨by decide, ?_, by decide +kernel, ?_⟩ <;>
  · rintro ⟨c, hc, hm⟩
    simp at hc; subst hc; simp at hm

/-- C14 is violated: nothing is ever "not in the empty set". -/
theorem find_first_not_of_empty_set (s : List Byte) (pos : Nat) : findFirstNotOf s [] pos = .npos := by
  have gen : ∀ f i, i + f ≤ s.length → findFirstNotOfLoop s [] f i = .npos := by
    intro f
    induction f with
    | zero => intro i _; rfl
    | succ f ih =>
      intro i h
      simp only [findFirstNotOfLoop, List.getElem?_eq_getElem (show i < s.length by omega), notOfInner]
      exact ih _ (by omega)
  by_cases hp : pos ≤ s.length
  · exact gen _ _ (by omega)
  · unfold findFirstNotOf; rw [show s.length - pos = 0 by omega]; rfl

/-! ## C15 -/

/-- C15: `substr(pos, n)` inside the view is exactly the characters `pos .. min(pos + n, size)`. -/
theorem substr_correct (s : List Byte) (pos len : Nat) (h : pos < s.length) :
    ∃ r, substr s pos len = some r ∧ r.length = min len (s.length - pos) ∧
      ∀ i, i < r.length → r[i]? = s[pos + i]? := by
  unfold substr
  simp only [h, if_true, show ¬ pos > s.length by omega, if_false]
  refine ⟨_, rfl, ?_, ?_⟩
  · simp only [List.length_take, List.length_drop]; split <;> omega
  · intro i hi
    simp only [List.length_take, List.length_drop] at hi
    rw [List.getElem?_take_of_lt (by omega), List.getElem?_drop]

/-- C15: positions outside throw; so does `pos == size`, unlike `std::string_view` (an empty view cannot be
sliced at all). -/
theorem substr_throws (s : List Byte) (pos len : Nat) (h : s.length ≤ pos) : substr s pos len = none := by
  unfold substr; rw [if_neg (by omega)]

/-- C15, partial: `copy` writes a piece of the view, but up to one character more than requested.
Missing: "at most `count` characters" (violated below). -/
theorem copy_behaviour_partial (s : List Byte) (count pos : Nat) (h : pos < s.length) (hc : count < npos) :
    copy s count pos = some ((s.drop pos).take (count + 1)) := by
  unfold copy
  rw [if_neg (by omega)]
  have : (count + 1) % 2 ^ 64 = count + 1 := by unfold npos at hc; omega
  rw [this]
  congr 1
  apply List.ext_getElem?
  intro i
  by_cases h1 : i < count + 1
  · by_cases h2 : i < s.length - pos
    · rw [List.getElem?_take_of_lt (by omega), List.getElem?_take_of_lt h1]
    · rw [List.getElem?_eq_none (by simp; omega), List.getElem?_eq_none (by simp; omega)]
  · rw [List.getElem?_eq_none (by simp; omega), List.getElem?_eq_none (by simp; omega)]

/-- C15 is violated: whenever the view has more than `count` characters from `pos` on, `copy` writes `count + 1`
characters, one past a destination of the requested size. -/
theorem copy_overflow_violated (s : List Byte) (count pos : Nat) (h : pos + count < s.length) (hc : count < npos) :
    ∃ r, copy s count pos = some r ∧ r.length = count + 1 := by
  refine ⟨_, copy_behaviour_partial s count pos (by omega) hc, ?_⟩
  simp; omega

/-- C15 is violated: with the default `count` (`npos`) nothing is copied. -/
theorem copy_default_violated (s : List Byte) (pos : Nat) (h : pos < s.length) : copy s npos pos = some [] := by
  unfold copy
  rw [if_neg (by omega)]
  simp [npos]

example : (0 : Nat) + 2 < ([1#8, 2#8, 3#8] : List Byte).length := by decide

/-- C15: `remove_prefix` / `remove_suffix` drop exactly `n` characters; `n` beyond the size is undefined. -/
theorem remove_correct (s : List Byte) (n : Nat) (h : n ≤ s.length) :
    removePrefix s n = some (s.drop n) ∧
    ∃ r, removeSuffix s n = some r ∧ r.length = s.length - n ∧ r ++ s.drop (s.length - n) = s := by
  exact ⟨by simp [removePrefix, h], s.take (s.length - n), by simp [removeSuffix, h], by simp,
    List.take_append_drop _ _⟩

theorem remove_ub (s : List Byte) (n : Nat) (h : s.length < n) : removePrefix s n = none ∧ removeSuffix s n = none := by
  unfold removePrefix removeSuffix
  rw [if_neg (by omega), if_neg (by omega)]; exact ⟨rfl, rfl⟩

end PreCore.StringView
