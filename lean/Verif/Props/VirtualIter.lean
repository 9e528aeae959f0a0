import Verif.Model.VirtualIter
/-!
# C43: iteration over uni lists
-/
namespace PreCore.VirtualIter

theorem forEach_from {α} (l : UList α) : ∀ (k n pos : Nat), pos + k = l.size.toNat → k < n →
    forEach l n (BitVec.ofNat 64 pos) l.size = some ((List.range' pos k).map (fun i => l.at_ (BitVec.ofNat 64 i))) := by
  intro k
  induction k with
  | zero =>
    intro n pos h hn
    match n with
    | n + 1 =>
      have : BitVec.ofNat 64 pos = l.size := by
        apply BitVec.eq_of_toNat_eq
        rw [BitVec.toNat_ofNat]
        have := l.size.isLt
        omega
      simp [forEach, this]
  | succ k ih =>
    intro n pos h hn
    match n with
    | n + 1 =>
      have hne : BitVec.ofNat 64 pos ≠ l.size := by
        intro e
        have := congrArg BitVec.toNat e
        rw [BitVec.toNat_ofNat] at this
        have := l.size.isLt
        omega
      have hs : BitVec.ofNat 64 pos + 1 = BitVec.ofNat 64 (pos + 1) := by
        apply BitVec.eq_of_toNat_eq
        simp
      simp only [forEach]
      rw [if_pos hne, hs, ih n (pos + 1) (by omega) (by omega)]
      simp [List.range'_succ]

/-- C43: a range `for` over any list visits `At(0), At(1), …, At(Size()-1)` in order and stops. -/
theorem forEach_all {α} (l : UList α) : ∃ n, forEach l n (begin_ l) (end_ l) =
    some ((List.range l.size.toNat).map (fun i => l.at_ (BitVec.ofNat 64 i))) := by
  have hb : begin_ l = BitVec.ofNat 64 0 := by unfold begin_ mk npos; rw [if_neg (by decide)]; rfl
  have he : end_ l = l.size := by unfold end_ mk; rw [if_pos (Nat.le_refl _)]
  refine ⟨l.size.toNat + 1, ?_⟩
  rw [hb, he, forEach_from l l.size.toNat _ 0 (by omega) (by omega), List.range_eq_range']

/-- For the storage based lists: exactly the stored elements, in order, and `at` never throws. -/
theorem forEach_vector {α} (xs : List α) (h : xs.length < 2 ^ 64) :
    ∃ n, forEach (ofVector xs) n (begin_ (ofVector xs)) (end_ (ofVector xs)) = some (xs.map some) := by
  obtain ⟨n, hn⟩ := forEach_all (ofVector xs)
  refine ⟨n, hn.trans ?_⟩
  have hs : (ofVector xs).size.toNat = xs.length := by
    simp only [ofVector, BitVec.toNat_ofNat]; exact Nat.mod_eq_of_lt h
  rw [hs]
  congr 1
  apply List.ext_getElem
  · simp
  · intro i h1 h2
    simp only [List.getElem_map, List.getElem_range, ofVector, BitVec.toNat_ofNat]
    simp only [List.length_map] at h2
    rw [Nat.mod_eq_of_lt (by omega)]
    exact List.getElem?_eq_getElem h2

example : forEach (ofVector [5, 6, 7]) 4 0 3 = some [some 5, some 6, some 7] := by decide

/-- An iterator constructed at an explicit position below `0xffffffff` is at that position. -/
theorem explicit_position {α} (l : UList α) (n : BitVec 64) (h : n.toNat < 0xffffffff) : mk l n = n := by
  unfold mk
  rw [if_neg]
  show ¬ (0xffffffff ≤ n.toNat)
  omega

/-- An iterator constructed at an explicit position of `0xffffffff` or more is the end iterator instead. -/
theorem explicit_position_violated : ∃ l : UList Nat, 0xffffffff < l.size.toNat ∧ mk l 0xffffffff#64 = l.size ∧ l.size ≠ 0xffffffff#64 :=
  ⟨⟨0x100000001#64, fun _ => 0⟩, by decide, by decide, by decide⟩

end PreCore.VirtualIter
