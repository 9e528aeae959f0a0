import Verif.Model.SceneIter
import Mathlib.Tactic.Ring
/-! # C135: a motion or skeleton can be used in a range-based for loop -/
namespace PreCore.SceneIter
open PreCore.VirtualIter

theorem rounds_lend {α} (h : Lists α) (p : Nat) (l : UList α) (hp : h p = some l) (q : Nat) :
    ∀ (k : Nat) (i : BitVec 64), i.toNat + k = l.size.toNat → ∀ n, k < n →
      rounds h ⟨q, l.size⟩ n ⟨p, i⟩ = .ended ((List.range k).map fun j => l.at_ (i + BitVec.ofNat 64 j)) := by
  intro k
  induction k with
  | zero =>
    intro i hi n hn
    obtain ⟨n, rfl⟩ : ∃ m, n = m + 1 := ⟨n - 1, by omega⟩
    have : i = l.size := BitVec.eq_of_toNat_eq (by omega)
    simp [rounds, this]
  | succ k ih =>
    intro i hi n hn
    obtain ⟨n, rfl⟩ : ∃ m, n = m + 1 := ⟨n - 1, by omega⟩
    have hlt := l.size.isLt
    have h1 : (i + 1).toNat = i.toNat + 1 := by
      rw [BitVec.toNat_add, show (1 : BitVec 64).toNat = 1 from rfl, Nat.mod_eq_of_lt (by omega)]
    have hne : i ≠ l.size := by intro e; rw [e] at hi; omega
    simp only [rounds]
    rw [if_pos hne, hp]
    simp only
    rw [ih (i + 1) (by omega) n (by omega)]
    simp only [Loop.cons, List.range_succ_eq_map, List.map_cons, List.map_map]
    congr 2
    · simp
    · apply List.map_congr_left
      intro j _
      simp only [Function.comp]
      congr 1
      apply BitVec.eq_of_toNat_eq
      simp [BitVec.toNat_add]
      omega

/-- C135: if the class lends its list (any implementation that does not give ownership away and leaves the lists alive), the loop visits
`At(0)`, `At(1)`, …, `At(Size() - 1)` and ends. -/
theorem loop_visits_lent {α} (t : Impl α) (h : Lists α) (p : Nat) (l : UList α) (hp : h p = some l) (ht : t h = ⟨h, p, false⟩) (n : Nat)
    (hn : l.size.toNat < n) : forEach t h n = .ended ((List.range l.size.toNat).map fun j => l.at_ (BitVec.ofNat 64 j)) := by
  have hb : begin_ t h = some (h, ⟨p, 0⟩) := by
    simp only [begin_, ht, hp, Option.map_some, Got.done, VirtualIter.begin_, VirtualIter.mk]; rfl
  have he : end_ t h = some (h, ⟨p, l.size⟩) := by
    simp only [end_, ht, hp, Option.map_some, Got.done, VirtualIter.end_, VirtualIter.mk]; rfl
  simp only [forEach, hb, he]
  have := rounds_lend h p l hp p l.size.toNat 0 (by simp) n hn
  rw [this]
  simp

/-- C135: of a stored vector, the items in order. -/
theorem loop_visits_vector {α} (xs : List α) (hx : xs.length < 2 ^ 64) (h : Lists (Option α)) (p : Nat)
    (hp : h p = some (ofVector xs)) (n : Nat) (hn : xs.length < n) : forEach (lend p) h n = .ended (xs.map some) := by
  have hs : (ofVector xs).size.toNat = xs.length := by simp only [ofVector, BitVec.toNat_ofNat]; exact Nat.mod_eq_of_lt hx
  rw [loop_visits_lent (lend p) h p _ hp rfl n (by omega), hs]
  congr 1
  apply List.ext_getElem (by simp)
  intro i h1 h2
  simp only [List.getElem_map, List.getElem_range, ofVector]
  simp at h1
  rw [BitVec.toNat_ofNat, Nat.mod_eq_of_lt (by omega)]
  simp [h1]

/-- C135 is violated: if the class makes its list and gives it away, as the type `Element` allows, the list is deleted before the loop starts:
for every list that is not empty and every allocator, which gives a place that is not in use, the first round reads a deleted list. -/
theorem loop_given_violated {α} (l : UList α) (hl : l.size ≠ 0) (fresh : Lists α → Nat) (h : Lists α) (hf : h (fresh h) = none) (n : Nat) :
    forEach (give l fresh) h (n + 1) = .undefined [] := by
  have hd : (give l fresh h).done = h := by
    funext q
    by_cases e : q = fresh h
    · simp [give, Got.done, e, hf]
    · simp [give, Got.done, e]
  have hb : begin_ (give l fresh) h = some (h, ⟨fresh h, 0⟩) := by
    simp only [begin_, hd]
    simp only [give, if_true, Option.map_some, VirtualIter.begin_, VirtualIter.mk]; rfl
  have he : end_ (give l fresh) h = some (h, ⟨fresh h, l.size⟩) := by
    simp only [end_, hd]
    simp only [give, if_true, Option.map_some, VirtualIter.end_, VirtualIter.mk]; rfl
  simp only [forEach, hb, he, rounds, hf]
  rw [if_pos (fun e => hl e.symm)]

/-- C135: an empty list that is given away is no problem. -/
theorem loop_given_empty {α} (l : UList α) (hl : l.size = 0) (fresh : Lists α → Nat) (h : Lists α) (n : Nat) :
    forEach (give l fresh) h (n + 1) = .ended [] := by
  simp only [forEach, begin_, end_, give, if_true, Option.map_some, rounds, VirtualIter.begin_, VirtualIter.end_, VirtualIter.mk, hl]
  rfl

/-- Three tracks lent; the same tracks given away. -/
example : forEach (lend 7) (fun q => if q = 7 then some (ofVector [10, 20, 30]) else none) 9 = .ended [some 10, some 20, some 30] := by decide
example : forEach (give (ofVector [10, 20, 30]) (fun _ => 3)) (fun _ => none) 9 = .undefined [] := by decide
example : (ofVector [10, 20, 30]).size ≠ 0 ∧ (ofVector ([] : List Nat)).size = 0 ∧ ∃ fresh : Lists (Option Nat) → Nat, ∃ h : Lists (Option Nat), h (fresh h) = none := by
  exact ⟨by decide, by decide, fun _ => 3, fun _ => none, rfl⟩

end PreCore.SceneIter
