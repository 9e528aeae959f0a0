import Verif.Model.HkPreset
/-!
# C81: the text of a correction matrix
-/
namespace PreCore.Hk
open PreCore.F32

/-- The number is a zero (of either sign). -/
def IsZero (x : F32) : Prop := ∃ s, val x = .fin s 0
/-- The number is positive (`s = false`) or negative (`s = true`): finite and not zero, or infinite, with that sign. -/
def HasSign (s : Bool) (x : F32) : Prop := val x = .inf s ∨ ∃ m, m ≠ 0 ∧ val x = .fin s m

/-- Row `r` maps to axis `a`, against its direction if `s`: its only entry that is not zero is entry `a`, and it is negative iff `s`. -/
def MapsTo (m : Nat → Nat → F32) (r : Nat) (s : Bool) (a : Nat) : Prop :=
  a < 3 ∧ HasSign s (m r a) ∧ ∀ e, e < 3 → e ≠ a → IsZero (m r e)

theorem entry_zero (x : F32) (e : Nat) (h : IsZero x) : entryText x e = [] := by
  obtain ⟨s, h⟩ := h
  simp [entryText, nonZero, h]

theorem entry_sign (x : F32) (e : Nat) (s : Bool) (h : HasSign s x) : entryText x e = (if s then [0x2d#8] else []) ++ [letter e] := by
  rcases h with h | ⟨m, hm, h⟩
  · simp [entryText, nonZero, below, h]
  · simp [entryText, nonZero, below, h, hm]

/-- Reader of the text: an optional minus before each of the letters X, Y, Z. -/
def axis (c : Byte) : Option Nat := if c = 0x58#8 then some 0 else if c = 0x59#8 then some 1 else if c = 0x5a#8 then some 2 else none

def readText : List Byte → Option (List (Bool × Nat))
  | [] => some []
  | c :: t =>
    if c = 0x2d#8 then
      match t with
      | [] => none
      | d :: t => do let a ← axis d; let l ← readText t; some ((true, a) :: l)
    else do let a ← axis c; let l ← readText t; some ((false, a) :: l)

theorem row_text (m : Nat → Nat → F32) (r : Nat) (s : Bool) (a : Nat) (h : MapsTo m r s a) :
    rowText m r = (if s then [0x2d#8] else []) ++ [letter a] := by
  obtain ⟨ha, hs, hz⟩ := h
  have : a = 0 ∨ a = 1 ∨ a = 2 := by omega
  unfold rowText
  rcases this with rfl | rfl | rfl
  · rw [entry_sign _ _ s hs, entry_zero _ _ (hz 1 (by omega) (by omega)), entry_zero _ _ (hz 2 (by omega) (by omega))]; simp
  · rw [entry_sign _ _ s hs, entry_zero _ _ (hz 0 (by omega) (by omega)), entry_zero _ _ (hz 2 (by omega) (by omega))]; simp
  · rw [entry_sign _ _ s hs, entry_zero _ _ (hz 0 (by omega) (by omega)), entry_zero _ _ (hz 1 (by omega) (by omega))]; simp

theorem read_row (s : Bool) (a : Nat) (ha : a < 3) (t : List Byte) (l : List (Bool × Nat)) (h : readText t = some l) :
    readText ((if s then [0x2d#8] else []) ++ [letter a] ++ t) = some ((s, a) :: l) := by
  have : a = 0 ∨ a = 1 ∨ a = 2 := by omega
  cases s <;> rcases this with rfl | rfl | rfl <;>
    · simp only [letter, Bool.false_eq_true, if_false, if_true, List.nil_append, List.cons_append, List.getD_cons_zero, List.getD_cons_succ]
      rw [readText.eq_def]
      simp [axis, h]

/-- C81: the text written for a matrix that maps axes to axes can be read back to the axis and direction of each of its rows. -/
theorem correction_reads_partial (m : Nat → Nat → F32) (s0 s1 s2 : Bool) (a0 a1 a2 : Nat) (h0 : MapsTo m 0 s0 a0) (h1 : MapsTo m 1 s1 a1)
    (h2 : MapsTo m 2 s2 a2) : readText (correctionText m) = some [(s0, a0), (s1, a1), (s2, a2)] := by
  unfold correctionText
  rw [row_text m 0 s0 a0 h0, row_text m 1 s1 a1 h1, row_text m 2 s2 a2 h2]
  have e2 := read_row s2 a2 h2.1 [] [] rfl
  rw [List.append_nil] at e2
  have e1 := read_row s1 a1 h1.1 _ _ e2
  have e0 := read_row s0 a0 h0.1 _ _ e1
  rw [List.append_assoc]
  simpa [List.append_assoc] using e0

/-- So two such matrices with the same text have the same rows. -/
theorem correction_identifies_partial (m m' : Nat → Nat → F32) (s s' : Nat → Bool) (a a' : Nat → Nat) (h : ∀ r, r < 3 → MapsTo m r (s r) (a r))
    (h' : ∀ r, r < 3 → MapsTo m' r (s' r) (a' r)) (ht : correctionText m = correctionText m') (r : Nat) (hr : r < 3) :
    s r = s' r ∧ a r = a' r := by
  have e := correction_reads_partial m _ _ _ _ _ _ (h 0 (by omega)) (h 1 (by omega)) (h 2 (by omega))
  have e' := correction_reads_partial m' _ _ _ _ _ _ (h' 0 (by omega)) (h' 1 (by omega)) (h' 2 (by omega))
  rw [ht, e'] at e
  simp only [Option.some.injEq, List.cons.injEq, Prod.mk.injEq, and_true] at e
  have : r = 0 ∨ r = 1 ∨ r = 2 := by omega
  rcases this with rfl | rfl | rfl
  · exact ⟨e.1.1.symm, e.1.2.symm⟩
  · exact ⟨e.2.1.1.symm, e.2.1.2.symm⟩
  · exact ⟨e.2.2.1.symm, e.2.2.2.symm⟩

/-- The matrix that exchanges y and z and mirrors: text "X-ZY". -/
def swapYZ : Nat → Nat → F32
  | 0, 0 => 0x3f800000
  | 1, 2 => 0xbf800000
  | 2, 1 => 0x3f800000
  | _, _ => 0

example : MapsTo swapYZ 0 false 0 ∧ MapsTo swapYZ 1 true 2 ∧ MapsTo swapYZ 2 false 1 ∧
    correctionText swapYZ = [0x58#8, 0x2d#8, 0x5a#8, 0x59#8] := by
  have z : IsZero 0 := ⟨false, by decide +kernel⟩
  have p : HasSign false 0x3f800000 := .inr ⟨2 ^ 149, by decide +kernel, by decide +kernel⟩
  have n : HasSign true 0xbf800000 := .inr ⟨2 ^ 149, by decide +kernel, by decide +kernel⟩
  refine ⟨⟨by decide, p, ?_⟩, ⟨by decide, n, ?_⟩, ⟨by decide, p, ?_⟩, by decide +kernel⟩
  all_goals
    intro e he hne
    have : e = 0 ∨ e = 1 ∨ e = 2 := by omega
    rcases this with rfl | rfl | rfl <;> first | exact z | exact absurd rfl hne

/-- Other matrices are not identified: a row with two entries reads like two rows. -/
theorem correction_ambiguous_violated : ∃ m m' : Nat → Nat → F32, correctionText m = correctionText m' ∧ ¬ IsZero (m 0 1) ∧ IsZero (m' 0 1) :=
  ⟨fun r e => if (r = 0 ∧ e < 2) ∨ (r = 2 ∧ e = 2) then 0x3f800000 else 0, fun r e => if r = e then 0x3f800000 else 0,
    by decide +kernel, fun ⟨s, h⟩ => by
      have e : val (0x3f800000 : F32) = .fin false (2 ^ 149) := by decide +kernel
      have h' : val (0x3f800000 : F32) = .fin s 0 := h
      rw [e] at h'
      simp at h', ⟨false, by decide +kernel⟩⟩

end PreCore.Hk
