import Verif.Model.TChar
import Verif.Props.Unicode
import Verif.Props.StringView
/-!
# C154: printing a text and recognising the help switches
-/
namespace PreCore.Uni8

/-- What is printed has no character more than the format; it is the format only when there is no `%` in it. -/
theorem format_fixed (s : List Nat) : (∀ out, format s = some out → out.length ≤ s.length) ∧ (format s = some s ↔ 0x25 ∉ s) := by
  fun_induction format s with
  | case1 => simp
  | case2 r ih =>
    have hl : ∀ out, (format r).map (0x25 :: ·) = some out → out.length ≤ r.length + 1 := by
      intro out h
      cases hf : format r with
      | none => rw [hf] at h; simp at h
      | some o => rw [hf] at h; simp only [Option.map_some, Option.some.injEq] at h; subst h; have := ih.1 o hf; simp; omega
    refine ⟨fun out h => by have := hl out h; simp; omega, ?_⟩
    constructor
    · intro h; have := hl _ h; simp only [List.length_cons] at this; omega
    · intro h; simp at h
  | case3 d r hd => simp
  | case4 => simp
  | case5 c r hc ih =>
    constructor
    · intro out h
      cases hf : format r with
      | none => rw [hf] at h; simp at h
      | some o => rw [hf] at h; simp only [Option.map_some, Option.some.injEq] at h; subst h; have := ih.1 o hf; simp; omega
    · cases hf : format r with
      | none =>
        have := ih.2
        rw [hf] at this
        simp at this
        simp [this]
      | some o =>
        have h2 := ih.2
        rw [hf] at h2
        simp only [Option.some.injEq] at h2
        simp only [Option.map_some, Option.some.injEq, List.cons.injEq, true_and, List.mem_cons, not_or]
        rw [h2]
        exact ⟨fun h => ⟨fun h => hc h.symm, h⟩, fun h => h.2⟩

theorem utf16_mem_ascii (t : List Nat) (a : Nat) (ha : a < 0x80) : a ∈ utf16 t ↔ a ∈ t := by
  simp only [utf16, List.mem_flatMap]
  constructor
  · rintro ⟨c, hc, h⟩
    split at h
    · simp only [List.mem_cons, List.not_mem_nil, or_false] at h; subst h; exact hc
    · simp only [List.mem_cons, List.not_mem_nil, or_false] at h; omega
  · intro h
    exact ⟨a, h, by rw [if_pos (by omega)]; simp⟩

theorem utf8_mem_zero (t : List Nat) : 0 ∈ utf8 t ↔ 0 ∈ t := by
  simp only [utf8, List.mem_flatMap]
  constructor
  · rintro ⟨c, hc, h⟩
    split at h
    · simp only [List.mem_cons, List.not_mem_nil, or_false] at h; subst h; exact hc
    · split at h
      · simp only [List.mem_cons, List.not_mem_nil, or_false] at h; omega
      · split at h <;> simp only [List.mem_cons, List.not_mem_nil, or_false] at h <;> omega
  · intro h
    exact ⟨0, h, by simp⟩

theorem upToZero_text (s r : List Nat) (h : 0 ∉ s) : upToZero (s ++ 0 :: r) = s ∧ upToZero s = s := by
  unfold upToZero
  have h' : ∀ a ∈ s, decide (a ≠ 0) = true := by
    intro a ha
    simp only [ne_eq, decide_not, Bool.not_eq_eq_eq_not, Bool.not_true, decide_eq_false_iff_not]
    rintro rfl
    exact h ha
  constructor
  · rw [List.takeWhile_append_of_pos h']; simp
  · have := List.takeWhile_append_of_pos (p := fun x => decide (x ≠ 0)) (l₂ := []) h'
    simpa using this

/-- C154: without `UNICODE`, `UPrintf` prints exactly its text. -/
theorem uprintf_plain (s r : List Nat) (h : 0 ∉ s) : uPrintf false (s ++ 0 :: r) = .ok s := by
  simp [uPrintf, (upToZero_text s r h).1]

/-- C154 (partial, builds with `UNICODE`): `UPrintf` prints its text exactly when there is no percent sign in it. -/
theorem uprintf_wide_partial (t r : List Nat) (ht : ∀ c ∈ t, Scalar c) (hz : 0 ∉ t) :
    uPrintf true (utf8 t ++ 0 :: r) = .ok (utf16 t) ↔ 0x25 ∉ t := by
  have h8 : 0 ∉ utf8 t := by rw [utf8_mem_zero]; exact hz
  have h16 : 0 ∉ utf16 t := by rw [utf16_mem_ascii t 0 (by omega)]; exact hz
  simp only [uPrintf, if_true, (upToZero_text _ r h8).1, to_wide t ht, (upToZero_text _ [] h16).2]
  rw [← utf16_mem_ascii t 0x25 (by omega), ← (format_fixed (utf16 t)).2]
  cases format (utf16 t) with
  | none => simp
  | some o => simp

/-- A Greek text without a percent sign meets the hypotheses. -/
example : (∀ c ∈ [0x3b1, 0x1f600, 0x41], Scalar c) ∧ 0 ∉ [0x3b1, 0x1f600, 0x41] ∧ 0x25 ∉ [0x3b1, 0x1f600, 0x41] := by
  refine ⟨?_, by decide, by decide⟩
  intro c hc
  simp only [List.mem_cons, List.not_mem_nil, or_false] at hc
  rcases hc with rfl | rfl | rfl <;> (unfold Scalar; omega)

/-- C154 is violated in builds with `UNICODE`: the text is taken as a format, `"100% of"` asks for an argument that is not there, and
`"%%"` loses a character. -/
theorem uprintf_violated : uPrintf true [0x31, 0x30, 0x30, 0x25, 0x20, 0x6f, 0x66, 0] = .ub ∧ uPrintf true [0x25, 0x25, 0] = .ok [0x25] := by
  decide

/-- C154: `IsHelp` recognises exactly the four switches. -/
theorem isHelp_iff (s : List Byte) :
    isHelp s = true ↔ s ∈ ["-h", "-?", "/?", "--help"].map (fun w => w.toList.map fun c => BitVec.ofNat 8 c.toNat) := by
  have h := StringView.operators_total_order.1
  simp only [isHelp, Bool.or_eq_true, h]
  simp [or_assoc]

end PreCore.Uni8
