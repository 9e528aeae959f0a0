import Verif.Model.PyScene
/-!
# C78-C80: motions, bones and interface errors
-/
namespace PreCore.Py

/-! ## C78: sampling a motion track -/

/-- The form of the values of a track type: vectors for position (0), rotation (1) and scale (2), a matrix (3), a transformation (4), a number (5). -/
def formOf : Nat → Option Form
  | 0 => some .vector
  | 1 => some .vector
  | 2 => some .vector
  | 3 => some .matrix
  | 4 => some .rts
  | 5 => some .number
  | _ => none

/-- C78: for a list of numbers, `get_values` gives one value per time, in order, each the track's value at that time in the form of
the track's type. -/
theorem get_values {P T V : Type} (asDouble : P → Option T) (minusOne : T) (t : Track T V) (form : Form) (hf : formOf t.type = some form)
    (items : List P) (times : List T) (hn : items.map asDouble = times.map some) :
    ∃ l, getValues asDouble minusOne t (some items) = .values l ∧ l.length = items.length ∧
      ∀ i : Nat, l[i]? = times[i]?.map (t.value form) := by
  have h1 : convertTimes asDouble minusOne items = (times, false) := by
    unfold convertTimes
    have e1 : items.map (fun p => (asDouble p).getD minusOne) = (items.map asDouble).map (fun o => o.getD minusOne) := by
      rw [List.map_map]; rfl
    have e2 : items.any (fun p => (asDouble p).isNone) = (items.map asDouble).any (fun o => o.isNone) := by
      rw [List.any_map]; rfl
    rw [e1, e2, hn, List.map_map, List.any_map]
    congr 1
    · exact List.map_id' times
    · simp
  have hlen : times.length = items.length := by
    have := congrArg List.length hn
    simpa using this.symm
  refine ⟨times.map (t.value form), ?_, by simpa using hlen, fun i => by rw [List.getElem?_map]⟩
  unfold getValues
  simp only [h1]
  match ht : t.type, hf with
  | 0, hf => simp_all [formOf]
  | 1, hf => simp_all [formOf]
  | 2, hf => simp_all [formOf]
  | 3, hf => simp_all [formOf]
  | 4, hf => simp_all [formOf]
  | 5, hf => simp_all [formOf]

/-- Two times of a rotation track. -/
example : getValues (fun n : Nat => some n) 0 (⟨1, fun f t => if f = .vector then 10 * t else 0⟩ : Track Nat Nat) (some [3, 4]) = .values [30, 40] := by decide

/-- An argument that is no list is refused. -/
theorem get_values_refuses {P T V : Type} (asDouble : P → Option T) (minusOne : T) (t : Track T V) :
    getValues asDouble minusOne t none = .typeError := rfl

/-- A list with an item that is no number gives values (at time -1) together with an exception, instead of an exception alone. -/
theorem get_values_item_violated : ∃ (t : Track Int Int) (items : List (Option Int)),
    getValues id (-1) t (some items) = .valuesAndError [5, -1] := ⟨⟨5, fun _ t => t⟩, [some 5, none], by decide⟩

/-- The frame rate read back is the one set, for every rate a motion can have. -/
theorem frame_rate_partial (v : BitVec 64) (h : v.toNat < 2 ^ 32) : getFrameRate (setFrameRate v) = v := by
  apply BitVec.eq_of_toNat_eq
  simp only [getFrameRate, setFrameRate, BitVec.toNat_setWidth]
  omega

example : getFrameRate (setFrameRate 60#64) = 60#64 := by decide

/-- Rates that are negative or too large are neither stored nor refused. -/
theorem frame_rate_violated : getFrameRate (setFrameRate (-1 : BitVec 64)) = 0xffffffff#64 ∧ getFrameRate (setFrameRate 0x100000000#64) = 0#64 := by
  decide

/-! ## C79: bones -/

/-- Reading parents, in any program, deletes no bone. -/
theorem parents_not_deleted (bones : Nat → Bone) (l : List Nat) (w w' : World) (h : readParents bones l w = some w') : w'.deleted = w.deleted := by
  induction l generalizing w with
  | nil => simp only [readParents, Option.some.injEq] at h; rw [h]
  | cons b l ih =>
    simp only [readParents] at h
    cases hr : readParent bones w b with
    | none => rw [hr] at h; exact absurd h (by simp)
    | some w1 =>
      rw [hr, Option.bind_some] at h
      rw [ih w1 h]
      unfold readParent getParent at hr
      cases hp : (bones b).parent with
      | some p =>
        simp only [hp, drop, Bool.false_eq_true, if_false, Option.some.injEq] at hr
        rw [← hr]
      | none =>
        simp only [hp, drop] at hr
        split at hr
        · exact absurd hr (by simp)
        · simp only [Option.some.injEq] at hr; rw [← hr]

/-- `chain` is the way from `b` up to a root. -/
def IsChain (bones : Nat → Bone) : Nat → List Nat → Prop
  | b, [] => (bones b).parent = none
  | b, p :: l => (bones b).parent = some p ∧ IsChain bones p l

/-- C79: going from a bone to its parent again and again visits all its ancestors in order and ends at the root. -/
theorem ancestors_chain (bones : Nat → Bone) (b : Nat) (l : List Nat) (h : IsChain bones b l) (f : Nat) (hf : l.length < f) (w : World) :
    ancestors bones f w b = l := by
  induction l generalizing b f w with
  | nil =>
    obtain ⟨f, rfl⟩ : ∃ g, f = g + 1 := ⟨f - 1, by simp at hf; omega⟩
    simp only [IsChain] at h
    simp only [ancestors, getParent, h]
  | cons p l ih =>
    obtain ⟨f, rfl⟩ : ∃ g, f = g + 1 := ⟨f - 1, by simp at hf; omega⟩
    obtain ⟨h1, h2⟩ := h
    simp only [ancestors, getParent, h1]
    rw [ih p h2 f (by simp at hf; omega)]

/-- Three bones in a row. -/
def row3 : Nat → Bone := fun b => ⟨b, [], if b = 0 then none else some (b - 1)⟩
example : IsChain row3 2 [1, 0] ∧ ancestors row3 3 ⟨9, 0, []⟩ 2 = [1, 0] := ⟨⟨rfl, rfl, rfl⟩, rfl⟩

/-- C79: bones compare equal exactly when they are the same bone or have the same identifier and name; this is an equivalence. -/
theorem compare_equal (bones : Nat → Bone) (a b : Nat) : compareBones bones a b = 0 ↔ (bones a).index = (bones b).index ∧ (bones a).name = (bones b).name := by
  unfold compareBones
  constructor
  · intro h
    split at h
    · rename_i hc
      rcases hc with rfl | hc
      · exact ⟨rfl, rfl⟩
      · exact hc
    · exact absurd h (by decide)
  · intro h; rw [if_pos (.inr h)]

theorem compare_equivalence (bones : Nat → Bone) :
    (∀ a, compareBones bones a a = 0) ∧ (∀ a b, compareBones bones a b = 0 → compareBones bones b a = 0) ∧
    (∀ a b c, compareBones bones a b = 0 → compareBones bones b c = 0 → compareBones bones a c = 0) := by
  refine ⟨fun a => ?_, fun a b h => ?_, fun a b c h h' => ?_⟩
  · rw [compare_equal]; exact ⟨rfl, rfl⟩
  · rw [compare_equal] at *; exact ⟨h.1.symm, h.2.symm⟩
  · rw [compare_equal] at *; exact ⟨h.1.trans h'.1, h.2.trans h'.2⟩

/-- Different bones are each "greater" than the other, so there is no order to sort by. -/
theorem compare_order_violated (bones : Nat → Bone) (a b : Nat) (h : (bones a).index ≠ (bones b).index) :
    compareBones bones a b = 1 ∧ compareBones bones b a = 1 := by
  have h1 := compare_equal bones a b
  have h2 := compare_equal bones b a
  unfold compareBones at *
  constructor
  · split
    · rename_i hc; rw [if_pos hc] at h1; exact absurd (h1.1 rfl).1 h
    · rfl
  · split
    · rename_i hc; rw [if_pos hc] at h2; exact absurd (h2.1 rfl).1.symm h
    · rfl

example : (row3 1).index ≠ (row3 2).index := by decide

/-- Each reading of the parent of a root bone loses a reference of `None`; enough of them abort the interpreter. -/
theorem none_lost_violated (bones : Nat → Bone) (b : Nat) (h : (bones b).parent = none) (w : World) (k : Nat) :
    (k < w.noneRefs → readParents bones (List.replicate k b) w = some { w with noneRefs := w.noneRefs - k }) ∧
    (0 < k → w.noneRefs ≤ k → readParents bones (List.replicate k b) w = none) := by
  induction k generalizing w with
  | zero => exact ⟨fun _ => rfl, fun h => absurd h (by omega)⟩
  | succ k ih =>
    have hr : readParent bones w b = if w.noneRefs ≤ 1 then none else some { w with noneRefs := w.noneRefs - 1 } := by
      unfold readParent getParent; simp only [h, drop]
    rw [List.replicate_succ]
    simp only [readParents, hr]
    constructor
    · intro hk
      rw [if_neg (by omega), Option.bind_some, (ih _).1 (by simp only; omega)]
      simp only [Option.some.injEq, World.mk.injEq, and_true]
      omega
    · intro _ hk
      by_cases h1 : w.noneRefs ≤ 1
      · rw [if_pos h1]; rfl
      · rw [if_neg h1, Option.bind_some]
        exact (ih _).2 (by omega) (by simp only; omega)

/-- The memory of a wrapper is never released: after reading the parent of a bone `k` times, `k` blocks are lost. -/
theorem wrapper_leak_violated (bones : Nat → Bone) (b p : Nat) (h : (bones b).parent = some p) (w : World) (k : Nat) :
    readParents bones (List.replicate k b) w = some { w with blocks := w.blocks + k } := by
  induction k generalizing w with
  | zero => rfl
  | succ k ih =>
    have hr : readParent bones w b = some { w with blocks := w.blocks + 1 } := by
      unfold readParent getParent; simp only [h, drop, Bool.false_eq_true, if_false]
    rw [List.replicate_succ]
    simp only [readParents, hr, Option.bind_some]
    rw [ih]
    simp only [Option.some.injEq, World.mk.injEq, and_true, true_and]
    omega

/-! ## C80: errors of the interfaces -/

/-- C80: every default accessor raises an error that `catch (const std::exception &)` takes. -/
theorem void_calls_caught (form : Form) (matrix : Bool) (type : Nat) :
    caughtBy (defaultGetValue form type).cls .exception = true ∧ caughtBy (defaultGetTM matrix type).cls .exception = true := by
  constructor
  · cases form <;> rfl
  · rfl

/-- A forgotten overload (`std::logic_error`) cannot be told from an unsupported one (`std::runtime_error`): neither handler takes the
error, whatever the type, and the message is lost. -/
theorem void_calls_sliced_violated (form : Form) (type : Nat) :
    caughtBy (defaultGetValue form type).cls .logicError = false ∧ caughtBy (defaultGetValue form type).cls .runtimeError = false ∧
    (defaultGetValue form type).what ≠ msg "Unhandled call!" ∧ (defaultGetValue form type).what ≠ msg "Unsupported call!" := by
  have h : defaultGetValue form type = slice ⟨.exception, []⟩ := by cases form <;> rfl
  rw [h]
  decide +kernel

/-- `uni::ModifyError` is taken by no handler of the standard library's classes. -/
theorem modify_error_uncaught_violated (name : List Byte) :
    caughtBy (modifyError name).cls .exception = false ∧ caughtBy (modifyError name).cls .runtimeError = false := ⟨rfl, rfl⟩

end PreCore.Py
