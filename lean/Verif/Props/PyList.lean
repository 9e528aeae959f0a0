import Verif.Model.PyList
/-!
# C74: lists and enums seen from Python
-/
namespace PreCore.Py

theorem turns_plain {α : Type} (items : List α) : ∀ (k : Nat) (o : Obj), o.freed = false → o.pos + k = items.length →
    turns items (fun _ o => .ok o) (k + 1) o = .ok (items.drop o.pos, { o with pos := items.length }) := by
  intro k
  induction k with
  | zero =>
    intro o hf hp
    simp only [turns, iterNext, len, hf, Out.bind]
    simp only [show ¬ o.pos < items.length by omega, if_false, Bool.false_eq_true]
    rw [List.drop_of_length_le (by omega)]
    have : o.pos = items.length := by omega
    obtain ⟨r, p, fr⟩ := o
    simp only at this hf
    simp [← this, hf]
  | succ k ih =>
    intro o hf hp
    have hlt : o.pos < items.length := by omega
    rw [turns]
    have hn : iterNext items o = .ok (some items[o.pos], { o with pos := o.pos + 1 }) := by
      simp [iterNext, len, hf, Out.bind, hlt, subscriptRaw]
    rw [hn]
    simp only [Out.bind]
    rw [ih { o with pos := o.pos + 1 } hf (by simp only; omega)]
    simp only
    rw [List.drop_eq_getElem_cons hlt]

/-- **C74** A plain `for` loop over a list that is still alive binds every item once, in order. Missing: the list should
keep its references and loops should nest; both are false (below). -/
theorem py_for_partial {α : Type} (items : List α) (o : Obj) (ho : o.freed = false) :
    ∃ o', forLoop items (fun _ o => .ok o) o = .ok (items, o') := by
  unfold forLoop
  rw [ho, turns_plain items items.length (iter o) ho (by simp [iter])]
  exact ⟨_, by simp [Out.bind, iter]; rfl⟩

theorem forLoop_plain {α : Type} (items : List α) (o : Obj) (ho : o.freed = false) :
    forLoop items (fun _ o => .ok o) o = .ok (items, ⟨o.refs - 1, items.length, decide (o.refs ≤ 1)⟩) := by
  unfold forLoop
  rw [ho, turns_plain items items.length (iter o) ho (by simp [iter])]
  simp [Out.bind, iter, decref, ho]

/-- **C74 violated**: every loop drops a reference that was never taken, so a list with `r` references survives `r - 1`
loops, is deallocated by the next one although nobody gave up a reference, and using it again is undefined. -/
theorem py_refcount_violated {α : Type} (items : List α) (r : Nat) (p : Nat) :
    loops items (r + 1) ⟨r + 1, p, false⟩ = .ok ⟨0, items.length, true⟩ ∧
    loops items (r + 2) ⟨r + 1, p, false⟩ = .ub ∧
    ∀ index, subscript items ⟨0, items.length, true⟩ index = .ub := by
  have step : ∀ (r p : Nat) (k : Nat), loops items (k + 1) ⟨r + 2, p, false⟩ = loops items k ⟨r + 1, items.length, false⟩ := by
    intro r p k
    rw [loops, forLoop_plain items _ rfl]
    simp [Out.bind]
  have last : ∀ (p : Nat) (k : Nat), loops items (k + 1) ⟨1, p, false⟩ = loops items k ⟨0, items.length, true⟩ := by
    intro p k
    rw [loops, forLoop_plain items _ rfl]
    simp [Out.bind]
  refine ⟨?_, ?_, fun index => by simp [subscript, subscriptRaw]⟩
  · induction r generalizing p with
    | zero => rw [last]; rfl
    | succ r ih => rw [step]; exact ih _
  · induction r generalizing p with
    | zero => rw [last]; simp [loops, forLoop, Out.bind]
    | succ r ih => rw [step]; exact ih _

/-- **C74 violated**: an inner loop over the same list ends the outer one after its first item. -/
theorem py_nested_violated {α : Type} (a : α) (rest : List α) (o : Obj) (ho : o.freed = false) (hr : 2 ≤ o.refs) :
    ∃ o', forLoop (a :: rest) (fun _ o => (forLoop (a :: rest) (fun _ o => .ok o) o).bind fun t => .ok t.2) o =
      .ok ([a], o') := by
  have hn : iterNext (a :: rest) (iter o) = .ok (some a, { o with pos := 1 }) := by
    simp [iterNext, len, iter, ho, Out.bind, subscriptRaw]
  have hin := forLoop_plain (a :: rest) { o with pos := 1 } ho
  have hend : iterNext (a :: rest) ⟨o.refs - 1, (a :: rest).length, decide (o.refs ≤ 1)⟩ =
      .ok (none, ⟨o.refs - 1, (a :: rest).length, decide (o.refs ≤ 1)⟩) := by
    simp [iterNext, len, Out.bind, show ¬ o.refs ≤ 1 by omega]
  generalize hb : (fun (_ : α) o => (forLoop (a :: rest) (fun _ o => .ok o) o).bind fun t => .ok t.2) = body
  have hbody : body a { o with pos := 1 } = .ok ⟨o.refs - 1, (a :: rest).length, decide (o.refs ≤ 1)⟩ := by
    rw [← hb]; simp only [hin, Out.bind]
  unfold forLoop
  rw [ho]
  simp only [Bool.false_eq_true, if_false]
  rw [turns, hn]
  simp only [Out.bind, hbody]
  rw [show (a :: rest).length = rest.length + 1 from rfl] at hend ⊢
  rw [turns, hend]
  exact ⟨_, rfl⟩

/-- **C74** `list[i]` gives item `i` for every index in range. -/
theorem py_subscript {α : Type} (items : List α) (o : Obj) (ho : o.freed = false) (i : BitVec 64)
    (hi : i.toNat < items.length) : subscript items o i = .ok items[i.toNat] := by
  simp [subscript, subscriptRaw, ho, List.getElem?_eq_getElem hi]

/-- **C74 violated**: an index out of range, also `list[-1]`, ends the interpreter instead of raising `IndexError`. -/
theorem py_subscript_violated {α : Type} (items : List α) (o : Obj) (ho : o.freed = false) (i : BitVec 64)
    (hi : items.length ≤ i.toNat) : subscript items o i = .terminate := by
  simp [subscript, subscriptRaw, ho, hi]

/-- Two references and three items: a loop is fine. -/
example : forLoop [10, 20, 30] (fun _ o => .ok o) ⟨2, 7, false⟩ = .ok ([10, 20, 30], ⟨1, 3, false⟩) := by decide
example : forLoop [1, 2] (fun _ o => (forLoop [1, 2] (fun _ o => .ok o) o).bind fun t => .ok t.2) ⟨4, 0, false⟩ =
    .ok ([1], ⟨2, 2, false⟩) := by decide

/-- **C74** Enums with distinct names: the name at every position, its value by that name, `IndexError` beyond the end. -/
theorem py_enum (table : List (Nat × List Byte)) (hd : (table.map Prod.snd).Nodup) (i : Nat) :
    (∀ h : i < table.length, enumName table i = .value table[i].2 ∧ enumAttr table table[i].2 = .value table[i].1) ∧
    (table.length ≤ i → enumName table i = .indexError) := by
  constructor
  · intro h
    refine ⟨by simp [enumName, List.getElem?_eq_getElem h], ?_⟩
    have hf : table.find? (fun e => e.2 == table[i].2) = some table[i] := by
      induction table generalizing i with
      | nil => simp at h
      | cons e es ih =>
        simp only [List.map_cons, List.nodup_cons] at hd
        cases i with
        | zero => simp
        | succ i =>
          simp only [List.getElem_cons_succ]
          have hi : i < es.length := by simpa using h
          rw [List.find?_cons]
          have hne : (e.2 == es[i].2) = false := by
            rw [beq_eq_false_iff_ne]
            intro heq
            exact hd.1 (heq ▸ List.mem_map.2 ⟨es[i], List.getElem_mem hi, rfl⟩)
          rw [hne]; exact ih hd.2 i hi
    simp [enumAttr, hf]
  · intro h; simp [enumName, List.getElem?_eq_none h]

/-- **C74 violated**: asking for a name that is no enumerator returns null without an exception. -/
theorem py_enum_unknown_violated (table : List (Nat × List Byte)) (name : List Byte)
    (h : ∀ e ∈ table, e.2 ≠ name) : enumAttr table name = .nullNoError := by
  have : table.find? (fun e => e.2 == name) = none := by
    rw [List.find?_eq_none]; intro e he; simpa using h e he
  simp [enumAttr, this]

end PreCore.Py
