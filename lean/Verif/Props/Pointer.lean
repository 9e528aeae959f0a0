import Verif.Model.Pointer
/-!
# C32: pointer fixups
-/
namespace PreCore.Pointer

/-- The root with which the pointer at `self` is fixed first in a history of calls. -/
def firstRoot (l : List (Addr × Addr)) (self : Addr) : Option Addr := (l.find? (fun p => p.1 = self)).map (·.2)

theorem contains_iff (used : List Addr) (a : Addr) : used.contains a = true ↔ a ∈ used := by simp

theorem contains_false {used : List Addr} {a : Addr} (h : ¬ a ∈ used) : used.contains a = false := by
  cases e : used.contains a
  · rfl
  · exact absurd ((contains_iff _ _).1 e) h

theorem fixed_iff (used : List Addr) (a : Addr) : fixed used a = true ↔ a ∈ used := by
  simp [fixed]

/-- C32: fixing up an offset makes the pointer resolve to root plus offset; a null offset stays null; afterwards it counts
as fixed. -/
theorem fixup64_resolves (used : List Addr) (self root : Addr) (v : BitVec 64) (h : fixed used self = false) :
    let r := fixup64 used self root false v
    (v ≠ 0 → r.1 = true ∧ deref64 r.2.1 = root + v) ∧ (v = 0 → r.1 = false ∧ deref64 r.2.1 = 0) ∧ fixed r.2.2 self = true := by
  have hn : ¬ self ∈ used := by rw [← fixed_iff, h]; simp
  have hc : used.contains self = false := contains_false hn
  simp only [fixup64, hc, Bool.and_false, Bool.false_eq_true, if_false]
  refine ⟨fun hv => ?_, fun hv => ?_, ?_⟩
  · rw [if_neg hv]; exact ⟨rfl, rfl⟩
  · rw [if_pos hv]; exact ⟨rfl, hv⟩
  · rw [fixed_iff]; split <;> simp

example : (fixup64 [0x10] 0x18 0x1000 false 0x20).1 = true ∧ deref64 (fixup64 [0x10] 0x18 0x1000 false 0x20).2.1 = 0x1020 := by decide

/-- C32: fixing the same pointer again is refused and changes nothing. -/
theorem fixup64_again (used : List Addr) (self root : Addr) (v : BitVec 64) (h : fixed used self = true) :
    fixup64 used self root false v = (false, v, used) := by
  rw [fixed_iff] at h
  simp [fixup64, h]

theorem fixup32_again (used : List Addr) (self root : Addr) (v : BitVec 32) (h : fixed used self = true) :
    fixup32 used self root false v = (false, v, used) := by
  rw [fixed_iff] at h
  simp [fixup32, h]

/-- C32 over whole histories: after any sequence of `Fixup` calls on any pointers, with repetitions, starting with an empty
list, every pointer called at least once resolves to its first root plus its offset (null stays null), every other
pointer is untouched. -/
theorem fixAll64_history (l : List (Addr × Addr)) (w : World (BitVec 64)) (a : Addr) :
    (fixAll64 l w).mem a = match (if a ∈ w.used then none else firstRoot l a) with
      | none => w.mem a
      | some root => if w.mem a = 0 then 0 else root + w.mem a := by
  induction l generalizing w with
  | nil => simp [fixAll64, firstRoot]
  | cons p l ih =>
    obtain ⟨self, root⟩ := p
    simp only [fixAll64]
    rw [ih]
    by_cases hu : self ∈ w.used
    · have hr := fixup64_again w.used self root (w.mem self) ((fixed_iff _ _).2 hu)
      rw [hr]
      simp only
      have hm : (if a = self then w.mem self else w.mem a) = w.mem a := by split <;> simp_all
      rw [hm]
      by_cases ha : a ∈ w.used
      · simp [ha]
      · have : self ≠ a := by rintro rfl; exact ha hu
        simp [ha, firstRoot, this]
    · have hs := fixup64_resolves w.used self root (w.mem self) (by
        cases e : fixed w.used self
        · rfl
        · exact absurd ((fixed_iff _ _).1 e) hu)
      have hused : (fixup64 w.used self root false (w.mem self)).2.2 = w.used ++ [self] := by
        simp only [fixup64, contains_false hu, Bool.and_false, Bool.false_eq_true, if_false]
        split <;> rfl
      rw [hused]
      simp only [List.mem_append, List.mem_singleton]
      by_cases e : a = self
      · subst e
        simp only [hu, or_true, if_true, if_false, firstRoot, List.find?_cons, decide_true, Option.map_some]
        split
        · rename_i h0; have := (hs.2.1 h0).2; unfold deref64 at this; rw [this]
        · rename_i h0; exact (hs.1 h0).2
      · have e' : self ≠ a := fun h => e h.symm
        simp only [e, or_false, if_false, firstRoot, List.find?_cons, e', decide_false]

/-- `PointerX86`: a stored pointer resolves to the destination exactly when the distance is not 0 and fits 32 bits
(destinations other than null). -/
theorem assign32_resolves (self dest : Addr) (hd : dest ≠ 0) :
    deref32 self (assign32 self dest) = dest ↔
      (dest - self ≠ 0 ∧ -(2 ^ 31 : Int) ≤ (dest - self).toInt ∧ (dest - self).toInt < 2 ^ 31) := by
  have hs : dest = self + (dest - self) := by
    rw [BitVec.add_comm, BitVec.sub_add_cancel]
  unfold deref32 assign32
  generalize hdd : dest - self = d at *
  have hsx : (d.setWidth 32).signExtend 64 = d ↔ (-(2 ^ 31 : Int) ≤ d.toInt ∧ d.toInt < 2 ^ 31) := by
    have e1 : ((d.setWidth 32).signExtend 64).toInt = (d.setWidth 32).toInt := BitVec.toInt_signExtend_of_le (by omega)
    have e2 : (d.setWidth 32).toInt = d.toInt.bmod (2 ^ 32) := by
      rw [BitVec.toInt_setWidth]
      rw [BitVec.toInt_eq_toNat_bmod]
      rw [Int.bmod_bmod_of_dvd (by decide)]
    constructor
    · intro h
      rw [h, e2] at e1
      have h1 := Int.le_bmod (x := d.toInt) (m := 2 ^ 32) (by decide)
      have h2 := Int.bmod_lt (x := d.toInt) (m := 2 ^ 32) (by decide)
      omega
    · rintro ⟨h1, h2⟩
      apply BitVec.eq_of_toInt_eq
      rw [e1, e2]
      exact Int.bmod_eq_of_le (by omega) (by omega)
  split
  · rename_i h0
    constructor
    · intro h; exact absurd h.symm hd
    · rintro ⟨h1, h2⟩
      rw [← hsx, h0] at h2
      exact absurd h2.symm (by simpa using h1)
  · rename_i h0
    rw [← hsx]
    constructor
    · intro h
      have : (d.setWidth 32).signExtend 64 = d := by
        have h' := h.trans hs
        have := congrArg (fun x => x - self) h'
        simpa [BitVec.add_comm self, BitVec.add_sub_cancel] using this
      refine ⟨?_, this⟩
      rintro rfl
      exact h0 (by decide)
    · rintro ⟨_, h⟩
      rw [h]; exact hs.symm

/-- C32 for 32 bit offsets: after `Fixup` the pointer resolves to root plus the (signed) offset exactly when that lies
within 2 GiB of the pointer itself and is not the pointer itself. -/
theorem fixup32_resolves (used : List Addr) (self root : Addr) (v : BitVec 32) (h : fixed used self = false) (hv : v ≠ 0)
    (ht : root + v.signExtend 64 ≠ 0) :
    let r := fixup32 used self root false v
    let target := root + v.signExtend 64
    r.1 = true ∧ fixed r.2.2 self = true ∧
    (deref32 self r.2.1 = target ↔
      (target - self ≠ 0 ∧ -(2 ^ 31 : Int) ≤ (target - self).toInt ∧ (target - self).toInt < 2 ^ 31)) := by
  have hn : ¬ self ∈ used := by rw [← fixed_iff, h]; simp
  simp only [fixup32, contains_false hn, Bool.and_false, Bool.false_eq_true, if_false, hv]
  refine ⟨trivial, ?_, assign32_resolves self _ ht⟩
  rw [fixed_iff]; simp

theorem fixup32_forced (used : List Addr) (self root : Addr) (v : BitVec 32) (hv : v ≠ 0) (ht : root + v.signExtend 64 ≠ 0) :
    let r := fixup32 used self root true v
    let target := root + v.signExtend 64
    r.1 = true ∧ fixed r.2.2 self = true ∧
    (deref32 self r.2.1 = target ↔
      (target - self ≠ 0 ∧ -(2 ^ 31 : Int) ≤ (target - self).toInt ∧ (target - self).toInt < 2 ^ 31)) := by
  simp only [fixup32, Bool.not_true, Bool.false_and, Bool.false_eq_true, if_false, hv]
  refine ⟨trivial, ?_, assign32_resolves self _ ht⟩
  rw [fixed_iff]; simp

example : deref32 0x10000 (fixup32 [0x10000] 0x10000 0x10000 true 0x40).2.1 = 0x10040 := by decide

theorem fixup32_null (used : List Addr) (self root : Addr) (noCheck : Bool) :
    (fixup32 used self root noCheck 0).1 = false ∧ deref32 self (fixup32 used self root noCheck 0).2.1 = 0 := by
  unfold fixup32
  split
  · exact ⟨rfl, rfl⟩
  · exact ⟨rfl, rfl⟩

example : deref32 0x10000 (fixup32 [] 0x10000 0x10000 false 0x40).2.1 = 0x10040 := by decide

/-- Where 32 bit pointers fail: the data lies 4 GiB away. -/
theorem fixup32_far_violated : (fixup32 [] 0x100000000 0x1000 false 0x40).1 = true ∧
    deref32 0x100000000 (fixup32 [] 0x100000000 0x1000 false 0x40).2.1 ≠ 0x1000 + 0x40 := by decide

/-- The whole history of 32 bit pointers: what is stored is decided by the first call. -/
theorem fixAll32_history (l : List (Addr × Addr)) (w : World (BitVec 32)) (a : Addr) :
    (fixAll32 l w).mem a = match (if a ∈ w.used then none else firstRoot l a) with
      | none => w.mem a
      | some root => if w.mem a = 0 then 0 else assign32 a (root + (w.mem a).signExtend 64) := by
  induction l generalizing w with
  | nil => simp [fixAll32, firstRoot]
  | cons p l ih =>
    obtain ⟨self, root⟩ := p
    simp only [fixAll32]
    rw [ih]
    by_cases hu : self ∈ w.used
    · have hr := fixup32_again w.used self root (w.mem self) ((fixed_iff _ _).2 hu)
      rw [hr]
      simp only
      have hm : (if a = self then w.mem self else w.mem a) = w.mem a := by split <;> simp_all
      rw [hm]
      by_cases ha : a ∈ w.used
      · simp [ha]
      · have : self ≠ a := by rintro rfl; exact ha hu
        simp [ha, firstRoot, this]
    · have hused : (fixup32 w.used self root false (w.mem self)).2.2 = w.used ++ [self] := by
        simp only [fixup32, contains_false hu, Bool.and_false, Bool.false_eq_true, if_false]
        split <;> rfl
      have hval : (fixup32 w.used self root false (w.mem self)).2.1 =
          if w.mem self = 0 then 0 else assign32 self (root + (w.mem self).signExtend 64) := by
        simp only [fixup32, contains_false hu, Bool.and_false, Bool.false_eq_true, if_false]
        split <;> simp_all
      rw [hused, hval]
      simp only [List.mem_append, List.mem_singleton]
      by_cases e : a = self
      · subst e
        simp only [hu, or_true, if_true, if_false, firstRoot, List.find?_cons, decide_true, Option.map_some]
      · have e' : self ≠ a := fun h => e h.symm
        simp only [e, or_false, if_false, firstRoot, List.find?_cons, e', decide_false]

/-- C32: with `noCheck` the list of fixed pointers is not consulted: the pointer is resolved (again) whatever happened before. -/
theorem fixup64_forced (used : List Addr) (self root : Addr) (v : BitVec 64) :
    let r := fixup64 used self root true v
    (v ≠ 0 → r.1 = true ∧ deref64 r.2.1 = root + v) ∧ (v = 0 → r.1 = false ∧ deref64 r.2.1 = 0) ∧ fixed r.2.2 self = true := by
  simp only [fixup64, Bool.not_true, Bool.false_and, Bool.false_eq_true, if_false]
  refine ⟨fun hv => ?_, fun hv => ?_, ?_⟩
  · rw [if_neg hv]; exact ⟨rfl, rfl⟩
  · rw [if_pos hv]; exact ⟨rfl, hv⟩
  · rw [fixed_iff]; split <;> simp

example : deref64 (fixup64 [0x18] 0x18 0x1000 true 0x20).2.1 = 0x1020 := by decide

/-- The list belongs to a thread: a second thread fixing the same data adds the root again. -/
theorem two_threads_violated : let w : World (BitVec 64) := fixAll64 [(0x18, 0x1000)] ⟨fun _ => 0x20, []⟩
    deref64 ((fixAll64 [(0x18, 0x1000)] ⟨w.mem, []⟩).mem 0x18) ≠ 0x1000 + 0x20 := by decide

/-- The list outlives the data: new data loaded at the same address is not fixed until `ClearESPointers`. -/
theorem stale_list_violated (self root : Addr) (v : BitVec 64) (used : List Addr) (h : self ∈ used) :
    (fixup64 used self root false v).2.1 = v := by
  simp [fixup64, h]

end PreCore.Pointer
