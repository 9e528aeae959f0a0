import Verif.Model.Alloc
/-!
# C31: the hybrid allocator
-/
namespace PreCore.Alloc

/-! ## Specification -/

/-- What `operator new` and a correct client guarantee: new memory is not in use, and is not the foreign memory; only
memory held is given back. -/
def Legal (ext : Nat) (s : St) : Op → Prop
  | .alloc a => a ∉ s.heap ∧ a ≠ ext
  | .dealloc p => p ∈ s.live

/-- The client asks for no memory while it holds the foreign memory. -/
def OneAtATime (ext : Nat) (s : St) : Op → Prop
  | .alloc _ => ext ∉ s.live
  | .dealloc _ => True

/-- All calls of a sequence satisfy `P` when they are made. -/
def Along (P : St → Op → Prop) : List Op → St → Prop
  | [], _ => True
  | o :: os, s => P s o ∧ ∀ s', step s o = some s' → Along P os s'

/-- Foreign memory untouched, no two live allocations at the same address, and the blocks obtained from the heap and not
given back are exactly those the client holds. -/
structure Sound (ext : Nat) (s : St) : Prop where
  foreign : ext ∉ s.freed ∧ ext ∉ s.heap
  distinct : s.live.Nodup
  exact : ∀ p, p ∈ s.heap ↔ p ∈ s.live ∧ p ≠ ext
  once : s.heap.Nodup

/-! ## Proof -/

structure Inv (ext : Nat) (s : St) : Prop extends Sound ext s where
  buf : s.buffer = none ∨ s.buffer = some ext
  held : ext ∈ s.live → s.buffer = some ext

theorem step_inv {ext s o} (h : Inv ext s) (hl : Legal ext s o) (h1 : OneAtATime ext s o) :
    ∃ s', step s o = some s' ∧ Inv ext s' := by
  obtain ⟨⟨⟨f1, f2⟩, hd, he, ho⟩, hb, hh⟩ := h
  cases o with
  | alloc a =>
    simp only [Legal, OneAtATime] at hl h1
    simp only [step, allocate]
    rcases hb with hb | hb
    · simp only [hb]
      have ha : a ∉ s.live := fun hm => hl.1 ((he a).2 ⟨hm, hl.2⟩)
      refine ⟨_, rfl, ⟨⟨⟨f1, ?_⟩, ?_, ?_, ?_⟩, Or.inl rfl, ?_⟩⟩
      · simp only [List.mem_cons, not_or]; exact ⟨fun e => hl.2 e.symm, f2⟩
      · exact List.nodup_cons.2 ⟨ha, hd⟩
      · intro p
        simp only [List.mem_cons, he p]
        constructor
        · rintro (rfl | h)
          · exact ⟨Or.inl rfl, hl.2⟩
          · exact ⟨Or.inr h.1, h.2⟩
        · rintro ⟨rfl | h, h2⟩
          · exact Or.inl rfl
          · exact Or.inr ⟨h, h2⟩
      · exact List.nodup_cons.2 ⟨hl.1, ho⟩
      · intro hm
        simp only [List.mem_cons] at hm
        rcases hm with e | hm
        · exact absurd e.symm hl.2
        · exact absurd hm h1
    · simp only [hb]
      refine ⟨_, rfl, ⟨⟨⟨f1, f2⟩, ?_, ?_, ho⟩, Or.inr rfl, fun _ => rfl⟩⟩
      · exact List.nodup_cons.2 ⟨h1, hd⟩
      · intro p
        simp only [he p, List.mem_cons]
        constructor
        · rintro ⟨h, h2⟩; exact ⟨Or.inr h, h2⟩
        · rintro ⟨rfl | h, h2⟩
          · exact absurd rfl h2
          · exact ⟨h, h2⟩
  | dealloc p =>
    simp only [Legal] at hl
    simp only [step, deallocate, delete]
    by_cases hp : s.buffer = some p
    · rw [if_pos hp]
      have hpe : p = ext := by
        rcases hb with hb | hb
        · rw [hb] at hp; cases hp
        · rw [hb] at hp; exact (Option.some.inj hp).symm
      subst hpe
      refine ⟨_, rfl, ⟨⟨⟨f1, f2⟩, hd.erase _, ?_, ho⟩, Or.inl rfl, ?_⟩⟩
      · intro q
        simp only [he q]
        constructor
        · rintro ⟨h, h2⟩; exact ⟨(List.mem_erase_of_ne h2).2 h, h2⟩
        · rintro ⟨h, h2⟩; exact ⟨List.mem_of_mem_erase h, h2⟩
      · intro hm
        exact absurd hm (by rw [hd.mem_erase_iff]; simp)
    · rw [if_neg hp]
      have hpe : p ≠ ext := by
        rintro rfl
        exact hp (hh hl)
      have hph : p ∈ s.heap := (he p).2 ⟨hl, hpe⟩
      simp only [hph, if_true]
      refine ⟨_, rfl, ⟨⟨⟨?_, ?_⟩, hd.erase _, ?_, ho.erase _⟩, hb, ?_⟩⟩
      · simp only [List.mem_cons, not_or]; exact ⟨fun e => hpe e.symm, f1⟩
      · exact fun hm => f2 (List.mem_of_mem_erase hm)
      · intro q
        rw [ho.mem_erase_iff, hd.mem_erase_iff, he q]
        constructor
        · rintro ⟨a, b, c⟩; exact ⟨⟨a, b⟩, c⟩
        · rintro ⟨⟨a, b⟩, c⟩; exact ⟨a, b, c⟩
      · intro hm
        rw [hd.mem_erase_iff] at hm
        exact hh hm.2

theorem run_inv {ext} : ∀ os s, Inv ext s → Along (Legal ext) os s → Along (OneAtATime ext) os s →
    ∃ s', run os s = some s' ∧ Inv ext s' := by
  intro os
  induction os with
  | nil => intro s h _ _; exact ⟨s, rfl, h⟩
  | cons o os ih =>
    intro s h hl h1
    obtain ⟨s1, h2, h3⟩ := step_inv h hl.1 h1.1
    obtain ⟨s2, h4, h5⟩ := ih s1 h3 (hl.2 s1 h2) (h1.2 s1 h2)
    exact ⟨s2, by simp [run, h2, h4], h5⟩

/-- C31 for a linked allocator: for every history of calls in which the client takes no memory while holding the foreign
buffer, nothing illegal is deleted, the foreign memory is never released, live allocations are distinct, and what the
client gave back was released, once, and nothing else was. Missing for the full statement: clients that allocate while
holding the buffer, as `std::vector` does when it grows (see the violations below). -/
theorem linked_partial (ext : Nat) (os : List Op) (hl : Along (Legal ext) os (linked ext))
    (h1 : Along (OneAtATime ext) os (linked ext)) : ∃ s, run os (linked ext) = some s ∧ Sound ext s := by
  obtain ⟨s, h, hi⟩ := run_inv os (linked ext)
    ⟨⟨⟨by simp [linked], by simp [linked]⟩, by simp [linked], by simp [linked], by simp [linked]⟩, Or.inr rfl, by simp [linked]⟩ hl h1
  exact ⟨s, h, hi.toSound⟩

/-- Whole life of a linked allocation followed by heap allocations; the hypotheses are met. -/
example : Along (Legal 7) [.alloc 1, .dealloc 7, .alloc 2, .alloc 3, .dealloc 2] (linked 7) ∧
    Along (OneAtATime 7) [.alloc 1, .dealloc 7, .alloc 2, .alloc 3, .dealloc 2] (linked 7) := by
  simp [Along, Legal, OneAtATime, step, allocate, deallocate, delete, linked]

/-- C31 without foreign memory: every history of legal calls. -/
theorem owned_sound (ext : Nat) (os : List Op) (hl : Along (Legal ext) os owned) :
    ∃ s, run os owned = some s ∧ Sound ext s := by
  have key : ∀ os s, Inv ext s → s.buffer = none → Along (Legal ext) os s → Along (OneAtATime ext) os s := by
    intro os
    induction os with
    | nil => intro s _ _ _; trivial
    | cons o os ih =>
      intro s hi hb hl
      have h1 : OneAtATime ext s o := by
        cases o with
        | alloc a => intro hm; have := hi.held hm; rw [hb] at this; cases this
        | dealloc p => trivial
      refine ⟨h1, fun s' hs => ?_⟩
      obtain ⟨s1, h2, h3⟩ := step_inv hi hl.1 h1
      rw [hs] at h2; cases h2
      refine ih s' h3 ?_ (hl.2 s' hs)
      cases o with
      | alloc a => simp only [step, allocate, hb, Option.some.injEq] at hs; rw [← hs]
      | dealloc p =>
        simp only [step, deallocate, hb, delete] at hs
        split at hs
        · cases hs; rfl
        · split at hs
          · cases hs; rfl
          · cases hs
  have hi : Inv ext owned :=
    ⟨⟨⟨by simp [owned], by simp [owned]⟩, by simp [owned], by simp [owned], by simp [owned]⟩, Or.inl rfl, by simp [owned]⟩
  obtain ⟨s, h, hi'⟩ := run_inv os owned hi hl (key os owned hi rfl hl)
  exact ⟨s, h, hi'.toSound⟩

/-- What a growing vector does: take the foreign memory, ask for more, return the old block. Both requests get the same
address, so the larger one overruns the foreign buffer. -/
theorem grow_shares_violated (ext a b : Nat) :
    (run [.alloc a, .alloc b] (linked ext)).map (·.live) = some [ext, ext] := by
  simp [run, step, allocate, linked]

/-- And the vector's destruction then passes the foreign memory to `operator delete`. -/
theorem grow_frees_foreign_violated (ext a b : Nat) :
    run [.alloc a, .alloc b, .dealloc ext, .dealloc ext] (linked ext) = none := by
  simp [run, step, allocate, deallocate, delete, linked]

/-- The hybrid deleters: foreign objects are never deleted, owned ones always. -/
theorem deleter_foreign (s : St) (p : Nat) : hybridDelete false s p = some s := rfl
theorem deleter_owned (s : St) (p : Nat) (h : p ∈ s.heap) (hn : s.heap.Nodup) :
    ∃ s', hybridDelete true s p = some s' ∧ p ∉ s'.heap ∧ s'.freed = p :: s.freed := by
  refine ⟨{ s with heap := s.heap.erase p, freed := p :: s.freed }, by simp [hybridDelete, delete, h], ?_, rfl⟩
  rw [hn.mem_erase_iff]
  simp

end PreCore.Alloc
