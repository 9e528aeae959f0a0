import Verif.Model.Threads
/-!
# C30: the threaded queue
-/
namespace PreCore.Threads

/-! ## Specification -/

/-- The tasks started, in order. -/
def started (log : List Ev) : List Nat := log.filterMap (fun e => match e with | .start t => some t | _ => none)

/-- The tasks finished, in order. -/
def finished (log : List Ev) : List Nat := log.filterMap (fun e => match e with | .finish t => some t | _ => none)

/-- The tasks running. -/
def running (log : List Ev) : List Nat := (started log).filter (fun t => t ∉ finished log)

theorem mem_started {log t} : t ∈ started log ↔ Ev.start t ∈ log := by
  simp only [started, List.mem_filterMap]
  constructor
  · rintro ⟨e, h1, h2⟩; cases e <;> simp at h2; subst h2; exact h1
  · intro h; exact ⟨_, h, rfl⟩

theorem mem_finished {log t} : t ∈ finished log ↔ Ev.finish t ∈ log := by
  simp only [finished, List.mem_filterMap]
  constructor
  · rintro ⟨e, h1, h2⟩; cases e <;> simp at h2; subst h2; exact h1
  · intro h; exact ⟨_, h, rfl⟩

/-! ## Safety -/

/-- Invariant. -/
structure Inv (hw num : Nat) (s : St) : Prop where
  starts : started s.log = List.range s.cur
  len : s.slots.length = numThreads hw num
  slot : ∀ (i t : Nat), s.slots[i]? = some (some t) → t < s.cur
  live : ∀ t, t < s.cur → Ev.finish t ∉ s.log → some t ∈ s.slots
  launch : ∀ i, s.pc = .launch i → s.cur = i ∧ i ≤ numThreads hw num ∧ (∀ j, j < i → s.slots[j]? = some (some j)) ∧
    (∀ j, i ≤ j → j < numThreads hw num → s.slots[j]? = some none)
  full : (∀ i, s.pc ≠ .launch i) → ∀ i, i < numThreads hw num → ∃ t, s.slots[i]? = some (some t)
  le : s.cur ≤ num
  fin : ∀ t, Ev.finish t ∈ s.log → t < s.cur
  nodup : (finished s.log).Nodup
  all : (∃ i, s.pc = .wait i) ∨ s.pc = .done → s.cur = num
  waited : ∀ i, s.pc = .wait i → ∀ j, j < i → j < numThreads hw num → ready s j = true
  done : s.pc = .done → ∀ j, j < numThreads hw num → ready s j = true

theorem inv_init (hw num) : Inv hw num (init hw num) := by
  refine ⟨rfl, by simp [init], ?_, by simp [init], ?_, ?_, by simp [init], by simp [init], by simp [init, finished], by simp [init],
    by simp [init], by simp [init]⟩
  · intro i t h
    simp [init, List.getElem?_replicate] at h
  · intro i h
    simp only [init, Pc.launch.injEq] at h
    subst h
    refine ⟨rfl, by omega, fun j h => by omega, fun j _ h => ?_⟩
    simp [init, List.getElem?_replicate, h]
  · intro h
    exact absurd rfl (h 0)

theorem started_append (a b) : started (a ++ b) = started a ++ started b := by simp [started]
theorem finished_append (a b) : finished (a ++ b) = finished a ++ finished b := by simp [finished]

theorem inv_assign {hw num s} (h : Inv hw num s) (i : Nat) (pc : Pc) (hi : i < numThreads hw num) (hc : s.cur < num)
    (hold : ∀ t, s.slots[i]? = some (some t) → Ev.finish t ∈ s.log)
    (hpc : (s.pc = .launch i ∧ pc = .launch (i + 1)) ∨ ((∀ k, s.pc ≠ .launch k) ∧ ∃ k, pc = .poll k)) :
    Inv hw num (assign s i pc) := by
  have hl := h.len
  refine ⟨?_, ?_, ?_, ?_, ?_, ?_, ?_, ?_, ?_, ?_, ?_, ?_⟩
  · simp only [assign, started_append, h.starts, List.range_succ]
    rfl
  · simp [assign, hl]
  · intro j t hj
    simp only [assign, List.getElem?_set] at hj ⊢
    split at hj
    · split at hj
      · simp at hj; omega
      · simp at hj
    · have := h.slot j t hj; omega
  · intro t ht hf
    simp only [assign, List.mem_append, List.mem_singleton, not_or] at ht hf ⊢
    by_cases e : t = s.cur
    · subst e
      exact List.mem_set (by omega) _
    · have hm := h.live t (by omega) hf.1
      rw [List.mem_iff_getElem?] at hm ⊢
      obtain ⟨j, hj⟩ := hm
      refine ⟨j, ?_⟩
      rw [List.getElem?_set]
      split
      · rename_i hij
        subst hij
        exact absurd (hold t hj) hf.1
      · exact hj
  · intro k hk
    rcases hpc with ⟨h1, h2⟩ | ⟨_, k', h2⟩
    · simp only [assign, h2, Pc.launch.injEq] at hk
      subst hk
      obtain ⟨g1, g2, g3, g4⟩ := h.launch i h1
      refine ⟨by simp [assign, g1], by omega, ?_, ?_⟩
      · intro j hj
        simp only [assign, List.getElem?_set]
        split
        · rename_i e; subst e; rw [if_pos (by omega), g1]
        · exact g3 j (by omega)
      · intro j h1 h2
        simp only [assign, List.getElem?_set]
        rw [if_neg (by omega)]
        exact g4 j (by omega) h2
    · simp [assign, h2] at hk
  · intro hn j hj
    rcases hpc with ⟨h1, h2⟩ | ⟨h1, _⟩
    · exact absurd h2 (hn _)
    · simp only [assign, List.getElem?_set]
      split
      · rw [if_pos (by omega)]; exact ⟨_, rfl⟩
      · exact h.full h1 j hj
  · exact hc
  · intro t ht
    simp only [assign, List.mem_append, List.mem_singleton, reduceCtorEq, or_false] at ht ⊢
    have := h.fin t ht
    omega
  · simp only [assign, finished_append]
    simpa [finished] using h.nodup
  · intro hd
    rcases hpc with ⟨_, h2⟩ | ⟨_, k, h2⟩ <;> simp [assign, h2] at hd
  · intro k hk
    rcases hpc with ⟨_, h2⟩ | ⟨_, k, h2⟩ <;> simp [assign, h2] at hk
  · intro hk
    rcases hpc with ⟨_, h2⟩ | ⟨_, k, h2⟩ <;> simp [assign, h2] at hk

theorem inv_pc {hw num s} (h : Inv hw num s) (pc : Pc) (h1 : ∀ i, pc ≠ .launch i)
    (h2 : (∀ i, s.pc ≠ .launch i) ∨ ∃ i, s.pc = .launch i ∧ ¬ i < numThreads hw num)
    (h3 : (∃ i, pc = .wait i) ∨ pc = .done → s.cur = num)
    (h4 : ∀ i, pc = .wait i → ∀ j, j < i → j < numThreads hw num → ready s j = true)
    (h5 : pc = .done → ∀ j, j < numThreads hw num → ready s j = true) : Inv hw num { s with pc := pc } := by
  refine ⟨h.starts, h.len, h.slot, h.live, ?_, ?_, h.le, h.fin, h.nodup, h3, h4, h5⟩
  · intro i hi; exact absurd hi (h1 i)
  · intro _ i hi
    rcases h2 with h2 | ⟨k, hk, hk'⟩
    · exact h.full h2 i hi
    · obtain ⟨_, _, g, _⟩ := h.launch k hk
      exact ⟨i, g i (by omega)⟩

theorem inv_step {hw num s s'} (h : Inv hw num s) (hs : Step hw num s s') : Inv hw num s' := by
  rcases hs with hs | ⟨t, ht1, ht2, rfl⟩
  · unfold mainStep at hs
    split at hs
    · rename_i i hpc
      split at hs
      · rename_i hi
        cases hs
        obtain ⟨g1, g2, g3, g4⟩ := h.launch i hpc
        refine inv_assign h i _ hi ?_ ?_ (Or.inl ⟨hpc, rfl⟩)
        · have : numThreads hw num ≤ num := Nat.min_le_right _ _
          omega
        · intro t ht
          rw [g4 i (by omega) hi] at ht
          simp at ht
      · rename_i hi
        cases hs
        exact inv_pc h _ (by simp) (Or.inr ⟨i, hpc, hi⟩) (by simp) (by simp) (by simp)
    · rename_i hpc
      have hnl : ∀ i, s.pc ≠ .launch i := by rw [hpc]; simp
      split at hs
      · cases hs
        exact inv_pc h _ (by simp) (Or.inl hnl) (by simp) (by simp) (by simp)
      · rename_i hc
        cases hs
        refine inv_pc h _ (by simp) (Or.inl hnl) ?_ ?_ (by simp)
        · intro _; have := h.le; omega
        · intro i hi j hj; cases hi; omega
    · rename_i i hpc
      have hnl : ∀ i, s.pc ≠ .launch i := by rw [hpc]; simp
      split at hs
      · rename_i hi
        split at hs
        · cases hs
          exact inv_pc h _ (by simp) (Or.inl hnl) (by simp) (by simp) (by simp)
        · rename_i hc
          split at hs
          · rename_i hr
            cases hs
            refine inv_assign h i _ hi (by omega) ?_ (Or.inr ⟨hnl, _, rfl⟩)
            intro t ht
            simpa [ready, ht] using hr
          · cases hs
            exact inv_pc h _ (by simp) (Or.inl hnl) (by simp) (by simp) (by simp)
      · cases hs
        exact inv_pc h _ (by simp) (Or.inl hnl) (by simp) (by simp) (by simp)
    · rename_i i hpc
      have hnl : ∀ i, s.pc ≠ .launch i := by rw [hpc]; simp
      split at hs
      · rename_i hi
        split at hs
        · rename_i hr
          cases hs
          refine inv_pc h _ (by simp) (Or.inl hnl) ?_ ?_ (by simp)
          · intro _; exact h.all (Or.inl ⟨_, hpc⟩)
          · intro k hk j hj1 hj2
            cases hk
            by_cases e : j = i
            · subst e; exact hr
            · exact h.waited i hpc j (by omega) hj2
        · cases hs
      · rename_i hi
        cases hs
        refine inv_pc h _ (by simp) (Or.inl hnl) ?_ (by simp) ?_
        · intro _; exact h.all (Or.inl ⟨_, hpc⟩)
        · intro _ j hj
          exact h.waited i hpc j (by omega) hj
    · cases hs
  · have hr : ∀ j, ready s j = true → ready { s with log := s.log ++ [.finish t] } j = true := by
      intro j hj
      unfold ready at *
      simp only at *
      split at hj <;> rename_i heq
      · simp only [decide_eq_true_eq, List.mem_append] at hj ⊢
        exact Or.inl hj
      · cases hj
    refine ⟨?_, h.len, h.slot, ?_, h.launch, h.full, h.le, ?_, ?_, h.all, ?_, ?_⟩
    · simp only [started_append, h.starts]; simp [started]
    · intro u hu hf
      simp only [List.mem_append, not_or] at hf
      exact h.live u hu hf.1
    · intro u hu
      simp only [List.mem_append, List.mem_singleton, Ev.finish.injEq] at hu
      rcases hu with hu | rfl
      · exact h.fin u hu
      · have := mem_started.2 ht1
        rw [h.starts] at this
        exact List.mem_range.1 this
    · simp only [finished_append]
      rw [List.nodup_append]
      refine ⟨h.nodup, by simp [finished], ?_⟩
      intro a ha b hb
      simp [finished] at hb
      subst hb
      rintro rfl
      exact ht2 (mem_finished.1 ha)
    · intro i hi j h1 h2; exact hr j (h.waited i hi j h1 h2)
    · intro hd j h2; exact hr j (h.done hd j h2)

theorem inv_reach {hw num s} (h : Reach hw num s) : Inv hw num s := by
  induction h with
  | init => exact inv_init hw num
  | step _ hs ih => exact inv_step ih hs

theorem length_le_of_nodup_subset : ∀ (l m : List Nat), l.Nodup → (∀ x ∈ l, x ∈ m) → l.length ≤ m.length := by
  intro l
  induction l with
  | nil => intro m _ _; simp
  | cons a l ih =>
    intro m hn hs
    rw [List.nodup_cons] at hn
    have ha := hs a (by simp)
    have := ih (m.erase a) hn.2 (fun x hx => by
      have hne : x ≠ a := by rintro rfl; exact hn.1 hx
      exact (List.mem_erase_of_ne hne).2 (hs x (by simp [hx])))
    rw [List.length_erase_of_mem ha] at this
    have : 0 < m.length := List.length_pos_of_mem ha
    simp only [List.length_cons]
    omega

/-- C30, safety: under every schedule, at every moment, the tasks started so far are `0, 1, ..., k-1` for some
`k ≤ numTasks`, each once and in this order, none finishes twice, and at most as many tasks are running as there are
hardware threads. -/
theorem queue_safe (hw num : Nat) (s : St) (h : Reach hw num s) :
    (∃ k, k ≤ num ∧ started s.log = List.range k) ∧ (finished s.log).Nodup ∧
    (running s.log).length ≤ hw ∧ (running s.log).length ≤ num := by
  have hi := inv_reach h
  have hrun : (running s.log).length ≤ numThreads hw num := by
    have h1 : (running s.log).length ≤ (s.slots.filterMap id).length := by
      apply length_le_of_nodup_subset
      · unfold running
        rw [hi.starts]
        exact List.Pairwise.filter _ List.nodup_range
      · intro x hx
        simp only [running, List.mem_filter, decide_eq_true_eq] at hx
        rw [hi.starts, List.mem_range, mem_finished] at hx
        rw [List.mem_filterMap]
        exact ⟨some x, hi.live x hx.1 hx.2, rfl⟩
    have h2 := List.length_filterMap_le id s.slots
    rw [hi.len] at h2
    omega
  have : numThreads hw num ≤ hw ∧ numThreads hw num ≤ num := ⟨Nat.min_le_left _ _, Nat.min_le_right _ _⟩
  exact ⟨⟨s.cur, hi.le, hi.starts⟩, hi.nodup, by omega, by omega⟩

/-- C30, completion: when the call has returned, every task ran exactly once and has finished. -/
theorem queue_complete (hw num : Nat) (s : St) (h : Reach hw num s) (hd : s.pc = .done) :
    started s.log = List.range num ∧ (∀ t, t < num → t ∈ finished s.log) ∧ running s.log = [] := by
  have hi := inv_reach h
  have hc := hi.all (Or.inr hd)
  have hfin : ∀ t, t < num → t ∈ finished s.log := by
    intro t ht
    rw [mem_finished]
    by_cases hf : Ev.finish t ∈ s.log
    · exact hf
    · have hm := hi.live t (by omega) hf
      rw [List.mem_iff_getElem?] at hm
      obtain ⟨j, hj⟩ := hm
      have hjl : j < s.slots.length := by
        rw [List.getElem?_eq_some_iff] at hj
        exact hj.1
      have := hi.done hd j (by rw [← hi.len]; exact hjl)
      simpa [ready, hj] using this
  refine ⟨by rw [hi.starts, hc], hfin, ?_⟩
  unfold running
  rw [hi.starts, hc, List.filter_eq_nil_iff]
  intro t ht
  simp [hfin t (List.mem_range.1 ht)]

/-! ## Liveness -/

/-- A fair run: in every step nothing happens or the program takes a step; the calling thread is not delayed forever
(again and again it steps or is unable to); every started task finishes. -/
structure FairRun (hw num : Nat) (run : Nat → St) : Prop where
  start : run 0 = init hw num
  step : ∀ n, run (n + 1) = run n ∨ Step hw num (run n) (run (n + 1))
  main : ∀ n, ∃ m, n ≤ m ∧ (mainStep hw num (run m) = some (run (m + 1)) ∨ mainStep hw num (run m) = none)
  tasks : ∀ n t, t ∈ started (run n).log → ∃ m, n ≤ m ∧ t ∈ finished (run m).log

section
variable {hw num : Nat} {run : Nat → St} (hr : FairRun hw num run)
include hr

theorem run_reach : ∀ n, Reach hw num (run n) := by
  intro n
  induction n with
  | zero => rw [hr.start]; exact .init
  | succ n ih =>
    rcases hr.step n with h | h
    · rw [h]; exact ih
    · exact .step ih h

omit hr in
theorem mainStep_log {s s'} (h : mainStep hw num s = some s') : s.log <+: s'.log := by
  unfold mainStep at h
  split at h <;> (repeat' split at h) <;> first | (cases h; first | exact List.prefix_append _ _ | exact List.prefix_rfl) | cases h

theorem log_mono (n m : Nat) (h : n ≤ m) : (run n).log <+: (run m).log := by
  induction m with
  | zero => rw [show n = 0 by omega]; exact List.prefix_rfl
  | succ m ih =>
    by_cases e : n = m + 1
    · rw [e]; exact List.prefix_rfl
    · refine (ih (by omega)).trans ?_
      rcases hr.step m with h | h | ⟨t, _, _, h⟩
      · rw [h]; exact List.prefix_rfl
      · exact mainStep_log h
      · rw [h]; exact List.prefix_append _ _

/-- Until the calling thread moves, only the log grows. -/
theorem next_main (n : Nat) : ∃ m, n ≤ m ∧ (run m).pc = (run n).pc ∧ (run m).cur = (run n).cur ∧ (run m).slots = (run n).slots ∧
    (mainStep hw num (run m) = some (run (m + 1)) ∨ mainStep hw num (run m) = none) := by
  obtain ⟨m0, h0, h1⟩ := hr.main n
  obtain ⟨d, rfl⟩ : ∃ d, m0 = n + d := ⟨m0 - n, by omega⟩
  clear h0
  induction d generalizing n with
  | zero => exact ⟨n, by omega, rfl, rfl, rfl, h1⟩
  | succ d ih =>
    rcases hr.step n with h | h | ⟨t, h2, h3, h⟩
    · obtain ⟨m, g1, g2, g3, g4, g5⟩ := ih (n + 1) (by rw [show n + 1 + d = n + (d + 1) by omega]; exact h1)
      rw [h] at g2 g3 g4
      exact ⟨m, by omega, g2, g3, g4, g5⟩
    · exact ⟨n, by omega, rfl, rfl, rfl, Or.inl h⟩
    · obtain ⟨m, g1, g2, g3, g4, g5⟩ := ih (n + 1) (by rw [show n + 1 + d = n + (d + 1) by omega]; exact h1)
      rw [h] at g2 g3 g4
      exact ⟨m, by omega, g2, g3, g4, g5⟩

/-- The tasks in the slots eventually have all finished. -/
theorem slots_finish (n k : Nat) : ∃ M, n ≤ M ∧ ∀ i, i < k → ∀ t, (run n).slots[i]? = some (some t) → Ev.finish t ∈ (run M).log := by
  induction k with
  | zero => exact ⟨n, by omega, fun i h => by omega⟩
  | succ k ih =>
    obtain ⟨M, h1, h2⟩ := ih
    cases hk : (run n).slots[k]? with
    | none =>
      refine ⟨M, h1, fun i hi t ht => ?_⟩
      by_cases e : i = k
      · subst e; rw [hk] at ht; cases ht
      · exact h2 i (by omega) t ht
    | some x => cases x with
      | none =>
        refine ⟨M, h1, fun i hi t ht => ?_⟩
        by_cases e : i = k
        · subst e; rw [hk] at ht; cases ht
        · exact h2 i (by omega) t ht
      | some u =>
        have hinv := inv_reach (run_reach hr n)
        have hu := hinv.slot k u hk
        obtain ⟨M', g1, g2⟩ := hr.tasks n u (by rw [hinv.starts]; exact List.mem_range.2 hu)
        rw [mem_finished] at g2
        refine ⟨max M M', by omega, fun i hi t ht => ?_⟩
        by_cases e : i = k
        · subst e
          rw [hk] at ht
          cases ht
          exact (log_mono hr M' _ (by omega)).subset g2
        · exact (log_mono hr M _ (by omega)).subset (h2 i (by omega) t ht)

theorem launch_ends : ∀ d n i, (run n).pc = .launch i → numThreads hw num - i = d → ∃ m, n ≤ m ∧ (run m).pc = .round := by
  intro d
  induction d with
  | zero =>
    intro n i hp hd
    obtain ⟨m, h1, h2, h3, h4, h5⟩ := next_main hr n
    rw [hp] at h2
    have e : mainStep hw num (run m) = some { run m with pc := .round } := by
      unfold mainStep; simp only [h2]; rw [if_neg (by omega)]
    rw [e] at h5
    rcases h5 with h5 | h5
    · refine ⟨m + 1, by omega, ?_⟩
      rw [← Option.some.inj h5]
    · cases h5
  | succ d ih =>
    intro n i hp hd
    obtain ⟨m, h1, h2, h3, h4, h5⟩ := next_main hr n
    rw [hp] at h2
    have e : mainStep hw num (run m) = some (assign (run m) i (.launch (i + 1))) := by
      unfold mainStep; simp only [h2]; rw [if_pos (by omega)]
    rw [e] at h5
    rcases h5 with h5 | h5
    · obtain ⟨m', g1, g2⟩ := ih (m + 1) (i + 1) (by rw [← Option.some.inj h5]; rfl) (by omega)
      exact ⟨m', by omega, g2⟩
    · cases h5

/-- Polling states. -/
def Polling (s : St) : Prop := s.pc = .round ∨ ∃ i, s.pc = .poll i

omit hr in
theorem ready_of_finish (s : St) (i t : Nat) (h : s.slots[i]? = some (some t)) (hf : Ev.finish t ∈ s.log) : ready s i = true := by
  simp [ready, h, hf]

/-- With all tasks in the slots finished, polling takes the next task. -/
theorem poll_assigns (hpos : 0 < numThreads hw num) (n : Nat) (hc : (run n).cur < num) (hp : Polling (run n))
    (hf : ∀ i, i < numThreads hw num → ready (run n) i = true) :
    ∃ m, n ≤ m ∧ (run m).cur = (run n).cur + 1 ∧ Polling (run m) := by
  have key : ∀ n, (run n).cur < num → (∀ i, i < numThreads hw num → ready (run n) i = true) → ∀ i, i < numThreads hw num →
      (run n).pc = .poll i → ∃ m, n ≤ m ∧ (run m).cur = (run n).cur + 1 ∧ Polling (run m) := by
    intro n hc hf i hi hpc
    obtain ⟨m, h1, h2, h3, h4, h5⟩ := next_main hr n
    rw [hpc] at h2
    have hrdy : ready (run m) i = true := by
      have := hf i hi
      unfold ready at this ⊢
      rw [h4]
      split at this
      · rename_i t heq
        simp only [decide_eq_true_eq] at this ⊢
        exact (log_mono hr n m h1).subset this
      · cases this
    have e : mainStep hw num (run m) = some (assign (run m) i (.poll (i + 1))) := by
      unfold mainStep; simp only [h2]; rw [if_pos hi, if_neg (by omega), if_pos hrdy]
    rw [e] at h5
    rcases h5 with h5 | h5
    · refine ⟨m + 1, by omega, ?_, ?_⟩
      · rw [← Option.some.inj h5, ← h3]; rfl
      · rw [← Option.some.inj h5]; exact Or.inr ⟨_, rfl⟩
    · cases h5
  have mono : ∀ n m, n ≤ m → (run m).slots = (run n).slots → (∀ i, i < numThreads hw num → ready (run n) i = true) →
      ∀ i, i < numThreads hw num → ready (run m) i = true := by
    intro n m h1 h4 hf i hi
    have := hf i hi
    unfold ready at this ⊢
    rw [h4]
    split at this
    · rename_i t heq
      simp only [decide_eq_true_eq] at this ⊢
      exact (log_mono hr n m h1).subset this
    · cases this
  have hround : ∀ n, (run n).cur < num → (∀ i, i < numThreads hw num → ready (run n) i = true) →
      (run n).pc = .round → ∃ m, n ≤ m ∧ (run m).cur = (run n).cur + 1 ∧ Polling (run m) := by
    intro n hc hf hpc
    obtain ⟨m, h1, h2, h3, h4, h5⟩ := next_main hr n
    rw [hpc] at h2
    have e : mainStep hw num (run m) = some { run m with pc := .poll 0 } := by
      unfold mainStep; simp only [h2]; rw [if_pos (by omega)]
    rw [e] at h5
    rcases h5 with h5 | h5
    · have h6 := Option.some.inj h5
      have hc1 : (run (m + 1)).cur = (run n).cur := by rw [← h6]; exact h3
      obtain ⟨m', g1, g2, g3⟩ := key (m + 1) (by omega) (mono n (m + 1) (by omega) (by rw [← h6]; exact h4) hf) 0 hpos
        (by rw [← h6])
      exact ⟨m', by omega, by omega, g3⟩
    · cases h5
  rcases hp with hp | ⟨i, hp⟩
  · exact hround n hc hf hp
  · by_cases hi : i < numThreads hw num
    · exact key n hc hf i hi hp
    · obtain ⟨m, h1, h2, h3, h4, h5⟩ := next_main hr n
      rw [hp] at h2
      have e : mainStep hw num (run m) = some { run m with pc := .round } := by
        unfold mainStep; simp only [h2]; rw [if_neg hi]
      rw [e] at h5
      rcases h5 with h5 | h5
      · have h6 := Option.some.inj h5
        have hc1 : (run (m + 1)).cur = (run n).cur := by rw [← h6]; exact h3
        obtain ⟨m', g1, g2, g3⟩ := hround (m + 1) (by omega) (mono n (m + 1) (by omega) (by rw [← h6]; exact h4) hf) (by rw [← h6])
        exact ⟨m', by omega, by omega, g3⟩
      · cases h5

/-- While polling with tasks left, the number of tasks taken grows within any stretch or nothing else changes. -/
theorem poll_stays (n : Nat) (hc : (run n).cur < num) (hp : Polling (run n)) : ∀ m, n ≤ m →
    (∃ k, n ≤ k ∧ k ≤ m ∧ (run k).cur = (run n).cur + 1 ∧ Polling (run k)) ∨
    ((run m).cur = (run n).cur ∧ (run m).slots = (run n).slots ∧ Polling (run m)) := by
  intro m
  induction m with
  | zero =>
    intro h
    obtain rfl : n = 0 := by omega
    exact Or.inr ⟨rfl, rfl, hp⟩
  | succ m ih =>
    intro h
    by_cases e : n = m + 1
    · rw [← e]; exact Or.inr ⟨rfl, rfl, hp⟩
    · rcases ih (by omega) with ⟨k, h1, h2, h3⟩ | ⟨h1, h2, h3⟩
      · exact Or.inl ⟨k, h1, by omega, h3⟩
      · rcases hr.step m with hs | hs | ⟨t, _, _, hs⟩
        · rw [hs]; exact Or.inr ⟨h1, h2, h3⟩
        · unfold mainStep at hs
          rcases h3 with h3 | ⟨i, h3⟩
          · simp only [h3] at hs
            rw [if_pos (by omega)] at hs
            rw [← Option.some.inj hs]
            exact Or.inr ⟨h1, h2, Or.inr ⟨_, rfl⟩⟩
          · simp only [h3] at hs
            split at hs
            · rw [if_neg (by omega)] at hs
              split at hs
              · refine Or.inl ⟨m + 1, by omega, by omega, ?_, ?_⟩
                · rw [← Option.some.inj hs, ← h1]; rfl
                · rw [← Option.some.inj hs]; exact Or.inr ⟨_, rfl⟩
              · rw [← Option.some.inj hs]
                exact Or.inr ⟨h1, h2, Or.inr ⟨_, rfl⟩⟩
            · rw [← Option.some.inj hs]
              exact Or.inr ⟨h1, h2, Or.inl rfl⟩
        · rw [hs]; exact Or.inr ⟨h1, h2, h3⟩

theorem poll_ends (hpos : 0 < numThreads hw num) : ∀ d n, Polling (run n) → num - (run n).cur = d → ∃ m, n ≤ m ∧ (run m).pc = .wait 0 := by
  intro d
  induction d with
  | zero =>
    intro n hp hd
    have hround : ∀ n, num ≤ (run n).cur → (run n).pc = .round → ∃ m, n ≤ m ∧ (run m).pc = .wait 0 := by
      intro n hc hpc
      obtain ⟨m, h1, h2, h3, h4, h5⟩ := next_main hr n
      rw [hpc] at h2
      have e : mainStep hw num (run m) = some { run m with pc := .wait 0 } := by
        unfold mainStep; simp only [h2]; rw [if_neg (by omega)]
      rw [e] at h5
      rcases h5 with h5 | h5
      · exact ⟨m + 1, by omega, by rw [← Option.some.inj h5]⟩
      · cases h5
    rcases hp with hp | ⟨i, hp⟩
    · exact hround n (by omega) hp
    · obtain ⟨m, h1, h2, h3, h4, h5⟩ := next_main hr n
      rw [hp] at h2
      have e : mainStep hw num (run m) = some { run m with pc := .round } := by
        unfold mainStep; simp only [h2]
        split
        · rw [if_pos (by omega)]
        · rfl
      rw [e] at h5
      rcases h5 with h5 | h5
      · have h6 := Option.some.inj h5
        obtain ⟨m', g1, g2⟩ := hround (m + 1) (by rw [← h6]; show num ≤ (run m).cur; omega) (by rw [← h6])
        exact ⟨m', by omega, g2⟩
      · cases h5
  | succ d ih =>
    intro n hp hd
    obtain ⟨M, h1, h2⟩ := slots_finish hr n (numThreads hw num)
    have hprog : ∃ k, n ≤ k ∧ (run k).cur = (run n).cur + 1 ∧ Polling (run k) := by
      rcases poll_stays hr n (by omega) hp M h1 with ⟨k, g1, _, g3⟩ | ⟨g1, g2, g3⟩
      · exact ⟨k, g1, g3⟩
      · have hinv := inv_reach (run_reach hr M)
        have hnl : ∀ i, (run M).pc ≠ .launch i := by
          rcases g3 with g3 | ⟨i, g3⟩ <;> rw [g3] <;> simp
        obtain ⟨m, q1, q2, q3⟩ := poll_assigns hr hpos M (by omega) g3 (fun i hi => by
          obtain ⟨t, ht⟩ := hinv.full hnl i hi
          exact ready_of_finish _ i t ht (h2 i hi t (by rw [← g2]; exact ht)))
        exact ⟨m, by omega, by omega, q3⟩
    obtain ⟨k, k1, k2, k3⟩ := hprog
    obtain ⟨m, q1, q2⟩ := ih k k3 (by omega)
    exact ⟨m, by omega, q2⟩

theorem wait_stays (n i : Nat) (hp : (run n).pc = .wait i) : ∀ m, n ≤ m →
    (∃ k, n ≤ k ∧ k ≤ m ∧ ((run k).pc = .wait (i + 1) ∨ (run k).pc = .done)) ∨
    ((run m).pc = .wait i ∧ (run m).slots = (run n).slots) := by
  intro m
  induction m with
  | zero =>
    intro h
    obtain rfl : n = 0 := by omega
    exact Or.inr ⟨hp, rfl⟩
  | succ m ih =>
    intro h
    by_cases e : n = m + 1
    · rw [← e]; exact Or.inr ⟨hp, rfl⟩
    · rcases ih (by omega) with ⟨k, h1, h2, h3⟩ | ⟨h1, h2⟩
      · exact Or.inl ⟨k, h1, by omega, h3⟩
      · rcases hr.step m with hs | hs | ⟨t, _, _, hs⟩
        · rw [hs]; exact Or.inr ⟨h1, h2⟩
        · refine Or.inl ⟨m + 1, by omega, by omega, ?_⟩
          unfold mainStep at hs
          simp only [h1] at hs
          split at hs
          · split at hs
            · rw [← Option.some.inj hs]; exact Or.inl rfl
            · cases hs
          · rw [← Option.some.inj hs]; exact Or.inr rfl
        · rw [hs]; exact Or.inr ⟨h1, h2⟩

theorem wait_ends : ∀ d n i, (run n).pc = .wait i → numThreads hw num - i = d → ∃ m, n ≤ m ∧ (run m).pc = .done := by
  intro d
  induction d with
  | zero =>
    intro n i hp hd
    obtain ⟨m, h1, h2, h3, h4, h5⟩ := next_main hr n
    rw [hp] at h2
    have e : mainStep hw num (run m) = some { run m with pc := .done } := by
      unfold mainStep; simp only [h2]; rw [if_neg (by omega)]
    rw [e] at h5
    rcases h5 with h5 | h5
    · exact ⟨m + 1, by omega, by rw [← Option.some.inj h5]⟩
    · cases h5
  | succ d ih =>
    intro n i hp hd
    obtain ⟨M, h1, h2⟩ := slots_finish hr n (numThreads hw num)
    have hprog : ∃ k, n ≤ k ∧ ((run k).pc = .wait (i + 1) ∨ (run k).pc = .done) := by
      rcases wait_stays hr n i hp M h1 with ⟨k, g1, _, g3⟩ | ⟨g1, g2⟩
      · exact ⟨k, g1, g3⟩
      · obtain ⟨m, q1, q2, q3, q4, q5⟩ := next_main hr M
        have hinv := inv_reach (run_reach hr M)
        obtain ⟨t, ht⟩ := hinv.full (by rw [g1]; simp) i (by omega)
        have hrdy : ready (run m) i = true :=
          ready_of_finish _ i t (by rw [q4]; exact ht)
            ((log_mono hr M m q1).subset (h2 i (by omega) t (by rw [← g2]; exact ht)))
        rw [g1] at q2
        have e : mainStep hw num (run m) = some { run m with pc := .wait (i + 1) } := by
          unfold mainStep; simp only [q2]; rw [if_pos (by omega), if_pos hrdy]
        rw [e] at q5
        rcases q5 with q5 | q5
        · exact ⟨m + 1, by omega, Or.inl (by rw [← Option.some.inj q5])⟩
        · cases q5
    obtain ⟨k, k1, k2 | k2⟩ := hprog
    · obtain ⟨m, q1, q2⟩ := ih k (i + 1) k2 (by omega)
      exact ⟨m, by omega, q2⟩
    · exact ⟨k, k1, k2⟩

end

/-- C30, termination: on a machine that reports at least one hardware thread, every fair run returns. -/
theorem queue_terminates_partial (hw num : Nat) (run : Nat → St) (hr : FairRun hw num run) (hhw : 0 < hw) :
    ∃ n, (run n).pc = .done ∧ started (run n).log = List.range num ∧ (∀ t, t < num → t ∈ finished (run n).log) := by
  have h0 : (run 0).pc = .launch 0 := by rw [hr.start]; rfl
  obtain ⟨n1, _, h1⟩ := launch_ends hr _ 0 0 h0 rfl
  have h2 : ∃ m, n1 ≤ m ∧ (run m).pc = .wait 0 := by
    by_cases hpos : 0 < numThreads hw num
    · exact poll_ends hr hpos _ n1 (Or.inl h1) rfl
    · have hnum : num = 0 := by unfold numThreads at hpos; omega
      obtain ⟨m, q1, q2, q3, q4, q5⟩ := next_main hr n1
      rw [h1] at q2
      have e : mainStep hw num (run m) = some { run m with pc := .wait 0 } := by
        unfold mainStep; simp only [q2]; rw [if_neg (by omega)]
      rw [e] at q5
      rcases q5 with q5 | q5
      · exact ⟨m + 1, by omega, by rw [← Option.some.inj q5]⟩
      · cases q5
  obtain ⟨n2, _, h2⟩ := h2
  obtain ⟨n3, _, h3⟩ := wait_ends hr _ n2 0 h2 rfl
  have := queue_complete hw num _ (run_reach hr n3) h3
  exact ⟨n3, h3, this.1, this.2.1⟩

/-- Where the full statement fails: when `hardware_concurrency()` is 0 ("not computable", allowed by the standard) no
task is ever started and the call never returns. -/
theorem queue_zero_hw_violated (num : Nat) (hn : 0 < num) (s : St) (h : Reach 0 num s) : s.pc ≠ .done ∧ started s.log = [] := by
  have key : s.cur = 0 ∧ s.log = [] ∧ ((s.pc = .launch 0) ∨ s.pc = .round ∨ s.pc = .poll 0) := by
    induction h with
    | init => exact ⟨rfl, rfl, Or.inl rfl⟩
    | step _ hs ih =>
      obtain ⟨h1, h2, h3⟩ := ih
      have hz : numThreads 0 num = 0 := Nat.min_eq_left (by omega)
      rcases hs with hs | ⟨t, ht, _⟩
      · unfold mainStep at hs
        rcases h3 with h3 | h3 | h3
        · simp only [h3, hz, Nat.lt_irrefl, if_false] at hs
          rw [← Option.some.inj hs]; exact ⟨h1, h2, Or.inr (Or.inl rfl)⟩
        · simp only [h3] at hs
          rw [if_pos (by omega)] at hs
          rw [← Option.some.inj hs]; exact ⟨h1, h2, Or.inr (Or.inr rfl)⟩
        · simp only [h3, hz, Nat.lt_irrefl, if_false] at hs
          rw [← Option.some.inj hs]; exact ⟨h1, h2, Or.inr (Or.inl rfl)⟩
      · rw [h2] at ht; cases ht
  refine ⟨?_, by rw [key.2.1]; rfl⟩
  rcases key.2.2 with h | h | h <;> rw [h] <;> simp

/-! ### Non-vacuity: two hardware threads, three tasks, task 1 finishing first -/

def exPath : List (St → Option St) :=
  let m := mainStep 2 3
  let f (t : Nat) (s : St) : Option St := some { s with log := s.log ++ [.finish t] }
  [m, m, m, m, f 1, m, m, m, m, f 2, f 0, m, m, m]

def runPath : List (St → Option St) → St → Option St
  | [], s => some s
  | g :: gs, s => (g s).bind (runPath gs)

example : ∃ s, runPath exPath (init 2 3) = some s ∧ s.pc = .done ∧
    s.log = [.start 0, .start 1, .finish 1, .start 2, .finish 2, .finish 0] := ⟨_, rfl, rfl, rfl⟩

/-- A fair run with this schedule, so the hypotheses of `queue_terminates_partial` can be met. -/
def exRun (n : Nat) : St := ((exPath.take n).foldl (fun s g => s.bind g) (some (init 2 3))).getD (init 2 3)

theorem exRun_end (n : Nat) (h : 14 ≤ n) : exRun n = exRun 14 := by
  unfold exRun
  rw [List.take_of_length_le (by simpa [exPath] using h), List.take_of_length_le (by simp [exPath])]

theorem exRun_fair : FairRun 2 3 exRun := by
  refine ⟨rfl, ?_, ?_, ?_⟩
  · intro n
    by_cases h : n < 14
    · right
      have hm : ∀ n, (n < 4 ∨ (5 ≤ n ∧ n < 9) ∨ (11 ≤ n ∧ n < 14)) → mainStep 2 3 (exRun n) = some (exRun (n + 1)) := by
        intro n h
        have : n = 0 ∨ n = 1 ∨ n = 2 ∨ n = 3 ∨ n = 5 ∨ n = 6 ∨ n = 7 ∨ n = 8 ∨ n = 11 ∨ n = 12 ∨ n = 13 := by omega
        rcases this with rfl | rfl | rfl | rfl | rfl | rfl | rfl | rfl | rfl | rfl | rfl <;> rfl
      have hc : (n < 4 ∨ (5 ≤ n ∧ n < 9) ∨ (11 ≤ n ∧ n < 14)) ∨ n = 4 ∨ n = 9 ∨ n = 10 := by omega
      rcases hc with hc | rfl | rfl | rfl
      · exact Or.inl (hm n hc)
      · exact Or.inr ⟨1, by decide, by decide, rfl⟩
      · exact Or.inr ⟨2, by decide, by decide, rfl⟩
      · exact Or.inr ⟨0, by decide, by decide, rfl⟩
    · left
      rw [exRun_end n (by omega), exRun_end (n + 1) (by omega)]
  · intro n
    refine ⟨max n 14, by omega, Or.inr ?_⟩
    rw [exRun_end _ (by omega)]
    rfl
  · intro n t ht
    refine ⟨max n 14, by omega, ?_⟩
    have hmono : t ∈ started (exRun 14).log := by
      by_cases h : 14 ≤ n
      · rwa [exRun_end n h] at ht
      · have : n = 0 ∨ n = 1 ∨ n = 2 ∨ n = 3 ∨ n = 4 ∨ n = 5 ∨ n = 6 ∨ n = 7 ∨ n = 8 ∨ n = 9 ∨ n = 10 ∨ n = 11 ∨ n = 12 ∨ n = 13 := by omega
        rcases this with rfl | rfl | rfl | rfl | rfl | rfl | rfl | rfl | rfl | rfl | rfl | rfl | rfl | rfl <;>
          revert t <;> decide
    rw [exRun_end _ (by omega)]
    clear ht
    revert t
    decide

end PreCore.Threads
