import Verif.Model.ZipConc
import Verif.Props.ZipSound
/-!
# C150: concurrent reads of archive members
-/
namespace PreCore.ZipConc
open PreCore.Stream PreCore.Zip

/-- The bytes of the file that the call `v` (offset, size) asks for. -/
def content (data : List Byte) (o : Nat) (v : Nat × Nat) : List Byte := (data.drop (v.1 + o)).take v.2

/-! ## Lemmas -/

/-- What holds of a thread in every reachable state. -/
structure ThrOk (data : List Byte) (o : Nat) (calls : List (Nat × Nat)) (rd : Navi) (owned : Prop) (t : Thr) : Prop where
  split : ∃ done, calls = done ++ t.todo ∧
    t.got = (done ++ (if t.pc = .read then t.todo.take 1 else [])).map (fun v => some (content data o v))
  own : t.pc ≠ .out ↔ owned
  busy : t.pc ≠ .out → t.todo ≠ []
  at_place : t.pc = .sought → ∀ v vs, t.todo = v :: vs → rd.s.pos = v.1 + o ∧ rd.s.eof = false

structure Inv (data : List Byte) (o : Nat) (calls : Nat → List (Nat × Nat)) (s : St) : Prop where
  holds : Holds s.rd data o
  thr : ∀ i, ThrOk data o (calls i) s.rd (s.owner = some i) (s.thr i)

theorem set_same (s : St) (i : Nat) (t : Thr) : (s.set i t).thr i = t := by simp [St.set]
theorem set_other (s : St) (i j : Nat) (t : Thr) (h : j ≠ i) : (s.set i t).thr j = s.thr j := by simp [St.set, h]

/-- A thread that is in no call does not look at the reader. -/
theorem ThrOk.outside {data : List Byte} {o : Nat} {calls : List (Nat × Nat)} {rd rd' : Navi} {p q : Prop} {t : Thr}
    (h : ThrOk data o calls rd p t) (hp : ¬ p) (hq : ¬ q) : ThrOk data o calls rd' q t := by
  have hpc : t.pc = .out := Classical.byContradiction (fun hc => hp (h.own.1 hc))
  exact ⟨h.split, ⟨fun hc => absurd hpc hc, fun hc => absurd hc hq⟩, h.busy, fun hc => by rw [hpc] at hc; cases hc⟩

theorem step_inv (data : List Byte) (o : Nat) (calls : Nat → List (Nat × Nat)) (hd : data.length < 2 ^ 62)
    (hin : ∀ i, ∀ v ∈ calls i, v.1 + o + v.2 ≤ data.length) (s s' : St) (i : Nat) (h : Inv data o calls s)
    (hs : step s i = some s') : Inv data o calls s' := by
  have hi := h.thr i
  obtain ⟨done, hsp, hgot⟩ := hi.split
  obtain ⟨h1, h2, h3⟩ := h.holds
  unfold step at hs
  split at hs
  · cases hs
  · rename_i v vs ht hp
    split at hs
    · rename_i hno
      cases hs
      refine ⟨⟨h1, h2, h3⟩, fun j => ?_⟩
      by_cases hj : j = i
      · subst hj
        rw [set_same]
        refine ⟨⟨done, hsp, ?_⟩, ?_, ?_, ?_⟩
        · rw [hp] at hgot; simpa using hgot
        · simp [St.set]
        · intro _; rw [ht]; simp
        · intro hc; cases hc
      · rw [set_other _ _ _ _ hj]
        exact (h.thr j).outside (by rw [hno]; simp) (by simp [St.set]; exact fun e => hj e.symm)
    · cases hs
  · rename_i v vs ht hp
    cases hs
    have hown : s.owner = some i := hi.own.1 (by rw [hp]; simp)
    have hv := hin i v (by rw [hsp, ht]; simp)
    have hsk : (seek s.rd v.1 .beg).s = { s.rd.s with pos := v.1 + o, eof := false } := by
      simp only [seek, if_true, h2]
      rw [Nat.mod_eq_of_lt (by unfold W64; omega), seek_beg _ _ h3 (by omega)]
    refine ⟨⟨?_, h2, ?_⟩, fun j => ?_⟩
    · show (seek s.rd v.1 .beg).s.data = data
      rw [hsk]; exact h1
    · show (seek s.rd v.1 .beg).s.fail = false
      rw [hsk]; exact h3
    · by_cases hj : j = i
      · subst hj
        rw [set_same]
        refine ⟨⟨done, hsp, ?_⟩, ?_, ?_, ?_⟩
        · rw [hp] at hgot; simpa using hgot
        · simp [St.set, hown]
        · intro _; rw [ht]; simp
        · intro _ w ws hw
          simp only at hw
          rw [ht] at hw
          obtain ⟨rfl, rfl⟩ := List.cons.inj hw
          show (seek s.rd v.1 .beg).s.pos = _ ∧ (seek s.rd v.1 .beg).s.eof = _
          rw [hsk]; exact ⟨rfl, rfl⟩
      · rw [set_other _ _ _ _ hj]
        exact (h.thr j).outside (by rw [hown]; simpa using fun e => hj e.symm) (by simp [St.set, hown]; exact fun e => hj e.symm)
  · rename_i v vs ht hp
    cases hs
    have hown : s.owner = some i := hi.own.1 (by rw [hp]; simp)
    have hv := hin i v (by rw [hsp, ht]; simp)
    obtain ⟨p1, p2⟩ := hi.at_place hp v vs ht
    have hrd : (readPart s.rd v.2).1 = some (content data o v) ∧ Holds (readPart s.rd v.2).2 data o := by
      unfold readPart
      by_cases h0 : v.2 = 0
      · rw [if_pos h0]
        exact ⟨by simp [content, h0], h1, h2, h3⟩
      · rw [if_neg h0]
        unfold Stream.Stream.read
        rw [if_neg (by simp [h3, p2]), if_neg h0, if_pos (by rw [p1, h1]; exact hv)]
        refine ⟨?_, h1, h2, h3⟩
        rw [p1, h1]; rfl
    refine ⟨hrd.2, fun j => ?_⟩
    by_cases hj : j = i
    · subst hj
      rw [set_same]
      refine ⟨⟨done, hsp, ?_⟩, ?_, ?_, ?_⟩
      · rw [hp] at hgot
        simp only [reduceCtorEq, if_false, List.append_nil] at hgot
        simp only [if_true, ht, List.take_succ_cons, List.take_zero, List.map_append, List.map_cons, List.map_nil, hgot, hrd.1]
      · simp [St.set, hown]
      · intro _; rw [ht]; simp
      · intro hc; cases hc
    · rw [set_other _ _ _ _ hj]
      exact (h.thr j).outside (by rw [hown]; simpa using fun e => hj e.symm) (by simp [St.set, hown]; exact fun e => hj e.symm)
  · rename_i v vs ht hp
    cases hs
    have hown : s.owner = some i := hi.own.1 (by rw [hp]; simp)
    refine ⟨⟨h1, h2, h3⟩, fun j => ?_⟩
    by_cases hj : j = i
    · subst hj
      rw [set_same]
      refine ⟨⟨done ++ [v], by rw [hsp, ht]; simp, ?_⟩, ?_, ?_, ?_⟩
      · rw [hp, ht] at hgot
        simpa using hgot
      · simp [St.set]
      · intro hc; exact absurd rfl hc
      · intro hc; cases hc
    · rw [set_other _ _ _ _ hj]
      exact (h.thr j).outside (by rw [hown]; simpa using fun e => hj e.symm) (by simp [St.set])

theorem run_inv (data : List Byte) (o : Nat) (calls : Nat → List (Nat × Nat)) (hd : data.length < 2 ^ 62)
    (hin : ∀ i, ∀ v ∈ calls i, v.1 + o + v.2 ≤ data.length) : ∀ (l : List Nat) (s : St), Inv data o calls s →
    Inv data o calls (run l s) := by
  intro l
  induction l with
  | nil => intro s h; exact h
  | cons i l ih =>
    intro s h
    unfold run
    cases hs : step s i with
    | none => exact ih s h
    | some s' => exact ih s' (step_inv data o calls hd hin s s' i h hs)

theorem start_inv (rd : Navi) (data : List Byte) (o : Nat) (calls : Nat → List (Nat × Nat)) (h : Holds rd data o) :
    Inv data o calls (start rd calls) :=
  ⟨h, fun i => ⟨⟨[], rfl, rfl⟩, ⟨fun hc => absurd rfl hc, fun hc => by cases hc⟩, fun hc => absurd rfl hc, fun hc => by cases hc⟩⟩

/-- C150: any number of threads call `Get` on one archive, any number of times, for members that lie in the file. Under every schedule the
calls of each thread return, in its own order, exactly the bytes of the file they ask for. -/
theorem concurrent_gets (rd : Navi) (data : List Byte) (o : Nat) (hr : Holds rd data o) (hd : data.length < 2 ^ 62)
    (calls : Nat → List (Nat × Nat)) (hin : ∀ i, ∀ v ∈ calls i, v.1 + o + v.2 ≤ data.length) (sched : List Nat) (i : Nat) :
    ((run sched (start rd calls)).thr i).got <+: (calls i).map (fun v => some (content data o v)) ∧
    (((run sched (start rd calls)).thr i).todo = [] →
      ((run sched (start rd calls)).thr i).got = (calls i).map (fun v => some (content data o v))) := by
  have h := (run_inv data o calls hd hin sched _ (start_inv rd data o calls hr)).thr i
  obtain ⟨done, h1, h2⟩ := h.split
  generalize (run sched (start rd calls)).thr i = t at h h1 h2
  refine ⟨?_, fun hn => ?_⟩
  · rw [h2, h1, List.map_append, List.map_append]
    refine (List.prefix_append_right_inj _).2 ?_
    split
    · exact List.map_take ▸ List.take_prefix _ _
    · simp
  · rw [h2, h1, hn]; simp

/-- Work left in a thread. -/
def work (t : Thr) : Nat :=
  4 * t.todo.length - (match t.pc with | .out => 0 | .locked => 1 | .sought => 2 | .read => 3)

/-- Work left in the threads below `n`. -/
def total (s : St) (n : Nat) : Nat := ((List.range n).map (fun i => work (s.thr i))).sum

theorem sum_mono (f g : Nat → Nat) (n : Nat) (h : ∀ i, i < n → f i ≤ g i) :
    ((List.range n).map f).sum ≤ ((List.range n).map g).sum := by
  induction n with
  | zero => simp
  | succ n ih =>
    rw [List.range_succ]
    simp only [List.map_append, List.map_cons, List.map_nil, List.sum_append, List.sum_cons, List.sum_nil]
    have := ih (fun i hi => h i (by omega))
    have := h n (by omega)
    omega

theorem sum_zero (n : Nat) : ((List.range n).map (fun _ => 0)).sum = 0 := by
  induction n with
  | zero => rfl
  | succ n ih => rw [List.range_succ, List.map_append, List.sum_append, ih]; rfl

theorem sum_lt (f g : Nat → Nat) (n k : Nat) (hk : k < n) (h : ∀ i, i < n → f i ≤ g i) (hl : f k < g k) :
    ((List.range n).map f).sum < ((List.range n).map g).sum := by
  induction n with
  | zero => omega
  | succ n ih =>
    rw [List.range_succ]
    simp only [List.map_append, List.map_cons, List.map_nil, List.sum_append, List.sum_cons, List.sum_nil]
    by_cases hkn : k = n
    · subst hkn
      have := sum_mono f g k (fun i hi => h i (by omega))
      omega
    · have := ih (by omega) (fun i hi => h i (by omega))
      have := h n (by omega)
      omega

/-- A step takes work from its thread and leaves the others alone. -/
theorem step_work (s s' : St) (i : Nat) (hs : step s i = some s') :
    work (s'.thr i) < work (s.thr i) ∧ ∀ j, j ≠ i → s'.thr j = s.thr j := by
  unfold step at hs
  split at hs
  · cases hs
  · rename_i v vs ht hp
    split at hs
    · cases hs
      refine ⟨?_, fun j hj => set_other _ _ _ _ hj⟩
      rw [set_same]; simp only [work, ht, hp, List.length_cons]; omega
    · cases hs
  · rename_i v vs ht hp
    cases hs
    refine ⟨?_, fun j hj => set_other _ _ _ _ hj⟩
    rw [set_same]; simp only [work, ht, hp, List.length_cons]; omega
  · rename_i v vs ht hp
    cases hs
    refine ⟨?_, fun j hj => set_other _ _ _ _ hj⟩
    rw [set_same]; simp only [work, ht, hp, List.length_cons]; omega
  · rename_i v vs ht hp
    cases hs
    refine ⟨?_, fun j hj => set_other _ _ _ _ hj⟩
    rw [set_same]; simp only [work, ht, hp, List.length_cons]; omega

theorem total_step (s s' : St) (n i : Nat) (hs : step s i = some s') : total s' n ≤ total s n ∧ (i < n → total s' n < total s n) := by
  obtain ⟨h1, h2⟩ := step_work s s' i hs
  have hle : ∀ j, j < n → work (s'.thr j) ≤ work (s.thr j) := by
    intro j _
    by_cases hj : j = i
    · rw [hj]; omega
    · rw [h2 j hj]; exact Nat.le_refl _
  exact ⟨sum_mono _ _ n hle, fun hi => sum_lt _ _ n i hi hle h1⟩

theorem total_run (n : Nat) : ∀ (l : List Nat) (s : St), total (run l s) n ≤ total s n := by
  intro l
  induction l with
  | nil => intro s; exact Nat.le_refl _
  | cons i l ih =>
    intro s
    unfold run
    cases hs : step s i with
    | none => exact ih s
    | some s' => exact Nat.le_trans (ih s') (total_step s s' n i hs).1

/-- Who can go on: the owner of the mutex, or, when it is free, everyone with calls to make. -/
theorem can_step (data : List Byte) (o : Nat) (calls : Nat → List (Nat × Nat)) (s : St) (h : Inv data o calls s) (i : Nat)
    (hi : s.owner = some i ∨ (s.owner = none ∧ (s.thr i).todo ≠ [])) : ∃ s', step s i = some s' := by
  have ho := (h.thr i).own
  have hb := (h.thr i).busy
  unfold step
  cases ht : (s.thr i).todo with
  | nil =>
    rcases hi with hi | hi
    · exact absurd ht (hb (ho.2 hi))
    · exact absurd ht hi.2
  | cons v vs =>
    cases hp : (s.thr i).pc with
    | out =>
      rcases hi with hi | hi
      · exact absurd hp (ho.2 hi)
      · simp [hi.1]
    | locked => exact ⟨_, rfl⟩
    | sought => exact ⟨_, rfl⟩
    | read => exact ⟨_, rfl⟩

/-- C150: no deadlock: whatever the schedule did so far, if some thread has calls left then some thread can go on. -/
theorem gets_progress (rd : Navi) (data : List Byte) (o : Nat) (hr : Holds rd data o) (hd : data.length < 2 ^ 62)
    (calls : Nat → List (Nat × Nat)) (hin : ∀ i, ∀ v ∈ calls i, v.1 + o + v.2 ≤ data.length) (sched : List Nat) (i : Nat)
    (hi : ((run sched (start rd calls)).thr i).todo ≠ []) : ∃ j s', step (run sched (start rd calls)) j = some s' := by
  have h := run_inv data o calls hd hin sched _ (start_inv rd data o calls hr)
  cases hw : (run sched (start rd calls)).owner with
  | none => exact ⟨i, can_step data o calls _ h i (.inr ⟨hw, hi⟩)⟩
  | some k => exact ⟨k, can_step data o calls _ h k (.inl hw)⟩

/-- A round in which every thread is chosen at least once does some work, if there is some. -/
theorem round_works (data : List Byte) (o : Nat) (calls : Nat → List (Nat × Nat)) (n : Nat)
    (hn : ∀ i, n ≤ i → calls i = []) (k : Nat) :
    ∀ (l : List Nat) (s : St), Inv data o calls s → k ∈ l →
    (s.owner = some k ∨ (s.owner = none ∧ (s.thr k).todo ≠ [])) → total (run l s) n < total s n := by
  intro l
  induction l with
  | nil => intro s _ hm; simp at hm
  | cons i l ih =>
    intro s h hm hc
    unfold run
    cases hs : step s i with
    | none =>
      have hik : i ≠ k := by
        intro e
        obtain ⟨s', e'⟩ := can_step data o calls s h k hc
        rw [e, e'] at hs; cases hs
      exact ih s h (by
        rcases List.mem_cons.1 hm with e | e
        · exact absurd e.symm hik
        · exact e) hc
    | some s' =>
      have hin' : i < n := by
        apply Classical.byContradiction
        intro hge
        obtain ⟨done, e1, _⟩ := (h.thr i).split
        rw [hn i (by omega)] at e1
        have : (s.thr i).todo = [] := by
          have := congrArg List.length e1
          simp at this
          exact List.eq_nil_of_length_eq_zero (by omega)
        unfold step at hs
        rw [this] at hs
        cases hs
      exact Nat.lt_of_le_of_lt (total_run n l s') ((total_step s s' n i hs).2 hin')

/-- C150: every call returns: when the threads below `n` are the ones with calls, a schedule of that many rounds, each giving every
thread a turn in any order, brings all of them to the end. -/
theorem gets_finish (rd : Navi) (data : List Byte) (o : Nat) (hr : Holds rd data o) (hd : data.length < 2 ^ 62)
    (calls : Nat → List (Nat × Nat)) (hin : ∀ i, ∀ v ∈ calls i, v.1 + o + v.2 ≤ data.length) (n : Nat)
    (hn : ∀ i, n ≤ i → calls i = []) (rounds : List (List Nat)) (hfair : ∀ b ∈ rounds, ∀ i < n, i ∈ b)
    (hlen : ((List.range n).map (fun i => 4 * (calls i).length)).sum ≤ rounds.length) (i : Nat) :
    ((run rounds.flatten (start rd calls)).thr i).todo = [] := by
  have runapp : ∀ (a b : List Nat) (s : St), run (a ++ b) s = run b (run a s) := by
    intro a
    induction a with
    | nil => intro b s; rfl
    | cons x a ih => intro b s; exact ih b _
  have key : ∀ (rs : List (List Nat)) (s : St), Inv data o calls s → (∀ b ∈ rs, ∀ i < n, i ∈ b) → total s n ≤ rs.length →
      total (run rs.flatten s) n = 0 := by
    intro rs
    induction rs with
    | nil => intro s _ _ hl; simpa [run] using hl
    | cons b rs ih =>
      intro s h hf hl
      rw [List.flatten_cons, runapp]
      have hb := run_inv data o calls hd hin b s h
      by_cases h0 : total s n = 0
      · have := total_run n b s
        have := total_run n rs.flatten (run b s)
        omega
      · have hex : ∃ k, k < n ∧ (s.owner = some k ∨ (s.owner = none ∧ (s.thr k).todo ≠ [])) := by
          have hbelow : ∀ k, (s.thr k).todo ≠ [] → k < n := by
            intro k hk
            apply Classical.byContradiction
            intro hge
            obtain ⟨done, e1, _⟩ := (h.thr k).split
            rw [hn k (by omega)] at e1
            have := congrArg List.length e1
            simp at this
            exact hk (List.eq_nil_of_length_eq_zero (by omega))
          cases hw : s.owner with
          | some k => exact ⟨k, hbelow k ((h.thr k).busy ((h.thr k).own.2 hw)), .inl rfl⟩
          | none =>
            apply Classical.byContradiction
            intro hno
            apply h0
            unfold total
            have : ∀ k, k < n → work (s.thr k) = 0 := by
              intro k hk
              have : (s.thr k).todo = [] := Classical.byContradiction (fun hc => hno ⟨k, hk, .inr ⟨rfl, hc⟩⟩)
              simp [work, this]
            have hm := sum_mono (fun i => work (s.thr i)) (fun _ => 0) n (fun i hi => by simp [this i hi])
            rw [sum_zero] at hm
            omega
        obtain ⟨k, hk, hc⟩ := hex
        have := round_works data o calls n hn k b s h (hf b (by simp) k hk) hc
        simp only [List.length_cons] at hl
        exact ih _ hb (fun b' hb' => hf b' (by simp [hb'])) (by omega)
  have h0 := key rounds (start rd calls) (start_inv rd data o calls hr) hfair (by
    unfold total start work; simpa using hlen)
  have hinv := run_inv data o calls hd hin rounds.flatten _ (start_inv rd data o calls hr)
  generalize run rounds.flatten (start rd calls) = s at h0 hinv
  obtain ⟨done, e1, _⟩ := (hinv.thr i).split
  by_cases hi : i < n
  · have hw : work (s.thr i) = 0 := by
      apply Classical.byContradiction
      intro hc
      have := sum_lt (fun _ => 0) (fun j => work (s.thr j)) n i hi (fun _ _ => Nat.zero_le _) (by omega)
      unfold total at h0
      omega
    cases ht : (s.thr i).todo with
    | nil => rfl
    | cons v vs =>
      unfold work at hw
      rw [ht] at hw
      simp only [List.length_cons] at hw
      cases hp : (s.thr i).pc <;> rw [hp] at hw <;> simp only at hw <;> omega
  · rw [hn i (by omega)] at e1
    have := congrArg List.length e1
    simp at this
    exact List.eq_nil_of_length_eq_zero (by omega)

/-- Two threads reading the members of a file of six bytes, their steps interleaved: the second waits for the mutex. -/
example : ∃ (rd : Navi) (data : List Byte) (calls : Nat → List (Nat × Nat)), Holds rd data 0 ∧ data.length = 6 ∧
    (∀ i, ∀ v ∈ calls i, v.1 + 0 + v.2 ≤ data.length) ∧ (∀ i, 2 ≤ i → calls i = []) ∧
    step (run [0] (start rd calls)) 1 = none ∧
    ((run [0, 1, 0, 1, 1, 0, 0, 1, 1, 1, 1] (start rd calls)).thr 0).got = [some [1#8, 2#8]] ∧
    ((run [0, 1, 0, 1, 1, 0, 0, 1, 1, 1, 1] (start rd calls)).thr 1).got = [some [4#8, 5#8, 6#8]] := by
  refine ⟨⟨⟨[1#8, 2#8, 3#8, 4#8, 5#8, 6#8], 4, false, true⟩, 0, 0, false⟩, [1#8, 2#8, 3#8, 4#8, 5#8, 6#8],
    fun i => if i = 0 then [(0, 2)] else if i = 1 then [(3, 3)] else [], ⟨rfl, rfl, rfl⟩, rfl, ?_, ?_, rfl, rfl, rfl⟩
  · intro i v hv
    simp only at hv
    split at hv
    · simp at hv; subst hv; decide
    · split at hv
      · simp at hv; subst hv; decide
      · simp at hv
  · intro i hi
    simp only
    rw [if_neg (by omega), if_neg (by omega)]

end PreCore.ZipConc
