import Verif.Model.PyInit
/-!
# C164: registering the Python types
-/
namespace PreCore.PyInit
open XmlError

/-! ## Specification -/

/-- How many entries of a dictionary hold the type. -/
def held (t : Nat) (d : List (Text × Nat)) : Nat := (d.filter (fun e => e.2 == t)).length

/-- How often a type was given to a module that did not take it. -/
def leaked (t : Nat) (ops : List (Text × Nat × Outcome)) : Nat := (ops.filter (fun o => o.2.1 == t && o.2.2 == .notAdded)).length

/-- Every entry has its own key. -/
def Keys (d : List (Text × Nat)) : Prop := (d.map (·.1)).Nodup

/-- A Python name: letters, digits and underscores, no digit first. -/
def Identifier (n : Text) : Prop :=
  (∃ c, n.head? = some c ∧ ¬ (0x30 ≤ c.toNat ∧ c.toNat ≤ 0x39)) ∧
  ∀ c ∈ n, (0x30 ≤ c.toNat ∧ c.toNat ≤ 0x39) ∨ (0x41 ≤ c.toNat ∧ c.toNat ≤ 0x5a) ∨ (0x61 ≤ c.toNat ∧ c.toNat ≤ 0x7a) ∨ c = 0x5f#8

/-! ## The dictionary -/

theorem lookup_set (n m : Text) (t : Nat) : ∀ d, lookup m (dictSet n t d) = if n = m then some t else lookup m d := by
  intro d
  induction d with
  | nil => simp [dictSet, lookup]
  | cons e d ih =>
    unfold dictSet
    by_cases he : e.1 = n
    · rw [if_pos he]
      unfold lookup
      by_cases hm : n = m
      · simp [hm]
      · have : e.1 ≠ m := fun h => hm (he.symm.trans h)
        simp [hm, this]
    · rw [if_neg he]
      unfold lookup
      by_cases hm : e.1 = m
      · have : n ≠ m := fun h => he (hm.trans h.symm)
        simp [hm, this]
      · simp only [hm, if_false]
        exact ih

theorem held_set (n : Text) (t u : Nat) : ∀ d, held u (dictSet n t d) + (if lookup n d = some u then 1 else 0) = held u d + if u = t then 1 else 0 := by
  intro d
  induction d with
  | nil =>
    by_cases h : t = u
    · simp [dictSet, lookup, held, h]
    · have h' : ¬ u = t := fun e => h e.symm
      simp [dictSet, lookup, held, h, h']
  | cons e d ih =>
    unfold dictSet lookup
    by_cases he : e.1 = n
    · rw [if_pos he, if_pos he]
      have hc : ∀ (x : Text × Nat) y, held u (x :: y) = held u y + if x.2 = u then 1 else 0 := by
        intro x y; by_cases h : x.2 = u <;> simp [held, h]
      rw [hc, hc]
      simp only [Option.some.injEq, eq_comm (a := u)]
      omega
    · rw [if_neg he, if_neg he]
      by_cases h1 : e.2 = u
      · have : ∀ x, held u (e :: x) = held u x + 1 := fun x => by simp [held, h1]
        rw [this, this]; omega
      · have : ∀ x, held u (e :: x) = held u x := fun x => by simp [held, h1]
        rw [this, this]; omega

theorem lookup_held (n : Text) (u : Nat) : ∀ d, lookup n d = some u → 0 < held u d := by
  intro d
  induction d with
  | nil => intro h; cases h
  | cons e d ih =>
    unfold lookup
    by_cases he : e.1 = n
    · rw [if_pos he]; intro h; cases h; simp [held]
    · rw [if_neg he]; intro h
      have := ih h
      unfold held at this ⊢
      rw [List.filter_cons]
      split
      · simp
      · exact this

theorem keys_set (n : Text) (t : Nat) : ∀ d, Keys d → Keys (dictSet n t d) := by
  have hm : ∀ d k, k ∈ (dictSet n t d).map (·.1) → k = n ∨ k ∈ d.map (·.1) := by
    intro d
    induction d with
    | nil => intro k h; simpa [dictSet] using h
    | cons e d ih =>
      intro k h
      unfold dictSet at h
      split at h
      · simp only [List.map_cons, List.mem_cons] at h ⊢
        rcases h with h | h
        · exact .inl h
        · exact .inr (.inr h)
      · simp only [List.map_cons, List.mem_cons] at h ⊢
        rcases h with h | h
        · exact .inr (.inl h)
        · rcases ih k h with h | h
          · exact .inl h
          · exact .inr (.inr h)
  intro d
  induction d with
  | nil => intro _; simp [dictSet, Keys]
  | cons e d ih =>
    intro h
    unfold Keys at h ih ⊢
    unfold dictSet
    simp only [List.map_cons, List.nodup_cons] at h
    split
    · rename_i he
      simp only [List.map_cons, List.nodup_cons]
      exact ⟨he ▸ h.1, h.2⟩
    · rename_i he
      simp only [List.map_cons, List.nodup_cons]
      refine ⟨fun hk => ?_, ih h.2⟩
      rcases hm d _ hk with hk | hk
      · exact he hk
      · exact h.1 hk

/-! ## One call -/

theorem addType_dict (n : Text) (t : Nat) (r : Outcome) (s : St) :
    (addType n t r s).dict = if r = .added then dictSet n t s.dict else s.dict := by
  cases r <;> simp [addType, addObject, incref, decref]
  split <;> rfl

theorem addType_error (n : Text) (t : Nat) (r : Outcome) (s : St) : (addType n t r s).error = (s.error || r != .added) := by
  cases r <;> simp [addType, addObject, incref, decref]
  split <;> rfl

theorem addType_refs (n : Text) (t u : Nat) (r : Outcome) (s : St) (ext : Nat) (hr : s.refs u = ext + held u s.dict) :
    (addType n t r s).refs u = ext + (if u = t ∧ r = .notAdded then 1 else 0) + held u (addType n t r s).dict := by
  rw [addType_dict]
  cases r with
  | notReady => simp [addType, hr]
  | notAdded => by_cases h : u = t <;> simp [addType, incref, h, hr] <;> (subst h; omega)
  | added =>
    have h1 := held_set n t u s.dict
    have hg : ext + (if u = t ∧ Outcome.added = .notAdded then 1 else 0) + held u (dictSet n t s.dict) = ext + held u (dictSet n t s.dict) := by
      simp
    rw [if_pos rfl, hg]
    cases hl : lookup n s.dict with
    | none =>
      rw [hl] at h1
      have hn : ¬ (none = some u) := by simp
      rw [if_neg hn] at h1
      simp only [addType, addObject, incref, decref, hl]
      by_cases h : u = t
      · simp only [h, if_true] at h1 ⊢; rw [h] at hr; omega
      · simp only [h, if_false] at h1 ⊢; omega
    | some v =>
      rw [hl] at h1
      have hv := lookup_held n v s.dict hl
      simp only [addType, addObject, incref, decref, hl]
      by_cases h : u = t
      · by_cases h2 : u = v
        · rw [if_pos (by rw [h2]), if_pos h] at h1
          rw [← h2] at hv
          simp only [if_pos h, if_pos h2]; omega
        · rw [if_neg (by rintro ⟨⟩; exact h2 rfl), if_pos h] at h1
          simp only [if_pos h, if_neg h2]; omega
      · by_cases h2 : u = v
        · rw [if_pos (by rw [h2]), if_neg h] at h1
          rw [← h2] at hv
          simp only [if_neg h, if_pos h2]; omega
        · rw [if_neg (by rintro ⟨⟩; exact h2 rfl), if_neg h] at h1
          simp only [if_neg h, if_neg h2]; omega

/-! ## Any history of calls -/

/-- **C164, reference counts.** Start in any state in which a type has `ext` references besides the ones the module's dictionary holds.
After any calls of `PyAddType`, for any types and names, whatever CPython did in each, it has those, the ones the dictionary holds now, and
one for each call in which the module did not take it. -/
theorem refs_exact (u ext : Nat) (ops : List (Text × Nat × Outcome)) (s : St) (h : s.refs u = ext + held u s.dict) :
    (addAll ops s).refs u = ext + held u (addAll ops s).dict + leaked u ops := by
  induction ops generalizing s ext with
  | nil => simpa [addAll, leaked] using h
  | cons o ops ih =>
    obtain ⟨n, t, r⟩ := o
    have h1 := addType_refs n t u r s ext h
    have := ih (ext + if u = t ∧ r = .notAdded then 1 else 0) (addType n t r s) h1
    show (addAll ops (addType n t r s)).refs u = _
    rw [this]
    have hl : leaked u ((n, t, r) :: ops) = leaked u ops + if u = t ∧ r = .notAdded then 1 else 0 := by
      unfold leaked
      rw [List.filter_cons]
      by_cases hc : u = t ∧ r = .notAdded
      · obtain ⟨rfl, rfl⟩ := hc; simp
      · rw [if_neg hc]
        have : ¬ ((t == u && r == .notAdded) = true) := by
          simp only [Bool.and_eq_true, beq_iff_eq]
          exact fun ⟨a, b⟩ => hc ⟨a.symm, b⟩
        simp only [this]
        rfl
    rw [hl]
    simp only [addAll]
    omega

/-- **C164, violated.** A failing `PyModule_AddObject` leaks a reference: the type has one more than anybody holds. -/
theorem refs_leaked_violated (n : Text) (t : Nat) (s : St) :
    (addType n t .notAdded s).refs t = s.refs t + 1 ∧ (addType n t .notAdded s).dict = s.dict := by
  simp [addType, incref]

/-- **C164, violated.** `InitType` returns nothing: it goes on after a failure, and returns with an exception set exactly if one was set
before or a step failed. -/
theorem failure_silent (ops : List (Text × Nat × Outcome)) (s : St) :
    (addAll ops s).error = true ↔ s.error = true ∨ ∃ o ∈ ops, o.2.2 ≠ .added := by
  induction ops generalizing s with
  | nil => simp [addAll]
  | cons o ops ih =>
    obtain ⟨n, t, r⟩ := o
    show (addAll ops (addType n t r s)).error = true ↔ _
    rw [ih, addType_error]
    simp [or_assoc]

/-- **C164, entries.** After the calls a name leads to the type of the last call with that name that worked, and if there is none to what
it led to before. Every entry still has its own key. -/
theorem entries (ops : List (Text × Nat × Outcome)) (s : St) (n : Text) :
    (∀ pre post t, ops = pre ++ (n, t, .added) :: post → (∀ o ∈ post, o.1 = n → o.2.2 ≠ .added) → lookup n (addAll ops s).dict = some t) ∧
    ((∀ o ∈ ops, o.1 = n → o.2.2 ≠ .added) → lookup n (addAll ops s).dict = lookup n s.dict) ∧
    (Keys s.dict → Keys (addAll ops s).dict) := by
  have keep : ∀ (ops : List (Text × Nat × Outcome)) (s : St), (∀ o ∈ ops, o.1 = n → o.2.2 ≠ .added) →
      lookup n (addAll ops s).dict = lookup n s.dict := by
    intro ops
    induction ops with
    | nil => intro s _; rfl
    | cons o ops ih =>
      obtain ⟨m, t, r⟩ := o
      intro s h
      show lookup n (addAll ops (addType m t r s)).dict = _
      rw [ih _ (fun o ho => h o (List.mem_cons_of_mem _ ho)), addType_dict]
      split
      · rename_i hr
        rw [lookup_set, if_neg (fun hm => h _ (List.mem_cons_self ..) hm hr)]
      · rfl
  refine ⟨?_, keep ops s, ?_⟩
  · intro pre post t he hp
    subst he
    induction pre generalizing s with
    | nil =>
      show lookup n (addAll post (addType n t .added s)).dict = _
      rw [keep post _ hp, addType_dict, if_pos rfl, lookup_set, if_pos rfl]
    | cons o pre ih => exact ih (addType o.1 o.2.1 o.2.2 s)
  · induction ops generalizing s with
    | nil => exact id
    | cons o ops ih =>
      obtain ⟨m, t, r⟩ := o
      intro h
      refine ih _ ?_
      rw [addType_dict]
      split
      · exact keys_set _ _ _ h
      · exact h

/-! ## The two modules -/

theorem table_names : ((skeletonTypes ++ motionTypes).map (·.1)).Nodup := by decide +kernel

theorem addAll_append (a b : List (Text × Nat × Outcome)) (s : St) : addAll (a ++ b) s = addAll b (addAll a s) := by
  induction a generalizing s with
  | nil => rfl
  | cons o a ih => exact ih _

/-- The names of the eleven types, in the order the program knows them by (0 to 10). -/
def documented : List String :=
  ["uniBoneTMType", "uni::Bone", "uni::BoneList", "uni::Skeleton", "uni::SkeletonList", "uniMotionTrackType", "uniMotionType",
    "uni::MotionTrack", "uni::MotionTrackList", "uni::Motion", "uni::MotionList"]

/-- The characters of a name. -/
def chars (s : String) : Text := s.toList.map (fun c => BitVec.ofNat 8 c.toNat)

theorem table_documented : skeletonTypes ++ motionTypes = (documented.zipIdx).map (fun e => (chars e.1, e.2)) := by decide +kernel

/-- **C164, the types.** After `Skeleton::InitType` and `Motion::InitType` on any module, each of the eleven types that CPython took is
found under its own name, and every other name leads to what it led to before. -/
theorem types_registered (r : Nat → Outcome) (s : St) :
    (∀ (t : Nat) (n : String), documented[t]? = some n → r t = .added →
      lookup (chars n) (initType motionTypes r (initType skeletonTypes r s)).dict = some t) ∧
    (∀ n : Text, (∀ (t : Nat) (m : String), documented[t]? = some m → r t = .added → n ≠ chars m) →
      lookup n (initType motionTypes r (initType skeletonTypes r s)).dict = lookup n s.dict) := by
  have he : initType motionTypes r (initType skeletonTypes r s) =
      addAll ((skeletonTypes ++ motionTypes).map (fun e => (e.1, e.2, r e.2))) s := by
    unfold initType
    rw [List.map_append, addAll_append]
  have hmem : ∀ e, e ∈ skeletonTypes ++ motionTypes ↔ ∃ n, documented[e.2]? = some n ∧ e.1 = chars n := by
    intro e
    rw [table_documented, List.mem_map]
    constructor
    · rintro ⟨⟨n, t⟩, h1, rfl⟩
      exact ⟨n, (List.mem_zipIdx_iff_getElem?.1 h1), rfl⟩
    · rintro ⟨n, h1, h2⟩
      exact ⟨(n, e.2), List.mem_zipIdx_iff_getElem?.2 h1, Prod.ext h2.symm rfl⟩
  rw [he]
  have hn := table_names
  constructor
  · intro t m hd hr
    have ht : (chars m, t) ∈ skeletonTypes ++ motionTypes := (hmem _).2 ⟨m, hd, rfl⟩
    obtain ⟨pre, post, hp⟩ := List.append_of_mem ht
    refine (entries _ s (chars m)).1 (pre.map (fun e => (e.1, e.2, r e.2))) (post.map (fun e => (e.1, e.2, r e.2))) t ?_ ?_
    · rw [hp]; simp [hr]
    · rw [hp] at hn
      intro o ho hon
      exfalso
      obtain ⟨e, he, rfl⟩ := List.mem_map.1 ho
      simp only at hon
      rw [List.map_append, List.map_cons, List.nodup_append] at hn
      exact (List.nodup_cons.1 hn.2.1).1 (List.mem_map.2 ⟨e, he, hon⟩)
  · intro n h
    refine (entries _ s n).2.1 ?_
    intro o ho hon hr
    obtain ⟨e, he, rfl⟩ := List.mem_map.1 ho
    obtain ⟨m, h1, h2⟩ := (hmem e).1 he
    exact h e.2 m h1 hr (by rw [← hon]; exact h2)

/-- **C164, violated.** Eight of the eleven types cannot be written in a Python program as an attribute of the module: their names hold
colons. Only the three enumerations can. -/
theorem names_reachable_violated : ∀ e ∈ skeletonTypes ++ motionTypes, (Identifier e.1 ↔ e.2 = 0 ∨ e.2 = 5 ∨ e.2 = 6) := by
  intro e he
  have good : ∀ n : Text, (match n.head? with | some c => !(0x30 ≤ c.toNat && c.toNat ≤ 0x39) | none => false) = true →
      (n.all fun c => (0x30 ≤ c.toNat && c.toNat ≤ 0x39) || (0x41 ≤ c.toNat && c.toNat ≤ 0x5a) || (0x61 ≤ c.toNat && c.toNat ≤ 0x7a) ||
        c == 0x5f#8) = true → Identifier n := by
    intro n h1 h2
    constructor
    · cases hh : n.head? with
      | none => rw [hh] at h1; cases h1
      | some c => rw [hh] at h1; exact ⟨c, rfl, fun ⟨a, b⟩ => by simp [a, b] at h1⟩
    · intro c hc
      have := List.all_eq_true.1 h2 c hc
      simp only [Bool.or_eq_true, Bool.and_eq_true, decide_eq_true_eq, beq_iff_eq] at this
      simpa only [or_assoc] using this
  have bad : ∀ n : Text, 0x3a#8 ∈ n → ¬ Identifier n := by
    intro n h hi
    have := hi.2 _ h
    revert this
    decide
  have hc : ∀ e ∈ skeletonTypes ++ motionTypes,
      if e.2 = 0 ∨ e.2 = 5 ∨ e.2 = 6 then
        ((match e.1.head? with | some c => !(0x30 ≤ c.toNat && c.toNat ≤ 0x39) | none => false) = true ∧
          (e.1.all fun c => (0x30 ≤ c.toNat && c.toNat ≤ 0x39) || (0x41 ≤ c.toNat && c.toNat ≤ 0x5a) || (0x61 ≤ c.toNat && c.toNat ≤ 0x7a) ||
            c == 0x5f#8) = true)
      else 0x3a#8 ∈ e.1 := by decide +kernel
  have := hc e he
  by_cases h : e.2 = 0 ∨ e.2 = 5 ∨ e.2 = 6
  · rw [if_pos h] at this
    exact ⟨fun _ => h, fun _ => good _ this.1 this.2⟩
  · rw [if_neg h] at this
    exact ⟨fun hi => absurd hi (bad _ this), fun h' => absurd h' h⟩

/-! ## A concrete case: a module that already has a Bone, all types are added -/

example : lookup (lit "uni::Bone") (initType motionTypes (fun _ => .added) (initType skeletonTypes (fun _ => .added)
    ⟨[(lit "uni::Bone", 77), (lit "x", 78)], fun _ => 2, false⟩)).dict = some 1 := by decide +kernel

/-- The old Bone lost one reference, the new one has one more; `refs_exact` applies with one reference outside. -/
example : let s : St := ⟨[(lit "uni::Bone", 77), (lit "x", 78)], fun _ => 2, false⟩
    s.refs 77 = 1 + held 77 s.dict ∧ (initType skeletonTypes (fun _ => .added) s).refs 77 = 1 ∧
      (initType skeletonTypes (fun _ => .added) s).refs 1 = 3 := by decide +kernel

end PreCore.PyInit
