import Verif.Model.Element
/-!
# C117: ownership of elements
-/
namespace PreCore.Element

/-- Handle `h` holds object `p` and will delete it. -/
def Owns (s : St) (h p : Nat) : Prop := ∃ x, s.handles h = some x ∧ x.ptr = some p ∧ x.canDelete = true

/-- Every object made is either alive and held by exactly one handle that will delete it, or was deleted, once. -/
structure Sound (s : St) : Prop where
  once : s.live.Nodup ∧ s.freed.Nodup
  made : ∀ p, p < s.made ↔ (p ∈ s.live ∨ p ∈ s.freed)
  apart : ∀ p, p ∈ s.live → p ∉ s.freed
  held : ∀ p, p ∈ s.live → ∃ h, Owns s h p
  holds : ∀ h p, Owns s h p → p ∈ s.live
  one : ∀ h g p, Owns s h p → Owns s g p → h = g

/-- Types: plain handles delete, and handles that were not made do not exist. -/
structure Typed (s : St) : Prop where
  plain : ∀ h x, s.handles h = some x → x.plain = true → x.canDelete = true
  new : ∀ h, s.count ≤ h → s.handles h = none

theorem owns_put (s : St) (h : Nat) (x : Option Handle) (g p : Nat) :
    Owns (s.put h x) g p ↔ (if g = h then ∃ y, x = some y ∧ y.ptr = some p ∧ y.canDelete = true else Owns s g p) := by
  unfold Owns St.put
  by_cases hg : g = h <;> simp [hg]

theorem owns_push (s : St) (x : Handle) (g p : Nat) :
    Owns (s.push x) g p ↔ (if g = s.count then x.ptr = some p ∧ x.canDelete = true else Owns s g p) := by
  unfold Owns St.push St.put
  by_cases hg : g = s.count <;> simp [hg]

theorem sound_start : Sound start ∧ Typed start :=
  ⟨⟨by simp [start], by simp [start], by simp [start], by simp [start], by simp [start, Owns], by simp [start, Owns]⟩,
    ⟨by simp [start], by simp [start]⟩⟩

/-- Deleting what a handle owns, and taking the handle away (or giving it nothing to own). -/
theorem release_sound (s : St) (hs : Sound s) (h : Nat) (x : Handle) (hx : s.handles h = some x) :
    ∃ s', release s x = some s' ∧ s'.handles = s.handles ∧ s'.count = s.count ∧ s'.made = s.made ∧
      (∀ o : Option Handle, (∀ y, o = some y → y.ptr = none ∨ y.canDelete = false) → Sound (s'.put h o)) := by
  cases hp : x.ptr with
  | none =>
    refine ⟨s, by simp [release, hp], rfl, rfl, rfl, fun o ho => ?_⟩
    have hn : ∀ p, ¬ Owns s h p := by
      rintro p ⟨y, hy, h1, _⟩
      rw [hx] at hy; cases hy; rw [hp] at h1; cases h1
    have key : ∀ g p, Owns (s.put h o) g p ↔ Owns s g p := by
      intro g p
      rw [owns_put]
      by_cases hg : g = h
      · rw [if_pos hg]
        constructor
        · rintro ⟨y, hy, h1, h2⟩
          rcases ho y hy with h | h
          · rw [h] at h1; cases h1
          · rw [h] at h2; cases h2
        · intro hh; rw [hg] at hh; exact absurd hh (hn p)
      · rw [if_neg hg]
    exact ⟨hs.once, hs.made, hs.apart, fun p hp => by obtain ⟨g, hg⟩ := hs.held p hp; exact ⟨g, (key g p).2 hg⟩,
      fun g p hg => hs.holds g p ((key g p).1 hg), fun g g' p h1 h2 => hs.one g g' p ((key g p).1 h1) ((key g' p).1 h2)⟩
  | some p =>
    cases hc : x.canDelete with
    | false =>
      refine ⟨s, by simp [release, hp, hc], rfl, rfl, rfl, fun o ho => ?_⟩
      have hn : ∀ p, ¬ Owns s h p := by
        rintro p ⟨y, hy, _, h1⟩
        rw [hx] at hy; cases hy; rw [hc] at h1; cases h1
      have key : ∀ g p, Owns (s.put h o) g p ↔ Owns s g p := by
        intro g p
        rw [owns_put]
        by_cases hg : g = h
        · rw [if_pos hg]
          constructor
          · rintro ⟨y, hy, h1, h2⟩
            rcases ho y hy with h | h
            · rw [h] at h1; cases h1
            · rw [h] at h2; cases h2
          · intro hh; rw [hg] at hh; exact absurd hh (hn p)
        · rw [if_neg hg]
      exact ⟨hs.once, hs.made, hs.apart, fun p hp => by obtain ⟨g, hg⟩ := hs.held p hp; exact ⟨g, (key g p).2 hg⟩,
        fun g p hg => hs.holds g p ((key g p).1 hg), fun g g' p h1 h2 => hs.one g g' p ((key g p).1 h1) ((key g' p).1 h2)⟩
    | true =>
      have hown : Owns s h p := ⟨x, hx, hp, hc⟩
      have hl := hs.holds h p hown
      refine ⟨{ s with live := s.live.erase p, freed := p :: s.freed }, by simp [release, hp, hc, delete, hl], rfl, rfl, rfl, fun o ho => ?_⟩
      have key : ∀ g q, Owns (St.put { s with live := s.live.erase p, freed := p :: s.freed } h o) g q ↔ (Owns s g q ∧ g ≠ h) := by
        intro g q
        rw [owns_put]
        by_cases hg : g = h
        · rw [if_pos hg]
          constructor
          · rintro ⟨y, hy, h1, h2⟩
            rcases ho y hy with h | h
            · rw [h] at h1; cases h1
            · rw [h] at h2; cases h2
          · rintro ⟨_, h⟩; exact absurd hg h
        · rw [if_neg hg]
          exact ⟨fun h => ⟨h, hg⟩, fun h => h.1⟩
      have hmem : ∀ q, q ∈ s.live.erase p ↔ q ≠ p ∧ q ∈ s.live := fun q => hs.once.1.mem_erase_iff
      refine ⟨⟨hs.once.1.erase p, ?_⟩, ?_, ?_, ?_, ?_, ?_⟩
      · exact List.nodup_cons.2 ⟨hs.apart p hl, hs.once.2⟩
      · intro q
        show q < s.made ↔ (q ∈ s.live.erase p ∨ q ∈ p :: s.freed)
        rw [hs.made, hmem, List.mem_cons]
        constructor
        · rintro (h | h)
          · by_cases hq : q = p
            · exact .inr (.inl hq)
            · exact .inl ⟨hq, h⟩
          · exact .inr (.inr h)
        · rintro (h | h | h)
          · exact .inl h.2
          · exact .inl (h ▸ hl)
          · exact .inr h
      · intro q hq
        have hq : q ∈ s.live.erase p := hq
        rw [hmem] at hq
        show q ∉ p :: s.freed
        rw [List.mem_cons]
        rintro (h | h)
        · exact hq.1 h
        · exact hs.apart q hq.2 h
      · intro q hq
        have hq' := (hmem q).1 hq
        obtain ⟨g, hg⟩ := hs.held q hq'.2
        refine ⟨g, (key g q).2 ⟨hg, ?_⟩⟩
        intro hgh
        subst hgh
        obtain ⟨y, hy, h1, _⟩ := hg
        rw [hx] at hy; cases hy
        rw [hp] at h1
        exact hq'.1 (Option.some.inj h1).symm
      · intro g q hg
        obtain ⟨hg', hne⟩ := (key g q).1 hg
        show q ∈ s.live.erase p
        rw [hmem]
        refine ⟨?_, hs.holds g q hg'⟩
        intro hq
        rw [hq] at hg'
        exact hne (hs.one g h p hg' hown)
      · intro g g' q h1 h2
        exact hs.one g g' q ((key g q).1 h1).1 ((key g' q).1 h2).1

/-- Transferring what a handle owns to another handle that owned nothing. -/
theorem transfer_sound (s s' : St) (hs : Sound s) (hl : s'.live = s.live) (hf : s'.freed = s.freed) (hm : s'.made = s.made) (h g : Nat)
    (hn : ∀ p, ¬ Owns s g p) (hne : h ≠ g)
    (key : ∀ k p, Owns s' k p ↔ (if k = g then Owns s h p else if k = h then False else Owns s k p)) : Sound s' := by
  refine ⟨by rw [hl, hf]; exact hs.once, by rw [hl, hf, hm]; exact hs.made, by rw [hl, hf]; exact hs.apart, ?_, ?_, ?_⟩
  · intro p hp
    rw [hl] at hp
    obtain ⟨k, hk⟩ := hs.held p hp
    by_cases h1 : k = h
    · exact ⟨g, by rw [key, if_pos rfl, ← h1]; exact hk⟩
    · refine ⟨k, ?_⟩
      have h2 : k ≠ g := by rintro rfl; exact hn p hk
      rw [key, if_neg h2, if_neg h1]; exact hk
  · intro k p hk
    rw [hl]
    rw [key] at hk
    by_cases h1 : k = g
    · rw [if_pos h1] at hk; exact hs.holds h p hk
    · rw [if_neg h1] at hk
      by_cases h2 : k = h
      · rw [if_pos h2] at hk; exact hk.elim
      · rw [if_neg h2] at hk; exact hs.holds k p hk
  · intro k k' p hk hk'
    rw [key] at hk hk'
    by_cases h1 : k = g
    · rw [if_pos h1] at hk
      by_cases h1' : k' = g
      · rw [h1, h1']
      · rw [if_neg h1'] at hk'
        by_cases h2' : k' = h
        · rw [if_pos h2'] at hk'; exact hk'.elim
        · rw [if_neg h2'] at hk'; exact absurd (hs.one _ _ p hk hk').symm h2'
    · rw [if_neg h1] at hk
      by_cases h2 : k = h
      · rw [if_pos h2] at hk; exact hk.elim
      · rw [if_neg h2] at hk
        by_cases h1' : k' = g
        · rw [if_pos h1'] at hk'; exact absurd (hs.one _ _ p hk hk') h2
        · rw [if_neg h1'] at hk'
          by_cases h2' : k' = h
          · rw [if_pos h2'] at hk'; exact hk'.elim
          · rw [if_neg h2'] at hk'; exact hs.one _ _ p hk hk'

theorem not_owns_new (s : St) (ht : Typed s) (p : Nat) : ¬ Owns s s.count p := by
  rintro ⟨x, hx, _⟩
  rw [ht.new _ (Nat.le_refl _)] at hx; cases hx

theorem handle_lt (s : St) (ht : Typed s) (h : Nat) (x : Handle) (hx : s.handles h = some x) : h < s.count := by
  apply Classical.byContradiction
  intro hn
  rw [ht.new h (by omega)] at hx; cases hx

theorem owns_at (s : St) (h : Nat) (x : Handle) (hx : s.handles h = some x) (p : Nat) : Owns s h p ↔ x.ptr = some p ∧ x.canDelete = true := by
  constructor
  · rintro ⟨y, hy, h1, h2⟩; rw [hx] at hy; cases hy; exact ⟨h1, h2⟩
  · rintro ⟨h1, h2⟩; exact ⟨x, hx, h1, h2⟩

/-- Every operation keeps the state sound, and none but the use of an object can be undefined. -/
theorem step_sound (s : St) (hs : Sound s) (ht : Typed s) (op : Op) :
    (∀ s', step s op = some s' → Sound s' ∧ Typed s') ∧ ((∀ h, op ≠ .deref h) → (step s op).isSome = true) := by
  have push_typed : ∀ (s : St) (x : Handle), Typed s → (x.plain = true → x.canDelete = true) → Typed (s.push x) := by
    intro s x ht hx
    refine ⟨?_, ?_⟩
    · intro h y hy hpl
      simp only [St.push, St.put] at hy
      by_cases hh : h = s.count
      · rw [if_pos hh] at hy; cases hy; exact hx hpl
      · rw [if_neg hh] at hy; exact ht.plain h y hy hpl
    · intro h hh
      simp only [St.push] at hh
      simp only [St.push, St.put]
      rw [if_neg (by omega)]; exact ht.new h (by omega)
  have put_typed : ∀ (s : St) (h : Nat) (x : Option Handle), Typed s → h < s.count → (∀ y, x = some y → y.plain = true → y.canDelete = true) →
      Typed (s.put h x) := by
    intro s h x ht hlt hx
    refine ⟨?_, ?_⟩
    · intro g y hy hpl
      simp only [St.put] at hy
      by_cases hh : g = h
      · rw [if_pos hh] at hy; exact hx y hy hpl
      · rw [if_neg hh] at hy; exact ht.plain g y hy hpl
    · intro g hg
      have hg : s.count ≤ g := hg
      simp only [St.put]
      rw [if_neg (by omega)]; exact ht.new g hg
  cases op with
  | make =>
    refine ⟨?_, fun _ => rfl⟩
    intro s' h
    simp only [step, Option.some.injEq] at h
    subst h
    have hnew : s.made ∉ s.live := fun h => absurd ((hs.made s.made).2 (.inl h)) (Nat.lt_irrefl _)
    have hnewf : s.made ∉ s.freed := fun h => absurd ((hs.made s.made).2 (.inr h)) (Nat.lt_irrefl _)
    have ht' : Typed { s with made := s.made + 1, live := s.made :: s.live } := ⟨ht.plain, ht.new⟩
    refine ⟨?_, push_typed _ _ ht' (fun _ => rfl)⟩
    have key : ∀ k p, Owns ({ s with made := s.made + 1, live := s.made :: s.live }.push ⟨some s.made, true, true⟩) k p ↔
        (if k = s.count then p = s.made else Owns s k p) := by
      intro k p
      rw [owns_push]
      by_cases hk : k = s.count
      · simp [hk, eq_comm]
      · simp only [if_neg hk]; rfl
    refine ⟨⟨List.nodup_cons.2 ⟨hnew, hs.once.1⟩, hs.once.2⟩, ?_, ?_, ?_, ?_, ?_⟩
    · intro p
      show p < s.made + 1 ↔ (p ∈ s.made :: s.live ∨ p ∈ s.freed)
      rw [List.mem_cons, Nat.lt_succ_iff_lt_or_eq, hs.made]
      constructor
      · rintro ((h | h) | h)
        · exact .inl (.inr h)
        · exact .inr h
        · exact .inl (.inl h)
      · rintro ((h | h) | h)
        · exact .inr h
        · exact .inl (.inl h)
        · exact .inl (.inr h)
    · intro p hp
      have hp : p ∈ s.made :: s.live := hp
      rcases List.mem_cons.1 hp with rfl | hp
      · exact hnewf
      · exact hs.apart p hp
    · intro p hp
      have hp : p ∈ s.made :: s.live := hp
      rcases List.mem_cons.1 hp with rfl | hp
      · exact ⟨s.count, by rw [key, if_pos rfl]⟩
      · obtain ⟨k, hk⟩ := hs.held p hp
        have : k ≠ s.count := by rintro rfl; exact not_owns_new s ht p hk
        exact ⟨k, by rw [key, if_neg this]; exact hk⟩
    · intro k p hk
      show p ∈ s.made :: s.live
      rw [key] at hk
      by_cases h : k = s.count
      · rw [if_pos h] at hk; rw [hk]; exact List.mem_cons_self
      · rw [if_neg h] at hk; exact List.mem_cons_of_mem _ (hs.holds k p hk)
    · intro k k' p hk hk'
      rw [key] at hk hk'
      by_cases h : k = s.count
      · by_cases h' : k' = s.count
        · rw [h, h']
        · rw [if_pos h] at hk; rw [if_neg h'] at hk'
          rw [hk] at hk'; exact absurd (hs.holds _ _ hk') hnew
      · by_cases h' : k' = s.count
        · rw [if_neg h] at hk; rw [if_pos h'] at hk'
          rw [hk'] at hk; exact absurd (hs.holds _ _ hk) hnew
        · rw [if_neg h] at hk; rw [if_neg h'] at hk'; exact hs.one _ _ p hk hk'
  | toElement h =>
    cases hx : s.handles h with
    | none => exact ⟨fun s' e => by simp only [step, hx, Option.some.injEq] at e; subst e; exact ⟨hs, ht⟩, fun _ => by simp [step, hx]⟩
    | some x =>
      cases hpl : x.plain with
      | false => exact ⟨fun s' e => by simp [step, hx, hpl] at e; subst e; exact ⟨hs, ht⟩, fun _ => by simp [step, hx, hpl]⟩
      | true =>
        have hcd := ht.plain h x hx hpl
        have hlt := handle_lt s ht h x hx
        refine ⟨?_, fun _ => by simp [step, hx, hpl]⟩
        intro s' e
        simp only [step, hx, hpl, if_true, Option.some.injEq] at e
        subst e
        refine ⟨?_, push_typed _ _ (put_typed s h _ ht hlt (by intro y hy; cases hy; exact fun _ => hcd)) (by simp)⟩
        refine transfer_sound s _ hs rfl rfl rfl h s.count (not_owns_new s ht) (by omega) ?_
        intro k p
        rw [owns_push, owns_at s h x hx]
        show (if k = s.count then _ else _) ↔ _
        by_cases h1 : k = s.count
        · simp [h1, hcd]
        · rw [if_neg h1, if_neg h1, owns_put]
          by_cases h2 : k = h
          · simp [h2]
          · rw [if_neg h2, if_neg h2]
  | at_ h =>
    cases hx : s.handles h with
    | none => exact ⟨fun s' e => by simp only [step, hx, Option.some.injEq] at e; subst e; exact ⟨hs, ht⟩, fun _ => by simp [step, hx]⟩
    | some x =>
      refine ⟨?_, fun _ => by simp [step, hx]⟩
      intro s' e
      simp only [step, hx, Option.some.injEq] at e
      subst e
      refine ⟨?_, push_typed _ _ ht (by simp)⟩
      have key : ∀ k p, Owns (s.push ⟨x.ptr, false, false⟩) k p ↔ Owns s k p := by
        intro k p
        rw [owns_push]
        by_cases h1 : k = s.count
        · rw [if_pos h1]
          exact ⟨fun h => by simp at h, fun h => absurd (h1 ▸ h) (not_owns_new s ht p)⟩
        · rw [if_neg h1]
      exact ⟨hs.once, hs.made, hs.apart, fun p hp => by obtain ⟨k, hk⟩ := hs.held p hp; exact ⟨k, (key k p).2 hk⟩,
        fun k p hk => hs.holds k p ((key k p).1 hk), fun k k' p h1 h2 => hs.one k k' p ((key k p).1 h1) ((key k' p).1 h2)⟩
  | move h =>
    cases hx : s.handles h with
    | none => exact ⟨fun s' e => by simp only [step, hx, Option.some.injEq] at e; subst e; exact ⟨hs, ht⟩, fun _ => by simp [step, hx]⟩
    | some x =>
      have hlt := handle_lt s ht h x hx
      refine ⟨?_, fun _ => by simp [step, hx]⟩
      intro s' e
      simp only [step, hx, Option.some.injEq] at e
      subst e
      refine ⟨?_, push_typed _ _ (put_typed s h _ ht hlt (by intro y hy; cases hy; exact ht.plain h x hx)) (ht.plain h x hx)⟩
      refine transfer_sound s _ hs rfl rfl rfl h s.count (not_owns_new s ht) (by omega) ?_
      intro k p
      rw [owns_push, owns_at s h x hx]
      show (if k = s.count then _ else _) ↔ _
      by_cases h1 : k = s.count
      · simp [h1]
      · rw [if_neg h1, if_neg h1, owns_put]
        by_cases h2 : k = h
        · simp [h2]
        · rw [if_neg h2, if_neg h2]
  | assign g h =>
    cases hy : s.handles g with
    | none => exact ⟨fun s' e => by simp only [step, hy, Option.some.injEq] at e; subst e; exact ⟨hs, ht⟩, fun _ => by simp [step, hy]⟩
    | some y =>
      cases hx : s.handles h with
      | none => exact ⟨fun s' e => by simp only [step, hy, hx, Option.some.injEq] at e; subst e; exact ⟨hs, ht⟩, fun _ => by simp [step, hy, hx]⟩
      | some x =>
        by_cases hc : g = h ∨ y.plain ≠ x.plain
        · exact ⟨fun s' e => by simp only [step, hy, hx, if_pos hc, Option.some.injEq] at e; subst e; exact ⟨hs, ht⟩, fun _ => by simp only [step, hy, hx, if_pos hc]; rfl⟩
        · obtain ⟨s1, e1, eh, ec, em, hput⟩ := release_sound s hs g y hy
          have hgh : g ≠ h := fun e => hc (.inl e)
          refine ⟨?_, fun _ => by simp only [step, hy, hx, if_neg hc, e1]; rfl⟩
          intro s' e
          simp only [step, hy, hx, if_neg hc, e1, Option.map_some, Option.some.injEq] at e
          subst e
          have ht1 : Typed s1 := ⟨by rw [eh]; exact ht.plain, by rw [eh, ec]; exact ht.new⟩
          have hx1 : s1.handles h = some x := by rw [eh]; exact hx
          have hlt := handle_lt s ht h x hx
          have hltg := handle_lt s ht g y hy
          refine ⟨?_, put_typed _ g _ (put_typed s1 h _ ht1 (by omega) (by intro z hz; cases hz; exact ht.plain h x hx))
            (show g < s1.count by omega) (by intro z hz; cases hz; exact ht.plain h x hx)⟩
          have hs1 : Sound (s1.put g none) := hput none (by intro _ h; cases h)
          have hx2 : (s1.put g none).handles h = some x := by simp only [St.put]; rw [if_neg (Ne.symm hgh)]; exact hx1
          refine transfer_sound (s1.put g none) _ hs1 rfl rfl rfl h g ?_ (Ne.symm hgh) ?_
          · intro p hp
            rw [owns_put, if_pos rfl] at hp
            obtain ⟨_, h, _⟩ := hp; cases h
          · intro k p
            rw [owns_at _ h x hx2, owns_put]
            by_cases h1 : k = g
            · simp [h1]
            · rw [if_neg h1, if_neg h1, owns_put]
              by_cases h2 : k = h
              · simp [h2]
              · rw [if_neg h2, if_neg h2, owns_put, if_neg h1]
  | drop h =>
    cases hx : s.handles h with
    | none => exact ⟨fun s' e => by simp only [step, hx, Option.some.injEq] at e; subst e; exact ⟨hs, ht⟩, fun _ => by simp [step, hx]⟩
    | some x =>
      obtain ⟨s1, e1, eh, ec, em, hput⟩ := release_sound s hs h x hx
      refine ⟨?_, fun _ => by simp only [step, hx, e1]; rfl⟩
      intro s' e
      simp only [step, hx, e1, Option.map_some, Option.some.injEq] at e
      subst e
      have ht1 : Typed s1 := ⟨by rw [eh]; exact ht.plain, by rw [eh, ec]; exact ht.new⟩
      exact ⟨hput none (by intro _ h; cases h), put_typed s1 h none ht1 (by rw [ec]; exact handle_lt s ht h x hx) (by intro _ h; cases h)⟩
  | deref h =>
    refine ⟨?_, fun hn => absurd rfl (hn h)⟩
    intro s' e
    simp only [step] at e
    split at e
    · split at e
      · split at e
        · cases e; exact ⟨hs, ht⟩
        · cases e
      · cases e
    · cases e; exact ⟨hs, ht⟩

theorem run_sound (l : List Op) (s s' : St) (hs : Sound s) (ht : Typed s) (h : run l s = some s') : Sound s' ∧ Typed s' := by
  induction l generalizing s with
  | nil => simp only [run, Option.some.injEq] at h; subst h; exact ⟨hs, ht⟩
  | cons op l ih =>
    simp only [run] at h
    cases he : step s op with
    | none => rw [he] at h; cases h
    | some s1 =>
      rw [he, Option.bind_some] at h
      obtain ⟨h1, h2⟩ := (step_sound s hs ht op).1 s1 he
      exact ih s1 h1 h2 h

/-- C117: in every program, every object is deleted at most once, no object that a handle will delete is deleted before, and when all
handles are gone every object was deleted exactly once. -/
theorem elements_sound (l : List Op) (s : St) (h : run l start = some s) :
    s.freed.Nodup ∧ (∀ k x p, s.handles k = some x → x.ptr = some p → x.canDelete = true → p ∉ s.freed) ∧
    ((∀ k, s.handles k = none) → ∀ p, p < s.made ↔ p ∈ s.freed) := by
  obtain ⟨hs, _⟩ := run_sound l start s sound_start.1 sound_start.2 h
  refine ⟨hs.once.2, ?_, ?_⟩
  · intro k x p hk hp hc
    exact hs.apart p (hs.holds k p ⟨x, hk, hp, hc⟩)
  · intro hn p
    rw [hs.made]
    constructor
    · rintro (h | h)
      · obtain ⟨k, x, hk, _⟩ := hs.held p h
        rw [hn k] at hk; cases hk
      · exact h
    · exact .inr

/-- C117: programs that do not use objects are always defined (there is no double deletion). -/
theorem elements_defined (l : List Op) (hl : ∀ op ∈ l, ∀ h, op ≠ .deref h) : ∃ s, run l start = some s := by
  have : ∀ (l : List Op) (s : St), Sound s → Typed s → (∀ op ∈ l, ∀ h, op ≠ .deref h) → ∃ s', run l s = some s' := by
    intro l
    induction l with
    | nil => intro s _ _ _; exact ⟨s, rfl⟩
    | cons op l ih =>
      intro s hs ht hl
      obtain ⟨h1, h2⟩ := step_sound s hs ht op
      have := h2 (hl op List.mem_cons_self)
      obtain ⟨s1, he⟩ := Option.isSome_iff_exists.1 this
      simp only [run, he, Option.bind_some]
      obtain ⟨a, b⟩ := h1 s1 he
      exact ih s1 a b (fun o ho => hl o (List.mem_cons_of_mem _ ho))
  exact this l start sound_start.1 sound_start.2 hl

/-- C117: in every reachable state, using an object through a handle is defined exactly if some handle that will delete it still holds it;
so an owner can always be used, and a borrowed element as long as its owner lives. -/
theorem elements_use (l : List Op) (s : St) (h : run l start = some s) (k p : Nat) (x : Handle) (hk : s.handles k = some x)
    (hp : x.ptr = some p) : (step s (.deref k)).isSome = true ↔ ∃ g y, s.handles g = some y ∧ y.ptr = some p ∧ y.canDelete = true := by
  obtain ⟨hs, _⟩ := run_sound l start s sound_start.1 sound_start.2 h
  simp only [step, hk, hp]
  constructor
  · intro h
    split at h
    · rename_i hl; obtain ⟨g, hg⟩ := hs.held p hl; exact ⟨g, hg⟩
    · cases h
  · rintro ⟨g, y, hg⟩
    rw [if_pos (hs.holds g p ⟨y, hg⟩)]; rfl

/-- C117: `ToElement` takes the object over: the old handle is empty, the new element has the object and will delete it. -/
theorem to_element (s : St) (h : Nat) (x : Handle) (hx : s.handles h = some x) (hpl : x.plain = true) (hn : h < s.count) :
    ∃ s', step s (.toElement h) = some s' ∧ s'.handles h = some { x with ptr := none } ∧ s'.handles s.count = some ⟨x.ptr, true, false⟩ ∧
      s'.freed = s.freed := by
  refine ⟨(s.put h (some { x with ptr := none })).push ⟨x.ptr, true, false⟩, by simp only [step, hx, hpl, if_true], ?_, ?_, rfl⟩
  · simp only [St.push, St.put]; rw [if_neg (by omega)]; simp
  · simp [St.push, St.put]

/-- A list item, a view of it, a view moved on, both views and the owner dropped: one object, deleted once. -/
example : (run [.make, .at_ 0, .move 1, .deref 2, .drop 1, .drop 2, .toElement 0, .drop 0, .deref 3, .drop 3] start).map (fun s => (s.made, s.live, s.freed)) =
    some (1, [], [0]) := by decide
/-- A view used after its owner is gone. -/
example : (run [.make, .at_ 0, .drop 0, .deref 1] start).isNone = true := by decide

end PreCore.Element
