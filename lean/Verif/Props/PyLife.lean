import Verif.Spec.PyLife
/-!
# C157: Python objects of a scene can be used as long as they are held
-/
namespace PreCore.PyLife

/-- The world fits the variables of the program. -/
structure Fits (v : List Var) (w : World) : Prop where
  len : w.wraps.length = v.length
  parts : w.inside = v.map Prod.fst
  items : ∀ (i : Nat) x, w.wraps[i]? = some x → x.item = i
  helds : ∀ (i : Nat) x, w.wraps[i]? = some x → (v[i]?).map Prod.snd = some x.held
  lender : ∀ (j i : Nat) b, v[j]? = some (some i, b) → i < j
  chain : ∀ (j i : Nat), v[j]? = some (some i, true) → Has v i
  dels : ∀ i ∈ w.deleted, i < v.length ∧ ¬ Has v i

theorem goneAux_held {v : List Var} {w : World} (h : Fits v w) : ∀ (fuel o : Nat), Has v o → w.goneAux fuel o = false := by
  intro fuel
  induction fuel with
  | zero => intro o _; rfl
  | succ f ih =>
    intro o ho
    have h1 : w.deleted.contains o = false := by
      rw [Bool.eq_false_iff]
      intro hc
      exact (h.dels o (by simpa using hc)).2 ho
    obtain ⟨l, hl⟩ := ho
    have h2 : w.inside.getD o none = l := by
      rw [h.parts, List.getD_eq_getElem?_getD, List.getElem?_map, hl]; rfl
    simp only [World.goneAux, h1, h2, Bool.false_or]
    cases l with
    | none => rfl
    | some p => exact ih p (h.chain o p hl)

theorem find_iff {v : List Var} {w : World} (h : Fits v w) (i : Nat) :
    (∃ x, w.find i = some x) ↔ Has v i := by
  constructor
  · rintro ⟨x, hx⟩
    simp only [World.find, Option.filter_eq_some_iff] at hx
    have := h.helds i x hx.1
    rw [hx.2] at this
    cases hv : v[i]? with
    | none => rw [hv] at this; simp at this
    | some p => rw [hv] at this; obtain ⟨a, b⟩ := p; simp at this; subst this; exact ⟨a, hv⟩
  · rintro ⟨l, hl⟩
    have hi : i < v.length := (List.getElem?_eq_some_iff.mp hl).1
    have hw : i < w.wraps.length := by have := h.len; omega
    have h3 := h.helds i w.wraps[i] (List.getElem?_eq_getElem hw)
    rw [hl] at h3
    refine ⟨w.wraps[i], ?_⟩
    simp only [World.find, Option.filter_eq_some_iff]
    exact ⟨List.getElem?_eq_getElem hw, by simpa using h3.symm⟩

theorem find_item {v : List Var} {w : World} (h : Fits v w) {i : Nat} {x : Wrap} (hx : w.find i = some x) : x.item = i ∧ w.wraps[i]? = some x ∧ x.held = true := by
  simp only [World.find, Option.filter_eq_some_iff] at hx
  exact ⟨h.items i x hx.1, hx.1, hx.2⟩

theorem has_append {v : List Var} {p : Var} {i : Nat} (h : Has v i) : Has (v ++ [p]) i := by
  obtain ⟨l, hl⟩ := h
  exact ⟨l, by rw [List.getElem?_append_left (List.getElem?_eq_some_iff.mp hl).1]; exact hl⟩

theorem getElem?_push {α : Type} {l : List α} {a b : α} {i : Nat} (h : (l ++ [a])[i]? = some b) : l[i]? = some b ∨ (i = l.length ∧ a = b) := by
  rcases Nat.lt_trichotomy i l.length with hi | hi | hi
  · left; rw [List.getElem?_append_left hi] at h; exact h
  · right; subst hi; simp at h; exact ⟨rfl, h⟩
  · rw [List.getElem?_append_right (by omega)] at h
    obtain ⟨k, hk⟩ : ∃ k, i - l.length = k + 1 := ⟨i - l.length - 1, by omega⟩
    rw [hk] at h; simp at h

theorem fits_add {v : List Var} {w : World} (h : Fits v w) (part : Option Nat) (owns : Bool) (hp : ∀ i, part = some i → Has v i) :
    Fits (v ++ [(part, true)]) (w.add part owns) := by
  have hin : w.inside.length = v.length := by rw [h.parts, List.length_map]
  constructor
  · simp only [World.add, List.length_append, h.len, List.length_cons, List.length_nil]
  · simp only [World.add, h.parts, List.map_append, List.map_cons, List.map_nil]
  · intro i x hx
    rcases getElem?_push hx with hx | ⟨hi, hx⟩
    · exact h.items i x hx
    · subst hx; simp only; rw [hi, hin, h.len]
  · intro i x hx
    rcases getElem?_push hx with hx | ⟨hi, hx⟩
    · have := (List.getElem?_eq_some_iff.mp hx).1
      rw [List.getElem?_append_left (by have := h.len; omega)]
      exact h.helds i x hx
    · subst hx; rw [hi, h.len]; simp
  · intro j i b hj
    rcases getElem?_push hj with hj | ⟨hj, he⟩
    · exact h.lender j i b hj
    · simp only [Prod.mk.injEq] at he
      obtain ⟨l, hl⟩ := hp i he.1
      have := (List.getElem?_eq_some_iff.mp hl).1
      omega
  · intro j i hj
    rcases getElem?_push hj with hj | ⟨hj, he⟩
    · exact has_append (h.chain j i hj)
    · simp only [Prod.mk.injEq] at he; exact has_append (hp i he.1)
  · intro i hi
    have hd := h.dels i hi
    refine ⟨by simp only [List.length_append, List.length_cons, List.length_nil]; omega, ?_⟩
    rintro ⟨l, hl⟩
    rcases getElem?_push hl with hl | ⟨hl, _⟩
    · exact hd.2 ⟨l, hl⟩
    · omega

theorem fits_drop {v : List Var} {w : World} (h : Fits v w) {i : Nat} {l : Option Nat} (hv : v[i]? = some (l, true)) (hk : ∀ j : Nat, v[j]? ≠ some (some i, true))
    {x : Wrap} (hx : w.find i = some x) :
    Fits (v.set i (l, false)) ⟨w.inside, if x.owns then x.item :: w.deleted else w.deleted, w.wraps.set i { x with held := false }⟩ := by
  obtain ⟨e1, e2, e3⟩ := find_item h hx
  have hi : i < v.length := (List.getElem?_eq_some_iff.mp hv).1
  have hiw : i < w.wraps.length := by have := h.len; omega
  have not_i : ¬ Has (v.set i (l, false)) i := by
    rintro ⟨k, hk'⟩; rw [List.getElem?_set_self hi] at hk'; simp at hk'
  have ne_i : ∀ j : Nat, j ≠ i → (v.set i (l, false))[j]? = v[j]? := fun j hj => List.getElem?_set_ne (fun e => hj e.symm)
  constructor
  · simp only [List.length_set, h.len]
  · simp only [h.parts]
    apply List.ext_getElem?
    intro j
    rw [List.getElem?_map, List.getElem?_map]
    by_cases hj : j = i
    · subst hj; rw [List.getElem?_set_self hi, hv]; rfl
    · rw [ne_i j hj]
  · intro j y hy
    by_cases hj : j = i
    · subst hj
      simp only at hy
      rw [List.getElem?_set_self hiw] at hy
      injection hy with hy; subst hy; exact e1
    · simp only at hy
      rw [List.getElem?_set_ne (fun e => hj e.symm)] at hy; exact h.items j y hy
  · intro j y hy
    by_cases hj : j = i
    · subst hj
      simp only at hy
      rw [List.getElem?_set_self hiw] at hy
      injection hy with hy; subst hy
      rw [List.getElem?_set_self hi]; rfl
    · simp only at hy
      rw [List.getElem?_set_ne (fun e => hj e.symm)] at hy
      rw [ne_i j hj]; exact h.helds j y hy
  · intro j k b hj
    by_cases e : j = i
    · subst e; rw [List.getElem?_set_self hi] at hj
      simp only [Option.some.injEq, Prod.mk.injEq] at hj
      rw [hj.1] at hv; exact h.lender j k true hv
    · rw [ne_i j e] at hj; exact h.lender j k b hj
  · intro j k hj
    by_cases e : j = i
    · subst e; exact absurd ⟨_, hj⟩ not_i
    · rw [ne_i j e] at hj
      have hki : k ≠ i := fun e' => hk j (e' ▸ hj)
      obtain ⟨m, hm⟩ := h.chain j k hj
      exact ⟨m, by rw [ne_i k hki]; exact hm⟩
  · intro j hj
    have : j = i ∨ j ∈ w.deleted := by
      simp only at hj
      split at hj
      · rcases List.mem_cons.mp hj with q | q
        · left; rw [q, e1]
        · right; exact q
      · right; exact hj
    rcases this with q | q
    · subst q; exact ⟨by simpa using hi, not_i⟩
    · have hd := h.dels j q
      refine ⟨by simpa using hd.1, ?_⟩
      rintro ⟨m, hm⟩
      by_cases e : j = i
      · subst e; exact not_i ⟨m, hm⟩
      · rw [ne_i j e] at hm; exact hd.2 ⟨m, hm⟩

theorem find_none {v : List Var} {w : World} (h : Fits v w) {i : Nat} (hn : ¬ Has v i) : w.find i = none := by
  cases e : w.find i with
  | none => rfl
  | some x => exact absurd ((find_iff h i).mp ⟨x, e⟩) hn

theorem keeps_defined {ops : List Op} {v : List Var} (hk : Keeps ops v) : ∀ {w : World}, Fits v w → ∃ w', World.run ops w = some w' := by
  induction hk with
  | done => intro w _; exact ⟨w, rfl⟩
  | create _ ih => intro w h; exact ih (fits_add h none true (fun _ e => by cases e))
  | borrow _ ih => intro w h; exact ih (fits_add h none false (fun _ e => by cases e))
  | @lend ops v i hh _ ih =>
    intro w h
    obtain ⟨x, hx⟩ := (find_iff h i).mpr hh
    have e1 := (find_item h hx).1
    simp only [World.run, World.step, hx, e1, World.gone, goneAux_held h _ i hh]
    exact ih (fits_add h (some i) false (fun _ e => by injection e with e; exact e ▸ hh))
  | @give ops v i hh _ ih =>
    intro w h
    obtain ⟨x, hx⟩ := (find_iff h i).mpr hh
    have e1 := (find_item h hx).1
    simp only [World.run, World.step, hx, e1, World.gone, goneAux_held h _ i hh]
    exact ih (fits_add h none true (fun _ e => by cases e))
  | @use ops v i _ ih =>
    intro w h
    cases hx : w.find i with
    | none => simp only [World.run, World.step, hx]; exact ih h
    | some x =>
      have e1 := (find_item h hx).1
      simp only [World.run, World.step, hx, e1, World.gone, goneAux_held h _ i ((find_iff h i).mp ⟨x, hx⟩)]
      exact ih h
  | @drop ops v i l hv hn _ ih =>
    intro w h
    obtain ⟨x, hx⟩ := (find_iff h i).mpr ⟨l, hv⟩
    simp only [World.run, World.step, hx]
    exact ih (fits_drop h hv hn hx)
  | noLend hn _ ih => intro w h; simp only [World.run, World.step, find_none h hn]; exact ih h
  | noGive hn _ ih => intro w h; simp only [World.run, World.step, find_none h hn]; exact ih h
  | noDrop hn _ ih => intro w h; simp only [World.run, World.step, find_none h hn]; exact ih h

theorem fits_start : Fits [] World.start := by
  constructor <;> simp [World.start]

/-- **C157, partial**: programs that never drop an object while they have another one that was lent from it use no deleted object. Missing: programs
that drop it earlier, which Python allows. -/
theorem kept_defined_partial (ops : List Op) (h : Keeps ops []) : ∃ w, World.run ops World.start = some w :=
  keeps_defined h fits_start

/-- `s = Skeleton(); b = s.bones; x = b[0]; x.name; del x, b, s`. -/
example : Keeps [.create, .lend 0, .lend 1, .use 2, .drop 2, .drop 1, .drop 0] [] := by
  refine .create (.lend ⟨none, rfl⟩ (.lend ⟨some 0, rfl⟩ (.use (.drop rfl ?_ (.drop rfl ?_ (.drop rfl ?_ .done))))))
  all_goals
    intro j
    match j with
    | 0 => simp
    | 1 => simp
    | 2 => simp
    | j + 3 => simp

/-- Owned objects: invariant of deletion. -/
structure Once (w : World) : Prop where
  same : w.wraps.length = w.inside.length
  items : ∀ (i : Nat) x, w.wraps[i]? = some x → x.item = i
  nodup : w.deleted.Nodup
  iff : ∀ (i : Nat), i ∈ w.deleted ↔ ∃ x, w.wraps[i]? = some x ∧ x.owns = true ∧ x.held = false

theorem once_add {w : World} (h : Once w) (part : Option Nat) (owns : Bool) : Once (w.add part owns) := by
  constructor
  · simp [World.add, h.same]
  · intro i x hx
    rcases getElem?_push hx with hx | ⟨hi, hx⟩
    · exact h.items i x hx
    · subst hx; simp only; rw [hi, h.same]
  · exact h.nodup
  · intro i
    simp only [World.add]
    rw [h.iff]
    constructor
    · rintro ⟨x, hx, hy⟩
      exact ⟨x, by rw [List.getElem?_append_left (List.getElem?_eq_some_iff.mp hx).1]; exact hx, hy⟩
    · rintro ⟨x, hx, hy⟩
      rcases getElem?_push hx with hx | ⟨hi, hx⟩
      · exact ⟨x, hx, hy⟩
      · subst hx; exact absurd hy.2 (by simp)

theorem once_step {w w' : World} (h : Once w) (op : Op) (hs : w.step op = some w') : Once w' := by
  cases op with
  | create => simp only [World.step, Option.some.injEq] at hs; subst hs; exact once_add h _ _
  | borrow => simp only [World.step, Option.some.injEq] at hs; subst hs; exact once_add h _ _
  | lend i =>
    simp only [World.step] at hs
    split at hs
    · injection hs with hs; subst hs; exact h
    · split at hs
      · exact absurd hs (by simp)
      · injection hs with hs; subst hs; exact once_add h _ _
  | give i =>
    simp only [World.step] at hs
    split at hs
    · injection hs with hs; subst hs; exact h
    · split at hs
      · exact absurd hs (by simp)
      · injection hs with hs; subst hs; exact once_add h _ _
  | use i =>
    simp only [World.step] at hs
    split at hs
    · injection hs with hs; subst hs; exact h
    · split at hs
      · exact absurd hs (by simp)
      · injection hs with hs; subst hs; exact h
  | drop i =>
    simp only [World.step] at hs
    split at hs
    · injection hs with hs; subst hs; exact h
    · rename_i x hx
      injection hs with hs; subst hs
      simp only [World.find, Option.filter_eq_some_iff] at hx
      have e1 := h.items i x hx.1
      have hiw := (List.getElem?_eq_some_iff.mp hx.1).1
      have hni : i ∉ w.deleted := by
        intro hm
        obtain ⟨y, hy, _, hy3⟩ := (h.iff i).mp hm
        rw [hx.1] at hy; injection hy with hy; subst hy; rw [hx.2] at hy3; exact absurd hy3 (by simp)
      constructor
      · simp [h.same]
      · intro j y hy
        simp only at hy
        by_cases hj : j = i
        · subst hj; rw [List.getElem?_set_self hiw] at hy; injection hy with hy; subst hy; exact e1
        · rw [List.getElem?_set_ne (fun e => hj e.symm)] at hy; exact h.items j y hy
      · simp only
        split
        · exact List.nodup_cons.mpr ⟨e1 ▸ hni, h.nodup⟩
        · exact h.nodup
      · intro j
        simp only
        by_cases hj : j = i
        · subst hj
          rw [List.getElem?_set_self hiw]
          cases ho : x.owns with
          | true => simp [e1]
          | false => simp [hni]
        · rw [List.getElem?_set_ne (fun e => hj e.symm)]
          rw [← h.iff]
          split
          · rw [e1]; simp [hj]
          · rfl

theorem once_run : ∀ (ops : List Op) {w w' : World}, Once w → World.run ops w = some w' → Once w' := by
  intro ops
  induction ops with
  | nil => intro w w' h hr; simp only [World.run, Option.some.injEq] at hr; subst hr; exact h
  | cons op ops ih =>
    intro w w' h hr
    simp only [World.run, Option.bind_eq_some_iff] at hr
    obtain ⟨w1, h1, h2⟩ := hr
    exact ih (once_step h op h1) h2

/-- In every program each object given to Python is deleted exactly once, when its wrapper goes, and no other object is deleted. -/
theorem owned_deleted_once (ops : List Op) (w : World) (h : World.run ops World.start = some w) :
    w.deleted.Nodup ∧ (∀ (i : Nat) x, w.wraps[i]? = some x → x.item = i) ∧
    ∀ i : Nat, i ∈ w.deleted ↔ ∃ x, w.wraps[i]? = some x ∧ x.owns = true ∧ x.held = false := by
  have := once_run ops (w := World.start) (by constructor <;> simp [World.start]) h
  exact ⟨this.nodup, this.items, this.iff⟩

example : ∃ w, World.run [.create, .borrow, .give 1, .drop 0, .drop 1, .drop 0, .drop 2] World.start = some w ∧ w.deleted = [2, 0] := by decide

/-- Which wrappers own: those of `create` and `give`, and no others. The new wrapper is the last one. -/
theorem given_owned (w w' : World) (op : Op) (h : w.step op = some w') :
    (op = .create → (w'.wraps.getLast?.map (·.owns)) = some true) ∧
    (∀ i x, op = .give i → w.find i = some x → (w'.wraps.getLast?.map (·.owns)) = some true) ∧
    (op = .borrow → (w'.wraps.getLast?.map (·.owns)) = some false) ∧
    (∀ i x, op = .lend i → w.find i = some x → (w'.wraps.getLast?.map (·.owns)) = some false) := by
  refine ⟨?_, ?_, ?_, ?_⟩
  · rintro rfl
    simp only [World.step, Option.some.injEq] at h
    subst h; simp [World.add]
  · rintro i x rfl hx
    simp only [World.step, hx] at h
    split at h
    · exact absurd h (by simp)
    · injection h with h; subst h; simp [World.add]
  · rintro rfl
    simp only [World.step, Option.some.injEq] at h
    subst h; simp [World.add]
  · rintro i x rfl hx
    simp only [World.step, hx] at h
    split at h
    · exact absurd h (by simp)
    · injection h with h; subst h; simp [World.add]

example : ∃ w, World.start.step .create = some w ∧ w.find 0 ≠ none ∧ ∃ w', w.step (.give 0) = some w' := by
  exact ⟨_, rfl, by decide, _, rfl⟩

/-- Nothing that Python gets is owned by it: the classes of the scene lend everything, the C++ program keeps the scene. -/
def LentOnly (ops : List Op) : Prop := ∀ op ∈ ops, op ≠ .create ∧ ∀ i, op ≠ .give i

theorem lent_aux : ∀ (ops : List Op) (w : World), LentOnly ops → w.deleted = [] → (∀ x ∈ w.wraps, x.owns = false) → ∃ w', World.run ops w = some w' := by
  have alive : ∀ (w : World), w.deleted = [] → ∀ f o, w.goneAux f o = false := by
    intro w h f
    induction f with
    | zero => intro o; rfl
    | succ f ih =>
      intro o
      simp only [World.goneAux, h, List.contains_nil, Bool.false_or]
      split
      · exact ih _
      · rfl
  have add : ∀ (w : World) p, (∀ x ∈ w.wraps, x.owns = false) → ∀ x ∈ (w.add p false).wraps, x.owns = false := by
    intro w p h x hx
    simp only [World.add, List.mem_append, List.mem_singleton] at hx
    rcases hx with hx | hx
    · exact h x hx
    · rw [hx]
  intro ops
  induction ops with
  | nil => intro w _ _ _; exact ⟨w, rfl⟩
  | cons op ops ih =>
    intro w hl hd ho
    have hl' : LentOnly ops := fun o h => hl o (List.mem_cons_of_mem _ h)
    have h1 := hl op (by simp)
    cases op with
    | create => exact absurd rfl h1.1
    | give i => exact absurd rfl (h1.2 i)
    | borrow => exact ih _ hl' hd (add w none ho)
    | lend i =>
      simp only [World.run, World.step]
      cases hf : w.find i with
      | none => exact ih w hl' hd ho
      | some x =>
        simp only [World.gone, alive w hd]
        exact ih _ hl' hd (add w (some x.item) ho)
    | use i =>
      simp only [World.run, World.step]
      cases hf : w.find i with
      | none => exact ih w hl' hd ho
      | some x =>
        simp only [World.gone, alive w hd]
        exact ih _ hl' hd ho
    | drop i =>
      simp only [World.run, World.step]
      cases hf : w.find i with
      | none => exact ih w hl' hd ho
      | some x =>
        have hx : x ∈ w.wraps := by
          simp only [World.find, Option.filter_eq_some_iff] at hf
          exact List.mem_of_getElem? hf.1
        apply ih _ hl'
        · simp only [ho x hx, Bool.false_eq_true, if_false, hd]
        · intro y hy
          rcases List.mem_or_eq_of_mem_set hy with q | q
          · exact ho y q
          · rw [q]; exact ho x hx

/-- When the C++ program keeps the scene and lends everything, Python may drop and use its objects in any order. -/
theorem lent_defined (ops : List Op) (h : LentOnly ops) : ∃ w, World.run ops World.start = some w :=
  lent_aux ops World.start h rfl (by simp [World.start])

example : LentOnly [.borrow, .lend 0, .drop 0, .lend 1, .drop 1, .use 2] := by
  intro op h
  simp only [List.mem_cons, List.not_mem_nil, or_false] at h
  rcases h with h | h | h | h | h | h <;> subst h <;> exact ⟨by simp, fun i => by simp⟩

theorem run_append : ∀ (a b : List Op) (w : World), World.run (a ++ b) w = (World.run a w).bind (World.run b) := by
  intro a
  induction a with
  | nil => intro b w; rfl
  | cons x a ih =>
    intro b w
    simp only [List.cons_append, World.run, Option.bind_assoc]
    cases w.step x with
    | none => rfl
    | some w' => exact ih b w'

/-- **C157 violated**: whatever happened before, an object that was lent by an object which Python owns cannot be used any more once the
owner is dropped, although Python still holds it: nothing keeps the owner. -/
theorem lender_not_kept_violated (ops : List Op) (w : World) (h : World.run ops World.start = some w) (i : Nat) (x : Wrap) (hx : w.wraps[i]? = some x)
    (hh : x.held = true) (ho : x.owns = true) :
    World.run (ops ++ [.lend i, .drop i, .use w.wraps.length]) World.start = none := by
  have on := once_run ops (w := World.start) (by constructor <;> simp [World.start]) h
  have hi := on.items i x hx
  have hiw := (List.getElem?_eq_some_iff.mp hx).1
  have hf : w.find i = some x := by simp only [World.find, Option.filter_eq_some_iff]; exact ⟨hx, hh⟩
  rw [run_append, h]
  simp only [Option.bind_some, World.run, World.step, hf]
  by_cases hg : w.gone x.item
  · simp only [hg, if_true, Option.bind_none]
  · rw [if_neg hg]
    simp only [Option.bind_some]
    have hf2 : (w.add (some x.item) false).find i = some x := by
      simp only [World.find, World.add, Option.filter_eq_some_iff, List.getElem?_append_left hiw]; exact ⟨hx, hh⟩
    rw [hf2]
    simp only [Option.bind_some, ho, if_true]
    have hlen : w.inside.length = w.wraps.length := on.same.symm
    have hf3 : (World.mk (w.add (some x.item) false).inside (x.item :: (w.add (some x.item) false).deleted)
        ((w.add (some x.item) false).wraps.set i ⟨x.item, true, false⟩)).find w.wraps.length = some ⟨w.inside.length, false, true⟩ := by
      simp only [World.find, World.add, Option.filter_eq_some_iff]
      refine ⟨?_, trivial⟩
      rw [List.getElem?_set_ne (by omega)]
      simp
    rw [hf3]
    simp only
    rw [if_pos]
    · rfl
    · simp only [World.gone, World.goneAux, World.add]
      have : (w.inside ++ [some x.item]).getD w.inside.length none = some x.item := by
        rw [List.getD_eq_getElem?_getD]; simp
      rw [this]
      simp only
      obtain ⟨k, hk⟩ : ∃ k, w.inside.length = k + 1 := ⟨w.inside.length - 1, by omega⟩
      rw [hk]
      simp [World.goneAux]

/-- `bones = Skeleton().bones; len(bones)`. -/
example : World.run [.create, .lend 0, .drop 0, .use 1] World.start = none := by decide

end PreCore.PyLife
