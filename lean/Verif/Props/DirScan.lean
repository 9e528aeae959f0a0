import Verif.Model.DirScan
/-!
# C41: directory scanning
-/
namespace PreCore.DirScan

/-! ## Specification -/

def slash : Byte := 0x2f#8

/-- The names of a directory and of its parent, listed in every directory. -/
def here : Text := [0x2e#8]
def up : Text := [0x2e#8, 0x2e#8]

/-- The entries of directory `d` (as listed for `d/.`). -/
def entries (fs : FS) (d : Text) : List (Text × Bool) := 
  ((fs (d ++ [slash] ++ here)).getD []).filter (fun e => e.1 ≠ here ∧ e.1 ≠ up)

/-- `FileAt fs d ns`: below directory `d`, following the names `ns`, there is a file. -/
inductive FileAt (fs : FS) : Text → List Text → Prop
  | file {d n} : (n, false) ∈ entries fs d → FileAt fs d [n]
  | dir {d n ns} : (n, true) ∈ entries fs d → FileAt fs (d ++ [slash] ++ n) ns → FileAt fs d (n :: ns)

/-- `DirAt fs d x`: `x` is `d` or a directory somewhere below. -/
inductive DirAt (fs : FS) (d : Text) : Text → Prop
  | here : DirAt fs d d
  | sub {x n} : DirAt fs d x → (n, true) ∈ entries fs x → DirAt fs d (x ++ [slash] ++ n)

/-- The path of names below a directory. -/
def path (d : Text) (ns : List Text) : Text := d ++ ns.flatMap (fun n => slash :: n)

/-- One of the filters occurs in the name, or there is no filter. -/
def Matches (filters : List Text) (name : Text) : Prop := filters = [] ∨ ∃ f ∈ filters, f <:+: name

/-- A directory string `Scan` takes as it is: not ending in `"`, `\` or `/`, and not empty. -/
def Plain (d : Text) : Prop := ∃ c, d.getLast? = some c ∧ c ≠ 0x22#8 ∧ c ≠ 0x5c#8 ∧ c ≠ slash

/-! ## Proof -/

theorem find_iff (s f : Text) : (find s f).isSome = true ↔ f <:+: s := by
  unfold find
  rw [List.find?_isSome]
  constructor
  · rintro ⟨i, hi, h⟩
    simp only [beq_iff_eq] at h
    refine ⟨s.take i, (s.drop i).drop f.length, ?_⟩
    conv => rhs; rw [← List.take_append_drop i s, ← List.take_append_drop f.length (s.drop i), h]
    simp
  · rintro ⟨a, b, h⟩
    refine ⟨a.length, ?_, ?_⟩
    · rw [List.mem_range, ← h]; simp only [List.length_append]; omega
    · rw [← h]; simp

theorem filtered_iff (filters : List Text) (name : Text) : isFilteredFile filters name = true ↔ Matches filters name := by
  unfold isFilteredFile Matches
  simp only [Bool.or_eq_true, List.isEmpty_iff, List.any_eq_true, find_iff]

theorem prepare_plain {d : Text} (h : Plain d) : prepare d = d ++ [slash] := by
  obtain ⟨c, h1, h2, h3, h4⟩ := h
  unfold prepare
  rw [h1]
  simp only [h2, if_false]
  rw [if_pos ⟨h3, h4⟩]
  rfl

/-- What a scan adds, as names below the directory. -/
def Adds (fs : FS) (filters : List Text) (d : Text) (L : List (List Text)) : Prop :=
  ∀ ns, ns ∈ L ↔ FileAt fs d ns ∧ ∃ n, ns.getLast? = some n ∧ Matches filters n

theorem fileAt_iff (fs d ns) : FileAt fs d ns ↔
    (∃ n, ns = [n] ∧ (n, false) ∈ entries fs d) ∨ (∃ n ms, ns = n :: ms ∧ (n, true) ∈ entries fs d ∧ FileAt fs (d ++ [slash] ++ n) ms) := by
  constructor
  · rintro (⟨h⟩ | ⟨h, h2⟩)
    · exact Or.inl ⟨_, rfl, h⟩
    · exact Or.inr ⟨_, _, rfl, h, h2⟩
  · rintro (⟨n, rfl, h⟩ | ⟨n, ms, rfl, h, h2⟩)
    · exact .file h
    · exact .dir h h2

theorem fileAt_ne_nil {fs d ns} (h : FileAt fs d ns) : ns ≠ [] := by cases h <;> simp

/-- What the loop over some entries adds. -/
def AddsE (fs : FS) (filters : List Text) (d : Text) (es : List (Text × Bool)) (L : List (List Text)) : Prop :=
  ∀ ns, ns ∈ L ↔ (∃ n, ns = [n] ∧ (n, false) ∈ es ∧ Matches filters n) ∨
    (∃ n ms, ns = n :: ms ∧ (n, true) ∈ es ∧ FileAt fs (d ++ [slash] ++ n) ms ∧ ∃ k, ms.getLast? = some k ∧ Matches filters k)

theorem path_cons (d n : Text) (ms : List Text) : path d (n :: ms) = path (d ++ [slash] ++ n) ms := by
  simp [path]

theorem loop_spec (fs : FS) (filters : List Text) (d : Text) (sub : Text → List Text → Option (List Text)) :
    ∀ (es : List (Text × Bool)) (files out : List Text),
    (∀ n, (n, true) ∈ es.filter (fun e => e.1 ≠ dot ∧ e.1 ≠ dotdot) → ∀ fl o, sub (d ++ [slash] ++ n) fl = some o →
      ∃ L, o = fl ++ L.map (path (d ++ [slash] ++ n)) ∧ Adds fs filters (d ++ [slash] ++ n) L ∧
        ((∀ x, DirAt fs (d ++ [slash] ++ n) x → ((entries fs x).map (·.1)).Nodup) → L.Nodup)) →
    loop sub filters (d ++ [slash] ++ dot) es files = some out →
    ∃ L, out = files ++ L.map (path d) ∧ AddsE fs filters d (es.filter (fun e => e.1 ≠ dot ∧ e.1 ≠ dotdot)) L ∧
      (((es.filter (fun e => e.1 ≠ dot ∧ e.1 ≠ dotdot)).map (·.1)).Nodup →
        (∀ n, (n, true) ∈ es.filter (fun e => e.1 ≠ dot ∧ e.1 ≠ dotdot) →
          ∀ x, DirAt fs (d ++ [slash] ++ n) x → ((entries fs x).map (·.1)).Nodup) → L.Nodup) := by
  intro es
  induction es with
  | nil =>
    intro files out _ h
    simp only [loop, Option.some.injEq] at h
    exact ⟨[], by simp [h], by intro ns; simp, fun _ _ => List.nodup_nil⟩
  | cons e es ih =>
    obtain ⟨name, isDir⟩ := e
    intro files out hsub h
    simp only [loop] at h
    have hdl : (d ++ [slash] ++ dot).dropLast = d ++ [slash] := by
      rw [show dot = [0x2e#8] from rfl, List.dropLast_concat]
    rw [hdl] at h
    by_cases hn : name = dot ∨ name = dotdot
    · rw [if_pos hn] at h
      have hf : ((name, isDir) :: es).filter (fun e => e.1 ≠ dot ∧ e.1 ≠ dotdot) = es.filter (fun e => e.1 ≠ dot ∧ e.1 ≠ dotdot) := by
        rw [List.filter_cons_of_neg]
        simp only [decide_eq_true_eq, not_and, Decidable.not_not]
        rcases hn with hn | hn
        · intro hc; exact absurd hn hc
        · intro _; exact hn
      rw [hf] at hsub ⊢
      exact ih files out hsub h
    · rw [if_neg hn] at h
      have hf : ((name, isDir) :: es).filter (fun e => e.1 ≠ dot ∧ e.1 ≠ dotdot) = (name, isDir) :: es.filter (fun e => e.1 ≠ dot ∧ e.1 ≠ dotdot) := by
        rw [List.filter_cons_of_pos]
        simp only [decide_eq_true_eq]
        exact ⟨fun e => hn (Or.inl e), fun e => hn (Or.inr e)⟩
      rw [hf] at hsub ⊢
      have hsub' := fun n hm => hsub n (List.mem_cons_of_mem _ hm)
      cases isDir with
      | true =>
        simp only [if_true] at h
        cases hs : sub (d ++ [slash] ++ name) files with
        | none => rw [hs] at h; cases h
        | some o =>
          rw [hs] at h
          simp only [Option.bind_some] at h
          obtain ⟨L1, a1, a2, a3⟩ := hsub name (by simp) files o hs
          obtain ⟨L2, b1, b2, b3⟩ := ih o out hsub' h
          refine ⟨L1.map (name :: ·) ++ L2, ?_, ?_, ?_⟩
          · rw [b1, a1]
            have hpc : path d ∘ (name :: ·) = path (d ++ [slash] ++ name) := by
              funext ms; exact path_cons d name ms
            rw [List.map_append, List.map_map, hpc, List.append_assoc]
          · intro ns
            rw [List.mem_append, b2 ns, List.mem_map]
            constructor
            · rintro (⟨ms, hm, rfl⟩ | ⟨n, h1, h2, h3⟩ | ⟨n, ms, h1, h2, h3⟩)
              · have := (a2 ms).1 hm
                exact Or.inr ⟨name, ms, rfl, by simp, this.1, this.2⟩
              · exact Or.inl ⟨n, h1, List.mem_cons_of_mem _ h2, h3⟩
              · exact Or.inr ⟨n, ms, h1, List.mem_cons_of_mem _ h2, h3⟩
            · rintro (⟨n, h1, h2, h3⟩ | ⟨n, ms, h1, h2, h3, h4⟩)
              · refine Or.inr (Or.inl ⟨n, h1, ?_, h3⟩)
                exact (List.mem_cons.1 h2).resolve_left (by simp)
              · rcases List.mem_cons.1 h2 with e | h2
                · cases e
                  exact Or.inl ⟨ms, (a2 ms).2 ⟨h3, h4⟩, h1.symm⟩
                · exact Or.inr (Or.inr ⟨n, ms, h1, h2, h3, h4⟩)
          · intro hnd hx
            simp only [List.map_cons, List.nodup_cons] at hnd
            rw [List.nodup_append]
            refine ⟨?_, b3 hnd.2 (fun n hm => hx n (List.mem_cons_of_mem _ hm)), ?_⟩
            · have := a3 (hx name (by simp))
              exact List.Pairwise.map _ (fun a b hab => by simpa using hab) this
            · intro x hx1 y hy1
              rw [List.mem_map] at hx1
              obtain ⟨ms, _, rfl⟩ := hx1
              rintro rfl
              rcases (b2 _).1 hy1 with ⟨n, h1, h2, _⟩ | ⟨n, ms', h1, h2, _⟩
              · apply hnd.1
                simp only [List.cons.injEq] at h1
                rw [h1.1, List.mem_map]
                exact ⟨_, h2, rfl⟩
              · apply hnd.1
                simp only [List.cons.injEq] at h1
                rw [h1.1, List.mem_map]
                exact ⟨_, h2, rfl⟩
      | false =>
        simp only [Bool.false_eq_true, if_false] at h
        by_cases hm : isFilteredFile filters name = true
        · rw [if_pos hm] at h
          obtain ⟨L2, b1, b2, b3⟩ := ih _ out hsub' h
          refine ⟨[name] :: L2, ?_, ?_, ?_⟩
          · rw [b1]; simp [path]
          · intro ns
            rw [List.mem_cons, b2 ns]
            constructor
            · rintro (rfl | ⟨n, h1, h2, h3⟩ | ⟨n, ms, h1, h2, h3⟩)
              · exact Or.inl ⟨name, rfl, by simp, (filtered_iff _ _).1 hm⟩
              · exact Or.inl ⟨n, h1, List.mem_cons_of_mem _ h2, h3⟩
              · exact Or.inr ⟨n, ms, h1, List.mem_cons_of_mem _ h2, h3⟩
            · rintro (⟨n, h1, h2, h3⟩ | ⟨n, ms, h1, h2, h3⟩)
              · rcases List.mem_cons.1 h2 with e | h2
                · cases e; exact Or.inl h1
                · exact Or.inr (Or.inl ⟨n, h1, h2, h3⟩)
              · exact Or.inr (Or.inr ⟨n, ms, h1, (List.mem_cons.1 h2).resolve_left (by simp), h3⟩)
          · intro hnd hx
            simp only [List.map_cons, List.nodup_cons] at hnd
            rw [List.nodup_cons]
            refine ⟨?_, b3 hnd.2 (fun n hm => hx n (List.mem_cons_of_mem _ hm))⟩
            intro hmem
            rcases (b2 _).1 hmem with ⟨n, h1, h2, _⟩ | ⟨n, ms', h1, h2, _⟩
            · apply hnd.1
              simp only [List.cons.injEq] at h1
              rw [h1.1, List.mem_map]
              exact ⟨_, h2, rfl⟩
            · apply hnd.1
              simp only [List.cons.injEq] at h1
              rw [h1.1, List.mem_map]
              exact ⟨_, h2, rfl⟩
        · rw [if_neg hm] at h
          obtain ⟨L2, b1, b2, b3⟩ := ih _ out hsub' h
          refine ⟨L2, b1, ?_, ?_⟩
          · intro ns
            rw [b2 ns]
            constructor
            · rintro (⟨n, h1, h2, h3⟩ | ⟨n, ms, h1, h2, h3⟩)
              · exact Or.inl ⟨n, h1, List.mem_cons_of_mem _ h2, h3⟩
              · exact Or.inr ⟨n, ms, h1, List.mem_cons_of_mem _ h2, h3⟩
            · rintro (⟨n, h1, h2, h3⟩ | ⟨n, ms, h1, h2, h3⟩)
              · rcases List.mem_cons.1 h2 with e | h2
                · cases e; exact absurd ((filtered_iff _ _).2 h3) hm
                · exact Or.inl ⟨n, h1, h2, h3⟩
              · exact Or.inr ⟨n, ms, h1, (List.mem_cons.1 h2).resolve_left (by simp), h3⟩
          · intro hnd hx
            simp only [List.map_cons, List.nodup_cons] at hnd
            exact b3 hnd.2 (fun n hm => hx n (List.mem_cons_of_mem _ hm))

theorem DirAt.trans {fs d x y} (h1 : DirAt fs d x) (h2 : DirAt fs x y) : DirAt fs d y := by
  induction h2 with
  | here => exact h1
  | sub _ hm ih => exact .sub ih hm

/-- C41: a scan that ends keeps the files found before and appends exactly the files below the directory whose name
contains one of the filters (all files without filters), each with its full path, and each once when no directory lists
a name twice. `Plain`: the directory, and every directory below, has a name not ending in a quote or backslash; missing
for the full statement are the other names (see the violations). -/
theorem scan_partial (fs : FS) (filters : List Text) : ∀ (n : Nat) (d : Text) (files out : List Text),
    (∀ x, DirAt fs d x → Plain x) → scan fs filters n d files = some out →
    ∃ L : List (List Text), out = files ++ L.map (path d) ∧
      (∀ ns, ns ∈ L ↔ FileAt fs d ns ∧ ∃ name, ns.getLast? = some name ∧ Matches filters name) ∧
      ((∀ x, DirAt fs d x → ((entries fs x).map (·.1)).Nodup) → L.Nodup) := by
  intro n
  induction n with
  | zero => intro d files out _ h; cases h
  | succ n ih =>
    intro d files out hp h
    simp only [scan] at h
    rw [prepare_plain (hp d .here)] at h
    cases hfs : fs (d ++ [slash] ++ dot) with
    | none =>
      rw [hfs] at h
      simp only [Option.some.injEq] at h
      have he : entries fs d = [] := by unfold entries; rw [show here = dot from rfl, hfs]; rfl
      refine ⟨[], by simp [h], ?_, fun _ => List.nodup_nil⟩
      intro ns
      simp only [List.not_mem_nil, false_iff, not_and]
      intro hf
      rw [fileAt_iff, he] at hf
      simp at hf
    | some es =>
      rw [hfs] at h
      simp only at h
      have he : entries fs d = es.filter (fun e => e.1 ≠ dot ∧ e.1 ≠ dotdot) := by unfold entries; rw [show here = dot from rfl, hfs]; rfl
      obtain ⟨L, h1, h2, h3⟩ := loop_spec fs filters d (scan fs filters n) es files out (by
        intro m hm fl o ho
        rw [← he] at hm
        exact ih _ fl o (fun x hx => hp x (DirAt.trans (.sub .here hm) hx)) ho) h
      refine ⟨L, h1, ?_, ?_⟩
      · intro ns
        rw [h2 ns, fileAt_iff, ← he]
        constructor
        · rintro (⟨m, rfl, g1, g2⟩ | ⟨m, ms, rfl, g1, g2, k, g3, g4⟩)
          · exact ⟨Or.inl ⟨m, rfl, g1⟩, m, rfl, g2⟩
          · refine ⟨Or.inr ⟨m, ms, rfl, g1, g2⟩, k, ?_, g4⟩
            rw [List.getLast?_cons_of_ne_nil (fileAt_ne_nil g2)]; exact g3
        · rintro ⟨⟨m, rfl, g1⟩ | ⟨m, ms, rfl, g1, g2⟩, k, g3, g4⟩
          · simp only [List.getLast?_singleton, Option.some.injEq] at g3
            subst g3
            exact Or.inl ⟨m, rfl, g1, g4⟩
          · rw [List.getLast?_cons_of_ne_nil (fileAt_ne_nil g2)] at g3
            exact Or.inr ⟨m, ms, rfl, g1, g2, k, g3, g4⟩
      · intro hx
        refine h3 ?_ ?_
        · rw [← he]; exact hx d .here
        · intro m hm x hdx
          rw [← he] at hm
          exact hx x (DirAt.trans (.sub .here hm) hdx)

/-- Names of distinct files give distinct paths when no name contains a slash. -/
theorem path_inj (d : Text) : ∀ ns ms : List Text, (∀ n ∈ ns, slash ∉ n) → (∀ m ∈ ms, slash ∉ m) → path d ns = path d ms → ns = ms := by
  have key : ∀ ns ms : List Text, (∀ n ∈ ns, slash ∉ n) → (∀ m ∈ ms, slash ∉ m) →
      ns.flatMap (fun n => slash :: n) = ms.flatMap (fun n => slash :: n) → ns = ms := by
    have split : ∀ (a b x y : Text), slash ∉ a → slash ∉ b → (x = [] ∨ x.head? = some slash) → (y = [] ∨ y.head? = some slash) →
        a ++ x = b ++ y → a = b ∧ x = y := by
      intro a
      induction a with
      | nil =>
        intro b x y _ hb hx hy h
        cases b with
        | nil => exact ⟨rfl, h⟩
        | cons c b =>
          simp only [List.nil_append, List.cons_append] at h
          rw [h] at hx
          simp at hx
          simp [hx] at hb
      | cons c a ih =>
        intro b x y ha hb hx hy h
        cases b with
        | nil =>
          simp only [List.nil_append, List.cons_append] at h
          rw [← h] at hy
          simp at hy
          simp [hy] at ha
        | cons e b =>
          simp only [List.cons_append, List.cons.injEq] at h
          obtain ⟨rfl, h⟩ := h
          simp only [List.mem_cons, not_or] at ha hb
          have := ih b x y ha.2 hb.2 hx hy h
          exact ⟨by rw [this.1], this.2⟩
    have hh : ∀ ms : List Text, ms.flatMap (fun n => slash :: n) = [] ∨ (ms.flatMap (fun n => slash :: n)).head? = some slash := by
      intro ms; cases ms <;> simp
    intro ns
    induction ns with
    | nil =>
      intro ms _ _ h
      cases ms with
      | nil => rfl
      | cons m ms => simp at h
    | cons n ns ih =>
      intro ms hn hm h
      cases ms with
      | nil => simp at h
      | cons m ms =>
        simp only [List.flatMap_cons, List.cons_append, List.cons.injEq, true_and] at h
        obtain ⟨rfl, h2⟩ := split n m _ _ (hn n (by simp)) (hm m (by simp)) (hh ns) (hh ms) h
        rw [ih ms (fun x hx => hn x (by simp [hx])) (fun x hx => hm x (by simp [hx])) h2]
  intro ns ms hn hm h
  exact key ns ms hn hm (List.append_cancel_left h)

/-! ### Non-vacuity: directory `d` with file `a` and directory `s` with files `b`, `ab` -/

def exFS : FS := fun p =>
  if p = [0x64#8, 0x2f#8, 0x2e#8] then some [(here, true), (up, true), ([0x61#8], false), ([0x73#8], true)]
  else if p = [0x64#8, 0x2f#8, 0x73#8, 0x2f#8, 0x2e#8] then some [(here, true), (up, true), ([0x62#8], false), ([0x61#8, 0x62#8], false)]
  else none

example : scan exFS [[0x61#8]] 3 [0x64#8] [[0x7a#8]] =
    some [[0x7a#8], [0x64#8, 0x2f#8, 0x61#8], [0x64#8, 0x2f#8, 0x73#8, 0x2f#8, 0x61#8, 0x62#8]] := by decide +kernel

example : ∀ x, DirAt exFS [0x64#8] x → Plain x := by
  intro x h
  have : x = [0x64#8] ∨ x = [0x64#8, 0x2f#8, 0x73#8] := by
    induction h with
    | here => exact Or.inl rfl
    | sub _ hm ih =>
      rename_i x n _
      rcases ih with rfl | rfl
      · have : entries exFS [0x64#8] = [([0x61#8], false), ([0x73#8], true)] := by decide +kernel
        rw [this] at hm
        simp at hm
        subst hm
        exact Or.inr rfl
      · have : entries exFS [0x64#8, 0x2f#8, 0x73#8] = [([0x62#8], false), ([0x61#8, 0x62#8], false)] := by decide +kernel
        rw [this] at hm
        simp at hm
  rcases this with rfl | rfl
  · exact ⟨0x64#8, rfl, by decide, by decide, by decide⟩
  · exact ⟨0x73#8, rfl, by decide, by decide, by decide⟩

/-! ### Where the full statement fails -/

/-- A directory whose name ends in a quote (`q"`) is skipped, and a sibling `q` is listed twice instead. -/
theorem quoted_dir_violated : ∃ fs : FS,
    FileAt fs [0x64#8] [[0x71#8, 0x22#8], [0x61#8]] ∧
    scan fs [] 3 [0x64#8] [] = some [[0x64#8, 0x2f#8, 0x71#8, 0x2f#8, 0x62#8], [0x64#8, 0x2f#8, 0x71#8, 0x2f#8, 0x62#8]] := by
  refine ⟨fun p => if p = [0x64#8, 0x2f#8, 0x2e#8] then some [([0x71#8], true), ([0x71#8, 0x22#8], true)]
    else if p = [0x64#8, 0x2f#8, 0x71#8, 0x2f#8, 0x2e#8] then some [([0x62#8], false)]
    else if p = [0x64#8, 0x2f#8, 0x71#8, 0x22#8, 0x2f#8, 0x2e#8] then some [([0x61#8], false)] else none, ?_, by decide +kernel⟩
  exact .dir (by decide +kernel) (.file (by decide +kernel))

/-- A directory whose name ends in a backslash is opened under another name and its files are missed. -/
theorem backslash_dir_violated : ∃ fs : FS,
    FileAt fs [0x64#8] [[0x71#8, 0x5c#8], [0x61#8]] ∧ scan fs [] 3 [0x64#8] [] = some [] := by
  refine ⟨fun p => if p = [0x64#8, 0x2f#8, 0x2e#8] then some [([0x71#8, 0x5c#8], true)]
    else if p = [0x64#8, 0x2f#8, 0x71#8, 0x5c#8, 0x2f#8, 0x2e#8] then some [([0x61#8], false)] else none, ?_, by decide +kernel⟩
  exact .dir (by decide +kernel) (.file (by decide +kernel))

end PreCore.DirScan
