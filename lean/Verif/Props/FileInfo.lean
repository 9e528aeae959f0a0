import Verif.Model.FileInfo
/-!
# C16, C17: file paths
-/
namespace PreCore.FileInfo

/-- Specification of normalisation: backslashes become slashes, everything else stays. -/
def Normalised (p q : List Byte) : Prop :=
  q.length = p.length ∧ ∀ i : Nat, q[i]? = (p[i]?).map (fun c => if c = 0x5c#8 then 0x2f#8 else c)

theorem normalise_spec (p : List Byte) : Normalised p (normalise p) := by
  refine ⟨by simp [normalise], fun i => ?_⟩
  rw [normalise, List.getElem?_map]; rfl

theorem slice_append (s : List Byte) (a b c : Nat) (h1 : a ≤ b) (h2 : b ≤ c) :
    (s.take b).drop a ++ (s.take c).drop b = (s.take c).drop a := by
  have e : s.take b = (s.take c).take b := by rw [List.take_take, Nat.min_eq_left h2]
  rw [e]
  generalize s.take c = t
  by_cases hb : b ≤ t.length
  · have := List.drop_append_of_le_length (l₁ := t.take b) (l₂ := t.drop b) (i := a) (by simp; omega)
    rw [← this, List.take_append_drop]
  · rw [List.take_of_length_le (by omega), List.drop_eq_nil_of_le (by omega : t.length ≤ b), List.append_nil]

theorem lastOf_none (c : Byte) : ∀ s, lastOf c s = none ↔ c ∉ s := by
  intro s
  induction s with
  | nil => simp [lastOf]
  | cons x xs ih =>
    simp only [lastOf, List.mem_cons, not_or]
    cases h : lastOf c xs with
    | some i => simp [← ih, h]
    | none =>
      simp only [← ih, h, and_true]
      by_cases e : x = c
      · simp [e]
      · simp [e, Ne.symm e]

theorem lastOf_some (c : Byte) : ∀ s i, lastOf c s = some i ↔
    (s[i]? = some c ∧ ∀ k, i < k → s[k]? ≠ some c) := by
  intro s
  induction s with
  | nil => intro i; simp [lastOf]
  | cons x xs ih =>
    intro i
    simp only [lastOf]
    cases h : lastOf c xs with
    | some j =>
      obtain ⟨h1, h2⟩ := (ih j).1 h
      simp only [Option.some.injEq]
      constructor
      · rintro rfl
        refine ⟨by simpa using h1, fun k hk => ?_⟩
        cases k with
        | zero => omega
        | succ k => simpa using h2 k (by omega)
      · rintro ⟨h3, h4⟩
        cases i with
        | zero => exact absurd (by simpa using h1) (h4 (j + 1) (by omega))
        | succ i =>
          have := (ih i).2 ⟨by simpa using h3, fun k hk => by simpa using h4 (k + 1) (by omega)⟩
          rw [h] at this; cases this; rfl
    | none =>
      have hn := (lastOf_none c xs).1 h
      by_cases e : x = c
      · rw [if_pos e]
        simp only [Option.some.injEq]
        constructor
        · rintro rfl
          refine ⟨by simp [e], fun k hk he => ?_⟩
          cases k with
          | zero => omega
          | succ k => exact hn (List.mem_of_getElem? (by simpa using he))
        · rintro ⟨h3, _⟩
          cases i with
          | zero => rfl
          | succ i => exact absurd (List.mem_of_getElem? (by simpa using h3)) hn
      · rw [if_neg e]
        constructor
        · intro h; cases h
        · rintro ⟨h3, _⟩
          cases i with
          | zero => simp at h3; exact absurd h3 e
          | succ i => exact absurd (List.mem_of_getElem? (by simpa using h3)) hn

/-- A path whose last dot belongs to its last component (or that has no dot): the shape C16 holds for.
`q` is the normalised path. -/
def DotInName (q : List Byte) : Prop :=
  ∀ d, q[d]? = some 0x2e#8 → (∀ k, d < k → q[k]? ≠ some 0x2e#8) → d = 0 ∨ (∀ k, d < k → q[k]? ≠ some 0x2f#8)

theorem lastOf_lt {c : Byte} {s : List Byte} {i : Nat} (h : lastOf c s = some i) : i < s.length := by
  have := ((lastOf_some c s i).1 h).1
  exact (List.getElem?_eq_some_iff.1 this).1

theorem load_bounds (old : Info) (p : List Byte) (hp : p ≠ []) :
    (load old p).fullPath = normalise p ∧ (load old p).endFolder ≤ p.length ∧ (load old p).lastDot ≤ p.length := by
  have hl : (normalise p).length = p.length := by simp [normalise]
  have hp' : p.length ≠ 0 := by simpa using hp
  simp only [load, hp', if_false]
  refine ⟨trivial, ?_, ?_⟩
  · cases h : lastOf slash (normalise p) with
    | none => simp
    | some i => have := lastOf_lt h; simp only; omega
  · split
    · omega
    · omega
    · rename_i i h; have := lastOf_lt h; omega

/-- C16: for every non-empty path, whatever was loaded before, the full path is the normalised input, the folder
is everything up to and including the last '/', and folder ++ filename-with-extension is the whole path, the latter
containing no '/'; likewise path-without-extension ++ extension is the whole path. -/
theorem path_split (old : Info) (p : List Byte) (hp : p ≠ []) :
    ∃ f ne noext ext, folder (load old p) = some f ∧ filenameExt (load old p) = some ne ∧
      fullPathNoExt (load old p) = some noext ∧ extension (load old p) = some ext ∧
      Normalised p (load old p).fullPath ∧
      f ++ ne = (load old p).fullPath ∧ 0x2f#8 ∉ ne ∧ (f = [] ∨ f.getLast? = some 0x2f#8) ∧
      noext ++ ext = (load old p).fullPath ∧ (ext = [] ∨ (ext.head? = some 0x2e#8 ∧ 0x2e#8 ∉ ext.tail)) := by
  obtain ⟨h1, h2, h3⟩ := load_bounds old p hp
  have hl : (normalise p).length = p.length := by simp [normalise]
  have hp' : p.length ≠ 0 := by simpa using hp
  refine ⟨(normalise p).take (load old p).endFolder, (normalise p).drop (load old p).endFolder,
    (normalise p).take (load old p).lastDot, (normalise p).drop (load old p).lastDot, ?_, ?_, ?_, ?_, ?_, ?_, ?_, ?_, ?_, ?_⟩
  · unfold folder range; rw [h1, if_pos (by omega)]; simp
  · unfold filenameExt range; rw [h1, if_pos (by omega)]; simp
  · unfold fullPathNoExt range; rw [h1, if_pos (by omega)]; simp
  · unfold extension range; rw [h1, if_pos (by omega)]; simp
  · rw [h1]; exact normalise_spec p
  · rw [h1]; exact List.take_append_drop _ _
  · intro hm
    obtain ⟨k, hk⟩ := List.mem_iff_getElem?.1 hm
    rw [List.getElem?_drop] at hk
    simp only [load, hp', if_false] at hk
    cases h : lastOf slash (normalise p) with
    | none =>
      rw [h] at hk
      exact (lastOf_none _ _).1 h (List.mem_of_getElem? hk)
    | some i =>
      rw [h] at hk
      exact ((lastOf_some _ _ _).1 h).2 _ (by simp only; omega) hk
  · cases h : lastOf slash (normalise p) with
    | none => left; simp [load, hp', h]
    | some i =>
      right
      have he : (load old p).endFolder = i + 1 := by simp [load, hp', h]
      have hi := ((lastOf_some _ _ _).1 h).1
      have hlt := lastOf_lt h
      rw [he, List.getLast?_eq_getElem?, List.length_take, Nat.min_eq_left (by omega), Nat.add_sub_cancel,
        List.getElem?_take_of_lt (by omega)]
      exact hi
  · rw [h1]; exact List.take_append_drop _ _
  · simp only [load, hp', if_false]
    split
    · left; simp
    · left; simp
    · rename_i i h
      right
      obtain ⟨ha, hb⟩ := (lastOf_some _ _ _).1 h
      refine ⟨by rw [List.head?_drop]; exact ha, fun hm => ?_⟩
      rw [List.tail_drop] at hm
      obtain ⟨k, hk⟩ := List.mem_iff_getElem?.1 hm
      rw [List.getElem?_drop] at hk
      exact hb _ (by omega) hk

/-- C16, partial: folder ++ name ++ extension is the path, provided the last '.' is not in a folder name.
Missing: paths like "a.b/c" (violated below). -/
theorem folder_name_ext_partial (old : Info) (p : List Byte) (hp : p ≠ []) (hd : DotInName (normalise p)) :
    ∃ f n e, folder (load old p) = some f ∧ filename (load old p) = some n ∧ extension (load old p) = some e ∧
      f ++ n ++ e = (load old p).fullPath ∧ 0x2f#8 ∉ n := by
  obtain ⟨f, ne, noext, ext, c1, c2, c3, c4, c5, c6, c7, c8, c9, c10⟩ := path_split old p hp
  obtain ⟨h1, h2, h3⟩ := load_bounds old p hp
  have hl : (normalise p).length = p.length := by simp [normalise]
  have hp' : p.length ≠ 0 := by simpa using hp
  have hle : (load old p).endFolder ≤ (load old p).lastDot := by
    simp only [load, hp', if_false]
    split
    · rename_i i h
      have hi := lastOf_lt h
      split
      · omega
      · omega
      · rename_i j hj
        obtain ⟨ha, hb⟩ := (lastOf_some _ _ _).1 hj
        rcases hd _ ha hb with h0 | h0
        · omega
        · have := ((lastOf_some _ _ _).1 h).1
          by_cases hji : j + 1 < i
          · exact absurd this (h0 i hji)
          · have : i ≠ j + 1 := by
              rintro rfl
              rw [ha] at this
              exact absurd this (by decide)
            omega
    · omega
  have hr : ∀ a b : Nat, a ≤ b → b ≤ p.length → range (load old p).fullPath a b =
      some (((normalise p).take b).drop a) := by
    intro a b ha hb
    unfold range; rw [h1, if_pos (by omega)]
  refine ⟨((normalise p).take (load old p).endFolder).drop 0,
    ((normalise p).take (load old p).lastDot).drop (load old p).endFolder,
    ((normalise p).take p.length).drop (load old p).lastDot, hr _ _ (by omega) h2, hr _ _ hle h3, ?_, ?_, ?_⟩
  · have : (load old p).fullPath.length = p.length := by rw [h1, hl]
    unfold extension; rw [this]; exact hr _ _ h3 (Nat.le_refl _)
  · rw [h1, List.drop_zero, List.take_of_length_le (by omega : (normalise p).length ≤ p.length)]
    have e1 := slice_append (normalise p) _ _ _ hle h3
    rw [List.take_of_length_le (by omega : (normalise p).length ≤ p.length)] at e1
    rw [List.append_assoc, e1, List.take_append_drop]
  · intro hm
    apply c7
    rw [filenameExt, show (load old p).fullPath.length = p.length by rw [h1, hl],
      hr _ _ h2 (Nat.le_refl _)] at c2
    cases c2
    rw [List.take_of_length_le (by omega : (normalise p).length ≤ p.length)]
    rw [List.drop_take] at hm
    exact List.mem_of_mem_take hm

example : DotInName (normalise [0x61#8, 0x5c#8, 0x62#8, 0x2e#8, 0x63#8]) := by
  intro d _ _
  right
  intro k hk h2
  have hk2 := (List.getElem?_eq_some_iff.1 h2).1
  have h5 : k < 5 := by simpa [normalise] using hk2
  have : d = 0 := by
    have h1 : k = 1 ∨ k ≠ 1 := by omega
    rcases h1 with h | h
    · omega
    · have : k = 2 ∨ k = 3 ∨ k = 4 := by omega
      rcases this with rfl | rfl | rfl <;> exact absurd h2 (by decide)
  subst this
  rename_i h _
  exact absurd h (by decide)

/-- C16 is violated: for every path whose last '.' is inside a folder name ("a.b/c"), the file name would have a
negative length: `GetFilename` forms an invalid range. -/
theorem dot_in_folder_violated (old : Info) (p : List Byte) (hp : p ≠ []) (d k : Nat) (hd0 : d ≠ 0)
    (hd : (normalise p)[d]? = some 0x2e#8) (hlast : ∀ j, d < j → (normalise p)[j]? ≠ some 0x2e#8)
    (hk : d < k) (hs : (normalise p)[k]? = some 0x2f#8) : filename (load old p) = none := by
  obtain ⟨h1, h2, h3⟩ := load_bounds old p hp
  have hp' : p.length ≠ 0 := by simpa using hp
  have e1 : lastOf dot (normalise p) = some d := (lastOf_some _ _ _).2 ⟨hd, hlast⟩
  have e2 : ∃ i, lastOf slash (normalise p) = some i ∧ k ≤ i := by
    cases h : lastOf slash (normalise p) with
    | none => exact absurd (List.mem_of_getElem? hs) ((lastOf_none _ _).1 h)
    | some i =>
      refine ⟨i, rfl, ?_⟩
      by_cases hki : k ≤ i
      · exact hki
      · exact absurd hs (((lastOf_some _ _ _).1 h).2 k (by omega))
  obtain ⟨i, e2, hi⟩ := e2
  unfold filename range
  obtain ⟨d', rfl⟩ : ∃ d', d = d' + 1 := ⟨d - 1, by omega⟩
  simp only [load, hp', if_false, e1, e2]
  rw [if_neg (by omega)]

example : filename (load ⟨[], 0, 0⟩ [0x61#8, 0x2e#8, 0x62#8, 0x2f#8, 0x63#8]) = none := by decide

/-- C16 is violated: loading an empty path does not forget the old one: the indices of "a/b" stay. -/
theorem reload_empty_violated :
    (load (load ⟨[], 0, 0⟩ [0x61#8, 0x2f#8, 0x62#8]) []).endFolder = 2 ∧
    folder (load (load ⟨[], 0, 0⟩ [0x61#8, 0x2f#8, 0x62#8]) []) = none := by decide

/-! ## C17 -/

/-- Specification: joining components with '/'. -/
def join : List (List Byte) → List Byte
  | [] => []
  | [x] => x
  | x :: xs => x ++ 0x2f#8 :: join xs

/-- Components of the loop, given that no '/' lies in `[last, c)`: they join (each followed by '/') to
`s[last .. last')`, are free of '/', and so is the rest `s[last' ..]`. -/
theorem explodeLoop_spec (s : List Byte) : ∀ f c last, c + f = s.length → last ≤ c →
    (∀ k, last ≤ k → k < c → s[k]? ≠ some slash) →
    let r := explodeLoop s f c last
    last ≤ r.2 ∧ r.2 ≤ s.length ∧ (r.1.flatMap (fun x => x ++ [slash])) = (s.take r.2).drop last ∧
    (∀ x ∈ r.1, slash ∉ x) ∧ slash ∉ s.drop r.2 := by
  intro f
  induction f with
  | zero =>
    intro c last hc hl hn
    simp only [explodeLoop]
    refine ⟨Nat.le_refl _, by omega, by simp, by simp, ?_⟩
    intro hm
    obtain ⟨k, hk⟩ := List.mem_iff_getElem?.1 hm
    rw [List.getElem?_drop] at hk
    have := (List.getElem?_eq_some_iff.1 hk).1
    exact hn _ (by omega) (by omega) hk
  | succ f ih =>
    intro c last hc hl hn
    simp only [explodeLoop]
    by_cases h : s[c]? = some slash
    · rw [if_pos h]
      obtain ⟨i1, i2, i3, i4, i5⟩ := ih (c + 1) (c + 1) (by omega) (Nat.le_refl _) (fun k h1 h2 => by omega)
      simp only
      refine ⟨by omega, i2, ?_, ?_, i5⟩
      · rw [List.flatMap_cons, i3]
        have hcl : c < s.length := by omega
        have hge : s[c] = slash := by rw [List.getElem?_eq_getElem hcl] at h; simpa using h
        rw [← slice_append s last (c + 1) _ (by omega) i1]
        congr 1
        rw [List.take_add_one, h]
        simp only [Option.toList]
        rw [List.drop_append_of_le_length (by simp; omega)]
      · intro x hx
        rcases List.mem_cons.1 hx with rfl | hx
        · intro hm
          obtain ⟨k, hk⟩ := List.mem_iff_getElem?.1 hm
          rw [List.getElem?_drop] at hk
          by_cases hk2 : last + k < c
          · rw [List.getElem?_take_of_lt hk2] at hk
            exact hn _ (by omega) hk2 hk
          · rw [List.getElem?_eq_none (by simp; omega)] at hk; cases hk
        · exact i4 x hx
    · rw [if_neg h]
      exact ih (c + 1) last (by omega) (by omega) (fun k h1 h2 => by
        by_cases e : k = c
        · subst e; exact h
        · exact hn k h1 (by omega))

theorem join_flat (xs : List (List Byte)) (y : List Byte) :
    join (xs ++ [y]) = xs.flatMap (fun x => x ++ [slash]) ++ y := by
  induction xs with
  | nil => simp [join]
  | cons x xs ih =>
    have : ∀ z : List (List Byte), z ≠ [] → join (x :: z) = x ++ 0x2f#8 :: join z := by
      intro z hz; cases z with
      | nil => exact absurd rfl hz
      | cons => rfl
    rw [List.cons_append, this _ (by simp), ih, List.flatMap_cons]
    simp [slash]

theorem join_flat' (xs : List (List Byte)) (h : xs ≠ []) :
    join xs ++ [slash] = xs.flatMap (fun x => x ++ [slash]) := by
  obtain ⟨ys, y, rfl⟩ := List.eq_nil_or_concat xs |>.resolve_left h
  rw [List.concat_eq_append, join_flat]
  simp

/-- C17: for every non-empty loaded path the exploded components contain no '/', and joined with '/' they give the
path back up to one leading and one trailing '/'; the leading one is dropped exactly when the path starts with '/',
and the trailing one only if the path ends with '/'. -/
theorem explode_join (old : Info) (p : List Byte) (hp : p ≠ []) :
    ∃ xs lead trail, explode (load old p) = some xs ∧ (∀ x ∈ xs, 0x2f#8 ∉ x) ∧
      (load old p).fullPath = lead ++ join xs ++ trail ∧
      (lead = [0x2f#8] ∧ (load old p).fullPath.head? = some 0x2f#8 ∨
        lead = [] ∧ (load old p).fullPath.head? ≠ some 0x2f#8) ∧
      (trail = [] ∨ trail = [0x2f#8]) := by
  obtain ⟨h1, _, _⟩ := load_bounds old p hp
  have hl : (normalise p).length = p.length := by simp [normalise]
  have hp' : p.length ≠ 0 := by simpa using hp
  unfold explode
  rw [h1]
  generalize hs : normalise p = s at *
  simp only [hl, hp', if_false]
  by_cases h0 : s[0]? = some slash
  · simp only [h0, if_true]
    obtain ⟨i1, i2, i3, i4, i5⟩ := explodeLoop_spec s (p.length - 1) 1 1 (by omega) (Nat.le_refl _)
      (fun k h1 h2 => by omega)
    have hs0 : s.take 1 = [slash] := by
      rw [List.take_one, List.head?_eq_getElem?, h0]; rfl
    have hd1 : s = [slash] ++ s.drop 1 := by
      conv => lhs; rw [← List.take_append_drop 1 s]
      rw [hs0]
    have hh : s.head? = some 0x2f#8 := by rw [List.head?_eq_getElem?]; exact h0
    by_cases hr : (explodeLoop s (p.length - 1) 1 1).2 ≠ p.length
    · refine ⟨_, [slash], [], rfl, ?_, ?_, Or.inl ⟨rfl, hh⟩, Or.inl rfl⟩
      · rw [if_pos hr]
        intro x hx
        rcases List.mem_append.1 hx with hx | hx
        · exact i4 x hx
        · rw [List.mem_singleton.1 hx]; exact i5
      · rw [if_pos hr, join_flat, i3, List.append_nil, ← List.drop_append_of_le_length (by simp; omega),
          List.take_append_drop]
        exact hd1
    · have hr' : (explodeLoop s (p.length - 1) 1 1).2 = s.length := by simp at hr; omega
      rw [if_neg hr]
      rw [hr', List.take_length] at i3
      by_cases hx : (explodeLoop s (p.length - 1) 1 1).1 = []
      · refine ⟨_, [slash], [], rfl, i4, ?_, Or.inl ⟨rfl, hh⟩, Or.inl rfl⟩
        rw [hx] at i3 ⊢
        simp only [join, List.append_nil]
        rw [← show List.flatMap (fun x => x ++ [slash]) [] = List.drop 1 s from i3] at hd1
        simpa using hd1
      · refine ⟨_, [slash], [slash], rfl, i4, ?_, Or.inl ⟨rfl, hh⟩, Or.inr rfl⟩
        rw [List.append_assoc, join_flat' _ hx, i3]
        exact hd1
  · simp only [h0, if_false]
    have hh : s.head? ≠ some 0x2f#8 := by rw [List.head?_eq_getElem?]; exact h0
    obtain ⟨i1, i2, i3, i4, i5⟩ := explodeLoop_spec s (p.length - 1) 1 0 (by omega) (by omega)
      (fun k h1 h2 => by
        have : k = 0 := by omega
        subst this; exact h0)
    rw [List.drop_zero] at i3
    by_cases hr : (explodeLoop s (p.length - 1) 1 0).2 ≠ p.length
    · refine ⟨_, [], [], rfl, ?_, ?_, Or.inr ⟨rfl, hh⟩, Or.inl rfl⟩
      · rw [if_pos hr]
        intro x hx
        rcases List.mem_append.1 hx with hx | hx
        · exact i4 x hx
        · rw [List.mem_singleton.1 hx]; exact i5
      · rw [if_pos hr, join_flat, i3, List.append_nil, List.take_append_drop]; rfl
    · have hr' : (explodeLoop s (p.length - 1) 1 0).2 = s.length := by simp at hr; omega
      rw [if_neg hr]
      rw [hr', List.take_length] at i3
      by_cases hx : (explodeLoop s (p.length - 1) 1 0).1 = []
      · rw [hx] at i3
        have : s.length = 0 := by rw [← i3]; rfl
        omega
      · refine ⟨_, [], [slash], rfl, i4, ?_, Or.inr ⟨rfl, hh⟩, Or.inr rfl⟩
        rw [List.nil_append, join_flat' _ hx, i3]

example : explode (load ⟨[], 0, 0⟩ [0x2f#8, 0x61#8, 0x5c#8, 0x62#8, 0x2f#8]) = some [[0x61#8], [0x62#8]] := by decide

/-- C17: exploding the empty path is undefined (`std::prev` of `end()` of an empty string). -/
theorem explode_empty_ub (old : Info) : explode (load old []) = none := by
  simp [explode, load]

end PreCore.FileInfo
