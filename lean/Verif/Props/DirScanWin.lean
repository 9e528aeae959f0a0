import Verif.Model.DirScanWin
import Verif.Props.DirScan
import Mathlib.Tactic.Push
import Mathlib.Tactic.ByContra
/-!
# C152: directory scanning on Windows, and when a scan ends
-/
namespace PreCore.DirScan

/-! ## When a scan ends (both hosts) -/

theorem loop_ends {sub : Text → List Text → Option (List Text)} {filters : List Text} {dir : Text} :
    ∀ (es : List (Text × Bool)) (files : List Text),
      (∀ m, (m, true) ∈ es → m ≠ dot → m ≠ dotdot → ∀ fl, (sub (dir.dropLast ++ m) fl).isSome = true) →
      (loop sub filters dir es files).isSome = true
  | [], files, _ => rfl
  | (name, isDir) :: es, files, h => by
    have ih : ∀ fl, (loop sub filters dir es fl).isSome = true :=
      fun fl => loop_ends es fl (fun m hm => h m (List.mem_cons_of_mem _ hm))
    simp only [loop]
    split
    · exact ih _
    · rename_i hn
      push Not at hn
      split
      · rename_i hd
        subst hd
        have := h name (List.mem_cons_self) hn.1 hn.2 files
        obtain ⟨o, ho⟩ := Option.isSome_iff_exists.mp this
        rw [ho, Option.bind_some]; exact ih _
      · split <;> exact ih _

/-- A scan ends when the folders are nested to a finite depth: `rank` decreases from every folder to the folders in it. -/
theorem scan_ends (fs : FS) (filters : List Text) (rank : Text → Nat) : ∀ (n : Nat) (d : Text) (files : List Text),
    (∀ x, DirAt fs d x → Plain x) →
    (∀ x m, DirAt fs d x → (m, true) ∈ entries fs x → rank (x ++ [slash] ++ m) < rank x) →
    rank d < n → (scan fs filters n d files).isSome = true := by
  intro n
  induction n with
  | zero => intro d files _ _ h; omega
  | succ n ih =>
    intro d files hp hr hn
    simp only [scan]
    rw [prepare_plain (hp d .here)]
    cases hfs : fs (d ++ [slash] ++ dot) with
    | none => rfl
    | some es =>
      simp only
      apply loop_ends
      intro m hm h1 h2 fl
      have hmem : (m, true) ∈ entries fs d := by
        unfold entries
        rw [show here = dot from rfl, hfs]
        simp only [Option.getD_some, List.mem_filter]
        exact ⟨hm, by simpa using ⟨h1, h2⟩⟩
      have hd : ((d ++ [slash]) ++ dot).dropLast ++ m = d ++ [slash] ++ m := by
        rw [show dot = [0x2e#8] from rfl, List.dropLast_concat]
      rw [hd]
      apply ih
      · exact fun x hx => hp x (DirAt.trans (.sub .here hmem) hx)
      · exact fun x m' hx hm' => hr x m' (DirAt.trans (.sub .here hmem) hx) hm'
      · have := hr d m .here hmem; omega

/-- The example tree has depth 2. -/
example : (scan exFS [] 3 [0x64#8] []).isSome = true := by decide +kernel

end PreCore.DirScan

namespace PreCore.DirScanWin
open PreCore PreCore.DirScan

/-! ## Specification -/

/-- The pattern for any name, `*`. -/
def anyName : Text := [0x2a#8]

theorem star_eq : star = anyName := rfl

/-- What a folder of the host contains: everything found, without `.`, `..` and devices. -/
def contents (w : WFS) (d : Text) : List Found :=
  match w (d ++ [slash] ++ anyName) with
  | none => []
  | some (first, rest) => (first :: rest).filter (fun f => f.name ≠ here ∧ f.name ≠ up ∧ f.isDevice = false)

/-- Following the names `ns` below folder `d` there is a file. -/
inductive WFileAt (w : WFS) : Text → List Text → Prop
  | file {d f} : f ∈ contents w d → f.isDirectory = false → WFileAt w d [f.name]
  | dir {d f ns} : f ∈ contents w d → f.isDirectory = true → WFileAt w (d ++ [slash] ++ f.name) ns → WFileAt w d (f.name :: ns)

/-- `x` is `d` or a folder somewhere below. -/
inductive WDirAt (w : WFS) (d : Text) : Text → Prop
  | here : WDirAt w d d
  | sub {x f} : WDirAt w d x → f ∈ contents w x → f.isDirectory = true → WDirAt w d (x ++ [slash] ++ f.name)

theorem bit_test (x : BitVec 32) (k : Nat) (m : BitVec 32) (hm : ∀ i : Fin 32, m.getLsbD i = decide (i.val = k)) (hk : k < 32) :
    decide (x &&& m ≠ 0#32) = x.getLsbD k := by
  rw [Bool.eq_iff_iff, decide_eq_true_iff]
  constructor
  · intro h
    by_contra hc
    apply h
    apply BitVec.eq_of_getLsbD_eq
    intro i hi
    rw [BitVec.getLsbD_and, hm ⟨i, hi⟩]
    by_cases h4 : i = k
    · subst h4; simp only [Bool.not_eq_true] at hc; rw [hc]; simp
    · simp [h4]
  · intro h hc
    have := congrArg (BitVec.getLsbD · k) hc
    simp only [BitVec.getLsbD_and, h, hm ⟨k, hk⟩, decide_true, Bool.and_true, BitVec.getLsbD_zero, Bool.true_eq_false] at this

/-- Bit 6 of the attributes marks a device, bit 4 a folder. -/
theorem attr_bits (f : Found) : f.isDevice = f.attrs.getLsbD 6 ∧ f.isDirectory = f.attrs.getLsbD 4 :=
  ⟨bit_test f.attrs 6 0x40#32 (by decide) (by decide), bit_test f.attrs 4 0x10#32 (by decide) (by decide)⟩

/-! ## The Windows scan is a POSIX scan of a smaller file system -/

/-- What the loop sees of a list of finds. -/
def seen (fs : List Found) : List (Text × Bool) := (fs.filter (fun f => !f.isDevice)).map (fun f => (f.name, f.isDirectory))

/-- The file system without the first find of every folder and without devices. -/
def view (w : WFS) : FS := fun p => (w (p.dropLast ++ anyName)).map (fun r => seen r.2)

theorem loopW_eq (subW sub : Text → List Text → Option (List Text)) (filters : List Text) (p : Text) (hs : ∀ d fl, subW d fl = sub d fl) :
    ∀ (es : List Found) (files : List Text),
      loopW subW filters (p ++ anyName) es files = loop sub filters (p ++ dot) (seen es) files
  | [], files => rfl
  | f :: es, files => by
    have ih := loopW_eq subW sub filters p hs es
    have hd1 : (p ++ anyName).dropLast = p := List.dropLast_concat
    have hd2 : (p ++ dot).dropLast = p := List.dropLast_concat
    cases hdev : f.isDevice
    · have hseen : seen (f :: es) = (f.name, f.isDirectory) :: seen es := by simp [seen, hdev]
      rw [hseen]
      simp only [loopW, loop, hdev, Bool.false_eq_true, or_false, hd1, hd2]
      by_cases hn : f.name = dot ∨ f.name = dotdot
      · rw [if_pos hn, if_pos hn, ih]
      · rw [if_neg hn, if_neg hn]
        cases hdir : f.isDirectory
        · simp only [Bool.false_eq_true, if_false]
          split <;> rw [ih]
        · simp only [if_true]
          rw [hs]
          congr 1
          funext x; exact ih x
    · have hseen : seen (f :: es) = seen es := by simp [seen, hdev]
      rw [hseen, ← ih]
      simp [loopW, hdev]

theorem scanW_view (w : WFS) (filters : List Text) : ∀ (n : Nat) (d : Text) (files : List Text),
    scanW w filters n d files = scan (view w) filters n d files := by
  intro n
  induction n with
  | zero => intro d files; rfl
  | succ n ih =>
    intro d files
    simp only [scanW, scan, view, star_eq]
    rw [show (prepare d ++ dot).dropLast = prepare d from List.dropLast_concat]
    cases hw : w (prepare d ++ anyName) with
    | none => rfl
    | some r =>
      obtain ⟨first, rest⟩ := r
      simp only [Option.map_some]
      exact loopW_eq _ _ filters (prepare d) (fun d fl => ih d fl) rest files

theorem view_entries (w : WFS) (d : Text) (first : Found) (rest : List Found) (h : w (d ++ [slash] ++ anyName) = some (first, rest)) :
    entries (view w) d = (rest.filter (fun f => f.name ≠ here ∧ f.name ≠ up ∧ f.isDevice = false)).map (fun f => (f.name, f.isDirectory)) := by
  unfold entries view
  rw [show (d ++ [slash] ++ here).dropLast = d ++ [slash] from List.dropLast_concat, h]
  simp only [Option.map_some, Option.getD_some, seen, List.filter_map, List.filter_filter]
  congr 1
  apply List.filter_congr
  intro f _
  by_cases h1 : f.name = here <;> by_cases h2 : f.name = up <;> cases f.isDevice <;> simp [h1, h2]

/-- In every folder below `d` the host finds `.` (or another entry the scan ignores) first. -/
def DotFirst (w : WFS) (d : Text) : Prop :=
  ∀ x, WDirAt w d x → ∀ first rest, w (x ++ [slash] ++ anyName) = some (first, rest) →
    first.name = here ∨ first.name = up ∨ first.isDevice = true

theorem view_contents (w : WFS) (d : Text)
    (h : ∀ first rest, w (d ++ [slash] ++ anyName) = some (first, rest) → first.name = here ∨ first.name = up ∨ first.isDevice = true) :
    entries (view w) d = (contents w d).map (fun f => (f.name, f.isDirectory)) := by
  cases hw : w (d ++ [slash] ++ anyName) with
  | none =>
    simp only [contents, hw, List.map_nil]
    unfold entries view
    rw [show (d ++ [slash] ++ here).dropLast = d ++ [slash] from List.dropLast_concat, hw]; rfl
  | some r =>
    obtain ⟨first, rest⟩ := r
    rw [view_entries w d first rest hw]
    simp only [contents, hw]
    rw [List.filter_cons_of_neg]
    rcases h first rest hw with h | h | h <;> simp [h]

theorem dirAt_view {w : WFS} {d : Text} (hf : DotFirst w d) (x : Text) : DirAt (view w) d x ↔ WDirAt w d x := by
  constructor
  · intro h
    induction h with
    | here => exact .here
    | sub _ hm ih =>
      rw [view_contents w _ (hf _ ih)] at hm
      obtain ⟨f, h1, h2⟩ := List.mem_map.mp hm
      simp only [Prod.mk.injEq] at h2
      rw [← h2.1]
      exact .sub ih h1 h2.2
  · intro h
    induction h with
    | here => exact .here
    | sub hx hm hd ih =>
      refine .sub ih ?_
      rw [view_contents w _ (hf _ hx)]
      exact List.mem_map.mpr ⟨_, hm, by rw [hd]⟩

theorem WDirAt.trans {w : WFS} {d x y : Text} (h1 : WDirAt w d x) (h2 : WDirAt w x y) : WDirAt w d y := by
  induction h2 with
  | here => exact h1
  | sub _ hm hd ih => exact .sub ih hm hd

theorem DotFirst.below {w : WFS} {d x : Text} (h : DotFirst w d) (hx : WDirAt w d x) : DotFirst w x :=
  fun y hy => h y (hx.trans hy)

theorem fileAt_view {w : WFS} : ∀ {d : Text}, DotFirst w d → ∀ ns, FileAt (view w) d ns ↔ WFileAt w d ns := by
  intro d hf ns
  constructor
  · intro h
    induction h with
    | file hm =>
      rw [view_contents w _ (hf _ .here)] at hm
      obtain ⟨f, h1, h2⟩ := List.mem_map.mp hm
      simp only [Prod.mk.injEq] at h2
      rw [← h2.1]; exact .file h1 h2.2
    | dir hm _ ih =>
      rw [view_contents w _ (hf _ .here)] at hm
      obtain ⟨f, h1, h2⟩ := List.mem_map.mp hm
      simp only [Prod.mk.injEq] at h2
      obtain ⟨h2, h3⟩ := h2
      subst h2
      exact .dir h1 h3 (ih (hf.below (.sub .here h1 h3)))
  · intro h
    induction h with
    | file hm hd =>
      refine .file ?_
      rw [view_contents w _ (hf _ .here)]
      exact List.mem_map.mpr ⟨_, hm, by rw [hd]⟩
    | dir hm hd _ ih =>
      refine .dir ?_ (ih (hf.below (.sub .here hm hd)))
      rw [view_contents w _ (hf _ .here)]
      exact List.mem_map.mpr ⟨_, hm, by rw [hd]⟩

/-- C152: where every folder lists `.` first, a scan keeps the files found before and appends exactly the files below the directory that
are not devices and whose name contains one of the filters, each with its full path, and each once when no folder lists a name twice.
Missing: folders that list something else first (drive roots, see the violation), and names ending in a quote or backslash. -/
theorem scanW_partial (w : WFS) (filters : List Text) (n : Nat) (d : Text) (files out : List Text) (hf : DotFirst w d)
    (hp : ∀ x, WDirAt w d x → Plain x) (h : scanW w filters n d files = some out) :
    ∃ L : List (List Text), out = files ++ L.map (path d) ∧
      (∀ ns, ns ∈ L ↔ WFileAt w d ns ∧ ∃ name, ns.getLast? = some name ∧ Matches filters name) ∧
      ((∀ x, WDirAt w d x → ((contents w x).map (·.name)).Nodup) → L.Nodup) := by
  rw [scanW_view] at h
  obtain ⟨L, h1, h2, h3⟩ := scan_partial (view w) filters n d files out (fun x hx => hp x ((dirAt_view hf x).mp hx)) h
  refine ⟨L, h1, ?_, ?_⟩
  · intro ns; rw [h2 ns, fileAt_view hf]
  · intro hn
    apply h3
    intro x hx
    have hx := (dirAt_view hf x).mp hx
    rw [view_contents w x (hf x hx)]
    simpa [List.map_map, Function.comp_def] using hn x hx

/-- C152: such a scan ends when folders are nested to a finite depth. -/
theorem scanW_ends (w : WFS) (filters : List Text) (rank : Text → Nat) (n : Nat) (d : Text) (files : List Text) (hf : DotFirst w d)
    (hp : ∀ x, WDirAt w d x → Plain x)
    (hr : ∀ x f, WDirAt w d x → f ∈ contents w x → f.isDirectory = true → rank (x ++ [slash] ++ f.name) < rank x) (hn : rank d < n) :
    (scanW w filters n d files).isSome = true := by
  rw [scanW_view]
  refine scan_ends (view w) filters rank n d files (fun x hx => hp x ((dirAt_view hf x).mp hx)) ?_ hn
  intro x m hx hm
  have hx := (dirAt_view hf x).mp hx
  rw [view_contents w x (hf x hx)] at hm
  obtain ⟨f, h1, h2⟩ := List.mem_map.mp hm
  simp only [Prod.mk.injEq] at h2
  rw [← h2.1]; exact hr x f hx h1 h2.2

/-- C152 violated: when the host finds a file first (as in the root of a drive, which has no `.`), no scan of that folder lists it: the
result of `FindFirstFile` is not looked at. -/
theorem first_missed_violated (w : WFS) (filters : List Text) (n : Nat) (d : Text) (first : Found) (rest : List Found) (out : List Text)
    (hw : w (d ++ [slash] ++ anyName) = some (first, rest)) (hfile : first ∈ contents w d ∧ first.isDirectory = false)
    (honce : ∀ f ∈ rest, f.name ≠ first.name) (hp : ∀ x, DirAt (view w) d x → Plain x)
    (hslash : ∀ ns, FileAt (view w) d ns → ∀ m ∈ ns, slash ∉ m) (hs : slash ∉ first.name)
    (h : scanW w filters n d [] = some out) : WFileAt w d [first.name] ∧ path d [first.name] ∉ out := by
  refine ⟨.file hfile.1 hfile.2, ?_⟩
  rw [scanW_view] at h
  obtain ⟨L, h1, h2, _⟩ := scan_partial (view w) filters n d [] out hp h
  subst h1
  intro hmem
  simp only [List.nil_append, List.mem_map] at hmem
  obtain ⟨ns, hns, he⟩ := hmem
  have hfa := ((h2 ns).mp hns).1
  have := path_inj d ns [first.name] (hslash ns hfa) (by simpa using hs) he
  subst this
  rw [fileAt_iff] at hfa
  rw [view_entries w d first rest hw] at hfa
  rcases hfa with ⟨m, hm, hin⟩ | ⟨m, ms, hm, _, hfa⟩
  · obtain ⟨f, hf1, hf2⟩ := List.mem_map.mp hin
    simp only [Prod.mk.injEq] at hf2
    simp only [List.cons.injEq, and_true] at hm
    exact honce f (List.mem_filter.mp hf1).1 (by rw [hf2.1, hm])
  · simp only [List.cons.injEq] at hm
    exact fileAt_ne_nil hfa hm.2.symm

/-! ### Concrete cases: folder `d` with `.`, `..`, a file `a`, a folder `s` with a file `b` -/

def exW (root : Bool) : WFS := fun p =>
  if p = [0x64#8, 0x2f#8, 0x2a#8] then
    if root then some (⟨[0x61#8], 0x20⟩, [⟨[0x73#8], 0x10⟩])
    else some (⟨here, 0x10⟩, [⟨up, 0x10⟩, ⟨[0x61#8], 0x20⟩, ⟨[0x73#8], 0x10⟩, ⟨[0x78#8], 0x40⟩])
  else if p = [0x64#8, 0x2f#8, 0x73#8, 0x2f#8, 0x2a#8] then some (⟨here, 0x10⟩, [⟨up, 0x10⟩, ⟨[0x62#8], 0x20⟩])
  else none

example : scanW (exW false) [] 3 [0x64#8] [] = some [[0x64#8, 0x2f#8, 0x61#8], [0x64#8, 0x2f#8, 0x73#8, 0x2f#8, 0x62#8]] ∧
    scanW (exW true) [] 3 [0x64#8] [] = some [[0x64#8, 0x2f#8, 0x73#8, 0x2f#8, 0x62#8]] := by decide +kernel

theorem exW_dirs {x : Text} {b : Bool} (h : WDirAt (exW b) [0x64#8] x) : x = [0x64#8] ∨ x = [0x64#8, 0x2f#8, 0x73#8] := by
  induction h with
  | here => exact Or.inl rfl
  | sub _ hm hd ih =>
    rename_i y f _
    rcases ih with rfl | rfl
    · have : f = ⟨[0x73#8], 0x10⟩ := by
        cases b
        · have e : contents (exW false) [0x64#8] = [⟨[0x61#8], 0x20⟩, ⟨[0x73#8], 0x10⟩] := by decide +kernel
          rw [e] at hm
          rcases List.mem_cons.mp hm with rfl | hm
          · revert hd; decide
          · simpa using hm
        · have e : contents (exW true) [0x64#8] = [⟨[0x61#8], 0x20⟩, ⟨[0x73#8], 0x10⟩] := by decide +kernel
          rw [e] at hm
          rcases List.mem_cons.mp hm with rfl | hm
          · revert hd; decide
          · simpa using hm
      subst this; exact Or.inr rfl
    · have : f = ⟨[0x62#8], 0x20⟩ := by
        have e : ∀ b, contents (exW b) [0x64#8, 0x2f#8, 0x73#8] = [⟨[0x62#8], 0x20⟩] := by intro b; cases b <;> decide +kernel
        rw [e] at hm; simpa using hm
      subst this; revert hd; decide

/-- The hypotheses of the partial theorem hold in the example. -/
example : DotFirst (exW false) [0x64#8] ∧ ∀ x, WDirAt (exW false) [0x64#8] x → Plain x := by
  constructor
  · intro x hx first rest h
    rcases exW_dirs hx with rfl | rfl
    · have e : exW false ([0x64#8] ++ [slash] ++ anyName) = some (⟨here, 0x10⟩, [⟨up, 0x10⟩, ⟨[0x61#8], 0x20⟩, ⟨[0x73#8], 0x10⟩, ⟨[0x78#8], 0x40⟩]) := by
        decide +kernel
      rw [e] at h; cases h; exact Or.inl rfl
    · have e : exW false ([0x64#8, 0x2f#8, 0x73#8] ++ [slash] ++ anyName) = some (⟨here, 0x10⟩, [⟨up, 0x10⟩, ⟨[0x62#8], 0x20⟩]) := by decide +kernel
      rw [e] at h; cases h; exact Or.inl rfl
  · intro x hx
    rcases exW_dirs hx with rfl | rfl
    · exact ⟨0x64#8, rfl, by decide, by decide, by decide⟩
    · exact ⟨0x73#8, rfl, by decide, by decide, by decide⟩

theorem exW_entries : entries (view (exW true)) [0x64#8] = [([0x73#8], true)] ∧
    entries (view (exW true)) [0x64#8, 0x2f#8, 0x73#8] = [([0x62#8], false)] := by decide +kernel

theorem exW_view_dirs {x : Text} (h : DirAt (view (exW true)) [0x64#8] x) : x = [0x64#8] ∨ x = [0x64#8, 0x2f#8, 0x73#8] := by
  induction h with
  | here => exact Or.inl rfl
  | sub _ hm ih =>
    rcases ih with rfl | rfl
    · rw [exW_entries.1] at hm; simp at hm; subst hm; exact Or.inr rfl
    · rw [exW_entries.2] at hm; simp at hm

/-- The hypotheses of the violation hold in the example. -/
example : WFileAt (exW true) [0x64#8] [[0x61#8]] ∧ path [0x64#8] [[0x61#8]] ∉ [[0x64#8, 0x2f#8, 0x73#8, 0x2f#8, 0x62#8]] := by
  refine first_missed_violated (exW true) [] 3 [0x64#8] ⟨[0x61#8], 0x20⟩ [⟨[0x73#8], 0x10⟩] _ (by decide +kernel)
    (by decide +kernel) (by decide) ?_ ?_ (by decide) (by decide +kernel)
  · intro x hx
    rcases exW_view_dirs hx with rfl | rfl
    · exact ⟨0x64#8, rfl, by decide, by decide, by decide⟩
    · exact ⟨0x73#8, rfl, by decide, by decide, by decide⟩
  · intro ns h m hm
    rw [fileAt_iff, exW_entries.1] at h
    rcases h with ⟨n, _, h⟩ | ⟨n, ms, rfl, h, h2⟩
    · simp at h
    · simp at h; subst h
      rw [show ([0x64#8] ++ [slash] ++ [0x73#8] : Text) = [0x64#8, 0x2f#8, 0x73#8] from rfl, fileAt_iff, exW_entries.2] at h2
      rcases h2 with ⟨n, rfl, h⟩ | ⟨n, ms, rfl, h, _⟩
      · simp at h; subst h
        simp at hm; rcases hm with rfl | rfl <;> decide
      · simp at h

/-! ## `FileType` -/

/-- Host attributes of an existing path: never all bits. `FileType` tells folders from files, and `Invalid` means that the host knows no
such path. -/
theorem fileTypeW_spec (flags : BitVec 32) :
    (fileTypeW flags = .invalid ↔ flags = 0xffffffff#32) ∧
    (flags ≠ 0xffffffff#32 → (fileTypeW flags = .directory ↔ flags.getLsbD 4 = true) ∧ (fileTypeW flags = .file ↔ flags.getLsbD 4 = false)) := by
  have hb : flags &&& 0x10#32 ≠ 0#32 ↔ flags.getLsbD 4 = true := by
    constructor
    · intro h
      by_contra hc
      apply h
      apply BitVec.eq_of_getLsbD_eq
      intro i hi
      rw [BitVec.getLsbD_and]
      by_cases h4 : i = 4
      · subst h4; simp at hc; simp [hc]
      · have : (0x10#32).getLsbD i = false := by
          have : ∀ i : Fin 32, i.val ≠ 4 → (0x10#32).getLsbD i = false := by decide
          exact this ⟨i, hi⟩ h4
        simp [this]
    · intro h hc
      have := congrArg (BitVec.getLsbD · 4) hc
      have h' : flags[4] = true := by simpa using h
      simp [h'] at this
  unfold fileTypeW
  refine ⟨?_, ?_⟩
  · split
    · simp [*]
    · split <;> simp_all
  · intro hne
    rw [if_neg hne]
    by_cases h : flags &&& 0x10#32 ≠ 0#32
    · rw [if_pos h]; simp [hb.mp h]
    · rw [if_neg h]
      have : flags.getLsbD 4 = false := by simpa using fun h' => h (hb.mpr h')
      simpa using this

/-- A path that does not exist is `Error` on POSIX hosts but `Invalid` on Windows, which never reports `Error`: a test for `Error` finds
no missing file there. -/
theorem fileType_hosts_violated (flags : BitVec 32) :
    Mkdirs.fileType none = .error ∧ fileTypeW 0xffffffff#32 = .invalid ∧ fileTypeW flags ≠ .error := by
  refine ⟨rfl, rfl, ?_⟩
  unfold fileTypeW
  split
  · simp
  · split <;> simp

example : fileTypeW 0x10#32 = .directory ∧ fileTypeW 0x20#32 = .file := by decide

end PreCore.DirScanWin
