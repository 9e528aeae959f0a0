import Verif.Model.Mkdirs
/-!
# C69: `mkdirs` leaves every folder of every path in existence; C70: `FileType`

`walk`, `start` and `comps` are the host's path resolution (POSIX), not code of the project.
-/
namespace PreCore.Mkdirs
open PreCore.FileInfo

/-- Opening `p` as a directory succeeds. -/
def DirAt (cwd : Node) (fs : FS) (p : List Byte) : Prop :=
  p ≠ [] ∧ ∃ n, walk fs (start cwd p) (comps p) = some n ∧ fs n = .dir
/-- `p` names something that is not a directory. -/
def FileAt (cwd : Node) (fs : FS) (p : List Byte) : Prop :=
  p ≠ [] ∧ ∃ n, walk fs (start cwd p) (comps p) = some n ∧ fs n = .file
/-- `q` is a folder of path `p`: the text before one of its slashes. -/
def FolderOf (q p : List Byte) : Prop := ∃ r, p = q ++ 0x2f#8 :: r
/-- A file system is a tree of directories, and the process has a working directory in it. -/
structure Sane (cwd : Node) (fs : FS) : Prop where
  root : fs [] = .dir
  cwd : fs cwd = .dir
  tree : ∀ c n, fs (c :: n) ≠ .missing → fs n = .dir
/-- Nothing that existed went away or changed. -/
def Keeps (fs fs' : FS) : Prop := ∀ n, fs n ≠ .missing → fs' n = fs n

theorem Keeps.refl (fs : FS) : Keeps fs fs := fun _ _ => rfl
theorem Keeps.trans {a b c : FS} (h : Keeps a b) (h' : Keeps b c) : Keeps a c := by
  intro n hn; rw [h' n (by rw [h n hn]; exact hn), h n hn]

theorem splitGo_append (q r : List Byte) : ∀ cur, splitGo cur (q ++ slash :: r) = splitGo cur q ++ splitGo [] r := by
  induction q with
  | nil => intro cur; simp [splitGo]
  | cons c cs ih => intro cur; simp only [List.cons_append, splitGo]; split <;> simp [ih]

theorem comps_append (q r : List Byte) : comps (q ++ slash :: r) = comps q ++ comps r := by
  simp [comps, splitGo_append]

theorem splitGo_free (q : List Byte) (h : slash ∉ q) : ∀ cur, splitGo cur q = [cur ++ q] := by
  induction q with
  | nil => intro cur; simp [splitGo]
  | cons c cs ih =>
    intro cur
    simp only [List.mem_cons, not_or] at h
    simp only [splitGo]
    rw [if_neg (fun e => h.1 e.symm), ih h.2]; simp

theorem comps_free (q : List Byte) (h : slash ∉ q) (hq : q ≠ []) : comps q = [q] := by
  simp [comps, splitGo_free q h, hq]

theorem walk_append (fs : FS) (a b : List Name) : ∀ s, walk fs s (a ++ b) = (walk fs s a).bind (fun n => walk fs n b) := by
  induction a with
  | nil => intro s; rfl
  | cons c cs ih =>
    intro s
    simp only [List.cons_append, walk]
    repeat' split
    all_goals first | rfl | apply ih

theorem walk_keeps {fs fs' : FS} (hk : Keeps fs fs') : ∀ cs s n, walk fs s cs = some n → walk fs' s cs = some n := by
  intro cs
  induction cs with
  | nil => intro s n h; exact h
  | cons c cs ih =>
    intro s n h
    simp only [walk] at h ⊢
    split at h
    · cases h
    · rename_i hd
      have hd : fs s = .dir := by simpa using hd
      rw [if_neg (by rw [hk s (by simp [hd]), hd]; simp)]
      split at h
      · rename_i e; rw [if_pos e]; exact ih _ _ h
      · rename_i e; rw [if_neg e]
        split at h
        · rename_i e; rw [if_pos e]; exact ih _ _ h
        · rename_i e; rw [if_neg e]
          split at h
          · cases h
          · rename_i e; rw [if_neg (by rw [hk _ e]; exact e)]; exact ih _ _ h

theorem walk_exists {cwd : Node} {fs : FS} (hs : Sane cwd fs) : ∀ cs s n, fs s ≠ .missing → walk fs s cs = some n →
    fs n ≠ .missing := by
  intro cs
  induction cs with
  | nil => intro s n h0 h; simp only [walk, Option.some.injEq] at h; rwa [← h]
  | cons c cs ih =>
    intro s n h0 h
    simp only [walk] at h
    split at h
    · cases h
    · split at h
      · exact ih _ _ h0 h
      · split at h
        · refine ih _ _ ?_ h
          cases s with
          | nil => exact h0
          | cons x xs => simp [hs.tree x xs h0]
        · split at h
          · cases h
          · rename_i e; exact ih _ _ e h

theorem start_exists {cwd : Node} {fs : FS} (hs : Sane cwd fs) (p : List Byte) : fs (start cwd p) = .dir := by
  unfold start; split
  · exact hs.root
  · exact hs.cwd

theorem dirAt_keeps {cwd : Node} {fs fs' : FS} (hk : Keeps fs fs') {p} (h : DirAt cwd fs p) : DirAt cwd fs' p := by
  obtain ⟨h0, n, h1, h2⟩ := h
  exact ⟨h0, n, walk_keeps hk _ _ _ h1, by rw [hk n (by simp [h2]), h2]⟩
theorem fileAt_keeps {cwd : Node} {fs fs' : FS} (hk : Keeps fs fs') {p} (h : FileAt cwd fs p) : FileAt cwd fs' p := by
  obtain ⟨h0, n, h1, h2⟩ := h
  exact ⟨h0, n, walk_keeps hk _ _ _ h1, by rw [hk n (by simp [h2]), h2]⟩

/-- `mkdir` of one path: either nothing changed or one missing node became a directory, under an existing one, and the
path resolves to it. -/
theorem hostMkdir_cases (cwd : Node) (fs : FS) (hs : Sane cwd fs) (p : List Byte) :
    hostMkdir cwd fs p = fs ∨ ∃ c n, fs n = .dir ∧ fs (c :: n) = .missing ∧ p ≠ [] ∧
      (hostMkdir cwd fs p = fun m => if m = c :: n then .dir else fs m) ∧
      walk (hostMkdir cwd fs p) (start cwd p) (comps p) = some (c :: n) := by
  generalize hr : hostMkdir cwd fs p = fs'
  unfold hostMkdir at hr
  split at hr
  · exact .inl hr.symm
  rename_i hp
  split at hr
  · exact .inl hr.symm
  rename_i last hl
  split at hr
  · exact .inl hr.symm
  rename_i n hw
  split at hr
  · exact .inl hr.symm
  rename_i hd
  split at hr
  · exact .inl hr.symm
  rename_i hdot
  split at hr
  · exact .inl hr.symm
  rename_i hm
  have hd : fs n = .dir := by simpa using hd
  have hm : fs (last :: n) = .missing := by simpa using hm
  refine .inr ⟨last, n, hd, hm, hp, hr.symm, ?_⟩
  have hk : Keeps fs fs' := by
    intro m hm'; rw [← hr]; simp only
    rw [if_neg]; rintro rfl; exact hm' hm
  have hc : comps p = (comps p).dropLast ++ [last] := by
    have h0 : comps p ≠ [] := by intro h; simp [h] at hl
    rw [List.getLast?_eq_some_getLast h0] at hl
    simp only [Option.some.injEq] at hl
    rw [← hl]; exact (List.dropLast_concat_getLast h0).symm
  rw [hc, walk_append, walk_keeps hk _ _ _ hw]
  simp only [Option.bind_some, walk]
  simp only [not_or] at hdot
  rw [hk n (by simp [hd]), hd]
  simp [hdot.1, hdot.2, ← hr]

theorem hostMkdir_keeps (cwd : Node) (fs : FS) (hs : Sane cwd fs) (p : List Byte) : Keeps fs (hostMkdir cwd fs p) := by
  rcases hostMkdir_cases cwd fs hs p with h | ⟨c, n, h1, h2, -, h3, -⟩
  · rw [h]; exact Keeps.refl _
  · intro m hm; rw [h3]; simp only; rw [if_neg]; rintro rfl; exact hm h2

theorem hostMkdir_sane (cwd : Node) (fs : FS) (hs : Sane cwd fs) (p : List Byte) : Sane cwd (hostMkdir cwd fs p) := by
  have hk := hostMkdir_keeps cwd fs hs p
  refine ⟨by rw [hk [] (by simp [hs.root]), hs.root], by rw [hk _ (by simp [hs.cwd]), hs.cwd], ?_⟩
  rcases hostMkdir_cases cwd fs hs p with h | ⟨c, n, h1, h2, -, h3, -⟩
  · rw [h]; exact hs.tree
  · intro x m hx
    by_cases e : x :: m = c :: n
    · simp only [List.cons.injEq] at e
      rw [e.2, hk n (by simp [h1]), h1]
    · have hx' : fs (x :: m) ≠ .missing := by
        rw [h3] at hx; simp only at hx; rwa [if_neg e] at hx
      have := hs.tree x m hx'
      rw [hk m (by simp [this]), this]

theorem cstr_id (p : List Byte) (h : 0#8 ∉ p) : cstr p = p := by
  unfold cstr
  induction p with
  | nil => rfl
  | cons c cs ih =>
    simp only [List.mem_cons, not_or] at h
    rw [List.takeWhile_cons, if_pos (by simpa using fun e => h.1 (Eq.symm e)), ih h.2]

theorem mkdir_keeps (cwd : Node) (fs : FS) (hs : Sane cwd fs) (p : List Byte) : Keeps fs (mkdir cwd fs p) :=
  hostMkdir_keeps cwd fs hs _
theorem mkdir_sane (cwd : Node) (fs : FS) (hs : Sane cwd fs) (p : List Byte) : Sane cwd (mkdir cwd fs p) :=
  hostMkdir_sane cwd fs hs _

/-- The parent exists: after `mkdir` the path is a directory, or a non-directory was there. -/
theorem hostMkdir_makes (cwd : Node) (fs : FS) (hs : Sane cwd fs) (p : List Byte) (hp : p ≠ [])
    (init : List Name) (last : Name) (hc : comps p = init ++ [last]) (n : Node)
    (hw : walk fs (start cwd p) init = some n) (hd : fs n = .dir) :
    DirAt cwd (hostMkdir cwd fs p) p ∨ FileAt cwd (hostMkdir cwd fs p) p := by
  have hk := hostMkdir_keeps cwd fs hs p
  by_cases hx : ∃ m, walk fs (start cwd p) (comps p) = some m
  · obtain ⟨m, hm⟩ := hx
    have he := walk_exists hs _ _ _ (by simp [start_exists hs p]) hm
    cases hf : fs m with
    | missing => exact absurd hf he
    | dir => exact .inl (dirAt_keeps hk ⟨hp, m, hm, hf⟩)
    | file => exact .inr (fileAt_keeps hk ⟨hp, m, hm, hf⟩)
  · rcases hostMkdir_cases cwd fs hs p with h | ⟨c, m, h1, h2, -, h3, h4⟩
    · exfalso
      have hfull : walk fs (start cwd p) (comps p) = walk fs n [last] := by rw [hc, walk_append, hw]; rfl
      rw [hfull] at hx
      simp only [walk, hd] at hx
      have hl : (comps p).getLast? = some last := by rw [hc]; simp
      have hi : (comps p).dropLast = init := by rw [hc]; simp
      unfold hostMkdir at h
      rw [if_neg hp] at h
      simp only [hl, hi, hw, hd] at h
      by_cases e1 : last = dotName
      · simp [e1] at hx
      by_cases e2 : last = dotdotName
      · rw [e2] at hx; simp [dotName, dotdotName] at hx
      by_cases e3 : fs (last :: n) = .missing
      · simp only [e1, e2, e3] at h
        have := congrFun h (last :: n)
        simp [e3] at this
      · simp [e1, e2, e3] at hx
    · refine .inl ⟨hp, c :: m, h4, ?_⟩
      rw [h3]; simp

theorem last_slash (q : List Byte) : slash ∉ q ∨ ∃ q0 c, q = q0 ++ slash :: c ∧ slash ∉ c := by
  induction q with
  | nil => simp
  | cons x xs ih =>
    rcases ih with h | ⟨q0, c, h1, h2⟩
    · by_cases e : x = slash
      · exact .inr ⟨[], xs, by simp [e], h⟩
      · exact .inl (by simp [h, Ne.symm e])
    · exact .inr ⟨x :: q0, c, by simp [h1], h2⟩

theorem start_append (cwd : Node) (q r : List Byte) (h : q ≠ []) : start cwd (q ++ r) = start cwd q := by
  cases q with
  | nil => exact absurd rfl h
  | cons x xs => rfl

/-- One step: all folders of `q` are directories already. -/
theorem mkdir_step (cwd : Node) (fs : FS) (hs : Sane cwd fs) (q : List Byte) (hq : q ≠ []) (h0 : 0#8 ∉ q)
    (hf : ∀ f, FolderOf f q → f = [] ∨ DirAt cwd fs f) :
    DirAt cwd (mkdir cwd fs q) q ∨ FileAt cwd (mkdir cwd fs q) q := by
  unfold mkdir
  rw [cstr_id q h0]
  have hk := hostMkdir_keeps cwd fs hs q
  rcases last_slash q with h | ⟨q0, c, h1, h2⟩
  · exact hostMkdir_makes cwd fs hs q hq [] q (by simp [comps_free q h hq]) _ rfl (start_exists hs q)
  · have hcq : comps q = comps q0 ++ comps c := by rw [h1, comps_append]
    have hpar : ∃ n, walk fs (start cwd q) (comps q0) = some n ∧ fs n = .dir := by
      rcases hf q0 ⟨c, h1⟩ with e | ⟨h3, n, h4, h5⟩
      · refine ⟨start cwd q, ?_, start_exists hs q⟩
        rw [e]; rfl
      · exact ⟨n, by rw [h1, start_append _ _ _ h3]; exact h4, h5⟩
    obtain ⟨n, hn, hd⟩ := hpar
    by_cases e : c = []
    · left
      refine dirAt_keeps hk ⟨hq, n, ?_, hd⟩
      rw [hcq, e]; simpa [comps, splitGo] using hn
    · exact hostMkdir_makes cwd fs hs q hq (comps q0) c (by rw [hcq, comps_free c h2 e]) n hn hd

/-- The folders of a directory that can be opened can be opened. -/
theorem folder_dirAt (cwd : Node) (fs : FS) (p f : List Byte) (h : DirAt cwd fs p) (hf : FolderOf f p) :
    f = [] ∨ DirAt cwd fs f := by
  obtain ⟨r, rfl⟩ := hf
  by_cases e : f = []
  · exact .inl e
  right
  obtain ⟨-, n, h1, h2⟩ := h
  rw [start_append _ _ _ e, show (0x2f#8 : Byte) = slash from rfl, comps_append, walk_append] at h1
  cases hw : walk fs (start cwd f) (comps f) with
  | none => rw [hw] at h1; simp at h1
  | some m =>
    rw [hw] at h1; simp only [Option.bind_some] at h1
    refine ⟨e, m, hw, ?_⟩
    cases hr : comps r with
    | nil => rw [hr] at h1; simp only [walk, Option.some.injEq] at h1; rw [h1]; exact h2
    | cons c cs =>
      rw [hr] at h1; simp only [walk] at h1
      split at h1
      · cases h1
      · rename_i hh; simpa using hh

theorem foldl_keeps (cwd : Node) (L : List (List Byte)) : ∀ fs, Sane cwd fs →
    Keeps fs (L.foldl (fun s q => mkdir cwd s q) fs) ∧ Sane cwd (L.foldl (fun s q => mkdir cwd s q) fs) := by
  induction L with
  | nil => intro fs hs; exact ⟨Keeps.refl _, hs⟩
  | cons q L ih =>
    intro fs hs
    have h1 := mkdir_keeps cwd fs hs q
    have h2 := ih _ (mkdir_sane cwd fs hs q)
    exact ⟨h1.trans h2.1, h2.2⟩

/-- Directories made one after the other, each after its folders. -/
theorem foldl_makes (cwd : Node) (L : List (List Byte)) : ∀ (fs : FS) (done : List (List Byte)), Sane cwd fs →
    (∀ q ∈ done, q = [] ∨ DirAt cwd fs q) →
    (∀ q ∈ L, 0#8 ∉ q) →
    (∀ pre q post, L = pre ++ q :: post → ∀ f, FolderOf f q → f = [] ∨ f ∈ done ∨ f ∈ pre ∨ DirAt cwd fs f) →
    (∀ q ∈ L, ¬ FileAt cwd (L.foldl (fun s q => mkdir cwd s q) fs) q) →
    ∀ q ∈ L, q = [] ∨ DirAt cwd (L.foldl (fun s q => mkdir cwd s q) fs) q := by
  induction L with
  | nil => intro fs done _ _ _ _ _ q hq; simp at hq
  | cons q L ih =>
    intro fs done hs hdone h0 hord hblock
    have hs' := mkdir_sane cwd fs hs q
    have hk := mkdir_keeps cwd fs hs q
    have hkF := foldl_keeps cwd L _ hs'
    have hq : q = [] ∨ DirAt cwd (mkdir cwd fs q) q := by
      by_cases e : q = []
      · exact .inl e
      right
      rcases mkdir_step cwd fs hs q e (h0 q (by simp)) (fun f hf => by
          rcases hord [] q L rfl f hf with h | h | h | h
          · exact .inl h
          · exact hdone f h
          · simp at h
          · exact .inr h) with h | h
      · exact h
      · exact absurd (fileAt_keeps hkF.1 h) (hblock q (by simp))
    have hrest := ih (mkdir cwd fs q) (q :: done) hs'
      (by
        intro x hx
        simp only [List.mem_cons] at hx
        rcases hx with rfl | hx
        · exact hq
        · exact (hdone x hx).imp id (dirAt_keeps hk))
      (fun x hx => h0 x (by simp [hx]))
      (by
        intro pre x post e f hf
        rcases hord (q :: pre) x post (by simp [e]) f hf with h | h | h | h
        · exact .inl h
        · exact .inr (.inl (by simp [h]))
        · simp only [List.mem_cons] at h
          rcases h with rfl | h
          · exact .inr (.inl (by simp))
          · exact .inr (.inr (.inl h))
        · exact .inr (.inr (.inr (dirAt_keeps hk h))))
      (fun x hx => hblock x (by simp [hx]))
    intro x hx
    simp only [List.mem_cons] at hx
    rcases hx with rfl | hx
    · exact hq.imp id (dirAt_keeps hkF.1)
    · exact hrest x hx

/-! ## Which folders -/

theorem foldersGo_mem (p : List Byte) : ∀ done q, q ∈ foldersGo done p ↔ ∃ a b, p = a ++ slash :: b ∧ q = done ++ a := by
  induction p with
  | nil => intro done q; simp [foldersGo]
  | cons c cs ih =>
    intro done q
    have key : q ∈ foldersGo (done ++ [c]) cs ↔ ∃ a b, cs = a ++ slash :: b ∧ q = done ++ c :: a := by
      rw [ih]; simp
    have hsplit : (∃ a b, c :: cs = a ++ slash :: b ∧ q = done ++ a) ↔
        (c = slash ∧ q = done) ∨ ∃ a b, cs = a ++ slash :: b ∧ q = done ++ c :: a := by
      constructor
      · rintro ⟨a, b, h1, h2⟩
        cases a with
        | nil => simp only [List.nil_append, List.cons.injEq] at h1; exact .inl ⟨h1.1, by simpa using h2⟩
        | cons x xs =>
          simp only [List.cons_append, List.cons.injEq] at h1
          exact .inr ⟨xs, b, h1.2, by rw [h2, h1.1]⟩
      · rintro (⟨h1, h2⟩ | ⟨a, b, h1, h2⟩)
        · exact ⟨[], cs, by simp [h1], by simp [h2]⟩
        · exact ⟨c :: a, b, by simp [h1], h2⟩
    rw [hsplit, ← key]
    simp only [foldersGo]
    split <;> simp_all

theorem folders_mem (p q : List Byte) : q ∈ folders p ↔ FolderOf q (fullPath p) := by
  unfold folders FolderOf
  rw [foldersGo_mem]
  constructor
  · rintro ⟨a, b, h1, h2⟩; exact ⟨b, by rw [h1, h2]; rfl⟩
  · rintro ⟨r, h⟩; exact ⟨q, r, h, by simp⟩

theorem foldersGo_order (p : List Byte) : ∀ done, (foldersGo done p).Pairwise (fun a b => a.length < b.length) ∧
    ∀ q ∈ foldersGo done p, done.length ≤ q.length := by
  induction p with
  | nil => intro done; simp [foldersGo]
  | cons c cs ih =>
    intro done
    have h := ih (done ++ [c])
    simp only [foldersGo]
    split
    · refine ⟨List.pairwise_cons.2 ⟨fun q hq => ?_, h.1⟩, ?_⟩
      · have := h.2 q hq; simp at this; omega
      · intro q hq; simp only [List.mem_cons] at hq
        rcases hq with rfl | hq
        · exact Nat.le_refl _
        · have := h.2 q hq; simp at this; omega
    · refine ⟨h.1, fun q hq => ?_⟩
      have := h.2 q hq; simp at this; omega

theorem FolderOf.trans {a b c : List Byte} (h : FolderOf a b) (h' : FolderOf b c) : FolderOf a c := by
  obtain ⟨r, rfl⟩ := h; obtain ⟨s, rfl⟩ := h'; exact ⟨r ++ 0x2f#8 :: s, by simp⟩
theorem FolderOf.length {a b : List Byte} (h : FolderOf a b) : a.length < b.length := by
  obtain ⟨r, rfl⟩ := h; simp

/-- The path as `mkdirs` takes it: backslashes are slashes. -/
theorem fullPath_eq (p : List Byte) : fullPath p = p.map (fun c => if c = 0x5c#8 then 0x2f#8 else c) := by
  unfold fullPath load
  split
  · rename_i h; simp at h; simp [h]
  · rfl

theorem fullPath_nul (p : List Byte) (h : 0#8 ∉ p) : 0#8 ∉ fullPath p := by
  rw [fullPath_eq]; intro hm
  simp only [List.mem_map] at hm
  obtain ⟨c, hc, he⟩ := hm
  split at he
  · simp at he
  · exact h (he ▸ hc)

/-- **C69** `mkdirs(path)`: whatever was there is kept, and afterwards every folder of the path can be opened as a
directory unless one of them is something else than a directory. -/
theorem mkdirs_one (cwd : Node) (fs : FS) (hs : Sane cwd fs) (p : List Byte) (h0 : 0#8 ∉ p) :
    let path := p.map (fun c => if c = 0x5c#8 then 0x2f#8 else c)
    Keeps fs (mkdirsOne cwd fs p) ∧ Sane cwd (mkdirsOne cwd fs p) ∧
    ((∀ q, FolderOf q path → ¬ FileAt cwd (mkdirsOne cwd fs p) q) →
      ∀ q, FolderOf q path → q ≠ [] → DirAt cwd (mkdirsOne cwd fs p) q) := by
  simp only [← fullPath_eq]
  have hk := foldl_keeps cwd (folders p) fs hs
  refine ⟨hk.1, hk.2, fun hb q hq hne => ?_⟩
  refine (foldl_makes cwd (folders p) fs [] hs (by simp) ?_ ?_ ?_ q ((folders_mem p q).2 hq)).resolve_left hne
  · intro x hx
    obtain ⟨r, hr⟩ := (folders_mem p x).1 hx
    have := fullPath_nul p h0
    rw [hr] at this; simp at this; exact this.1
  · intro pre x post e f hf
    have hx : x ∈ folders p := by rw [e]; simp
    have hfm : f ∈ folders p := (folders_mem p f).2 (hf.trans ((folders_mem p x).1 hx))
    have hpw := (foldersGo_order (fullPath p) []).1
    rw [show foldersGo [] (fullPath p) = folders p from rfl, e] at hpw
    rw [e] at hfm
    simp only [List.mem_append, List.mem_cons] at hfm
    rcases hfm with h | h | h
    · exact .inr (.inr (.inl h))
    · have := hf.length; rw [h] at this; omega
    · have h1 := (List.pairwise_cons.1 (List.pairwise_append.1 hpw).2.1).1 f h
      have := hf.length; omega
  · intro x hx; exact hb x ((folders_mem p x).1 hx)

/-! ## The set of folders -/

theorem less_irrefl (a : List Byte) : less a a = false := by
  induction a with
  | nil => rfl
  | cons x xs ih => simp [less, ih]

theorem less_trans : ∀ a b c, less a b = true → less b c = true → less a c = true := by
  intro a
  induction a with
  | nil =>
    intro b c h1 h2
    cases b with
    | nil => simp [less] at h1
    | cons y ys => cases c with
      | nil => simp [less] at h2
      | cons z zs => rfl
  | cons x xs ih =>
    intro b c h1 h2
    cases b with
    | nil => simp [less] at h1
    | cons y ys => cases c with
      | nil => simp [less] at h2
      | cons z zs =>
        simp only [less] at h1 h2 ⊢
        by_cases e1 : x = y
        · subst e1
          by_cases e2 : x = z
          · subst e2; simp only [if_true] at h1 h2 ⊢; exact ih _ _ h1 h2
          · simp only [e2, if_false] at h2 ⊢; exact h2
        · by_cases e2 : y = z
          · subst e2; simp only [e1, if_false] at h1 ⊢; exact h1
          · simp only [e1, e2, if_false, decide_eq_true_eq] at h1 h2
            have : x ≠ z := by rintro rfl; omega
            simp only [this, if_false, decide_eq_true_eq]; omega

theorem less_total : ∀ a b, less a b = false → less b a = false → a = b := by
  intro a
  induction a with
  | nil => intro b h1 h2; cases b with
    | nil => rfl
    | cons y ys => simp [less] at h1
  | cons x xs ih =>
    intro b h1 h2
    cases b with
    | nil => simp [less] at h2
    | cons y ys =>
      simp only [less] at h1 h2
      by_cases e : x = y
      · subst e; simp only [if_true] at h1 h2; rw [ih ys h1 h2]
      · simp only [e, Ne.symm e, if_false, decide_eq_false_iff_not] at h1 h2
        exact absurd (BitVec.eq_of_toNat_eq (by omega)) e

theorem less_prefix (a b : List Byte) (c : Byte) : less a (a ++ c :: b) = true := by
  induction a with
  | nil => rfl
  | cons x xs ih => simpa [less] using ih

theorem setInsert_mem (x : List Byte) (l : List (List Byte)) : ∀ q, q ∈ setInsert x l ↔ q = x ∨ q ∈ l := by
  induction l with
  | nil => intro q; simp [setInsert]
  | cons y ys ih =>
    intro q
    simp only [setInsert]
    split
    · simp
    · rename_i h1
      split
      · simp only [List.mem_cons, ih]
        constructor
        · rintro (h | h | h) <;> simp [h]
        · rintro (h | h | h) <;> simp [h]
      · rename_i h2
        have : x = y := less_total _ _ (by simpa using h1) (by simpa using h2)
        subst this; simp

theorem setInsert_sorted (x : List Byte) (l : List (List Byte)) (h : l.Pairwise (fun a b => less a b = true)) :
    (setInsert x l).Pairwise (fun a b => less a b = true) := by
  induction l with
  | nil => simp [setInsert]
  | cons y ys ih =>
    have hc := List.pairwise_cons.1 h
    simp only [setInsert]
    split
    · rename_i h1
      refine List.pairwise_cons.2 ⟨?_, h⟩
      intro q hq; simp only [List.mem_cons] at hq
      rcases hq with rfl | hq
      · exact h1
      · exact less_trans _ _ _ h1 (hc.1 q hq)
    · split
      · rename_i h2
        refine List.pairwise_cons.2 ⟨?_, ih hc.2⟩
        intro q hq
        rcases (setInsert_mem x ys q).1 hq with rfl | hq
        · exact h2
        · exact hc.1 q hq
      · exact h

theorem tree_spec (files : List (List Byte)) : (tree files).Pairwise (fun a b => less a b = true) ∧
    ∀ q, q ∈ tree files ↔ ∃ f ∈ files, FolderOf q (fullPath f) := by
  have inner : ∀ (L t : List (List Byte)), t.Pairwise (fun a b => less a b = true) →
      (L.foldl (fun t q => setInsert q t) t).Pairwise (fun a b => less a b = true) ∧
      ∀ q, q ∈ L.foldl (fun t q => setInsert q t) t ↔ q ∈ t ∨ q ∈ L := by
    intro L
    induction L with
    | nil => intro t ht; exact ⟨ht, by simp⟩
    | cons x xs ih =>
      intro t ht
      have := ih _ (setInsert_sorted x t ht)
      refine ⟨this.1, fun q => ?_⟩
      rw [List.foldl_cons, this.2 q, setInsert_mem]; simp only [List.mem_cons]
      constructor
      · rintro ((h | h) | h) <;> simp [h]
      · rintro (h | h | h) <;> simp [h]
  have outer : ∀ (fl t : List (List Byte)), t.Pairwise (fun a b => less a b = true) →
      (fl.foldl (fun t f => (folders f).foldl (fun t q => setInsert q t) t) t).Pairwise (fun a b => less a b = true) ∧
      ∀ q, q ∈ fl.foldl (fun t f => (folders f).foldl (fun t q => setInsert q t) t) t ↔
        q ∈ t ∨ ∃ f ∈ fl, q ∈ folders f := by
    intro fl
    induction fl with
    | nil => intro t ht; exact ⟨ht, by simp⟩
    | cons x xs ih =>
      intro t ht
      have hi := inner (folders x) t ht
      have := ih _ hi.1
      refine ⟨this.1, fun q => ?_⟩
      rw [List.foldl_cons, this.2 q, hi.2 q]; simp [or_assoc]
  have := outer files [] List.Pairwise.nil
  refine ⟨this.1, fun q => ?_⟩
  rw [tree, this.2 q]; simp [folders_mem]

theorem foldl_base (cwd : Node) (base : List Byte) (L : List (List Byte)) (fs : FS) :
    L.foldl (fun s q => mkdir cwd s (base ++ q)) fs = (L.map (base ++ ·)).foldl (fun s q => mkdir cwd s q) fs := by
  rw [List.foldl_map]

theorem batch_core (cwd : Node) (fs : FS) (hs : Sane cwd fs) (base : List Byte) (files : List (List Byte))
    (hb : base = [] ∨ DirAt cwd fs base) (hb0 : 0#8 ∉ base)
    (h0 : ∀ f ∈ files, 0#8 ∉ f) :
    let path := fun f : List Byte => f.map (fun c => if c = 0x5c#8 then 0x2f#8 else c)
    let fs' := mkdirsBatch cwd fs base files
    Keeps fs fs' ∧ Sane cwd fs' ∧
    ((∀ f ∈ files, ∀ q, FolderOf q (path f) → ¬ FileAt cwd fs' (base ++ q)) →
      ∀ f ∈ files, ∀ q, FolderOf q (path f) → base ++ q ≠ [] → DirAt cwd fs' (base ++ q)) := by
  have hfp : (fun f : List Byte => f.map (fun c => if c = 0x5c#8 then 0x2f#8 else c)) = fullPath := by
    funext f; exact (fullPath_eq f).symm
  simp only [hfp]
  obtain ⟨hsort, hmem⟩ := tree_spec files
  unfold mkdirsBatch
  rw [foldl_base]
  have hk := foldl_keeps cwd ((tree files).map (base ++ ·)) fs hs
  refine ⟨hk.1, hk.2, fun hblk f hf q hq hne => ?_⟩
  refine (foldl_makes cwd _ fs [] hs (by simp) ?_ ?_ ?_ (base ++ q)
    (List.mem_map.2 ⟨q, (hmem q).2 ⟨f, hf, hq⟩, rfl⟩)).resolve_left hne
  · intro x hx
    obtain ⟨y, hy, rfl⟩ := List.mem_map.1 hx
    obtain ⟨g, hg, r, hr⟩ := (hmem y).1 hy
    have := fullPath_nul g (h0 g hg)
    rw [hr] at this; simp at this
    simp [hb0, this.1]
  · intro pre x post e g hg
    obtain ⟨l1, l2, hl, hl1, hl2⟩ := List.map_eq_append_iff.1 e
    obtain ⟨y, l3, rfl, hy, hl3⟩ := List.map_eq_cons_iff.1 hl2
    obtain ⟨r, hr⟩ := hg
    have hyt : y ∈ tree files := by rw [hl]; simp
    obtain ⟨k, hk1, hk2⟩ := (hmem y).1 hyt
    rw [← hy] at hr
    rcases List.append_eq_append_iff.1 hr with ⟨a, h1, h2⟩ | ⟨a, h1, h2⟩
    · -- `g = base ++ a`
      have ha : FolderOf a y := ⟨r, h2⟩
      have hat : a ∈ tree files := (hmem a).2 ⟨k, hk1, ha.trans hk2⟩
      rw [hl] at hat hsort
      simp only [List.mem_append, List.mem_cons] at hat
      rcases hat with h | h | h
      · refine .inr (.inr (.inl ?_))
        rw [← hl1]; exact List.mem_map.2 ⟨a, h, h1.symm⟩
      · have := ha.length; rw [h] at this; omega
      · have h3 := (List.pairwise_cons.1 (List.pairwise_append.1 hsort).2.1).1 a h
        have h4 : less a y = true := by rw [h2]; exact less_prefix _ _ _
        have := less_trans _ _ _ h3 h4
        rw [less_irrefl] at this; cases this
    · -- `base = g ++ a`
      cases a with
      | nil =>
        simp only [List.append_nil, List.nil_append] at h1 h2
        have ha : FolderOf [] y := ⟨r, by simpa using h2.symm⟩
        have hat : [] ∈ tree files := (hmem []).2 ⟨k, hk1, ha.trans hk2⟩
        by_cases eb : g = []
        · exact .inl eb
        · refine .inr (.inr (.inr ?_))
          rcases hb with hb | hb
          · rw [hb] at h1; exact absurd h1.symm eb
          · rw [← h1]; exact hb
      | cons z zs =>
        simp only [List.cons_append, List.cons.injEq] at h2
        have hg : FolderOf g base := ⟨zs, by rw [h1, h2.1]⟩
        rcases hb with hb | hb
        · rw [hb] at h1; simp at h1
        · rcases folder_dirAt cwd fs base g hb hg with h | h
          · exact .inl h
          · exact .inr (.inr (.inr h))
  · intro x hx
    obtain ⟨y, hy, rfl⟩ := List.mem_map.1 hx
    obtain ⟨g, hg1, hg2⟩ := (hmem y).1 hy
    exact hblk g hg1 y hg2

/-- With a trailing slash the rest of the text is resolved from the folder. -/
theorem below_base (cwd : Node) (fs : FS) (base q : List Byte) (b : Node) (hl : base.getLast? = some 0x2f#8)
    (hb : walk fs (start cwd base) (comps base) = some b) (fs' : FS) (hk : Keeps fs fs') :
    walk fs' (start cwd (base ++ q)) (comps (base ++ q)) = walk fs' b (comps q) := by
  have hne : base ≠ [] := by rintro rfl; simp at hl
  have hd : base = base.dropLast ++ [slash] := by
    rw [List.getLast?_eq_some_getLast hne, Option.some.injEq] at hl
    rw [show slash = base.getLast hne from hl.symm]
    exact (List.dropLast_concat_getLast hne).symm
  have hc : comps (base ++ q) = comps base ++ comps q := by
    have h1 : base ++ q = base.dropLast ++ slash :: q := by
      conv => lhs; rw [hd]
      simp
    rw [h1, comps_append]
    conv => rhs; rw [hd, show base.dropLast ++ [slash] = base.dropLast ++ slash :: [] from rfl, comps_append]
    simp [comps, splitGo]
  rw [start_append _ _ _ hne, hc, walk_append, walk_keeps hk _ _ _ hb]; rfl

/-- **C69** `mkdirs(base, files, fc)` with `base` an existing folder `b` written with its slash: everything there is
kept, and resolving any folder of any of the files from `b` gives a directory afterwards, unless a non-directory is in
the place of one of them. -/
theorem mkdirs_batch (cwd : Node) (fs : FS) (hs : Sane cwd fs) (base : List Byte) (files : List (List Byte)) (b : Node)
    (hb : walk fs (start cwd base) (comps base) = some b) (hbd : fs b = .dir) (hl : base.getLast? = some 0x2f#8)
    (hb0 : 0#8 ∉ base) (h0 : ∀ f ∈ files, 0#8 ∉ f) :
    let path := fun f : List Byte => f.map (fun c => if c = 0x5c#8 then 0x2f#8 else c)
    let fs' := mkdirsBatch cwd fs base files
    Keeps fs fs' ∧ Sane cwd fs' ∧
    ((∀ f ∈ files, ∀ q, FolderOf q (path f) → ∀ n, walk fs' b (comps q) = some n → fs' n ≠ .file) →
      ∀ f ∈ files, ∀ q, FolderOf q (path f) → ∃ n, walk fs' b (comps q) = some n ∧ fs' n = .dir) := by
  have hne : base ≠ [] := by rintro rfl; simp at hl
  obtain ⟨hk, hs', h⟩ := batch_core cwd fs hs base files (.inr ⟨hne, b, hb, hbd⟩) hb0 h0
  refine ⟨hk, hs', fun hblk f hf q hq => ?_⟩
  obtain ⟨-, n, h1, h2⟩ := h (fun f hf q hq => by
    rintro ⟨-, n, h1, h2⟩
    rw [below_base cwd fs base q b hl hb _ hk] at h1
    exact hblk f hf q hq n h1 h2) f hf q hq (by simp [hne])
  rw [below_base cwd fs base q b hl hb _ hk] at h1
  exact ⟨n, h1, h2⟩

/-- **C69** `mkdirs("", files, fc)`: the folders of the files themselves. -/
theorem mkdirs_batch_here (cwd : Node) (fs : FS) (hs : Sane cwd fs) (files : List (List Byte))
    (h0 : ∀ f ∈ files, 0#8 ∉ f) :
    let path := fun f : List Byte => f.map (fun c => if c = 0x5c#8 then 0x2f#8 else c)
    let fs' := mkdirsBatch cwd fs [] files
    Keeps fs fs' ∧ Sane cwd fs' ∧
    ((∀ f ∈ files, ∀ q, FolderOf q (path f) → ¬ FileAt cwd fs' q) →
      ∀ f ∈ files, ∀ q, FolderOf q (path f) → q ≠ [] → DirAt cwd fs' q) := by
  simpa using batch_core cwd fs hs [] files (.inl rfl) (by simp) h0

/-- New nodes are directories named by one of the strings. -/
theorem foldl_only (cwd : Node) (L : List (List Byte)) : ∀ fs, Sane cwd fs → (∀ q ∈ L, 0#8 ∉ q) → ∀ n,
    (L.foldl (fun s q => mkdir cwd s q) fs) n ≠ fs n → fs n = .missing ∧
      (L.foldl (fun s q => mkdir cwd s q) fs) n = .dir ∧
      ∃ q ∈ L, walk (L.foldl (fun s q => mkdir cwd s q) fs) (start cwd q) (comps q) = some n := by
  induction L with
  | nil => intro fs _ _ n h; exact absurd rfl h
  | cons q L ih =>
    intro fs hs h0 n hn
    simp only [List.foldl_cons] at hn ⊢
    have hs' := mkdir_sane cwd fs hs q
    have hk := foldl_keeps cwd L _ hs'
    by_cases e : mkdir cwd fs q n = fs n
    · rw [← e] at hn
      obtain ⟨h1, h2, x, hx, h3⟩ := ih _ hs' (fun x hx => h0 x (by simp [hx])) n hn
      exact ⟨by rw [← e]; exact h1, h2, x, by simp [hx], h3⟩
    · have hq := h0 q (by simp)
      have hmk : mkdir cwd fs q = hostMkdir cwd fs q := by unfold mkdir; rw [cstr_id q hq]
      rw [hmk] at e hk ⊢
      rcases hostMkdir_cases cwd fs hs q with h | ⟨c, m, h1, h2, -, h4, h5⟩
      · rw [h] at e; exact absurd rfl e
      · have hnm : n = c :: m := by
          rw [h4] at e; simp only at e
          exact Decidable.byContradiction fun hne => by rw [if_neg hne] at e; exact e rfl
        subst hnm
        have hd : hostMkdir cwd fs q (c :: m) = .dir := by rw [h4]; simp
        exact ⟨h2, by rw [hk.1 _ (by simp [hd]), hd], q, by simp, walk_keeps hk.1 _ _ _ h5⟩

/-- **C69** Nothing but the folders of the path is created; in particular not the file itself. -/
theorem mkdirs_one_only (cwd : Node) (fs : FS) (hs : Sane cwd fs) (p : List Byte) (h0 : 0#8 ∉ p) (n : Node)
    (hn : mkdirsOne cwd fs p n ≠ fs n) : fs n = .missing ∧ mkdirsOne cwd fs p n = .dir ∧
    ∃ q, FolderOf q (p.map (fun c => if c = 0x5c#8 then 0x2f#8 else c)) ∧
      walk (mkdirsOne cwd fs p) (start cwd q) (comps q) = some n := by
  have hz : ∀ q ∈ folders p, 0#8 ∉ q := by
    intro x hx
    obtain ⟨r, hr⟩ := (folders_mem p x).1 hx
    have := fullPath_nul p h0
    rw [hr] at this; simp at this; exact this.1
  obtain ⟨h1, h2, q, hq, h3⟩ := foldl_only cwd (folders p) fs hs hz n hn
  refine ⟨h1, h2, q, ?_, h3⟩
  rw [← fullPath_eq]; exact (folders_mem p q).1 hq

/-- **C69** Nothing but the folders of the files is created. -/
theorem mkdirs_batch_only (cwd : Node) (fs : FS) (hs : Sane cwd fs) (base : List Byte) (files : List (List Byte))
    (hb0 : 0#8 ∉ base) (h0 : ∀ f ∈ files, 0#8 ∉ f) (n : Node)
    (hn : mkdirsBatch cwd fs base files n ≠ fs n) : fs n = .missing ∧ mkdirsBatch cwd fs base files n = .dir ∧
    ∃ f ∈ files, ∃ q, FolderOf q (f.map (fun c => if c = 0x5c#8 then 0x2f#8 else c)) ∧
      walk (mkdirsBatch cwd fs base files) (start cwd (base ++ q)) (comps (base ++ q)) = some n := by
  obtain ⟨hsort, hmem⟩ := tree_spec files
  unfold mkdirsBatch at hn ⊢
  rw [foldl_base] at hn ⊢
  have hz : ∀ q ∈ (tree files).map (base ++ ·), 0#8 ∉ q := by
    intro x hx
    obtain ⟨y, hy, rfl⟩ := List.mem_map.1 hx
    obtain ⟨g, hg, r, hr⟩ := (hmem y).1 hy
    have := fullPath_nul g (h0 g hg)
    rw [hr] at this; simp at this
    simp [hb0, this.1]
  obtain ⟨h1, h2, q, hq, h3⟩ := foldl_only cwd _ fs hs hz n hn
  obtain ⟨y, hy, rfl⟩ := List.mem_map.1 hq
  obtain ⟨g, hg, hy'⟩ := (hmem y).1 hy
  refine ⟨h1, h2, g, hg, y, ?_, h3⟩
  rw [← fullPath_eq]; exact hy'

/-! ### Ordinary names -/

/-- A name that means itself: not empty, no separators and neither `.` nor `..`. -/
structure Plain (n : Name) : Prop where
  ne : n ≠ []
  chars : 0x2f#8 ∉ n ∧ 0x5c#8 ∉ n ∧ 0#8 ∉ n
  dot : n ≠ [0x2e#8]
  dotdot : n ≠ [0x2e#8, 0x2e#8]

theorem comps_names (r : List Byte) : ∀ ns : List Name, (∀ n ∈ ns, Plain n) →
    comps (ns.flatMap (· ++ [slash]) ++ r) = ns ++ comps r := by
  intro ns
  induction ns with
  | nil => intro _; simp
  | cons n ns ih =>
    intro h
    have hn := h n (by simp)
    rw [show (n :: ns).flatMap (· ++ [slash]) ++ r = n ++ slash :: (ns.flatMap (· ++ [slash]) ++ r) by simp, comps_append,
      comps_free n hn.chars.1 hn.ne, ih (fun m hm => h m (by simp [hm]))]
    rfl

theorem walk_plain (fs : FS) : ∀ (cs : List Name), (∀ n ∈ cs, Plain n) → ∀ s n, walk fs s cs = some n → n = cs.reverse ++ s := by
  intro cs
  induction cs with
  | nil => intro _ s n h; simpa [walk, eq_comm] using h
  | cons c cs ih =>
    intro h s n hw
    have hc := h c (by simp)
    rw [walk] at hw
    rw [if_neg (show ¬ c = dotName from hc.dot), if_neg (show ¬ c = dotdotName from hc.dotdot)] at hw
    split at hw
    · cases hw
    · split at hw
      · cases hw
      · rw [ih (fun m hm => h m (by simp [hm])) _ _ hw]; simp

/-- **C69** `mkdirs` of a path of ordinary names: every folder named is there afterwards, below `/` for a path that
starts with a slash and below the working directory otherwise, if no file is in the way. -/
theorem mkdirs_plain (cwd : Node) (fs : FS) (hs : Sane cwd fs) (absolute : Bool) (ns : List Name) (file : Name)
    (hns : ∀ n ∈ ns, Plain n) (hf : 0x2f#8 ∉ file ∧ 0x5c#8 ∉ file ∧ 0#8 ∉ file) :
    let top : Node := if absolute then [] else cwd
    let path := (if absolute then [0x2f#8] else []) ++ ns.flatMap (· ++ [0x2f#8]) ++ file
    (∀ i, fs ((ns.take i).reverse ++ top) ≠ .file) → ∀ i, mkdirsOne cwd fs path ((ns.take i).reverse ++ top) = .dir := by
  intro top path hfile
  have hchars : ∀ n ∈ ns, 0x5c#8 ∉ n ∧ 0#8 ∉ n := fun n hn => (hns n hn).chars.2
  have hmem : ∀ x : Byte, x ≠ 0x2f#8 → (∀ n ∈ ns, x ∉ n) → x ∉ file → x ∉ path := by
    intro x hx h1 h2 hm
    simp only [path, List.mem_append, List.mem_flatMap, List.mem_singleton] at hm
    rcases hm with (hm | ⟨n, hn, hm | hm⟩) | hm
    · cases absolute <;> simp at hm; exact hx hm
    · exact h1 n hn hm
    · exact hx hm
    · exact h2 hm
  have h0 : 0#8 ∉ path := hmem _ (by decide) (fun n hn => (hchars n hn).2) hf.2.2
  have hb : 0x5c#8 ∉ path := hmem _ (by decide) (fun n hn => (hchars n hn).1) hf.2.1
  have hmap : path.map (fun c => if c = 0x5c#8 then 0x2f#8 else c) = path := by
    rw [List.map_congr_left (g := id)]
    · simp
    · intro c hc
      have : c ≠ 0x5c#8 := fun e => hb (e ▸ hc)
      simp [this]
  have hpre : ∀ x, comps ((if absolute then [0x2f#8] else []) ++ x) = comps x := by
    intro x
    cases absolute
    · rfl
    · show comps ([] ++ slash :: x) = _
      rw [comps_append]; rfl
  obtain ⟨hk, hs', hall⟩ := mkdirs_one cwd fs hs path h0
  rw [hmap] at hall
  -- resolving a folder of the path
  have hstart : ns ≠ [] ∨ absolute = true → ∀ q r, q ≠ [] → path = q ++ r → start cwd q = top := by
    intro hor q r hq he
    rw [← start_append cwd q r hq, ← he]
    show start cwd ((if absolute then [0x2f#8] else []) ++ ns.flatMap (· ++ [0x2f#8]) ++ file) = if absolute then [] else cwd
    cases absolute
    · cases ns with
      | nil => simp at hor
      | cons n ns =>
        have hn := hns n (by simp)
        cases n with
        | nil => exact absurd rfl hn.ne
        | cons c n =>
          have : c ≠ slash := fun e => hn.chars.1 (e ▸ by simp [slash])
          simp [start, this]
    · simp [start, slash]
  have hpref : ∀ q, FolderOf q path → ∃ k, comps q = ns.take k := by
    rintro q ⟨r, hr⟩
    rcases List.append_eq_append_iff.1 hr with ⟨a, h1, h2⟩ | ⟨a, h1, h2⟩
    · exact absurd (by rw [h2]; simp) hf.1
    · cases a with
      | nil => exact absurd (by simp only [List.nil_append] at h2; rw [← h2]; simp) hf.1
      | cons x a =>
        simp only [List.cons_append, List.cons.injEq] at h2
        have hc : comps ((if absolute then [0x2f#8] else []) ++ ns.flatMap (· ++ [0x2f#8])) = ns := by
          rw [hpre]
          have := comps_names [] ns hns
          simpa [comps, splitGo, slash] using this
        rw [h1, ← h2.1] at hc
        have hc' : comps (q ++ slash :: a) = ns := hc
        rw [comps_append] at hc'
        exact ⟨(comps q).length, by rw [← hc']; simp⟩
  have hblk : ∀ q, FolderOf q path → ¬ FileAt cwd (mkdirsOne cwd fs path) q := by
    rintro q hq ⟨hne, n, h1, h2⟩
    obtain ⟨k, hk'⟩ := hpref q hq
    have hor : ns ≠ [] ∨ absolute = true := by
      by_cases hn : ns = []
      · right
        subst hn
        obtain ⟨r, hr⟩ := hq
        cases absolute
        · exfalso
          apply hf.1
          have : file = q ++ 0x2f#8 :: r := by simpa [path] using hr
          rw [this]; simp
        · rfl
      · exact .inl hn
    obtain ⟨r, hr⟩ := hq
    rw [hstart hor q _ hne hr, hk'] at h1
    have hn := walk_plain _ _ (fun m hm => hns m (List.mem_of_mem_take hm)) _ _ h1
    by_cases e : mkdirsOne cwd fs path n = fs n
    · rw [e, hn] at h2; exact hfile k h2
    · have := (mkdirs_one_only cwd fs hs path h0 n e).2.1
      rw [this] at h2; cases h2
  intro i
  rcases Nat.eq_zero_or_pos i with rfl | hi
  · show mkdirsOne cwd fs path top = .dir
    by_cases ha : absolute = true
    · rw [show top = [] by simp [top, ha]]; exact hs'.root
    · rw [show top = cwd by simp [top, ha]]; exact hs'.cwd
  by_cases hn0 : ns = []
  · subst hn0
    show mkdirsOne cwd fs path ((List.take i []).reverse ++ top) = .dir
    rw [List.take_nil]
    show mkdirsOne cwd fs path top = .dir
    by_cases ha : absolute = true
    · rw [show top = [] by simp [top, ha]]; exact hs'.root
    · rw [show top = cwd by simp [top, ha]]; exact hs'.cwd
  have hne : ns.take i ≠ [] := by
    intro h; rw [List.take_eq_nil_iff] at h; rcases h with h | h
    · omega
    · exact hn0 h
  obtain ⟨a, n, he⟩ : ∃ a n, ns.take i = a ++ [n] := ⟨_, _, (List.dropLast_concat_getLast hne).symm⟩
  have hsplit : ns = a ++ n :: ns.drop i := by
    conv => lhs; rw [← List.take_append_drop i ns, he]
    simp
  have hn : Plain n := hns n (by rw [hsplit]; simp)
  have hqne : (if absolute then [0x2f#8] else []) ++ a.flatMap (· ++ [0x2f#8]) ++ n ≠ [] := by
    intro h; simp only [List.append_eq_nil_iff] at h; exact hn.ne h.2
  have hpath : path = ((if absolute then [0x2f#8] else []) ++ a.flatMap (· ++ [0x2f#8]) ++ n) ++
      0x2f#8 :: ((ns.drop i).flatMap (· ++ [0x2f#8]) ++ file) := by
    show (if absolute then [0x2f#8] else []) ++ ns.flatMap (· ++ [0x2f#8]) ++ file = _
    conv => lhs; rw [hsplit]
    simp
  obtain ⟨-, m, h1, h2⟩ := hall hblk _ ⟨_, hpath⟩ hqne
  rw [hstart (.inl hn0) _ _ hqne hpath] at h1
  have hc : comps ((if absolute then [0x2f#8] else []) ++ a.flatMap (· ++ [0x2f#8]) ++ n) = ns.take i := by
    rw [List.append_assoc, hpre, he]
    have := comps_names n a (fun m hm => hns m (by rw [hsplit]; simp [hm]))
    rw [comps_free n hn.chars.1 hn.ne] at this
    exact this
  rw [hc] at h1
  rw [← walk_plain _ _ (fun m hm => hns m (List.mem_of_mem_take hm)) _ _ h1]
  exact h2

/-! ## Concrete cases -/

/-- `/` and `/out` with a file `/out/f`. -/
def exFS : FS := fun n => if n = [] ∨ n = [[0x6f#8]] then .dir else if n = [[0x66#8], [0x6f#8]] then .file else .missing

theorem exFS_sane : Sane [] exFS := by
  refine ⟨by decide, by decide, fun c n h => ?_⟩
  unfold exFS at h ⊢
  by_cases h1 : n = []
  · simp [h1]
  · by_cases h2 : n = [[0x6f#8]]
    · simp [h2]
    · simp [h1, h2] at h

/-- `mkdirs("/o/a/b")` from any working directory, with the names met by `mkdirs_plain`. -/
example : (∀ n ∈ [[0x6f#8], [0x61#8]], Plain n) ∧ (∀ i, exFS (([[0x6f#8], [0x61#8]].take i).reverse ++ []) ≠ .file) ∧
    exFS [[0x61#8], [0x6f#8]] = .missing := by
  refine ⟨?_, ?_, by decide⟩
  · intro n hn
    simp only [List.mem_cons, List.not_mem_nil, or_false] at hn
    rcases hn with rfl | rfl <;> exact ⟨by decide, by decide, by decide, by decide⟩
  · intro i
    rcases i with _ | _ | _ | i <;> simp [exFS]

/-- `mkdirs("o/", {"a\\b/c"})`: hypotheses met, `/o/a/b` made. -/
example : ∃ b, walk exFS (start [] [0x6f#8, 0x2f#8]) (comps [0x6f#8, 0x2f#8]) = some b ∧ exFS b = .dir ∧
    mkdirsBatch [] exFS [0x6f#8, 0x2f#8] [[0x61#8, 0x5c#8, 0x62#8, 0x2f#8, 0x63#8]] [[0x62#8], [0x61#8], [0x6f#8]] = .dir ∧
    mkdirsBatch [] exFS [0x6f#8, 0x2f#8] [[0x61#8, 0x5c#8, 0x62#8, 0x2f#8, 0x63#8]]
      [[0x63#8], [0x62#8], [0x61#8], [0x6f#8]] = .missing := ⟨[[0x6f#8]], by decide, by decide, by decide, by decide⟩

/-- `mkdirs("o/a/b")`: no folder is a file, `/o/a` is made and `/o/a/b` is not. -/
example : (∀ q, FolderOf q [0x6f#8, 0x2f#8, 0x61#8, 0x2f#8, 0x62#8] →
      ¬ FileAt [] (mkdirsOne [] exFS [0x6f#8, 0x2f#8, 0x61#8, 0x2f#8, 0x62#8]) q) ∧
    mkdirsOne [] exFS [0x6f#8, 0x2f#8, 0x61#8, 0x2f#8, 0x62#8] [[0x61#8], [0x6f#8]] = .dir ∧
    mkdirsOne [] exFS [0x6f#8, 0x2f#8, 0x61#8, 0x2f#8, 0x62#8] [[0x62#8], [0x61#8], [0x6f#8]] = .missing := by
  refine ⟨?_, by decide, by decide⟩
  intro q hq
  have hm : q ∈ folders [0x6f#8, 0x2f#8, 0x61#8, 0x2f#8, 0x62#8] := (folders_mem _ q).2 hq
  have hl : folders [0x6f#8, 0x2f#8, 0x61#8, 0x2f#8, 0x62#8] = [[0x6f#8], [0x6f#8, 0x2f#8, 0x61#8]] := by decide
  rw [hl] at hm
  simp only [List.mem_cons, List.not_mem_nil, or_false] at hm
  rcases hm with rfl | rfl
  · rintro ⟨-, n, h1, h2⟩
    rw [show walk _ _ _ = some [[0x6f#8]] from by decide] at h1
    cases h1; revert h2; decide
  · rintro ⟨-, n, h1, h2⟩
    rw [show walk _ _ _ = some [[0x61#8], [0x6f#8]] from by decide] at h1
    cases h1; revert h2; decide

/-- **C69 violated without the slash**: `mkdirs("o", {"a/b"})` leaves `/o/a` missing and makes `/oa`. -/
theorem mkdirs_base_without_slash_violated :
    mkdirsBatch [] exFS [0x6f#8] [[0x61#8, 0x2f#8, 0x62#8]] [[0x61#8], [0x6f#8]] = .missing ∧
    mkdirsBatch [] exFS [0x6f#8] [[0x61#8, 0x2f#8, 0x62#8]] [[0x6f#8, 0x61#8]] = .dir := by decide

/-- **C69 violated for a base that does not exist**: the folders of the base itself are not made, and so none is. -/
theorem mkdirs_missing_base_violated : ∀ n,
    mkdirsBatch [] exFS [0x78#8, 0x2f#8] [[0x61#8, 0x2f#8, 0x62#8]] n = exFS n := by
  intro n
  have h : mkdirsBatch [] exFS [0x78#8, 0x2f#8] [[0x61#8, 0x2f#8, 0x62#8]] =
      mkdir [] exFS [0x78#8, 0x2f#8, 0x61#8] := rfl
  have hw : walk exFS [] [[0x78#8]] = none := by decide
  have hc : comps (cstr [0x78#8, 0x2f#8, 0x61#8]) = [[0x78#8], [0x61#8]] := by decide
  have hst : start [] (cstr [0x78#8, 0x2f#8, 0x61#8]) = [] := by decide
  have hne : cstr [0x78#8, 0x2f#8, 0x61#8] ≠ [] := by decide
  rw [h]; unfold mkdir hostMkdir
  simp only [hne, hc, hst, if_false, List.getLast?, List.dropLast, hw]

/-! ## C70 `FileType` -/

/-- The type of a file by `st_mode & S_IFMT` (sys/stat.h). -/
inductive NodeType
  | fifo | charDevice | directory | blockDevice | regular | socket
deriving DecidableEq

/-- The format bits of the POSIX file types that `stat` can report. -/
def NodeType.format : NodeType → Nat
  | .fifo => 0o010000
  | .charDevice => 0o020000
  | .directory => 0o040000
  | .blockDevice => 0o060000
  | .regular => 0o100000
  | .socket => 0o140000

/-- `st_mode` of a node: the type and any permission bits. -/
def mode (t : NodeType) (perm : BitVec 12) : BitVec 32 := BitVec.ofNat 32 (t.format + perm.toNat)

theorem mode_bits (t : NodeType) (perm : BitVec 12) (m : Nat) (hm : m = 0x4000 ∨ m = 0x8000) :
    mode t perm &&& BitVec.ofNat 32 m = BitVec.ofNat 32 (t.format &&& m) := by
  have h : mode t perm = BitVec.ofNat 32 t.format ||| perm.zeroExtend 32 := by
    apply BitVec.eq_of_toNat_eq
    have hp := perm.isLt
    have hf : t.format = (t.format / 4096) <<< 12 := by cases t <;> rfl
    have hf2 : t.format < 65536 := by cases t <;> decide
    rw [BitVec.toNat_or]
    simp only [mode, BitVec.toNat_ofNat, BitVec.truncate_eq_setWidth, BitVec.toNat_setWidth]
    rw [Nat.mod_eq_of_lt (by omega), Nat.mod_eq_of_lt (by omega), Nat.mod_eq_of_lt (by omega)]
    conv => rhs; rw [hf]
    rw [← Nat.shiftLeft_add_eq_or_of_lt hp, ← hf]
  rw [h]
  have hz : perm.zeroExtend 32 &&& BitVec.ofNat 32 m = 0#32 := by
    apply BitVec.eq_of_getLsbD_eq
    intro i hi
    rw [BitVec.getLsbD_and]
    have : m = 1 <<< 14 ∨ m = 1 <<< 15 := by simpa using hm
    by_cases h12 : i < 12
    · have : (BitVec.ofNat 32 m).getLsbD i = false := by
        rcases hm with rfl | rfl <;>
        (have : i = 0 ∨ i = 1 ∨ i = 2 ∨ i = 3 ∨ i = 4 ∨ i = 5 ∨ i = 6 ∨ i = 7 ∨ i = 8 ∨ i = 9 ∨ i = 10 ∨ i = 11 := by omega
         rcases this with h|h|h|h|h|h|h|h|h|h|h|h <;> subst h <;> decide)
      rw [this]; simp
    · simp [BitVec.getLsbD_of_ge perm i (by omega)]
  have hd : (BitVec.ofNat 32 t.format ||| perm.zeroExtend 32) &&& BitVec.ofNat 32 m =
      (BitVec.ofNat 32 t.format &&& BitVec.ofNat 32 m) ||| (perm.zeroExtend 32 &&& BitVec.ofNat 32 m) := by
    apply BitVec.eq_of_getLsbD_eq; intro i _; simp [Bool.and_or_distrib_right]
  rw [hd, hz, BitVec.or_zero]
  rcases hm with rfl | rfl <;> cases t <;> decide

/-- **C70** For every file that is neither a socket nor a block device, and every permission: `Directory` exactly for
directories, `File` exactly for regular files, `Invalid` for what is neither. Missing: sockets and block devices. -/
theorem fileType_partial (t : NodeType) (perm : BitVec 12) (h : t ≠ .socket ∧ t ≠ .blockDevice) :
    fileType (some (mode t perm)) = match t with
      | .directory => FileType.directory
      | .regular => .file
      | _ => .invalid := by
  have h1 := mode_bits t perm 0x4000 (.inl rfl)
  have h2 := mode_bits t perm 0x8000 (.inr rfl)
  unfold fileType
  simp only [h1, h2]
  cases t <;> first | rfl | simp at h

/-- **C70** A path that cannot be examined is an `Error`, and nothing else is. -/
theorem fileType_error (s : Option (BitVec 32)) : fileType s = .error ↔ s = none := by
  cases s with
  | none => simp [fileType]
  | some m => 
    simp only [fileType]
    repeat' split
    all_goals simp

/-- **C70 violated**: every socket and every block device is reported as a directory. -/
theorem fileType_socket_violated (perm : BitVec 12) :
    fileType (some (mode .socket perm)) = .directory ∧ fileType (some (mode .blockDevice perm)) = .directory := by
  have h1 := mode_bits .socket perm 0x4000 (.inl rfl)
  have h2 := mode_bits .blockDevice perm 0x4000 (.inl rfl)
  unfold fileType
  simp only [h1, h2]
  exact ⟨rfl, rfl⟩

example : fileType (some (mode .regular 0o644#12)) = .file ∧ fileType (some (mode .fifo 0o777#12)) = .invalid := by decide

end PreCore.Mkdirs
