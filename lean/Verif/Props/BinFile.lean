import Verif.Model.BinFile
/-!
# C115: readers and writers of files

Specification: every reader is a private cursor on the file it was opened on.
-/
namespace PreCore.BinFile
open PreCore.Stream

/-- Specification: a reader that was made, or opened on a file (its cursor), or whose opening failed. -/
inductive Cur
  | unopened
  | on (n : Navi)
  | failed

/-- The readers, each with a cursor of its own. -/
abbrev Spec := Nat → Option Cur
def Spec.put (s : Spec) (i : Nat) (c : Option Cur) : Spec := fun j => if j = i then c else s j

/-- A cursor at the beginning of a file. -/
def start (content : List Byte) : Navi := ⟨⟨content, 0, false, false⟩, 0, 0, false⟩

/-- The content a newly opened file has. -/
def contentFor (k : Kind) (disk : Disk) (canWrite : Path → Bool) (p : Path) : Option (List Byte) :=
  match k with
  | .reader => disk p
  | .writer => if canWrite p then some [] else none

/-- The error of a failed opening. -/
def errFor : Kind → Err
  | .reader => .notFound
  | .writer => .invalidAccess

/-- The demanded behaviour, for programs that open each reader once at most, do not move readers, and use opened readers only. -/
inductive Runs {α : Type} (k : Kind) (disk : Disk) (canWrite : Path → Bool) : Spec → List (Op α) → List (Out α) → Prop
  | nil (s : Spec) : Runs k disk canWrite s [] []
  | make (s : Spec) (i : Nat) (l : List (Op α)) (r : List (Out α)) (h : s i = none) :
      Runs k disk canWrite (s.put i (some .unopened)) l r → Runs k disk canWrite s (.make i :: l) (.done :: r)
  | openOk (s : Spec) (i : Nat) (p : Path) (c : List Byte) (l : List (Op α)) (r : List (Out α)) (h : s i = some .unopened)
      (hc : contentFor k disk canWrite p = some c) :
      Runs k disk canWrite (s.put i (some (.on (start c)))) l r → Runs k disk canWrite s (.open_ i p :: l) (.done :: r)
  | openFails (s : Spec) (i : Nat) (p : Path) (l : List (Op α)) (r : List (Out α)) (h : s i = some .unopened)
      (hc : contentFor k disk canWrite p = none) :
      Runs k disk canWrite (s.put i (some .failed)) l r → Runs k disk canWrite s (.open_ i p :: l) (.error (errFor k) :: r)
  | destroy (s : Spec) (i : Nat) (c : Cur) (l : List (Op α)) (r : List (Out α)) (h : s i = some c) :
      Runs k disk canWrite (s.put i none) l r → Runs k disk canWrite s (.destroy i :: l) (.done :: r)
  | use (s : Spec) (i : Nat) (n : Navi) (f : Navi → α × Navi) (l : List (Op α)) (r : List (Out α)) (h : s i = some (.on n)) :
      Runs k disk canWrite (s.put i (some (.on (f n).2))) l r → Runs k disk canWrite s (.use i f :: l) (.value (f n).1 :: r)

/-- Objects stand for cursors. -/
def Stands (i : Nat) (o : Option Obj) (c : Option Cur) : Prop :=
  match c with
  | none => o = none
  | some .unopened => o = some fresh
  | some (.on n) => o = some ⟨true, n, some i⟩
  | some .failed => ∃ o', o = some o'

theorem stands_set (w : World) (s : Spec) (i : Nat) (o : Option Obj) (c : Option Cur) (h : ∀ j, Stands j (w j) (s j)) (hi : Stands i o c) :
    ∀ j, Stands j (w.set i o j) (s.put i c j) := by
  intro j
  unfold World.set Spec.put
  by_cases hj : j = i
  · rw [if_pos hj, if_pos hj, hj]; exact hi
  · rw [if_neg hj, if_neg hj]; exact h j

/-- C115: whatever readers there are and however their use is interleaved, each one that is opened once and stays where it is behaves as
a cursor of its own on the file it was opened on; a file that is not there is reported. -/
theorem readers_are_cursors {α : Type} (k : Kind) (disk : Disk) (canWrite : Path → Bool) (l : List (Op α)) (r : List (Out α)) (s : Spec)
    (h : Runs k disk canWrite s l r) (w : World) (hw : ∀ j, Stands j (w j) (s j)) : run k disk canWrite l w = r := by
  induction h generalizing w with
  | nil => rfl
  | make s i l r h _ ih =>
    simp only [run, step]
    rw [ih _ (stands_set w s i _ _ hw rfl)]
  | openOk s i p c l r h hc _ ih =>
    have hi := hw i
    rw [h] at hi
    have e : w i = some fresh := hi
    have e2 : openFile k disk canWrite i fresh p = (none, ⟨true, start c, some i⟩) := by
      unfold openFile open_ contentFor at *
      cases k <;> simp_all [fresh, start]
    simp only [run, step, e, e2]
    rw [ih _ (stands_set w s i _ _ hw rfl)]
  | openFails s i p l r h hc _ ih =>
    have hi := hw i
    rw [h] at hi
    have e : w i = some fresh := hi
    have e2 : ∃ o, openFile k disk canWrite i fresh p = (some (errFor k), o) := by
      unfold openFile open_ contentFor errFor at *
      cases k <;> simp_all [fresh]
    obtain ⟨o, e2⟩ := e2
    simp only [run, step, e, e2]
    have := ih _ (stands_set w s i (some o) (some .failed) hw ⟨o, rfl⟩)
    cases k <;> simp only [errFor] <;> rw [this]
  | destroy s i c l r h _ ih =>
    have hi := hw i
    rw [h] at hi
    have e : ∃ o, w i = some o := by
      cases c with
      | unopened => exact ⟨_, hi⟩
      | on n => exact ⟨_, hi⟩
      | failed => exact hi
    obtain ⟨o, e⟩ := e
    simp only [run, step, e]
    rw [ih _ (stands_set w s i none none hw rfl)]
  | use s i n f l r h _ ih =>
    have hi := hw i
    rw [h] at hi
    have e : w i = some ⟨true, n, some i⟩ := hi
    simp only [run, step, e]
    have hset : ∀ (w : World) (o : Option Obj), w.set i o i = o := fun w o => if_pos rfl
    simp only [hset]
    rw [ih]
    have : ∀ o o', (w.set i o).set i o' = w.set i o' := by
      intro o o'; funext j; unfold World.set; by_cases hj : j = i <;> simp [hj]
    rw [this]
    exact stands_set w s i _ _ hw rfl

/-- Two readers on two files used in turn, from nothing. -/
example (disk : Disk) (a b : Path) (ca cb : List Byte) (ha : disk a = some ca) (hb : disk b = some cb) (cw : Path → Bool)
    (f : Navi → Nat × Navi) :
    run .reader disk cw [.make 0, .make 1, .open_ 0 a, .open_ 1 b, .use 0 f, .use 1 f, .use 0 f] (fun _ => none) =
      [.done, .done, .done, .done, .value (f (start ca)).1, .value (f (start cb)).1, .value (f (f (start ca)).2).1] := by
  refine readers_are_cursors .reader disk cw _ _ (fun _ => none) ?_ _ (fun j => rfl)
  exact .make _ 0 _ _ rfl (.make _ 1 _ _ rfl (.openOk _ 0 a ca _ _ rfl ha (.openOk _ 1 b cb _ _ rfl hb
    (.use _ 0 _ f _ _ rfl (.use _ 1 _ f _ _ rfl (.use _ 0 _ f _ _ rfl (.nil _)))))))

/-- A reader cannot be opened a second time: every file, also an existing one, is reported as not found, and the reader has failed. -/
theorem reopen_violated (disk : Disk) (canWrite : Path → Bool) (w : World) (i : Nat) (n : Navi) (h : w i = some ⟨true, n, some i⟩) (p : Path) :
    ∃ w', step (α := Unit) .reader disk canWrite w (.open_ i p) = (.error .notFound, w') ∧
      ∀ k, (step .reader disk canWrite w' (.use i fun n => ((n.s.read k).1, { n with s := (n.s.read k).2 }))).1 = .value (none : Option (List Byte)) := by
  refine ⟨w.set i (some ⟨true, { n with s := { n.s with fail := true } }, some i⟩), ?_, ?_⟩
  · simp only [step, h, openFile, open_, if_true]
  · intro k
    have hset : ∀ (w : World) (o : Option Obj), w.set i o i = o := fun w o => if_pos rfl
    simp only [step, hset]
    simp [Stream.read]

/-- A reader made by moving another one still uses the stream of the old object, which has no file any more: it reads nothing; once the old
object is gone, using it is undefined. -/
theorem move_violated (disk : Disk) (canWrite : Path → Bool) (w : World) (i j : Nat) (n : Navi) (hij : i ≠ j) (h : w i = some ⟨true, n, some i⟩) :
    ∃ w', step (α := Unit) .reader disk canWrite w (.move i j) = (.done, w') ∧
      (∀ k, 0 < k → (step .reader disk canWrite w' (.use j fun n => ((n.s.read k).1, { n with s := (n.s.read k).2 }))).1 = .value (none : Option (List Byte))) ∧
      ∀ (f : Navi → Unit × Navi), (step .reader disk canWrite (step (α := Unit) .reader disk canWrite w' (.destroy i)).2 (.use j f)).1 = .error .ub := by
  refine ⟨(w.set i (some ⟨false, { n with s := closed }, some i⟩)).set j (some ⟨true, n, some i⟩), by simp only [step, h], ?_, ?_⟩
  · intro k hk
    have hk : k ≠ 0 := by omega
    simp [step, World.set, hij, closed, Stream.read, hk]
  · intro f
    simp [step, World.set, hij, hij.symm]

/-- Using a reader that was never opened is undefined. -/
theorem unopened_violated (disk : Disk) (canWrite : Path → Bool) (w : World) (i : Nat) (f : Navi → Unit × Navi) :
    (step .reader disk canWrite (step (α := Unit) .reader disk canWrite w (.make i)).2 (.use i f)).1 = .error .ub := by
  simp [step, World.set, fresh]

end PreCore.BinFile
