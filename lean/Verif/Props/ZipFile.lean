import Verif.Model.ZipFile
/-!
# C155: files got from an archive

Specification: a file is a cursor on its own content; a move takes the cursor along.
-/
namespace PreCore.ZipFile
open PreCore.Stream PreCore.BinFile

/-- The files, each with its own cursor; `some none` is a file that was moved from and can only be dropped. -/
abbrev Files := Nat → Option (Option Navi)
def Files.put (s : Files) (i : Nat) (c : Option (Option Navi)) : Files := fun j => if j = i then c else s j

/-- What a program has to yield; `none` for programs that use or move files that are not there (any more). -/
def demanded {α : Type} : List (Op α) → Files → Option (List α)
  | [], _ => some []
  | .get i c :: l, s => demanded l (s.put i (some (some ⟨⟨c, 0, false, false⟩, 0, 0, false⟩)))
  | .move i j :: l, s =>
    match s i with
    | some (some n) => demanded l ((s.put i (some none)).put j (some (some n)))
    | _ => none
  | .destroy i :: l, s => if (s i).isSome then demanded l (s.put i none) else none
  | .use i f :: l, s =>
    match s i with
    | some (some n) => (demanded l (s.put i (some (some (f n).2)))).map ((f n).1 :: ·)
    | _ => none

/-- The property: the program yields what is demanded. -/
def Holds {α : Type} (elided : Bool) (tmp : Nat) (l : List (Op α)) : Prop :=
  ∀ r, demanded l (fun _ => none) = some r → run elided tmp l (fun _ => none) = some r

/-- The object at `i` stands for the cursor. -/
def Stands (i : Nat) (o : Option Obj) (c : Option (Option Navi)) : Prop :=
  match c with
  | none => o = none
  | some none => False
  | some (some n) => o = some ⟨true, n, some i⟩

theorem stands_set (w : World) (s : Files) (i : Nat) (o : Option Obj) (c : Option (Option Navi)) (h : ∀ j, Stands j (w j) (s j))
    (ho : Stands i o c) : ∀ j, Stands j (w.set i o j) (s.put i c j) := by
  intro j
  unfold World.set Files.put
  by_cases hj : j = i
  · rw [if_pos hj, if_pos hj, hj]; exact ho
  · rw [if_neg hj, if_neg hj]; exact h j

theorem files_from {α : Type} (tmp : Nat) (l : List (Op α)) (hm : ∀ i j, Op.move i j ∉ l) (w : World) (s : Files)
    (h : ∀ j, Stands j (w j) (s j)) (r : List α) (hr : demanded l s = some r) : run true tmp l w = some r := by
  induction l generalizing w s r with
  | nil => simpa [demanded, run] using hr
  | cons op l ih =>
    have hm' : ∀ i j, Op.move i j ∉ l := fun i j hx => hm i j (by simp [hx])
    cases op with
    | get i c =>
      simp only [demanded] at hr
      simp only [run, step, get, if_true]
      rw [ih hm' (construct c i w) _ (stands_set w s i _ (some (some ⟨⟨c, 0, false, false⟩, 0, 0, false⟩)) h rfl) r hr]
      simp
    | move i j => exact absurd (by simp) (hm i j)
    | destroy i =>
      simp only [demanded] at hr
      split at hr
      · rename_i hi
        have : (w i).isSome = true := by
          have hk := h i
          cases hc : s i with
          | none => rw [hc] at hi; exact absurd hi (by simp)
          | some c => rw [hc] at hk; cases c with
            | none => exact hk.elim
            | some n => rw [show w i = _ from hk]; rfl
        simp only [run, step, this, if_true]
        rw [ih hm' (w.set i none) _ (stands_set w s i none none h rfl) r hr]
        simp
      · exact absurd hr (by simp)
    | use i f =>
      simp only [demanded] at hr
      split at hr
      · rename_i n hn
        obtain ⟨r', h1, h2⟩ := Option.map_eq_some_iff.1 hr
        have hw : w i = some ⟨true, n, some i⟩ := by have hk := h i; rw [hn] at hk; exact hk
        have hset : ∀ (w : World) (o : Option Obj), w.set i o i = o := fun w o => if_pos rfl
        simp only [run, step, hw, Option.bind_some, Option.getD_some, hset]
        have e : ∀ o o', (w.set i o).set i o' = w.set i o' := by
          intro o o'; funext j; unfold World.set; by_cases hj : j = i <;> simp [hj]
        have k := ih hm' _ _ (stands_set w s i (some ⟨true, (f n).2, some i⟩) (some (some (f n).2)) h rfl) r' h1
        rw [e]
        exact (congrArg (Option.map fun x => (f n).1 :: x) k).trans (by simp [h2])
      · exact absurd hr (by simp)

/-- C155 (partial: no file is moved, and `Get` builds its result in place): any number of files, each is a cursor on its own content. -/
theorem files_are_cursors_partial {α : Type} (tmp : Nat) (l : List (Op α)) (hm : ∀ i j, Op.move i j ∉ l) : Holds true tmp l :=
  fun r hr => files_from tmp l hm (fun _ => none) (fun _ => none) (fun _ => show none = none from rfl) r hr

/-- Two files used in turn. -/
example (f : Navi → Nat × Navi) : demanded [.get 0 [1#8], .get 1 [2#8], .use 0 f, .use 1 f, .use 0 f, .destroy 0] (fun _ => none) =
    some (let a := f ⟨⟨[1#8], 0, false, false⟩, 0, 0, false⟩; let b := f ⟨⟨[2#8], 0, false, false⟩, 0, 0, false⟩; [a.1, b.1, (f a.2).1]) := rfl

/-- The first `k` bytes, if they are there. -/
def take (k : Nat) (n : Navi) : Option (List Byte) × Navi := ((n.s.read k).1, { n with s := (n.s.read k).2 })

/-- C155 is violated when a file is moved: the reader still uses the buffer that was moved from, which is empty, and using it is undefined
once that file is gone. -/
theorem move_violated (tmp i j : Nat) (hij : i ≠ j) (b : Byte) (c : List Byte) :
    demanded [.get i (b :: c), .move i j, .use j (take 1)] (fun _ => none) = some [some [b]] ∧
    run true tmp [.get i (b :: c), .move i j, .use j (take 1)] (fun _ => none) = some [none] ∧
    demanded [.get i (b :: c), .move i j, .destroy i, .use j (take 1)] (fun _ => none) = some [some [b]] ∧
    run true tmp [.get i (b :: c), .move i j, .destroy i, .use j (take 1)] (fun _ => none) = none := by
  have hji : j ≠ i := fun h => hij h.symm
  refine ⟨?_, ?_, ?_, ?_⟩
  · simp [demanded, Files.put, take, Stream.read]
  · simp [run, step, get, construct, moveTo, World.set, take, Stream.read, closed, hij, hji]
  · simp [demanded, Files.put, take, Stream.read, hij, hji]
  · simp [run, step, get, construct, moveTo, World.set, closed, hij, hji]

/-- C155 is violated when another file is put where a moved file was: both then share one cursor on the content of the new one, so a file
gives bytes of another member. -/
theorem move_shares_violated (tmp i j : Nat) (hij : i ≠ j) (b d d' : Byte) (c e : List Byte) :
    let l := [.get i (b :: c), .move i j, .destroy i, .get i (d :: d' :: e), .use j (take 1), .use i (take 1)]
    demanded l (fun _ => none) = some [some [b], some [d]] ∧ run true tmp l (fun _ => none) = some [some [d], some [d']] := by
  have hji : j ≠ i := fun h => hij h.symm
  refine ⟨?_, ?_⟩
  · simp [demanded, Files.put, take, Stream.read, hij, hji]
  · simp [run, step, get, construct, moveTo, World.set, take, Stream.read, hij, hji]

/-- C155 is violated when the compiler does not build the result of `Get` in place: every use of the file is undefined. -/
theorem not_elided_violated {α : Type} (tmp i : Nat) (ht : tmp ≠ i) (c : List Byte) (f : Navi → α × Navi) :
    (demanded [.get i c, .use i f] (fun _ => none)).isSome = true ∧ run false tmp [.get i c, .use i f] (fun _ => none) = none := by
  have hit : i ≠ tmp := fun h => ht h.symm
  exact ⟨by simp [demanded, Files.put], by simp [run, step, get, construct, moveTo, World.set, hit]⟩

end PreCore.ZipFile
