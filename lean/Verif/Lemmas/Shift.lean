import Verif.Model.ReflectorPrint
/-!
# Reflected access does not depend on where the instance lies
-/
namespace PreCore.Refl
open CNum Supercore

/-- The object as seen from address `b`. -/
def Obj.shift (b : Nat) (o : Obj) : Obj := ⟨fun x => o.mem (b + x), fun x => o.strs (b + x)⟩

theorem read_shift (o : Obj) (b a n : Nat) : o.read (b + a) n = (o.shift b).read a n := by
  unfold Obj.read Obj.shift
  simp only [Nat.add_assoc]

/-- `p` and `q` are the same object, seen from 0 and from `b`; below `b` nothing has changed since `o`. -/
def Moved (b : Nat) (o p q : Obj) : Prop := p.shift b = q ∧ ∀ x < b, p.mem x = o.mem x ∧ p.strs x = o.strs x

theorem Moved.start (b : Nat) (o : Obj) : Moved b o o (o.shift b) := ⟨rfl, fun _ _ => ⟨rfl, rfl⟩⟩

theorem Moved.write {b : Nat} {o p q : Obj} (h : Moved b o p q) (a : Nat) (bs : List Byte) :
    Moved b o (p.write (b + a) bs) (q.write a bs) := by
  obtain ⟨rfl, h2⟩ := h
  refine ⟨?_, ?_⟩
  · unfold Obj.shift Obj.write
    congr 1
    funext x
    simp only
    by_cases hx : a ≤ x ∧ x < a + bs.length
    · rw [if_pos (by omega), if_pos hx]; congr 1; omega
    · rw [if_neg (by omega), if_neg hx]
  · intro x hx
    refine ⟨?_, (h2 x hx).2⟩
    show (if _ then _ else _) = _
    rw [if_neg (by omega)]
    exact (h2 x hx).1

theorem Moved.writeStr {b : Nat} {o p q : Obj} (h : Moved b o p q) (a : Nat) (s : Text) :
    Moved b o (p.writeStr (b + a) s) (q.writeStr a s) := by
  obtain ⟨rfl, h2⟩ := h
  refine ⟨?_, ?_⟩
  · unfold Obj.shift Obj.writeStr
    congr 1
    funext x
    simp only
    by_cases hx : x = a
    · rw [if_pos (by omega), if_pos hx]
    · rw [if_neg (by omega), if_neg hx]
  · intro x hx
    refine ⟨(h2 x hx).1, ?_⟩
    show (if _ then _ else _) = _
    rw [if_neg (by omega)]
    exact (h2 x hx).2

theorem Moved.storeBits {b w : Nat} {o p q : Obj} (h : Moved b o p q) (a n : Nat) (r : Err × Option (BitVec w)) :
    (storeBits p (b + a) n r).1 = (storeBits q a n r).1 ∧ Moved b o (storeBits p (b + a) n r).2 (storeBits q a n r).2 := by
  unfold Refl.storeBits
  split
  · exact ⟨rfl, h⟩
  · exact ⟨rfl, h.write _ _⟩

theorem Moved.storeBytes {b : Nat} {o p q : Obj} (h : Moved b o p q) (a : Nat) (r : Err × Option (List Byte)) :
    (storeBytes p (b + a) r).1 = (storeBytes q a r).1 ∧ Moved b o (storeBytes p (b + a) r).2 (storeBytes q a r).2 := by
  unfold Refl.storeBytes
  split
  · exact ⟨rfl, h⟩
  · exact ⟨rfl, h.write _ _⟩

theorem Moved.setItems {b : Nat} {o : Obj} (f g : Text → Nat → Obj → Err × Obj)
    (hfg : ∀ t a p q, Moved b o p q → Moved b o (f t (b + a) p).2 (g t a q).2) (n sz base : Nat) :
    ∀ (items : List Text) (i : Nat) (p q : Obj), Moved b o p q →
      (setItems f n sz (b + base) items i p).1 = (setItems g n sz base items i q).1 ∧
      Moved b o (setItems f n sz (b + base) items i p).2 (setItems g n sz base items i q).2 := by
  intro items
  induction items with
  | nil => intro i p q h; exact ⟨rfl, h⟩
  | cons t ts ih =>
    intro i p q h
    unfold Refl.setItems
    simp only
    split
    · exact ⟨rfl, h⟩
    · split
      · exact ⟨rfl, h⟩
      · refine ih _ _ _ ?_
        rw [show b + base + sz * i = b + (base + sz * i) by omega]
        exact hfg _ _ _ _ h

theorem Moved.setArray {b : Nat} {o : Obj} (f g : Text → Nat → Obj → Err × Obj)
    (hfg : ∀ t a p q, Moved b o p q → Moved b o (f t (b + a) p).2 (g t a q).2) (op cl : Byte) (t : Text) (r : RType) (a : Nat)
    (p q : Obj) (h : Moved b o p q) :
    (setArray f op cl t r (b + a) p).1 = (setArray g op cl t r a q).1 ∧
    Moved b o (setArray f op cl t r (b + a) p).2 (setArray g op cl t r a q).2 := by
  unfold Refl.setArray
  split
  · split
    · exact ⟨rfl, h⟩
    · simp only
      split
      · exact ⟨rfl, h⟩
      · exact Moved.setItems f g hfg _ _ _ _ _ _ _ h
  · exact ⟨rfl, h⟩

/-- Assigning a member at `b + a` is assigning it at `a` in the object seen from `b`. -/
theorem Moved.member (env : Env) {b : Nat} {o : Obj} : ∀ (f : Nat) (r : RType) (t : Text) (a : Nat) (p q : Obj), Moved b o p q →
    (member env f r t (b + a) p).1 = (member env f r t a q).1 ∧
    Moved b o (member env f r t (b + a) p).2 (member env f r t a q).2 := by
  intro f
  induction f with
  | zero => intro r t a p q h; exact ⟨rfl, h⟩
  | succ f ih =>
    intro r t a p q h
    unfold Refl.member
    simp only
    split
    · exact ⟨rfl, h.write _ _⟩
    · split <;> first | exact h.storeBits _ _ _ | exact ⟨rfl, h⟩
    · split <;> first | exact h.storeBits _ _ _ | exact ⟨rfl, h⟩
    · split <;> first | exact h.storeBits _ _ _ | exact ⟨rfl, h⟩
    · unfold setBitMember
      simp only
      rw [show p.read (b + a) 8 = q.read a 8 by rw [read_shift, h.1]]
      exact ⟨trivial, h.write _ _⟩
    · exact h.storeBytes _ _
    · exact h.storeBytes _ _
    · exact ⟨rfl, h.writeStr _ _⟩
    · exact Moved.setArray _ _ (fun t a p q h => (ih _ t a p q h).2) _ _ _ _ _ _ _ h
    · exact Moved.setArray _ _ (fun t a p q h => (ih _ t a p q h).2) _ _ _ _ _ _ _ h
    · exact Moved.setArray _ _ (fun t a p q h => (ih _ t a p q h).2) _ _ _ _ _ _ _ h
    · exact ⟨rfl, h⟩

theorem setMember_shift (env : Env) (r : RType) (t : Text) (b a : Nat) (o : Obj) :
    (setMember env r t (b + a) o).1 = (setMember env r t a (o.shift b)).1 ∧
    (setMember env r t (b + a) o).2.shift b = (setMember env r t a (o.shift b)).2 ∧
    ∀ x < b, (setMember env r t (b + a) o).2.mem x = o.mem x ∧ (setMember env r t (b + a) o).2.strs x = o.strs x := by
  obtain ⟨h1, h2, h3⟩ := Moved.member env (t.length + 1) r t a o _ (Moved.start b o)
  exact ⟨h1, h2, h3⟩

theorem printItems_congr (f g : Nat → Option Text) : ∀ k i, (∀ j, f j = g j) → printItems f k i = printItems g k i := by
  intro k
  induction k with
  | zero => intro i _; rfl
  | succ k ih => intro i h; unfold printItems; rw [h i, ih _ h]

/-- Printing a member at `b + a` is printing it at `a` in the object seen from `b`. -/
theorem print_shift (env : Env) : ∀ (f : Nat) (r : RType) (b a : Nat) (o : Obj),
    print env f r (b + a) o = print env f r a (o.shift b) := by
  intro f
  induction f with
  | zero => intro r b a o; rfl
  | succ f ih =>
    intro r b a o
    have hp : (fun i => print env f (elemType r) (b + a + r.subSize.toNat * i) o) =
        (fun i => print env f (elemType r) (a + r.subSize.toNat * i) (o.shift b)) := by
      funext i
      rw [Nat.add_assoc, ih]
    unfold print
    simp only [read_shift, hp]
    rfl

theorem printMember_shift (env : Env) (r : RType) (b a : Nat) (o : Obj) :
    printMember env r (b + a) o = printMember env r a (o.shift b) := print_shift env 3 r b a o

end PreCore.Refl
