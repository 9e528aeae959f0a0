import Verif.Model.PyLife
/-!
# Specification: programs that keep what they borrowed from
-/
namespace PreCore.PyLife

/-- A variable of the program: the variable it was lent from, and whether the program still has it. -/
abbrev Var := Option Nat × Bool

/-- Variable `i` exists and was not dropped. -/
def Has (v : List Var) (i : Nat) : Prop := ∃ l, v[i]? = some (l, true)

/-- The program never drops a variable while it has another one that was lent from it. Reading an attribute makes the next variable; statements about
variables that the program does not have any more count for nothing. -/
inductive Keeps : List Op → List Var → Prop
  | done {v} : Keeps [] v
  | create {ops v} : Keeps ops (v ++ [(none, true)]) → Keeps (.create :: ops) v
  | borrow {ops v} : Keeps ops (v ++ [(none, true)]) → Keeps (.borrow :: ops) v
  | lend {ops v i} : Has v i → Keeps ops (v ++ [(some i, true)]) → Keeps (.lend i :: ops) v
  | give {ops v i} : Has v i → Keeps ops (v ++ [(none, true)]) → Keeps (.give i :: ops) v
  | use {ops v i} : Keeps ops v → Keeps (.use i :: ops) v
  | drop {ops v i l} : v[i]? = some (l, true) → (∀ j : Nat, v[j]? ≠ some (some i, true)) → Keeps ops (v.set i (l, false)) → Keeps (.drop i :: ops) v
  | noLend {ops v i} : ¬ Has v i → Keeps ops v → Keeps (.lend i :: ops) v
  | noGive {ops v i} : ¬ Has v i → Keeps ops v → Keeps (.give i :: ops) v
  | noDrop {ops v i} : ¬ Has v i → Keeps ops v → Keeps (.drop i :: ops) v

end PreCore.PyLife
