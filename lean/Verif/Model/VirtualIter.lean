/-!
# Model of uni/virtual_iterator.hpp, uni/list.hpp, uni/list_vector.hpp
-/
namespace PreCore.VirtualIter

/-- A list: `Size()` and `At()` (uni/list.hpp:28-29). -/
structure UList (α : Type) where
  size : BitVec 64
  at_ : BitVec 64 → α

/-- `npos` (virtual_iterator.hpp:28). -/
def npos : BitVec 64 := 0xffffffff#64

/-- Constructor (virtual_iterator.hpp:37-39): the position. -/
def mk {α} (l : UList α) (num : BitVec 64) : BitVec 64 := if npos.toNat ≤ num.toNat then l.size else num

/-- `begin()`, `end()` (uni/list.hpp:34-35, list_vector.hpp:40-41, 64-65, virtual_iterator.hpp:71-72). -/
def begin_ {α} (l : UList α) : BitVec 64 := mk l 0
/-- `end()` (uni/list.hpp:34-35, list_vector.hpp:40-41, 64-65, virtual_iterator.hpp:71-72). -/
def end_ {α} (l : UList α) : BitVec 64 := mk l npos

/-- `for (auto x : list)`: compare, read, increment (virtual_iterator.hpp:41-58). The first argument bounds the rounds;
`none`: not finished. -/
def forEach {α} (l : UList α) : Nat → BitVec 64 → BitVec 64 → Option (List α)
  | 0, _, _ => none
  | n + 1, pos, stop => if pos ≠ stop then (forEach l n (pos + 1) stop).map (l.at_ pos :: ·) else some []

/-- `VectorList` (list_vector.hpp:33-34) over the elements `xs`: `at` throws outside. -/
def ofVector {α} (xs : List α) : UList (Option α) := ⟨BitVec.ofNat 64 xs.length, fun i => xs[i.toNat]?⟩

end PreCore.VirtualIter
