import Verif.Model.StringView
/-!
# Model of datas/internal/string_view.inl: views as pointer and size

`Model/StringView.lean` models a view by its characters. Here a view is what it is in the code, a pointer and a size, and the memory is not
changed by any operation.
-/
namespace PreCore.StringView

/-- `m_str`, `m_size` (string_view.hpp:421-422). -/
structure View where
  ptr : Nat
  size : BitVec 64
deriving DecidableEq, Repr

/-- The memory. (What `m_str` points into, string_view.hpp:421-422.) -/
abbrev Memory := Nat → Byte

/-- `Traits::length` (`strlen`) from address `a` on; the fuel is the number of bytes up to the end of the object. `none`: no terminator.
(string_view.inl:39-46) -/
def strlen (m : Memory) (a : Nat) : Nat → Option Nat
  | 0 => none
  | n + 1 => if m a = 0#8 then some 0 else (strlen m (a + 1) n).map (· + 1)

/-- What a program does with views, which are variables with numbers. (string_view.inl:11-55, 147-180, 208-231) -/
inductive ViewOp
  /-- `v = {str, count}` (string_view.inl:39-46). -/
  | count (v a : Nat) (n : BitVec 64)
  /-- `v = str` (string_view.inl:30-37); the object `str` points to has `room` bytes. -/
  | cstr (v a room : Nat)
  /-- `v = {start, end}` (string_view.inl:48-55). -/
  | range (v a b : Nat)
  /-- `v = {}` (string_view.inl:11-18). -/
  | clear (v : Nat)
  /-- `v = u` -/
  | assign (v u : Nat)
  /-- `v = u.substr(pos, len)` (string_view.inl:223-231). -/
  | substr (v u : Nat) (pos len : BitVec 64)
  /-- `v.remove_prefix(n)` (string_view.inl:149-154). -/
  | removePrefix (v : Nat) (n : BitVec 64)
  /-- `v.remove_suffix(n)` (string_view.inl:157-162). -/
  | removeSuffix (v : Nat) (n : BitVec 64)
  /-- `v.resize(n)` (string_view.inl:175-180). -/
  | resize (v : Nat) (n : BitVec 64)
  /-- `v.swap(u)` (string_view.inl:165-172). -/
  | swap (v u : Nat)
deriving DecidableEq, Repr

/-- The variables. (Variables of string_view.hpp:421-422.) -/
abbrev Views := Nat → View

/-- Replaces one variable (assignments of `basic_string_view`, string_view.hpp:421-422). -/
def put {α : Type} (s : Nat → α) (v : Nat) (x : α) : Nat → α := fun k => if k = v then x else s k

/-- One operation: the variables afterwards, and whether `std::out_of_range` was thrown. (string_view.inl:11-55, 147-180, 208-231) -/
def viewStep (m : Memory) (s : Views) : ViewOp → Views × Bool
  | .count v a n => (put s v ⟨a, n⟩, false)
  | .cstr v a room => (put s v ⟨a, BitVec.ofNat 64 ((strlen m a room).getD 0)⟩, false)
  | .range v a b => (put s v ⟨a, BitVec.ofNat 64 b - BitVec.ofNat 64 a⟩, false)
  | .clear v => (put s v ⟨0, 0⟩, false)
  | .assign v u => (put s v (s u), false)
  | .substr v u pos len =>
    let w := s u
    let maxLength := if w.size.toNat < pos.toNat then 0 else w.size - pos
    if pos.toNat < w.size.toNat then (put s v ⟨w.ptr + pos.toNat, if maxLength.toNat < len.toNat then maxLength else len⟩, false) else (s, true)
  | .removePrefix v n => (put s v ⟨(s v).ptr + n.toNat, (s v).size - n⟩, false)
  | .removeSuffix v n => (put s v { s v with size := (s v).size - n }, false)
  | .resize v n => (put s v { s v with size := n }, false)
  | .swap v u => (put (put s v (s u)) u (s v), false)

/-- A program: the variables afterwards and what was thrown. (string_view.inl:11-55, 147-180, 208-231) -/
def viewRun (m : Memory) : List ViewOp → Views → Views × List Bool
  | [], s => (s, [])
  | op :: l, s => ((viewRun m l (viewStep m s op).1).1, (viewStep m s op).2 :: (viewRun m l (viewStep m s op).1).2)

/-- `to_string()`, `operator<<`, iteration from `begin()` to `end()` (string_view.inl:188-193, 567-580, 601-607): the characters. -/
def View.chars (m : Memory) (v : View) : List Byte := (List.range v.size.toNat).map fun i => m (v.ptr + i)

end PreCore.StringView
