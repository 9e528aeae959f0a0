import Verif.Model.Base
/-!
# Model of datas/internal/string_view.inl (`es::basic_string_view<char>`)

A view is the list of its characters.  `size_type` values are natural numbers below `2^64`; unsigned wrap-around
is explicit.  Reading outside the view is a distinct outcome (`ub`).
-/
namespace PreCore.StringView

/-- `npos` (string_view.hpp:81). -/
def npos : Nat := 2 ^ 64 - 1

/-- Wrapping subtraction of `size_t`. (string_view.inl:150-160, 293-316) -/
def subw (a b : Nat) : Nat := (a + 2 ^ 64 - b) % 2 ^ 64

/-- Result of a search. (string_view.inl:293-316) -/
inductive Found | at (i : Nat) | npos | ub deriving DecidableEq, Repr

/-- `for (;j && v[j] == m_str[i + j]; j--);` (string_view.inl:308), returns the final `j`. -/
def findInner (s v : List Byte) (i : Nat) : Nat → Nat
  | 0 => 0
  | j + 1 => if v[j + 1]? = s[i + (j + 1)]? then findInner s v i j else j + 1

/-- The value of `j` when the test `if (!j)` is reached (string_view.inl:303-309). -/
def findJ (s v : List Byte) (i : Nat) : Nat :=
  let j := v.length - 1
  if j = 0 then (if s[i]? = v[j]? then 0 else 1) else findInner s v i j

/-- `for (i = pos; i < max_index; ++i)` (string_view.inl:302-315); first argument `max_index - i`. -/
def findLoop (s v : List Byte) : Nat → Nat → Found
  | 0, _ => .npos
  | f + 1, i => if findJ s v i = 0 then .at i else findLoop s v f (i + 1)

/-- `find(basic_string_view, pos)` (string_view.inl:293-316). -/
def find (s v : List Byte) (pos : Nat) : Found :=
  if v.length = 0 ∨ v.length > s.length then .npos
  else findLoop s v ((s.length - v.length) - pos) pos

/-- Inner loop of `rfind` (string_view.inl:356-362): compares `v[j]` with `m_str[i-j]`.
`none`: an index before the start or past the end of the view is read. -/
def rfindMatch (s : List Byte) (i : Nat) : Nat → List Byte → Option Bool
  | _, [] => some true
  | j, c :: cs =>
    if j ≤ i then
      match s[i - j]? with
      | none => none
      | some d => if c = d then rfindMatch s i (j + 1) cs else some false
    else none

/-- Outer loop of `rfind`, `i` going down until it wraps to `npos` (string_view.inl:355-363). -/
def rfindLoop (s v : List Byte) (i : Nat) : Found :=
  match rfindMatch s i 0 v with
  | none => .ub
  | some true => .at i
  | some false =>
    match i with
    | 0 => .npos
    | i + 1 => rfindLoop s v i

/-- `rfind(basic_string_view, pos)` (string_view.inl:347-365). -/
def rfind (s v : List Byte) (pos : Nat) : Found :=
  let max_index := subw s.length v.length
  let start := min (subw max_index 1) pos
  if start = npos then .npos else rfindLoop s v start

/-- Inner loop shared by the set searches: does some `v[j]` equal `m_str[i]` (string_view.inl:403-407)? -/
def anyOf (c : Byte) : List Byte → Bool
  | [] => false
  | d :: ds => if d = c then true else anyOf c ds

/-- `find_first_of` (string_view.inl:396-410); first argument `m_size - i`. -/
def findFirstOfLoop (s v : List Byte) : Nat → Nat → Found
  | 0, _ => .npos
  | f + 1, i =>
    match s[i]? with
    | none => .ub
    | some c => if anyOf c v then .at i else findFirstOfLoop s v f (i + 1)

/-- `find_first_of` (string_view.inl:396-410). -/
def findFirstOf (s v : List Byte) (pos : Nat) : Found := findFirstOfLoop s v (s.length - pos) pos

/-- `find_last_of` loop (string_view.inl:447-455). With an empty set no character is ever read. -/
def findLastOfLoop (s v : List Byte) (i : Nat) : Found :=
  let r : Option Bool := if v = [] then some false else (s[i]?).map (fun c => anyOf c v)
  match r with
  | none => .ub
  | some true => .at i
  | some false =>
    match i with
    | 0 => .npos
    | i + 1 => findLastOfLoop s v i

/-- `find_last_of` (string_view.inl:441-456). -/
def findLastOf (s v : List Byte) (pos : Nat) : Found :=
  let start := min (subw s.length 1) pos
  if start = npos then .npos else findLastOfLoop s v start

/-- Inner loop of the `*_not_of` searches (string_view.inl:494-499, 540-545): `break` when `v[0]` equals the
character, otherwise `return i` already in the first iteration. `true` = returns `i`. -/
def notOfInner (c : Byte) : List Byte → Bool
  | [] => false
  | d :: _ => if d = c then false else true

/-- `find_first_not_of` (string_view.inl:487-502). -/
def findFirstNotOfLoop (s v : List Byte) : Nat → Nat → Found
  | 0, _ => .npos
  | f + 1, i =>
    match s[i]? with
    | none => .ub
    | some c => if notOfInner c v then .at i else findFirstNotOfLoop s v f (i + 1)

/-- `find_first_not_of` (string_view.inl:487-502). -/
def findFirstNotOf (s v : List Byte) (pos : Nat) : Found := findFirstNotOfLoop s v (s.length - pos) pos

/-- `find_last_not_of` loop (string_view.inl:539-547). -/
def findLastNotOfLoop (s v : List Byte) (i : Nat) : Found :=
  let r : Option Bool := if v = [] then some false else (s[i]?).map (fun c => notOfInner c v)
  match r with
  | none => .ub
  | some true => .at i
  | some false =>
    match i with
    | 0 => .npos
    | i + 1 => findLastNotOfLoop s v i

/-- `find_last_not_of` (string_view.inl:533-548). -/
def findLastNotOf (s v : List Byte) (pos : Nat) : Found :=
  let start := min (subw s.length 1) pos
  if start = npos then .npos else findLastNotOfLoop s v start

/-- `Traits::compare` on the first `rlen` characters: the sign of `memcmp` (unsigned characters);
`char_traits<char>::compare`. The magnitude of a non-zero result is unspecified in C++, here ±1. (string_view.inl:235-243) -/
def traitsCompare : List Byte → List Byte → Nat → Int
  | a :: as, b :: bs, n + 1 => if a.toNat < b.toNat then -1 else if b.toNat < a.toNat then 1 else traitsCompare as bs n
  | _, _, _ => 0

/-- `compare(basic_string_view)` (string_view.inl:235-243). -/
def compare (s v : List Byte) : Int :=
  let c := traitsCompare s v (min s.length v.length)
  if c ≠ 0 then c else if s.length < v.length then -1 else if s.length > v.length then 1 else 0

/-- `operator==` (string_view.inl:637-643). -/
def opEq (s v : List Byte) : Bool := compare s v == 0
/-- `operator<` (string_view.inl:716-722). -/
def opLt (s v : List Byte) : Bool := decide (compare s v < 0)

/-- `substr` (string_view.inl:222-231); `none` = throws `std::out_of_range`. -/
def substr (s : List Byte) (pos len : Nat) : Option (List Byte) :=
  let max_length := if pos > s.length then 0 else s.length - pos
  if pos < s.length then some ((s.drop pos).take (if len > max_length then max_length else len)) else none

/-- `operator!=`, `operator>`, `operator<=`, `operator>=` (string_view.inl:678-683, 757-762, 797-802, 837-842). The forms with a C string or a
`std::string` on one side (645-674, 685-714, 724-753, 764-793, 804-833, 844-873) make a view of it and use these. -/
def opNe (s v : List Byte) : Bool := compare s v != 0
/-- `operator>` (string_view.inl:757-762). -/
def opGt (s v : List Byte) : Bool := decide (compare s v > 0)
/-- `operator<=` (string_view.inl:797-802). -/
def opLe (s v : List Byte) : Bool := decide (compare s v ≤ 0)
/-- `operator>=` (string_view.inl:837-842). -/
def opGe (s v : List Byte) : Bool := decide (compare s v ≥ 0)

/-- `compare(pos, count, v)` (string_view.inl:245-252; 272-288 with a view of a C string). `none` = throws. -/
def comparePart (s : List Byte) (pos count : Nat) (v : List Byte) : Option Int := (substr s pos count).map (compare · v)
/-- `compare(pos1, count1, v, pos2, count2)` (string_view.inl:254-263). -/
def comparePart2 (s : List Byte) (pos1 count1 : Nat) (v : List Byte) (pos2 count2 : Nat) : Option Int :=
  (substr s pos1 count1).bind fun a => (substr v pos2 count2).map fun b => compare a b

/-- `copy(dest, count, pos)` (string_view.inl:208-220): the characters written to `dest`; the return value is
their number. `none` = throws. `count + 1` wraps around for `count == npos` (the default argument). -/
def copy (s : List Byte) (count pos : Nat) : Option (List Byte) :=
  if pos ≥ s.length then none
  else some ((s.drop pos).take (min (s.length - pos) ((count + 1) % 2 ^ 64)))

/-- `remove_prefix` (string_view.inl:147-153); `none`: `n` exceeds the size, the size wraps around. -/
def removePrefix (s : List Byte) (n : Nat) : Option (List Byte) := if n ≤ s.length then some (s.drop n) else none

/-- `remove_suffix` (string_view.inl:155-161). -/
def removeSuffix (s : List Byte) (n : Nat) : Option (List Byte) :=
  if n ≤ s.length then some (s.take (s.length - n)) else none

end PreCore.StringView
