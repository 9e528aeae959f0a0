import Verif.Model.Base
/-!
# Model of datas/unicode.hpp and datas/tchar.hpp (POSIX build: `wchar_t` has four bytes)

`std::wstring_convert` and the `codecvt` facets are library code, modelled by what the standard says they do: UTF-8
well-formedness as in Unicode table 3-7, failure throws `std::range_error` (`none`). `codecvt_utf8<char32_t>` writes
surrogate code points as three bytes in older library versions and fails in newer ones: parameter `strict`.
Code units and code points are numbers.
-/
namespace PreCore.Uni8

/-- Result of a conversion. (unicode.hpp:36-66, 82-90) -/
inductive Res (α : Type)
  | ok (a : α)
  | throws
  | ub
deriving DecidableEq, Repr

/-- A code point of up to 21 bits in UTF-8 (library). (`codecvt` used at unicode.hpp:38, 45, 55, 62.) -/
def put8 (c : Nat) : List Nat :=
  if c < 0x80 then [c]
  else if c < 0x800 then [0xc0 + c / 64, 0x80 + c % 64]
  else if c < 0x10000 then [0xe0 + c / 4096, 0x80 + c / 64 % 64, 0x80 + c % 64]
  else [0xf0 + c / 262144, 0x80 + c / 4096 % 64, 0x80 + c / 64 % 64, 0x80 + c % 64]

/-- Continuation byte of UTF-8 (`codecvt` used at unicode.hpp:83, 88). -/
def isCont (b : Nat) : Bool := 0x80 ≤ b && b < 0xc0
/-- Surrogate code unit (`codecvt` used at unicode.hpp:38, 45). -/
def isSurrogate (c : Nat) : Bool := 0xd800 ≤ c && c < 0xe000

/-- Reading UTF-8 (library); `none`: malformed. (`codecvt` used at unicode.hpp:83, 88.) -/
def get8 : List Nat → Option (List Nat)
  | [] => some []
  | a :: r =>
    if a < 0x80 then (get8 r).map (a :: ·)
    else if a < 0xc2 then none
    else if a < 0xe0 then
      match r with
      | b :: r => if isCont b then (get8 r).map (((a - 0xc0) * 64 + (b - 0x80)) :: ·) else none
      | _ => none
    else if a < 0xf0 then
      match r with
      | b :: c :: r =>
        let v := (a - 0xe0) * 4096 + (b - 0x80) * 64 + (c - 0x80)
        if isCont b ∧ isCont c ∧ 0x800 ≤ v ∧ ¬ isSurrogate v then (get8 r).map (v :: ·) else none
      | _ => none
    else if a < 0xf5 then
      match r with
      | b :: c :: d :: r =>
        let v := (a - 0xf0) * 262144 + (b - 0x80) * 4096 + (c - 0x80) * 64 + (d - 0x80)
        if isCont b ∧ isCont c ∧ isCont d ∧ 0x10000 ≤ v ∧ v < 0x110000 then (get8 r).map (v :: ·) else none
      | _ => none
    else none

/-- A code point in UTF-16 (library). (`codecvt` used at unicode.hpp:83, 88.) -/
def put16 (c : Nat) : List Nat :=
  if c < 0x10000 then [c] else [0xd800 + (c - 0x10000) / 1024, 0xdc00 + (c - 0x10000) % 1024]

/-- Reading UTF-16 (library). (`codecvt` used at unicode.hpp:38, 45.) -/
def get16 : List Nat → Option (List Nat)
  | [] => some []
  | a :: r =>
    if ¬ isSurrogate a then (get16 r).map (a :: ·)
    else if a < 0xdc00 then
      match r with
      | b :: r => if 0xdc00 ≤ b ∧ b < 0xe000 then (get16 r).map ((0x10000 + (a - 0xd800) * 1024 + (b - 0xdc00)) :: ·)
        else none
      | _ => none
    else none

/-- `codecvt_utf8<char32_t>::out` (library). (unicode.hpp:55, 62) -/
def out32 (strict : Bool) (s : List Nat) : Option (List Nat) :=
  if s.all (fun c => decide (c < 0x110000) && !(strict && isSurrogate c)) then some (s.flatMap put8) else none

/-- A conversion that throws `std::range_error` for malformed input (`wstring_convert`, unicode.hpp:41, 48, 84, 89). -/
def Res.ofOption {α : Type} : Option α → Res α
  | some a => .ok a
  | none => .throws

/-- `_utf8cvt<_Ty, 2>::Cvt(const std::basic_string<_Ty> &)` (unicode.hpp:44-49): `&*input.begin()` and
`std::prev(input.end())` need a character. -/
def cvt16 (s : List Nat) : Res (List Nat) :=
  if s = [] then .ub else Res.ofOption ((get16 s).map (List.flatMap put8))

/-- `_utf8cvt<_Ty, 4>::Cvt(const std::basic_string<_Ty> &)` (unicode.hpp:61-66). -/
def cvt32 (strict : Bool) (s : List Nat) : Res (List Nat) :=
  if s = [] then .ub else Res.ofOption (out32 strict s)

/-- The view of a zero terminated string (unicode.hpp:37, 54). -/
def upToZero (s : List Nat) : List Nat := s.takeWhile (· ≠ 0)

/-- `_utf8cvt<_Ty, 2>::Cvt(const _Ty *)` (unicode.hpp:36-42). -/
def cvt16z (s : List Nat) : Res (List Nat) := cvt16 (upToZero s)
/-- `_utf8cvt<_Ty, 4>::Cvt(const _Ty *)` (unicode.hpp:53-59). -/
def cvt32z (strict : Bool) (s : List Nat) : Res (List Nat) := cvt32 strict (upToZero s)

/-- `ToUTF1632(const std::string &)` (unicode.hpp:87-90): the wide characters hold UTF-16 code units. -/
def toUTF1632 (s : List Nat) : Res (List Nat) := Res.ofOption ((get8 s).map (List.flatMap put16))

/-- `ToUTF8(std::wstring)` / `std::to_string(const wstring &)` (unicode.hpp:78-80, tchar.hpp:44): `sizeof(wchar_t)` is 4. -/
def toUTF8 (strict : Bool) (s : List Nat) : Res (List Nat) := cvt32 strict s

/-- `std::to_string(std::to_wstring(s))` (tchar.hpp:44, 52). -/
def wideRoundTrip (strict : Bool) (s : List Nat) : Res (List Nat) :=
  match toUTF1632 s with
  | .ok w => toUTF8 strict w
  | .throws => .throws
  | .ub => .ub

end PreCore.Uni8
