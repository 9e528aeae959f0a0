import Verif.Model.Vectors
import Mathlib.Data.Real.Sqrt
/-!
# Model of the integer vectors (datas/vectors.hpp with the element types of datas/vectors_fwd.hpp:35-60)

`Model/Vectors.lean` leaves the element type open. Here the elements are the six integer types the library names, with the C++
rules: operands narrower than `int` are promoted to `int`, signed arithmetic out of range is undefined (`none`), unsigned arithmetic
wraps, the result is converted back to the element type (modulo `2^w`; a narrowing that clang rejects in the braces of the return
statement and gcc accepts with a warning). Shifts follow C++14 (test/CMakeLists.txt:4).

Not modelled: the shifts by one scalar of element types other than `int32` (vectors.hpp:72-73, 200-201: they build a vector of the
element type where one of `int32` is expected, and do not compile).
-/
namespace PreCore.IntVec
open PreCore PreCore.Vec

/-- The element types (vectors_fwd.hpp:35-60). -/
inductive IT | i8 | i16 | i32 | u8 | u16 | u32 deriving DecidableEq, Repr

/-- Bits of an element. (vectors_fwd.hpp:35-60) -/
def IT.bits : IT → Nat | .i8 => 8 | .u8 => 8 | .i16 => 16 | .u16 => 16 | .i32 => 32 | .u32 => 32
/-- Whether the type is signed. (vectors_fwd.hpp:35-60) -/
def IT.signed : IT → Bool | .i8 => true | .i16 => true | .i32 => true | _ => false
/-- Least value (numeric limits of the element types, vectors_fwd.hpp:35-60). -/
def IT.lo (t : IT) : Int := if t.signed then -2 ^ (t.bits - 1) else 0
/-- Greatest value (numeric limits of the element types, vectors_fwd.hpp:35-60). -/
def IT.hi (t : IT) : Int := if t.signed then 2 ^ (t.bits - 1) - 1 else 2 ^ t.bits - 1

/-- Integral promotion of an operand (applied to `X` and `input.X`, vectors.hpp:53-64). -/
def IT.promote : IT → IT | .u32 => .u32 | _ => .i32

/-- Conversion to an element type: the value modulo `2^w` (narrowing in the returned braces, vectors.hpp:53-64). -/
def wrap (t : IT) (z : Int) : Int := if t.signed then z.bmod (2 ^ t.bits) else z % 2 ^ t.bits

/-- Result of an operator in a promoted type: out of range is undefined for `int`, wraps for `uint32`. (vectors.hpp:53-64) -/
def inType (p : IT) (z : Int) : Option Int :=
  if p.signed then (if p.lo ≤ z ∧ z ≤ p.hi then some z else none) else some (wrap p z)

/-- The value of a bit pattern (operands of `&` and `|`, vectors.hpp:57-58). -/
def ofBits (t : IT) (b : BitVec t.bits) : Int := if t.signed then b.toInt else b.toNat

/-- `X + input.X`, also as an intermediate result of `Dot` (vectors.hpp:53, 126). -/
def addP (p : IT) (x y : Int) : Option Int := inType p (x + y)
/-- `X - input.X` (vectors.hpp:54). -/
def subP (p : IT) (x y : Int) : Option Int := inType p (x - y)
/-- `X * input.X` (vectors.hpp:55, 126). -/
def mulP (p : IT) (x y : Int) : Option Int := inType p (x * y)
/-- `X / input.X` (vectors.hpp:56): towards zero; undefined for 0 and where the quotient does not fit. -/
def divP (p : IT) (x y : Int) : Option Int := if y = 0 then none else inType p (x.tdiv y)
/-- `X & input.X` (vectors.hpp:57). -/
def andP (p : IT) (x y : Int) : Option Int := some (ofBits p (BitVec.ofInt p.bits x &&& BitVec.ofInt p.bits y))
/-- `X | input.X` (vectors.hpp:58, 125). -/
def orP (p : IT) (x y : Int) : Option Int := some (ofBits p (BitVec.ofInt p.bits x ||| BitVec.ofInt p.bits y))
/-- `X << input.X` (vectors.hpp:63), C++14: the count has to be below the width; a negative `int`, or one whose shifted value does not
fit the bits of `int`, is undefined. -/
def shlP (p : IT) (x k : Int) : Option Int :=
  if k < 0 ∨ (p.bits : Int) ≤ k then none
  else if p.signed then
    (if x < 0 then none else if x * 2 ^ k.toNat < 2 ^ p.bits then some (wrap p (x * 2 ^ k.toNat)) else none)
  else some (wrap p (x * 2 ^ k.toNat))
/-- `X >> input.X` (vectors.hpp:60): arithmetic for a negative `int` (implementation-defined, all supported compilers). -/
def shrP (p : IT) (x k : Int) : Option Int :=
  if k < 0 ∨ (p.bits : Int) ≤ k then none else some (x / 2 ^ k.toNat)

/-- A component of the result: the operator in the promoted type, then the conversion back (vectors.hpp:53-64). -/
def elem (t : IT) (f : IT → Int → Int → Option Int) (x y : Int) : Option Int := (f t.promote x y).map (wrap t)

/-- The operators with a vector of `t_Vector2` (vectors.hpp:53-64). -/
def bin2 (t : IT) (f : IT → Int → Int → Option Int) (a b : V2 Int) : Option (V2 Int) := do
  let x ← elem t f a.x b.x
  let y ← elem t f a.y b.y
  return ⟨x, y⟩
/-- The operators with a vector of `t_Vector` (vectors.hpp:169-192). -/
def bin3 (t : IT) (f : IT → Int → Int → Option Int) (a b : V3 Int) : Option (V3 Int) := do
  let x ← elem t f a.x b.x
  let y ← elem t f a.y b.y
  let z ← elem t f a.z b.z
  return ⟨x, y, z⟩
/-- The operators with a vector of `V4ScalarType` (vectors.hpp:304-327). -/
def bin4 (t : IT) (f : IT → Int → Int → Option Int) (a b : V4 Int) : Option (V4 Int) := do
  let x ← elem t f a.x b.x
  let y ← elem t f a.y b.y
  let z ← elem t f a.z b.z
  let w ← elem t f a.w b.w
  return ⟨x, y, z, w⟩

/-- `operator-()` (vectors.hpp:93): `*this * -1`, where -1 is converted to the element type. -/
def neg2 (t : IT) (a : V2 Int) : Option (V2 Int) := bin2 t mulP a (.all (wrap t (-1)))
/-- `operator-()` (vectors.hpp:224). -/
def neg3 (t : IT) (a : V3 Int) : Option (V3 Int) := bin3 t mulP a (.all (wrap t (-1)))

/-- `Dot` (vectors.hpp:126): calculated in the promoted type, converted on return. -/
def dot2 (t : IT) (a b : V2 Int) : Option Int := do
  let p ← mulP t.promote a.x b.x
  let q ← mulP t.promote a.y b.y
  let s ← addP t.promote p q
  return wrap t s
/-- `Dot` (vectors.hpp:253-255). -/
def dot3 (t : IT) (a b : V3 Int) : Option Int := do
  let p ← mulP t.promote a.x b.x
  let q ← mulP t.promote a.y b.y
  let s ← addP t.promote p q
  let r ← mulP t.promote a.z b.z
  let u ← addP t.promote s r
  return wrap t u

/-- `Sign` (vectors.hpp:125). `none` does not occur. -/
def sign2 (t : IT) (a : V2 Int) : Option Int := do
  let o ← orP t.promote a.x a.y
  return if o < 0 then -1 else 1
/-- `Sign` (vectors.hpp:249). -/
def sign3 (t : IT) (a : V3 Int) : Option Int := do
  let o ← orP t.promote a.x a.y
  let o ← orP t.promote o a.z
  return if o < 0 then -1 else 1
/-- `Sign` (vectors.hpp:381). -/
def sign4 (t : IT) (a : V4 Int) : Option Int := do
  let o ← orP t.promote a.x a.y
  let o ← orP t.promote o a.z
  let o ← orP t.promote o a.w
  return if o < 0 then -1 else 1

/-- `static_cast<T>` of a `double` that is not negative (vectors.hpp:123): the fraction is cut off; a value the type cannot hold is
undefined. -/
noncomputable def castDouble (t : IT) (r : ℝ) : Option Int := if ⌊r⌋ ≤ t.hi then some ⌊r⌋ else none

/-- `Length` (vectors.hpp:122-124); `root n` is the `double` that `sqrt` makes of the integer `n`. For elements of 8 and 16 bits the
squares and their sum are exact. -/
noncomputable def length2 (root : Int → ℝ) (t : IT) (a : V2 Int) : Option Int := castDouble t (root (a.x ^ 2 + a.y ^ 2))
/-- `Length` (vectors.hpp:250-252), see `length2`. -/
noncomputable def length3 (root : Int → ℝ) (t : IT) (a : V3 Int) : Option Int := castDouble t (root (a.x ^ 2 + a.y ^ 2 + a.z ^ 2))

/-- `Normalize` (vectors.hpp:128-134). -/
noncomputable def normalize2 (root : Int → ℝ) (t : IT) (a : V2 Int) : Option (V2 Int) := do
  let len ← length2 root t a
  if len = 0 then return a else bin2 t divP a (.all len)
/-- `Normalize` (vectors.hpp:261-267). -/
noncomputable def normalize3 (root : Int → ℝ) (t : IT) (a : V3 Int) : Option (V3 Int) := do
  let len ← length3 root t a
  if len = 0 then return a else bin3 t divP a (.all len)

end PreCore.IntVec
