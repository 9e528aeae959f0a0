import Verif.Model.Endian
/-!
# Model of the vector classes (datas/vectors.hpp, datas/vectors_simd.hpp)

Lanes are elements of an arbitrary type `α` with the arithmetic of the element type. Instantiated with a field this is the exact
arithmetic the float classes approximate (`Model/FloatVec.lean` instantiates it with floats); instantiated with `BitVec n` it is the wrapping integer
arithmetic. A 128 bit register is the list of its lanes in memory order: `X` is lane 0.

Not modelled: scalar operators of `V4ScalarType` (vectors.hpp:319-350: they assign to a const object and do not compile when used)
and `Sign` of float vectors of `vectors.hpp` (`|` of floats does not compile).
-/
namespace PreCore.Vec
open PreCore

/-- `t_Vector2` (vectors.hpp:30-144). -/
structure V2 (α : Type) where
  x : α
  y : α
deriving DecidableEq, Repr

/-- `t_Vector` (vectors.hpp:146-278). -/
structure V3 (α : Type) where
  x : α
  y : α
  z : α
deriving DecidableEq, Repr

/-- `V4ScalarType` (vectors.hpp:280-412), `V4SimdFltType`, `V4SimdIntType_t` (vectors_simd.hpp:29-348). -/
structure V4 (α : Type) where
  x : α
  y : α
  z : α
  w : α
deriving DecidableEq, Repr

/-- The members in memory order: `_arr` of the union. (vectors.hpp:39-47, 155-163, 290-298) -/
def V2.toList (v : V2 α) : List α := [v.x, v.y]
/-- see `V2.toList` (vectors.hpp:155-163). -/
def V3.toList (v : V3 α) : List α := [v.x, v.y, v.z]
/-- see `V2.toList` (vectors.hpp:290-298). -/
def V4.toList (v : V4 α) : List α := [v.x, v.y, v.z, v.w]

/-- `operator[]` (vectors.hpp:99-100, 240-241, 438-439); `none` is an access outside of `_arr`. -/
def V2.get? (v : V2 α) (i : Nat) : Option α := v.toList[i]?
/-- see `V2.get?` (vectors.hpp:99-100, 240-241, 438-439). -/
def V3.get? (v : V3 α) (i : Nat) : Option α := v.toList[i]?
/-- see `V2.get?` (vectors.hpp:99-100, 240-241, 438-439). -/
def V4.get? (v : V4 α) (i : Nat) : Option α := v.toList[i]?

/-- Constructors from one scalar (vectors.hpp:49, 166, 301). -/
def V2.all (s : α) : V2 α := ⟨s, s⟩
/-- see `V2.all` (vectors.hpp:49, 166, 301). -/
def V3.all (s : α) : V3 α := ⟨s, s, s⟩
/-- see `V2.all` (vectors.hpp:49, 166, 301). -/
def V4.all (s : α) : V4 α := ⟨s, s, s, s⟩

section ops
variable {α : Type}

/-- `t_Vector2::operator+ - * / & |` with a vector (vectors.hpp:53-58). -/
def V2.add [Add α] (a b : V2 α) : V2 α := ⟨a.x + b.x, a.y + b.y⟩
/-- see `V2.add` (vectors.hpp:53-58). -/
def V2.sub [Sub α] (a b : V2 α) : V2 α := ⟨a.x - b.x, a.y - b.y⟩
/-- see `V2.add` (vectors.hpp:53-58). -/
def V2.mul [Mul α] (a b : V2 α) : V2 α := ⟨a.x * b.x, a.y * b.y⟩
/-- see `V2.add` (vectors.hpp:53-58). -/
def V2.div [Div α] (a b : V2 α) : V2 α := ⟨a.x / b.x, a.y / b.y⟩
/-- see `V2.add` (vectors.hpp:53-58). -/
def V2.and [AndOp α] (a b : V2 α) : V2 α := ⟨a.x &&& b.x, a.y &&& b.y⟩
/-- see `V2.add` (vectors.hpp:53-58). -/
def V2.or [OrOp α] (a b : V2 α) : V2 α := ⟨a.x ||| b.x, a.y ||| b.y⟩

/-- `t_Vector::operator+ - * / & |` with a vector (vectors.hpp:169-186). -/
def V3.add [Add α] (a b : V3 α) : V3 α := ⟨a.x + b.x, a.y + b.y, a.z + b.z⟩
/-- see `V3.add` (vectors.hpp:169-186). -/
def V3.sub [Sub α] (a b : V3 α) : V3 α := ⟨a.x - b.x, a.y - b.y, a.z - b.z⟩
/-- see `V3.add` (vectors.hpp:169-186). -/
def V3.mul [Mul α] (a b : V3 α) : V3 α := ⟨a.x * b.x, a.y * b.y, a.z * b.z⟩
/-- see `V3.add` (vectors.hpp:169-186). -/
def V3.div [Div α] (a b : V3 α) : V3 α := ⟨a.x / b.x, a.y / b.y, a.z / b.z⟩
/-- see `V3.add` (vectors.hpp:169-186). -/
def V3.and [AndOp α] (a b : V3 α) : V3 α := ⟨a.x &&& b.x, a.y &&& b.y, a.z &&& b.z⟩
/-- see `V3.add` (vectors.hpp:169-186). -/
def V3.or [OrOp α] (a b : V3 α) : V3 α := ⟨a.x ||| b.x, a.y ||| b.y, a.z ||| b.z⟩

/-- `V4ScalarType::operator+ - * / & |` with a vector (vectors.hpp:304-321), and the lane-wise instructions
`_mm_add_ps`, `_mm_sub_ps`, `_mm_mul_ps`, `_mm_div_ps`, `_mm_and_ps`, `_mm_or_ps`, `_mm_add_epi32`, `_mm_sub_epi32`,
`_mm_mullo_epi32`, `_mm_and_si128`, `_mm_or_si128` of the SIMD classes (vectors_simd.hpp:92-112, 276-293). -/
def V4.add [Add α] (a b : V4 α) : V4 α := ⟨a.x + b.x, a.y + b.y, a.z + b.z, a.w + b.w⟩
/-- see `V4.add` (vectors.hpp:304-321; vectors_simd.hpp:92-112, 276-293). -/
def V4.sub [Sub α] (a b : V4 α) : V4 α := ⟨a.x - b.x, a.y - b.y, a.z - b.z, a.w - b.w⟩
/-- see `V4.add` (vectors.hpp:304-321; vectors_simd.hpp:92-112, 276-293). -/
def V4.mul [Mul α] (a b : V4 α) : V4 α := ⟨a.x * b.x, a.y * b.y, a.z * b.z, a.w * b.w⟩
/-- see `V4.add` (vectors.hpp:304-321; vectors_simd.hpp:92-112, 276-293). -/
def V4.div [Div α] (a b : V4 α) : V4 α := ⟨a.x / b.x, a.y / b.y, a.z / b.z, a.w / b.w⟩
/-- see `V4.add` (vectors.hpp:304-321; vectors_simd.hpp:92-112, 276-293). -/
def V4.and [AndOp α] (a b : V4 α) : V4 α := ⟨a.x &&& b.x, a.y &&& b.y, a.z &&& b.z, a.w &&& b.w⟩
/-- see `V4.add` (vectors.hpp:304-321; vectors_simd.hpp:92-112, 276-293). -/
def V4.or [OrOp α] (a b : V4 α) : V4 α := ⟨a.x ||| b.x, a.y ||| b.y, a.z ||| b.z, a.w ||| b.w⟩
/-- `operator^` of the SIMD classes (vectors_simd.hpp:110-112, 291-293). -/
def V4.xor [XorOp α] (a b : V4 α) : V4 α := ⟨a.x ^^^ b.x, a.y ^^^ b.y, a.z ^^^ b.z, a.w ^^^ b.w⟩

/-- Operators with a scalar (vectors.hpp:66-71, 194-199; vectors_simd.hpp:117-123, 297-301): the scalar in every lane. -/
def V2.addS [Add α] (a : V2 α) (s : α) : V2 α := a.add (.all s)
/-- see `V2.addS` (vectors.hpp:66-71, 194-199; vectors_simd.hpp:117-123, 297-301). -/
def V2.mulS [Mul α] (a : V2 α) (s : α) : V2 α := a.mul (.all s)
/-- see `V2.addS` (vectors.hpp:66-71, 194-199; vectors_simd.hpp:117-123, 297-301). -/
def V2.divS [Div α] (a : V2 α) (s : α) : V2 α := a.div (.all s)
/-- see `V2.addS` (vectors.hpp:66-71, 194-199; vectors_simd.hpp:117-123, 297-301). -/
def V3.addS [Add α] (a : V3 α) (s : α) : V3 α := a.add (.all s)
/-- see `V2.addS` (vectors.hpp:66-71, 194-199; vectors_simd.hpp:117-123, 297-301). -/
def V3.mulS [Mul α] (a : V3 α) (s : α) : V3 α := a.mul (.all s)
/-- see `V2.addS` (vectors.hpp:66-71, 194-199; vectors_simd.hpp:117-123, 297-301). -/
def V3.divS [Div α] (a : V3 α) (s : α) : V3 α := a.div (.all s)
/-- see `V2.addS` (vectors.hpp:66-71, 194-199; vectors_simd.hpp:117-123, 297-301). -/
def V4.addS [Add α] (a : V4 α) (s : α) : V4 α := a.add (.all s)
/-- see `V2.addS` (vectors.hpp:66-71, 194-199; vectors_simd.hpp:117-123, 297-301). -/
def V4.mulS [Mul α] (a : V4 α) (s : α) : V4 α := a.mul (.all s)
/-- see `V2.addS` (vectors.hpp:66-71, 194-199; vectors_simd.hpp:117-123, 297-301). -/
def V4.divS [Div α] (a : V4 α) (s : α) : V4 α := a.div (.all s)

/-- `operator-()` (vectors.hpp:93, 224; vectors_simd.hpp:141): product with -1. -/
def V2.neg [Mul α] [Neg α] [One α] (a : V2 α) : V2 α := a.mulS (-1)
/-- see `V2.neg` (vectors.hpp:93, 224; vectors_simd.hpp:141). -/
def V3.neg [Mul α] [Neg α] [One α] (a : V3 α) : V3 α := a.mulS (-1)
/-- see `V2.neg` (vectors.hpp:93, 224; vectors_simd.hpp:141). -/
def V4.neg [Mul α] [Neg α] [One α] (a : V4 α) : V4 α := a.mulS (-1)

/-- Compound assignments of `V4ScalarType` (vectors.hpp:354-370): the value stored in `*this`. `operator|=` calls `operator&`. -/
def V4.orAssign [AndOp α] (a b : V4 α) : V4 α := a.and b
/-- see `V4.orAssign` (vectors.hpp:354-370). -/
def V4.andAssign [AndOp α] (a b : V4 α) : V4 α := a.and b
/-- `operator|=` of the other classes (vectors.hpp:80, 208; vectors_simd.hpp:130, 324). -/
def V2.orAssign [OrOp α] (a b : V2 α) : V2 α := a.or b
/-- see `V2.orAssign` (vectors.hpp:80, 208; vectors_simd.hpp:130, 324). -/
def V3.orAssign [OrOp α] (a b : V3 α) : V3 α := a.or b
/-- see `V2.orAssign` (vectors.hpp:80, 208; vectors_simd.hpp:130, 324). -/
def V4.simdOrAssign [OrOp α] (a b : V4 α) : V4 α := a.or b

/-- `Dot` (vectors.hpp:126, 253-255, 401-403). -/
def V2.dot [Add α] [Mul α] (a b : V2 α) : α := a.x * b.x + a.y * b.y
/-- see `V2.dot` (vectors.hpp:126, 253-255, 401-403). -/
def V3.dot [Add α] [Mul α] (a b : V3 α) : α := a.x * b.x + a.y * b.y + a.z * b.z
/-- see `V2.dot` (vectors.hpp:126, 253-255, 401-403). -/
def V4.dot [Add α] [Mul α] (a b : V4 α) : α := a.x * b.x + a.y * b.y + a.z * b.z + a.w * b.w

/-- `_mm_dp_ps(a, b, 0xf1)`, lane 0 (vectors_simd.hpp:186-188): the instruction adds the products in pairs. -/
def V4.dpPs [Add α] [Mul α] (a b : V4 α) : α := (a.x * b.x + a.y * b.y) + (a.z * b.z + a.w * b.w)
/-- `DotV` (vectors_simd.hpp:190-192): the product in every lane (mask 0xff). -/
def V4.dotV [Add α] [Mul α] (a b : V4 α) : V4 α := .all (a.dpPs b)

/-- `Cross` of `t_Vector` (vectors.hpp:256-259). -/
def V3.cross [Sub α] [Mul α] (a b : V3 α) : V3 α :=
  ⟨a.y * b.z - a.z * b.y, a.z * b.x - a.x * b.z, a.x * b.y - a.y * b.x⟩

/-- Lane `i` of a register. (vectors_simd.hpp:29-52) -/
def V4.lane (v : V4 α) : Fin 4 → α
  | 0 => v.x | 1 => v.y | 2 => v.z | 3 => v.w

/-- `_mm_shuffle_ps(a, b, _MM_SHUFFLE(d, c, e, f))`: lanes 0 and 1 from `a`, 2 and 3 from `b`; the macro lists them from lane 3 down.
(vectors_simd.hpp:174, 196-202) -/
def shuffle (a b : V4 α) (s3 s2 s1 s0 : Fin 4) : V4 α := ⟨a.lane s0, a.lane s1, b.lane s2, b.lane s3⟩

/-- `_mm_set_ps` / `_mm_set_epi32`: arguments from lane 3 down. (vectors_simd.hpp:72, 268) -/
def setPs (e3 e2 e1 e0 : α) : V4 α := ⟨e0, e1, e2, e3⟩

/-- `V4SimdFltType(x, y, z, w)` (vectors_simd.hpp:68-70), also from `Vector4` and `V4SimdIntType_t` (74-76, 267-272). -/
def mk4 (x y z w : α) : V4 α := setPs w z y x
/-- `V4SimdFltType(const Vector &, float)` (vectors_simd.hpp:71-73). -/
def ofV3 (v : V3 α) (w : α) : V4 α := setPs w v.z v.y v.x

/-- Conversions (vectors.hpp:222, 431-436, 453-457). -/
def V3.toV2 (v : V3 α) : V2 α := ⟨v.x, v.y⟩
/-- see `V3.toV2` (vectors.hpp:222, 431-436, 453-457). -/
def V4.toV3 (v : V4 α) : V3 α := ⟨v.x, v.y, v.z⟩
/-- see `V3.toV2` (vectors.hpp:222, 431-436, 453-457). -/
def V4.toV2 (v : V4 α) : V2 α := ⟨v.x, v.y⟩
/-- see `V3.toV2` (vectors.hpp:222, 431-436, 453-457). -/
def V3.toV4 [Zero α] (v : V3 α) : V4 α := ⟨v.x, v.y, v.z, 0⟩

/-- `Cross` of the SIMD class (vectors_simd.hpp:194-204). -/
def V4.cross [Sub α] [Mul α] (a b : V4 α) : V4 α :=
  let temp0 := shuffle a a 3 0 2 1
  let temp1 := shuffle b b 3 1 0 2
  let temp2 := shuffle a a 3 1 0 2
  let temp3 := shuffle b b 3 0 2 1
  (temp0.mul temp1).sub (temp2.mul temp3)

/-- `QConjugate` (vectors_simd.hpp:220-222). -/
def V4.qConjugate [Mul α] [Neg α] [One α] (a : V4 α) : V4 α := a.mul (mk4 (-1) (-1) (-1) 1)

/-- `_mm_hsub_ps`. (vectors_simd.hpp:175) -/
def hsub [Sub α] (a b : V4 α) : V4 α := ⟨a.x - a.y, a.z - a.w, b.x - b.y, b.z - b.w⟩

/-- All four lanes satisfy a comparison: `_mm_movemask_ps(...) == 0xF`. (vectors_simd.hpp:64, 153-158) -/
def allLanes (p : α → α → Bool) (a b : V4 α) : Bool := p a.x b.x && p a.y b.y && p a.z b.z && p a.w b.w

variable [LE α] [DecidableLE α] [LT α] [DecidableLT α]

/-- `fltcmp` (vectors.hpp:26-28); `eps` is `FLT_EPSILON`. -/
def fltcmp [Add α] [Sub α] (eps a b : α) : Bool := decide (a ≤ b + eps) && decide (b - eps ≤ a)

/-- `operator==` of float vectors (vectors.hpp:108-112, 232-236, 389-394). -/
def V2.fltEq [Add α] [Sub α] (eps : α) (a b : V2 α) : Bool := fltcmp eps a.x b.x && fltcmp eps a.y b.y
/-- see `V2.fltEq` (vectors.hpp:108-112, 232-236, 389-394). -/
def V3.fltEq [Add α] [Sub α] (eps : α) (a b : V3 α) : Bool := fltcmp eps a.x b.x && fltcmp eps a.y b.y && fltcmp eps a.z b.z
/-- see `V2.fltEq` (vectors.hpp:108-112, 232-236, 389-394). -/
def V4.fltEq [Add α] [Sub α] (eps : α) (a b : V4 α) : Bool :=
  fltcmp eps a.x b.x && fltcmp eps a.y b.y && fltcmp eps a.z b.z && fltcmp eps a.w b.w

/-- One lane of `Compare` (vectors_simd.hpp:59-65). -/
def cmpLane [Add α] [Sub α] (eps i1 i2 : α) : Bool := decide (i2 ≤ i1 + eps) && decide (i1 - eps ≤ i2)
/-- `V4SimdFltType::Compare` (vectors_simd.hpp:59-65); `eps` is the value set by `SetEpsilon`. -/
def compare4 [Add α] [Sub α] (eps : α) (i1 i2 : V4 α) : Bool := allLanes (cmpLane eps) i1 i2
/-- `operator==` (vectors_simd.hpp:150). -/
def V4.simdEq [Add α] [Sub α] (eps : α) (a b : V4 α) : Bool := compare4 eps b a
/-- `operator<` and `operator>` (vectors_simd.hpp:153-158). -/
def V4.simdLt (a b : V4 α) : Bool := allLanes (fun p q => decide (p < q)) a b
/-- see `V4.simdLt` (vectors_simd.hpp:153-158). -/
def V4.simdGt (a b : V4 α) : Bool := allLanes (fun p q => decide (q < p)) a b
/-- `operator<=` and `operator>=` (vectors_simd.hpp:159-164). -/
def V4.simdLe [Add α] [Sub α] (eps : α) (a b : V4 α) : Bool := a.simdLt b || a.simdEq eps b
/-- see `V4.simdLe` (vectors_simd.hpp:159-164). -/
def V4.simdGe [Add α] [Sub α] (eps : α) (a b : V4 α) : Bool := a.simdGt b || a.simdEq eps b

/-- `V4SimdFltType::IsSymetrical` (vectors_simd.hpp:172-176). -/
def V4.simdIsSymetrical [Add α] [Sub α] (eps : α) (v : V4 α) : Bool :=
  let temp := shuffle v v 3 1 0 2
  compare4 eps (hsub v v) (hsub temp temp)

/-- `V4SimdFltType::Sign` (vectors_simd.hpp:179); a lane has its sign bit set when it is negative (negative zero is not modelled). -/
def V4.simdSign [Zero α] (v : V4 α) : Int :=
  if decide (v.x < 0) || decide (v.y < 0) || decide (v.z < 0) || decide (v.w < 0) then -1 else 1

end ops

section eqs
variable {α : Type} [DecidableEq α]

/-- `operator==` of integer vectors (vectors.hpp:102-106, 226-230, 383-387; `_mm_cmpeq_epi32`, vectors_simd.hpp:341-345). -/
def V2.intEq (a b : V2 α) : Bool := decide (a.x = b.x) && decide (a.y = b.y)
/-- see `V2.intEq` (vectors.hpp:102-106, 226-230, 383-387; vectors_simd.hpp:341-345). -/
def V3.intEq (a b : V3 α) : Bool := decide (a.x = b.x) && decide (a.y = b.y) && decide (a.z = b.z)
/-- see `V2.intEq` (vectors.hpp:102-106, 226-230, 383-387; vectors_simd.hpp:341-345). -/
def V4.intEq (a b : V4 α) : Bool := decide (a.x = b.x) && decide (a.y = b.y) && decide (a.z = b.z) && decide (a.w = b.w)

/-- `IsSymetrical` (vectors.hpp:116 for integers, 243, 374). -/
def V2.isSymetrical (a : V2 α) : Bool := a.intEq ⟨a.y, a.x⟩
/-- see `V2.isSymetrical` (vectors.hpp:116). -/
def V3.isSymetrical (a : V3 α) : Bool := decide (a.x = a.y) && decide (a.x = a.z)
/-- see `V2.isSymetrical` (vectors.hpp:116). -/
def V4.isSymetrical (a : V4 α) : Bool := decide (a.x = a.y) && decide (a.x = a.z) && decide (a.z = a.w)

/-- `Length` of float vectors (vectors.hpp:122-124, 250-252, 398-400; vectors_simd.hpp:181-184), with `sqrt` as a parameter. -/
def V2.length [Add α] [Mul α] (sqrt : α → α) (v : V2 α) : α := sqrt (v.x * v.x + v.y * v.y)
/-- see `V2.length` (vectors.hpp:122-124, 250-252, 398-400; vectors_simd.hpp:181-184). -/
def V3.length [Add α] [Mul α] (sqrt : α → α) (v : V3 α) : α := sqrt (v.x * v.x + v.y * v.y + v.z * v.z)
/-- see `V2.length` (vectors.hpp:122-124, 250-252, 398-400; vectors_simd.hpp:181-184). -/
def V4.length [Add α] [Mul α] (sqrt : α → α) (v : V4 α) : α := sqrt (v.x * v.x + v.y * v.y + v.z * v.z + v.w * v.w)
/-- see `V2.length` (vectors.hpp:122-124, 250-252, 398-400; vectors_simd.hpp:181-184). -/
def V4.simdLength [Add α] [Mul α] (sqrt : α → α) (v : V4 α) : α := sqrt (v.dotV v).x

/-- `Normalize` (vectors.hpp:128-134, 261-267, 404-411). -/
def V2.normalize [Add α] [Mul α] [Div α] [Zero α] (sqrt : α → α) (v : V2 α) : V2 α :=
  let len := v.length sqrt
  if len = 0 then v else v.divS len
/-- see `V2.normalize` (vectors.hpp:128-134, 261-267, 404-411). -/
def V3.normalize [Add α] [Mul α] [Div α] [Zero α] (sqrt : α → α) (v : V3 α) : V3 α :=
  let len := v.length sqrt
  if len = 0 then v else v.divS len
/-- see `V2.normalize` (vectors.hpp:128-134, 261-267, 404-411). -/
def V4.normalize [Add α] [Mul α] [Div α] [Zero α] (sqrt : α → α) (v : V4 α) : V4 α :=
  let len := v.length sqrt
  if len = 0 then v else v.divS len
/-- `Normalized` (vectors_simd.hpp:206-214). -/
def V4.simdNormalized [Add α] [Mul α] [Div α] [Zero α] (sqrt : α → α) (v : V4 α) : V4 α :=
  let len := v.simdLength sqrt
  if len = 0 then v else v.divS len

end eqs

/-- `_arr[index] = value`; the model ignores an index outside of the array. (vectors_simd.hpp:228, 234) -/
def V4.set (v : V4 α) (i : Nat) (a : α) : V4 α :=
  match i with
  | 0 => { v with x := a } | 1 => { v with y := a } | 2 => { v with z := a } | 3 => { v with w := a } | _ => v

/-- `QComputeElement<i>` and `QComputeElementVar(i)` (vectors_simd.hpp:224-237). -/
def V4.qComputeElement [Add α] [Sub α] [Mul α] [One α] (sqrt : α → α) (i : Nat) (v : V4 α) : V4 α :=
  v.set i (sqrt (1 - v.dpPs v))

/-- `SwapEndian` of 2, 3 and 4 component vectors (vectors.hpp:136-143, 269-277, 441-450); elements of one byte are left alone
(here: only wider elements). -/
def V2.swapEndian (w : Endian.SWidth) (v : V2 (BitVec (8 * w.bytes))) : V2 (BitVec (8 * w.bytes)) :=
  ⟨Endian.fbswap w v.x, Endian.fbswap w v.y⟩
/-- see `V2.swapEndian` (vectors.hpp:136-143, 269-277, 441-450). -/
def V3.swapEndian (w : Endian.SWidth) (v : V3 (BitVec (8 * w.bytes))) : V3 (BitVec (8 * w.bytes)) :=
  ⟨Endian.fbswap w v.x, Endian.fbswap w v.y, Endian.fbswap w v.z⟩
/-- see `V2.swapEndian` (vectors.hpp:136-143, 269-277, 441-450). -/
def V4.swapEndian (w : Endian.SWidth) (v : V4 (BitVec (8 * w.bytes))) : V4 (BitVec (8 * w.bytes)) :=
  ⟨Endian.fbswap w v.x, Endian.fbswap w v.y, Endian.fbswap w v.z, Endian.fbswap w v.w⟩

/-- Whether the element type of a `V4SimdIntType_t` is unsigned. (vectors_simd.hpp:305-319) -/
inductive Sgn | signed | unsigned deriving DecidableEq, Repr

/-- `_mm_slli_epi32`, `_mm_srli_epi32`, `_mm_srai_epi32` of one lane: a count above 31 gives 0, or the sign in every bit.
(vectors_simd.hpp:302-319) -/
def sll (v : BitVec 32) (n : Nat) : BitVec 32 := if n > 31 then 0 else v <<< n
/-- see `sll` (vectors_simd.hpp:309-311). -/
def srl (v : BitVec 32) (n : Nat) : BitVec 32 := if n > 31 then 0 else v >>> n
/-- see `sll` (vectors_simd.hpp:316-318). -/
def sra (v : BitVec 32) (n : Nat) : BitVec 32 := v.sshiftRight (if n > 31 then 31 else n)

/-- The same operation in every lane (vectors_simd.hpp:274, 302-319). -/
def V4.map (f : α → β) (v : V4 α) : V4 β := ⟨f v.x, f v.y, f v.z, f v.w⟩

/-- `V4SimdIntType_t::operator<<` and `operator>>` (vectors_simd.hpp:302-319). -/
def V4.shl (v : V4 (BitVec 32)) (n : Nat) : V4 (BitVec 32) := v.map (sll · n)
/-- see `V4.shl` (vectors_simd.hpp:302-319). -/
def V4.shr (s : Sgn) (v : V4 (BitVec 32)) (n : Nat) : V4 (BitVec 32) :=
  match s with
  | .unsigned => v.map (srl · n)
  | .signed => v.map (sra · n)

/-- `operator~` (vectors_simd.hpp:113-115, 295). -/
def V4.not (v : V4 (BitVec 32)) : V4 (BitVec 32) := v.xor (.all 0xffffffff#32)

/-- The number a lane stands for. (vectors_simd.hpp:254-272) -/
def laneVal (s : Sgn) (v : BitVec 32) : Int := match s with | .signed => v.toInt | .unsigned => v.toNat

/-- `V4SimdIntType_t::operator V4SimdFltType` (vectors_simd.hpp:274): `_mm_cvtepi32_ps` for both element types; the value before
rounding to single precision. -/
def V4.toFlt (v : V4 (BitVec 32)) : V4 Int := v.map BitVec.toInt

end PreCore.Vec
