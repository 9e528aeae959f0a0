import Verif.Model.Vectors
/-!
# Model of esMatrix44 (datas/matrix44.hpp, datas/matrix44.cpp)

Exact arithmetic over a type `α` (rounding is not modelled); `sqrtf` is a parameter.
-/
namespace PreCore.Vec

/-- `esMatrix44` (matrix44.hpp:22-69): four rows. -/
structure Mat (α : Type) where
  r1 : V4 α
  r2 : V4 α
  r3 : V4 α
  r4 : V4 α
deriving DecidableEq, Repr

section
variable {α : Type}

/-- `MakeIdentity` (matrix44.cpp:47-52), also the default constructor (54). -/
def Mat.identity [Zero α] [One α] : Mat α :=
  ⟨mk4 1 0 0 0, mk4 0 1 0 0, mk4 0 0 1 0, mk4 0 0 0 1⟩

/-- `Transpose` (matrix44.cpp:177-186). -/
def Mat.transpose (m : Mat α) : Mat α :=
  let tmp00 := shuffle m.r1 m.r2 1 0 1 0
  let tmp01 := shuffle m.r1 m.r2 2 1 2 1
  { m with
    r1 := shuffle tmp00 m.r3 3 0 2 0
    r2 := shuffle tmp01 m.r3 3 1 2 0
    r3 := shuffle tmp01 m.r3 3 2 3 1 }

/-- `_MM_TRANSPOSE4_PS` (xmmintrin.h): `_mm_unpacklo_ps`, `_mm_unpackhi_ps`, `_mm_movelh_ps`, `_mm_movehl_ps` of the rows. -/
def unpacklo (a b : V4 α) : V4 α := ⟨a.x, b.x, a.y, b.y⟩
/-- `_mm_unpackhi_ps`, intrinsic used at matrix44.cpp:177-186. -/
def unpackhi (a b : V4 α) : V4 α := ⟨a.z, b.z, a.w, b.w⟩
/-- `_mm_movelh_ps`, intrinsic used at matrix44.cpp:177-186. -/
def movelh (a b : V4 α) : V4 α := ⟨a.x, a.y, b.x, b.y⟩
/-- `_mm_movehl_ps`, intrinsic used at matrix44.cpp:177-186. -/
def movehl (a b : V4 α) : V4 α := ⟨b.z, b.w, a.z, a.w⟩

/-- `TransposeFull` (matrix44.cpp:188-190). -/
def Mat.transposeFull (m : Mat α) : Mat α :=
  let t0 := unpacklo m.r1 m.r2
  let t1 := unpacklo m.r3 m.r4
  let t2 := unpackhi m.r1 m.r2
  let t3 := unpackhi m.r3 m.r4
  ⟨movelh t0 t1, movehl t1 t0, movelh t2 t3, movehl t3 t2⟩

/-- `operator*=` and `operator*` (matrix44.cpp:192-223, matrix44.hpp:45-47). -/
def Mat.mul [Add α] [Mul α] (m right : Mat α) : Mat α :=
  let rCopy := right.transposeFull
  let row (r : V4 α) := mk4 (r.dpPs rCopy.r1) (r.dpPs rCopy.r2) (r.dpPs rCopy.r3) (r.dpPs rCopy.r4)
  ⟨row m.r1, row m.r2, row m.r3, row m.r4⟩

/-- `RotatePoint` (matrix44.cpp:61-70). -/
def Mat.rotatePoint [Add α] [Mul α] [One α] (m : Mat α) (point : V4 α) : V4 α :=
  let c := m.transpose
  mk4 (c.r1.dpPs point) (c.r2.dpPs point) (c.r3.dpPs point) 1

/-- `FromQuat` (matrix44.cpp:72-116); row 4 stays. `2` and `-2` are `1 + 1` and its negative. -/
def Mat.fromQuat [Add α] [Mul α] [Neg α] [Zero α] [One α] (m : Mat α) (q : V4 α) : Mat α :=
  let two : α := 1 + 1
  let xo := (V4.all q.x).mul q
  let yo := (V4.all q.y).mul q
  let zo := (V4.all q.z).mul q
  let tmp00 := shuffle yo xo 3 2 1 2
  let r20 := shuffle xo yo 1 2 0 1
  let r10 := shuffle r20 xo 2 2 0 3
  let r30 := shuffle tmp00 xo 0 0 0 2
  let r11 := (shuffle zo yo 3 3 3 2).mul (mk4 1 (-1) 1 0)
  let r21 := (shuffle zo xo 3 3 2 3).mul (mk4 1 1 (-1) 0)
  let tmp06 := shuffle tmp00 yo 3 3 1 3
  let r31 := (shuffle tmp06 tmp06 1 1 0 3).mul (mk4 (-1) 1 1 0)
  { m with
    r1 := (mk4 1 0 0 0).add ((r10.add r11).mul (mk4 (-two) two two 0))
    r2 := (mk4 0 1 0 0).add ((r20.add r21).mul (mk4 two (-two) two 0))
    r3 := (mk4 0 0 1 0).add ((r30.add r31).mul (mk4 two two (-two) 0)) }

/-- `esMatrix44(const Vector4A16 &quat)` (matrix44.cpp:56-59). -/
def Mat.ofQuat [Add α] [Mul α] [Neg α] [Zero α] [One α] (q : V4 α) : Mat α := Mat.identity.fromQuat q

/-- `_mm_move_ss`. (Intrinsic used in matrix44.cpp:118-175.) -/
def moveSs (a b : V4 α) : V4 α := ⟨b.x, a.y, a.z, a.w⟩

/-- The tail of the four cases of `ToQuat` (matrix44.cpp:141-142 and so on): scale by `0.5 / sqrt(X)`. -/
def quatScale [Mul α] [Div α] [Add α] [One α] (sqrt : α → α) (t : V4 α) : V4 α :=
  t.mulS (1 / (1 + 1) / sqrt t.x)

/-- `ToQuat` (matrix44.cpp:118-175). -/
def Mat.toQuat [Add α] [Mul α] [Div α] [Neg α] [Zero α] [One α] [LT α] [DecidableLT α] (sqrt : α → α) (m : Mat α) : V4 α :=
  let traceType0 := decide (m.r3.z < 0)
  let traceType1 := if traceType0 then decide (m.r2.y < m.r1.x) else decide (m.r1.x < -m.r2.y)
  let tmp10 := shuffle m.r1 m.r2 2 0 2 0
  let tmp11 := moveSs m.r1 m.r3
  let tmp00 := shuffle tmp10 tmp10 1 2 3 0
  let tmp01 := shuffle m.r3 tmp11 0 1 1 2
  let tmp03 := shuffle m.r2 m.r2 3 3 3 1
  let one := mk4 1 0 0 0
  if traceType0 then
    if traceType1 then
      let t := ((one.add (tmp00.mul (mk4 1 (-1) 1 1))).add (tmp01.mul (mk4 (-1) 1 1 1))).add (tmp03.mulS (-1))
      let t := quatScale sqrt t
      shuffle t t 1 3 2 0
    else
      let t := ((one.add (tmp00.mul (mk4 (-1) 1 1 1))).add (tmp01.mul (mk4 (-1) 1 1 (-1)))).add tmp03
      let t := (quatScale sqrt t).mulS (-1)
      shuffle t t 3 1 0 2
  else
    if traceType1 then
      let t := ((one.add (tmp00.mul (mk4 (-1) 1 1 1))).add (tmp01.mul (mk4 1 1 (-1) 1))).add (tmp03.mulS (-1))
      let t := quatScale sqrt t
      shuffle t t 2 0 1 3
    else
      let t := ((one.add (tmp00.mul (mk4 1 (-1) 1 1))).add (tmp01.mul (mk4 1 1 (-1) (-1)))).add tmp03
      let t := quatScale sqrt t
      shuffle t t 0 2 3 1

/-- `Compose` (matrix44.cpp:38-45). -/
def Mat.compose [Add α] [Mul α] [Neg α] [Zero α] [One α] (m : Mat α) (position rotation scale : V4 α) : Mat α :=
  let m := m.fromQuat rotation
  ⟨m.r1.mulS scale.x, m.r2.mulS scale.y, m.r3.mulS scale.z, position⟩

/-- `Decompose` (matrix44.cpp:21-36): position, rotation, scale; the caller's `scale.W` is kept or negated. -/
def Mat.decompose [Add α] [Sub α] [Mul α] [Div α] [Neg α] [Zero α] [One α] [LT α] [DecidableLT α] (sqrt : α → α) (m : Mat α)
    (scaleW : α) : V4 α × V4 α × V4 α :=
  let scale := mk4 (m.r1.simdLength sqrt) (m.r2.simdLength sqrt) (m.r3.simdLength sqrt) scaleW
  let scale := if m.r1.dpPs (ofV3 (m.r2.toV3.cross m.r3.toV3) 0) < 0 then scale.mulS (-1) else scale
  let tmp : Mat α := { m with r1 := m.r1.divS scale.x, r2 := m.r2.divS scale.y, r3 := m.r3.divS scale.z }
  (m.r4, tmp.toQuat sqrt, scale)

/-- One lane of `(ltMask & oneVal) + (~ltMask & sizeSqr)` (matrix44.cpp:233-237). -/
def clampEps [LT α] [DecidableLT α] [One α] (eps s : α) : α := if s < eps then 1 else s

/-- `operator-` (matrix44.cpp:225-250); `eps` is `0.000001f`. -/
def Mat.inverse [Add α] [Mul α] [Div α] [Neg α] [One α] [LT α] [DecidableLT α] (eps : α) (m : Mat α) : Mat α :=
  let ret := m.transpose
  let sizeSqr := ((ret.r1.mul ret.r1).add (ret.r2.mul ret.r2)).add (ret.r3.mul ret.r3)
  let inv := (V4.all 1).div (sizeSqr.map (clampEps eps))
  let a1 := ret.r1.mul inv
  let a2 := ret.r2.mul inv
  let a3 := ret.r3.mul inv
  ⟨a1, a2, a3, (mk4 (a1.dpPs m.r4) (a2.dpPs m.r4) (a3.dpPs m.r4) 1).qConjugate⟩

/-- Element in row `i`, column `j`. (Rows of matrix44.hpp:22-69.) -/
def Mat.get (m : Mat α) (i j : Fin 4) : α :=
  match i with
  | 0 => m.r1.lane j | 1 => m.r2.lane j | 2 => m.r3.lane j | 3 => m.r4.lane j

end

/-- `0.000001f`: the single precision number 0x358637BD. (matrix44.cpp:233) -/
def epsF : Rat := 8796093 / 8796093022208

end PreCore.Vec
