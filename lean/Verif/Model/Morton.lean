/-
Model of the swizzled texture addressing of `/repo/formats/addr_ps3.hpp`.

Simplifications: `log2` on a `double` is taken to be the exact floor of the binary logarithm (true for powers of two,
which is what the properties are about); writing outside of the ten element mask arrays is undefined behaviour and is
the outcome `none`.
-/
namespace PreCore.Morton

/-- `size_t`. (addr_ps3.hpp:23-26) -/
abbrev Sz := BitVec 64

/-- `formats/addr_ps3.hpp` lines 22-26: the settings with their two arrays of ten masks. -/
structure Settings where
  width : Sz
  height : Sz
  xmask : Nat → Sz
  ymask : Nat → Sz

/-- An assignment `a[i] = v` to an array of ten elements; outside of it undefined behaviour. (addr_ps3.hpp:34-37, 45-49) -/
def setMask (a : Nat → Sz) (i : Nat) (v : Sz) : Option (Nat → Sz) :=
  if i < 10 then some (fun j => if j = i then v else a j) else none

/-- The index expression `b - 4` on `size_t`: it wraps below four, which is outside of the array. (addr_ps3.hpp:35-36) -/
def maskIndex (b : Nat) : Nat := if 4 ≤ b then b - 4 else 2 ^ 64 + b - 4

/-- `formats/addr_ps3.hpp` lines 34-37: the loop for the bits shared by both coordinates, from bit `b` on. -/
def commonMasks (minBits : Nat) : (fuel b : Nat) → Settings → Option Settings
  | 0, _, s => some s
  | fuel + 1, b, s =>
    if b < minBits then do
      let xm ← setMask s.xmask (maskIndex b) (1#64 <<< b)
      let ym ← setMask s.ymask (maskIndex b) (1#64 <<< b)
      commonMasks minBits fuel (b + 1) { s with xmask := xm, ymask := ym }
    else some s

/-- `formats/addr_ps3.hpp` lines 28-50: the constructor. -/
def settings (width height : Sz) : Option Settings := do
  let bitOffsetW := Nat.log2 width.toNat
  let bitOffsetH := Nat.log2 height.toNat
  let minBits := if bitOffsetW > bitOffsetH then bitOffsetH else bitOffsetW
  let s ← commonMasks minBits 64 4 ⟨width, height, fun _ => 0#64, fun _ => 0#64⟩
  if bitOffsetW ≠ bitOffsetH then
    let maskW := width - 1#64
    let maskH := height - 1#64
    let mask := maskH ^^^ maskW
    if bitOffsetW > bitOffsetH then do
      let xm ← setMask s.xmask (maskIndex bitOffsetH) mask
      return { s with xmask := xm }
    else do
      let ym ← setMask s.ymask (maskIndex bitOffsetW) mask
      return { s with ymask := ym }
  else return s

/-- `formats/addr_ps3.hpp` lines 53-98: `MortonAddr`. -/
def mortonAddr (x y : Sz) (s : Settings) : Sz :=
  let x0 := x &&& 1#64
  let x1 := (x &&& 2#64) <<< 1
  let x2 := (x &&& 4#64) <<< 2
  let x3 := (x &&& 8#64) <<< 3
  let x4 := (x &&& s.xmask 0) <<< 4
  let x5 := (x &&& s.xmask 1) <<< 5
  let x6 := (x &&& s.xmask 2) <<< 6
  let x7 := (x &&& s.xmask 3) <<< 7
  let y0 := (y &&& 1#64) <<< 1
  let y1 := (y &&& 2#64) <<< 2
  let y2 := (y &&& 4#64) <<< 3
  let y3 := (y &&& 8#64) <<< 4
  let y4 := (y &&& s.ymask 0) <<< 5
  let y5 := (y &&& s.ymask 1) <<< 6
  let y6 := (y &&& s.ymask 2) <<< 7
  let y7 := (y &&& s.ymask 3) <<< 8
  let retval := x0 ||| x1 ||| x2 ||| x3 ||| x4 ||| x5 ||| x6 ||| x7 ||| y0 ||| y1 ||| y2 ||| y3 ||| y4 ||| y5 ||| y6 ||| y7
  if s.xmask 4 ≠ 0#64 ∨ s.ymask 4 ≠ 0#64 then
    let x8 := (x &&& s.xmask 4) <<< 8
    let x9 := (x &&& s.xmask 5) <<< 9
    let x10 := (x &&& s.xmask 6) <<< 10
    let y8 := (y &&& s.ymask 4) <<< 9
    let y9 := (y &&& s.ymask 5) <<< 10
    let y10 := (y &&& s.ymask 6) <<< 11
    let retval := retval ||| (x8 ||| x9 ||| x10 ||| y8 ||| y9 ||| y10)
    if s.xmask 7 ≠ 0#64 ∨ s.ymask 7 ≠ 0#64 then
      let x11 := (x &&& s.xmask 7) <<< 11
      let x12 := (x &&& s.xmask 8) <<< 12
      let x13 := (x &&& s.xmask 9) <<< 13
      let y11 := (y &&& s.ymask 7) <<< 12
      let y12 := (y &&& s.ymask 8) <<< 13
      let y13 := (y &&& s.ymask 9) <<< 14
      retval ||| (x11 ||| x12 ||| x13 ||| y11 ||| y12 ||| y13)
    else retval
  else retval

end PreCore.Morton
