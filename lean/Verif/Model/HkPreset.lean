import Verif.Model.Float32
/-!
# Model of MAXex/hk_preset.hpp (`GetCorrectionMatrix`)
-/
namespace PreCore.Hk
open PreCore.F32

/-- `x != 0.0f`: true for NaN. (hk_preset.hpp:27-34) -/
def nonZero (x : F32) : Bool :=
  match val x with
  | .fin _ m => m != 0
  | _ => true

/-- `x < 0.0f`: false for NaN and for both zeros. (hk_preset.hpp:27-34) -/
def below (x : F32) : Bool :=
  match val x with
  | .fin s m => s && m != 0
  | .inf s => s
  | .nan => false

/-- `cormatElements[e]` (hk_preset.hpp:22). -/
def letter (e : Nat) : Byte := [0x58#8, 0x59#8, 0x5a#8].getD e 0#8

/-- One turn of the inner loop (hk_preset.hpp:27-34). -/
def entryText (x : F32) (e : Nat) : List Byte :=
  if nonZero x then (if below x then [0x2d#8] else []) ++ [letter e] else []

/-- The inner loop for one row (hk_preset.hpp:26-35). -/
def rowText (m : Nat → Nat → F32) (r : Nat) : List Byte := entryText (m r 0) 0 ++ entryText (m r 1) 1 ++ entryText (m r 2) 2

/-- `GetCorrectionMatrix` (hk_preset.hpp:21-39). -/
def correctionText (m : Nat → Nat → F32) : List Byte := rowText m 0 ++ rowText m 1 ++ rowText m 2

end PreCore.Hk
