import Verif.Lemmas.Endian
/-!
# C03: endian swap is byte reversal and its own inverse
-/
namespace PreCore.Endian

/-- C03: swapping a 2, 4 or 8 byte scalar reverses its memory image. -/
theorem fbswap_reverses (w : SWidth) (v : BitVec (8 * w.bytes)) :
    leBytes w.bytes (fbswap w v) = (leBytes w.bytes v).reverse := by
  apply List.ext_getElem
  · simp [leBytes]
  · intro i h1 h2
    simp only [leBytes, List.length_map, List.length_range] at h1
    simp [leBytes]
    exact byteAt_fbswap w v i h1

/-- C03: swapping twice restores the scalar. -/
theorem fbswap_involutive (w : SWidth) (v : BitVec (8 * w.bytes)) : fbswap w (fbswap w v) = v := by
  apply leBytes_inj
  rw [fbswap_reverses, fbswap_reverses, List.reverse_reverse]

/-- C03: in an array every element is swapped in its own place: the memory image is the concatenation of
the reversed images of the elements, in the original element order. -/
theorem fbswapArray_image (w : SWidth) (l : List (BitVec (8 * w.bytes))) :
    (fbswapArray w l).flatMap (leBytes w.bytes) = l.flatMap (fun v => (leBytes w.bytes v).reverse) := by
  induction l with
  | nil => rfl
  | cons a as ih => simp [fbswapArray, fbswap_reverses, ih]

/-- C03: swapping an array twice restores it, and the length never changes. -/
theorem fbswapArray_involutive (w : SWidth) (l : List (BitVec (8 * w.bytes))) :
    fbswapArray w (fbswapArray w l) = l ∧ (fbswapArray w l).length = l.length := by
  induction l with
  | nil => exact ⟨rfl, rfl⟩
  | cons a as ih => simp [fbswapArray, fbswap_involutive, ih]

example : leBytes 4 (fbswap .w32 0x89abcdef#32) = [0x89#8, 0xab#8, 0xcd#8, 0xef#8] := by decide
example : fbswap64 0x0123456789abcdef#64 = 0xefcdab8967452301#64 := by decide

end PreCore.Endian
