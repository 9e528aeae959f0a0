import Verif.Model.Endian
import Verif.Spec.Bytes
/-! Helper lemmas for endian.hpp. -/
namespace PreCore.Endian

theorem lt8_cases {j : Nat} (h : j < 8) :
    j = 0 ∨ j = 1 ∨ j = 2 ∨ j = 3 ∨ j = 4 ∨ j = 5 ∨ j = 6 ∨ j = 7 := by omega

theorem byteAt_fbswap16 (v : BitVec 16) (i : Nat) (h : i < 2) :
    byteAt (fbswap16 v) i = byteAt v (1 - i) := by
  apply BitVec.eq_of_getLsbD_eq
  intro j hj
  have hi : i = 0 ∨ i = 1 := by omega
  rcases hi with rfl | rfl <;>
  rcases lt8_cases hj with rfl | rfl | rfl | rfl | rfl | rfl | rfl | rfl <;>
  simp [byteAt, fbswap16]

theorem byteAt_fbswap32 (v : BitVec 32) (i : Nat) (h : i < 4) :
    byteAt (fbswap32 v) i = byteAt v (3 - i) := by
  apply BitVec.eq_of_getLsbD_eq
  intro j hj
  have hi : i = 0 ∨ i = 1 ∨ i = 2 ∨ i = 3 := by omega
  rcases hi with rfl | rfl | rfl | rfl <;>
  rcases lt8_cases hj with rfl | rfl | rfl | rfl | rfl | rfl | rfl | rfl <;>
  simp [byteAt, fbswap32]

theorem byteAt_fbswap64 (v : BitVec 64) (i : Nat) (h : i < 8) :
    byteAt (fbswap64 v) i = byteAt v (7 - i) := by
  apply BitVec.eq_of_getLsbD_eq
  intro j hj
  rcases lt8_cases h with rfl | rfl | rfl | rfl | rfl | rfl | rfl | rfl <;>
  rcases lt8_cases hj with rfl | rfl | rfl | rfl | rfl | rfl | rfl | rfl <;>
  simp [byteAt, fbswap64]

theorem byteAt_fbswap (w : SWidth) (v : BitVec (8 * w.bytes)) (i : Nat) (h : i < w.bytes) :
    byteAt (fbswap w v) i = byteAt v (w.bytes - 1 - i) := by
  cases w with
  | w16 => exact byteAt_fbswap16 v i h
  | w32 => exact byteAt_fbswap32 v i h
  | w64 => exact byteAt_fbswap64 v i h

/-- A word is determined by its bytes. -/
theorem eq_of_byteAt_eq {n : Nat} (v u : BitVec (8 * n))
    (h : ∀ i, i < n → byteAt v i = byteAt u i) : v = u := by
  apply BitVec.eq_of_getLsbD_eq
  intro k hk
  have h1 := congrArg (fun b => b.getLsbD (k % 8)) (h (k / 8) (by omega))
  have h2 : k % 8 < 8 := by omega
  have h3 : 8 * (k / 8) + k % 8 = k := by omega
  simpa [byteAt, h2, h3] using h1

theorem leBytes_length (n : Nat) (v : BitVec (8 * n)) : (leBytes n v).length = n := by
  simp [leBytes]

theorem leBytes_inj {n : Nat} {v u : BitVec (8 * n)} (h : leBytes n v = leBytes n u) : v = u := by
  apply eq_of_byteAt_eq
  intro i hi
  have := congrArg (fun l => l[i]?) h
  simpa [leBytes, hi] using this

theorem fbswapArray_eq_map (w : SWidth) (l : List (BitVec (8 * w.bytes))) :
    fbswapArray w l = l.map (fbswap w) := by
  induction l with
  | nil => rfl
  | cons a as ih => simp [fbswapArray, ih]

end PreCore.Endian
