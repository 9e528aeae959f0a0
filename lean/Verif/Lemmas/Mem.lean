import Verif.Model.Mem
import Verif.Spec.Bytes
/-! Lemmas about memory images. -/
namespace PreCore

theorem toLE_length (n v : Nat) : (toLE n v).length = n := by
  induction n generalizing v with
  | zero => rfl
  | succ n ih => simp [toLE, ih]

theorem leNat_lt (bs : List Byte) : leNat bs < 256 ^ bs.length := by
  induction bs with
  | nil => simp [leNat]
  | cons b bs ih =>
    have := b.isLt
    simp only [leNat, List.length_cons, Nat.pow_succ]
    omega

theorem toLE_leNat (bs : List Byte) : toLE bs.length (leNat bs) = bs := by
  induction bs with
  | nil => rfl
  | cons b bs ih =>
    have hb := b.isLt
    simp only [List.length_cons, toLE, leNat]
    rw [show (b.toNat + 256 * leNat bs) / 256 = leNat bs by omega, ih]
    congr 1
    apply BitVec.eq_of_toNat_eq
    simp; omega

theorem leNat_toLE (n v : Nat) : leNat (toLE n v) = v % 256 ^ n := by
  induction n generalizing v with
  | zero => simp [toLE, leNat, Nat.mod_one]
  | succ n ih =>
    simp only [toLE, leNat, ih, BitVec.toNat_ofNat]
    rw [Nat.pow_succ 256, Nat.mul_comm (256 ^ n), Nat.mod_mul]

theorem leNat_append (a b : List Byte) : leNat (a ++ b) = leNat a + 256 ^ a.length * leNat b := by
  induction a with
  | nil => simp [leNat]
  | cons x a ih =>
    simp only [List.cons_append, leNat, ih, List.length_cons, Nat.pow_succ]
    rw [Nat.mul_add, ← Nat.mul_assoc, Nat.mul_comm (256 ^ a.length) 256]
    omega

theorem toLE_mod (n v : Nat) : toLE n (v % 256 ^ n) = toLE n v := by
  have h := toLE_leNat (toLE n v)
  rwa [toLE_length, leNat_toLE] at h

theorem toLE_append (n m v : Nat) : toLE (n + m) v = toLE n v ++ toLE m (v / 256 ^ n) := by
  induction n generalizing v with
  | zero => simp [toLE]
  | succ n ih =>
    rw [show n + 1 + m = (n + m) + 1 by omega]
    simp only [toLE, ih, List.cons_append]
    rw [Nat.div_div_eq_div_mul, Nat.pow_succ, Nat.mul_comm 256]

theorem toLE_getElem? (n v i : Nat) (h : i < n) : (toLE n v)[i]? = some (BitVec.ofNat 8 (v / 256 ^ i)) := by
  induction n generalizing v i with
  | zero => omega
  | succ n ih =>
    cases i with
    | zero => simp [toLE]
    | succ i =>
      simp only [toLE, List.getElem?_cons_succ]
      rw [ih _ _ (by omega), Nat.div_div_eq_div_mul, Nat.pow_succ, Nat.mul_comm 256]

theorem leBytes_eq_toLE (n : Nat) (v : BitVec (8 * n)) : leBytes n v = toLE n v.toNat := by
  apply List.ext_getElem?
  intro i
  by_cases h : i < n
  · rw [toLE_getElem? n _ i h]
    simp only [leBytes, List.getElem?_map, List.getElem?_range h, Option.map_some, byteAt]
    congr 1
    apply BitVec.eq_of_toNat_eq
    simp [BitVec.extractLsb'_toNat, Nat.shiftRight_eq_div_pow]
    rw [Nat.pow_mul]
  · rw [List.getElem?_eq_none (by simp [leBytes]; omega), List.getElem?_eq_none (by simp [toLE_length]; omega)]

end PreCore
