import Verif.Model.Vectors
import Verif.Props.Endian
import Mathlib.Algebra.Order.Field.Basic
import Mathlib.Algebra.Order.AbsoluteValue.Basic
import Mathlib.Tactic.Ring
import Mathlib.Tactic.LinearCombination
import Mathlib.Tactic.FieldSimp
import Mathlib.Tactic.Linarith
import Mathlib.Analysis.Real.Sqrt
/-!
# C49: vector operations

"Lane by lane" is stated on the lists of components in memory order. Laws are stated over a commutative ring, an ordered field or the
reals: the exact arithmetic the float classes approximate. Integer vectors are covered by the ring `BitVec n`.
-/
namespace PreCore.Vec
open PreCore

/-! ### Lane by lane -/

section lanes
variable {α : Type}

/-- C49: sums, differences, products, quotients and bit operations act on each component (2 components). -/
theorem lanes2 [Add α] [Sub α] [Mul α] [Div α] [AndOp α] [OrOp α] (a b : V2 α) :
    (a.add b).toList = List.zipWith (· + ·) a.toList b.toList ∧ (a.sub b).toList = List.zipWith (· - ·) a.toList b.toList ∧
    (a.mul b).toList = List.zipWith (· * ·) a.toList b.toList ∧ (a.div b).toList = List.zipWith (· / ·) a.toList b.toList ∧
    (a.and b).toList = List.zipWith (· &&& ·) a.toList b.toList ∧ (a.or b).toList = List.zipWith (· ||| ·) a.toList b.toList ∧
    (a.orAssign b).toList = List.zipWith (· ||| ·) a.toList b.toList :=
  ⟨rfl, rfl, rfl, rfl, rfl, rfl, rfl⟩

/-- C49 (3 components). -/
theorem lanes3 [Add α] [Sub α] [Mul α] [Div α] [AndOp α] [OrOp α] (a b : V3 α) :
    (a.add b).toList = List.zipWith (· + ·) a.toList b.toList ∧ (a.sub b).toList = List.zipWith (· - ·) a.toList b.toList ∧
    (a.mul b).toList = List.zipWith (· * ·) a.toList b.toList ∧ (a.div b).toList = List.zipWith (· / ·) a.toList b.toList ∧
    (a.and b).toList = List.zipWith (· &&& ·) a.toList b.toList ∧ (a.or b).toList = List.zipWith (· ||| ·) a.toList b.toList ∧
    (a.orAssign b).toList = List.zipWith (· ||| ·) a.toList b.toList :=
  ⟨rfl, rfl, rfl, rfl, rfl, rfl, rfl⟩

/-- C49 (4 components, plain and SIMD). `operator|=` of the plain class is missing: see `orAssign_violated`. -/
theorem lanes4_partial [Add α] [Sub α] [Mul α] [Div α] [AndOp α] [OrOp α] [XorOp α] (a b : V4 α) :
    (a.add b).toList = List.zipWith (· + ·) a.toList b.toList ∧ (a.sub b).toList = List.zipWith (· - ·) a.toList b.toList ∧
    (a.mul b).toList = List.zipWith (· * ·) a.toList b.toList ∧ (a.div b).toList = List.zipWith (· / ·) a.toList b.toList ∧
    (a.and b).toList = List.zipWith (· &&& ·) a.toList b.toList ∧ (a.or b).toList = List.zipWith (· ||| ·) a.toList b.toList ∧
    (a.xor b).toList = List.zipWith (· ^^^ ·) a.toList b.toList ∧ (a.andAssign b).toList = List.zipWith (· &&& ·) a.toList b.toList ∧
    (a.simdOrAssign b).toList = List.zipWith (· ||| ·) a.toList b.toList :=
  ⟨rfl, rfl, rfl, rfl, rfl, rfl, rfl, rfl, rfl⟩

/-- C49 is violated: `a |= b` of four plain components stores `a & b`, which is wrong exactly when the vectors differ. -/
theorem orAssign_violated (a b : V4 (BitVec 32)) : (a.orAssign b).toList = List.zipWith (· ||| ·) a.toList b.toList ↔ a = b := by
  have h (p q : BitVec 32) : p &&& q = p ||| q → p = q := by
    intro h
    apply BitVec.eq_of_getLsbD_eq
    intro i _
    have := congrArg (fun v => v.getLsbD i) h
    simp only [BitVec.getLsbD_and, BitVec.getLsbD_or] at this
    revert this
    cases p.getLsbD i <;> cases q.getLsbD i <;> decide
  constructor
  · intro e
    simp only [V4.orAssign, V4.and, V4.toList, List.zipWith, List.cons.injEq, and_true] at e
    obtain ⟨e1, e2, e3, e4⟩ := e
    cases a; cases b
    simp only [V4.mk.injEq]
    exact ⟨h _ _ e1, h _ _ e2, h _ _ e3, h _ _ e4⟩
  · rintro rfl
    simp [V4.orAssign, V4.and, V4.toList]

/-- The component constructors of the SIMD classes put every argument into its own lane, and indexing finds it there. -/
theorem mk4_lanes [Zero α] (x y z w : α) (v : V3 α) :
    (mk4 x y z w).toList = [x, y, z, w] ∧ (ofV3 v w).toList = v.toList ++ [w] ∧
    (mk4 x y z w).toV3.toList = [x, y, z] ∧ (mk4 x y z w).toV2.toList = [x, y] ∧ v.toV2.toList = v.toList.take 2 ∧
    v.toV4.toList = v.toList ++ [0] :=
  ⟨rfl, rfl, rfl, rfl, rfl, rfl⟩

/-- Indexing: defined exactly below the number of components. -/
theorem get_bounds (v : V4 α) (i : Nat) : (v.get? i).isSome = true ↔ i < 4 := by
  simp [V4.get?, V4.toList]

end lanes

/-! ### Integer lanes -/

/-- A shift of a SIMD integer vector multiplies or divides each lane: `<<` modulo 2^32, `>>` rounding down, for signed and unsigned
element types, for every count. -/
theorem shift_lanes (s : Sgn) (v : V4 (BitVec 32)) (n : Nat) :
    (v.shl n).toList.map BitVec.toNat = v.toList.map (fun l => l.toNat * 2 ^ n % 2 ^ 32) ∧
    (v.shr s n).toList.map (laneVal s) = v.toList.map (fun l => laneVal s l / 2 ^ n) := by
  have hp : 31 < n → ∃ k, 2 ^ n = 2 ^ 32 * 2 ^ k := fun h => ⟨n - 32, by rw [← Nat.pow_add]; congr 1; omega⟩
  have h1 (l : BitVec 32) : (sll l n).toNat = l.toNat * 2 ^ n % 2 ^ 32 := by
    unfold sll
    by_cases h : 31 < n
    · obtain ⟨k, hk⟩ := hp h
      rw [if_pos h, hk, show l.toNat * (2 ^ 32 * 2 ^ k) = 2 ^ 32 * (l.toNat * 2 ^ k) by ac_rfl, Nat.mul_mod_right]
      rfl
    · rw [if_neg h, BitVec.toNat_shiftLeft, Nat.shiftLeft_eq]
  have h2 (l : BitVec 32) : laneVal .unsigned (srl l n) = laneVal .unsigned l / 2 ^ n := by
    unfold srl laneVal
    by_cases h : 31 < n
    · obtain ⟨k, hk⟩ := hp h
      have hk0 := Nat.two_pow_pos k
      have : l.toNat / 2 ^ n = 0 := by
        apply Nat.div_eq_of_lt
        rw [hk]
        exact Nat.lt_of_lt_of_le l.isLt (Nat.le_mul_of_pos_right _ hk0)
      rw [if_pos h, show ((l.toNat : Int) / 2 ^ n) = ((l.toNat / 2 ^ n : Nat) : Int) by push_cast; rfl, this]
      rfl
    · rw [if_neg h, BitVec.toNat_ushiftRight, Nat.shiftRight_eq_div_pow]; push_cast; rfl
  have h3 (l : BitVec 32) : laneVal .signed (sra l n) = laneVal .signed l / 2 ^ n := by
    unfold sra laneVal
    by_cases h : 31 < n
    · obtain ⟨k, hk⟩ := hp h
      have hk0 := Nat.two_pow_pos k
      rw [if_pos h, BitVec.toInt_sshiftRight, Int.shiftRight_eq_div_pow]
      have hlo := BitVec.le_toInt l
      have hhi := BitVec.toInt_lt (x := l)
      have hN : ((2 : Int) ^ n) = ((2 ^ 32 * 2 ^ k : Nat) : Int) := by rw [← hk]; push_cast; rfl
      rw [hN]
      have hbig : (2 ^ 32 : Nat) ≤ 2 ^ 32 * 2 ^ k := Nat.le_mul_of_pos_right _ hk0
      generalize (2 ^ 32 * 2 ^ k : Nat) = P at *
      generalize l.toInt = z at *
      norm_num at hlo hhi hbig ⊢
      have hP : (4294967296 : Int) ≤ (P : Int) := by exact_mod_cast hbig
      by_cases hz : 0 ≤ z
      · rw [Int.ediv_eq_zero_of_lt hz (by omega), Int.ediv_eq_zero_of_lt hz (by omega)]
      · have e1 : z / 2147483648 = -1 := by omega
        have e2 : z / (P : Int) = -1 := by
          rw [Int.ediv_eq_iff_of_pos (by omega)]
          constructor <;> omega
        rw [e1, e2]
    · rw [if_neg h, BitVec.toInt_sshiftRight, Int.shiftRight_eq_div_pow]
      push_cast; rfl
  constructor
  · simp only [V4.shl, V4.map, V4.toList, List.map, h1]
  · cases s
    · simp only [V4.shr, V4.map, V4.toList, List.map, h3]
    · simp only [V4.shr, V4.map, V4.toList, List.map, h2]

example : (V4.shr .signed ⟨0x80000000#32, 7#32, 1#32, 0xffffffff#32⟩ 1).toList.map (laneVal .signed) = [-1073741824, 3, 0, -1] := by decide

/-- Complement flips every bit of every lane. -/
theorem not_lanes (v : V4 (BitVec 32)) : v.not.toList = v.toList.map (fun l => ~~~ l) := by
  have h (l : BitVec 32) : l ^^^ 0xffffffff#32 = ~~~ l := by
    apply BitVec.eq_of_getLsbD_eq
    intro i hi
    have hall : ∀ j : Fin 32, (0xffffffff#32).getLsbD j.val = true := by decide
    have := hall ⟨i, hi⟩
    simp only at this
    simp only [BitVec.getLsbD_xor, BitVec.getLsbD_not, this, hi, decide_true, Bool.true_and, Bool.xor_true]
  simp only [V4.not, V4.xor, V4.all, V4.toList, List.map, h]

/-- Conversion of integer lanes to floats keeps the numbers of signed vectors. -/
theorem toFlt_signed (v : V4 (BitVec 32)) : v.toFlt.toList = v.toList.map (laneVal .signed) := rfl

/-- C49 is violated: unsigned lanes of 2^31 and more become negative floats. -/
theorem toFlt_unsigned_violated (v : V4 (BitVec 32)) (h : 2 ^ 31 ≤ v.x.toNat) :
    v.toFlt.x < 0 ∧ v.toFlt.x ≠ laneVal .unsigned v.x := by
  have h1 : v.toFlt.x = (v.x.toNat : Int) - 2 ^ 32 := by
    show v.x.toInt = _
    rw [BitVec.toInt_eq_toNat_cond, if_neg (by omega)]; norm_num
  have := v.x.isLt
  unfold laneVal
  constructor <;> (simp only [h1]; omega)

example : (2 : Nat) ^ 31 ≤ (⟨0x80000000#32, 0, 0, 0⟩ : V4 (BitVec 32)).x.toNat := by decide

/-- Integer equality compares all components. -/
theorem intEq_iff [DecidableEq α] (a b : V4 α) (c d : V3 α) (e f : V2 α) :
    (a.intEq b = true ↔ a.toList = b.toList) ∧ (c.intEq d = true ↔ c.toList = d.toList) ∧ (e.intEq f = true ↔ e.toList = f.toList) := by
  refine ⟨?_, ?_, ?_⟩
  · simp [V4.intEq, V4.toList, and_assoc]
  · simp [V3.intEq, V3.toList, and_assoc]
  · simp [V2.intEq, V2.toList]

/-- `IsSymetrical` of the plain classes: all components equal. -/
theorem isSymetrical_iff [DecidableEq α] (a : V4 α) (c : V3 α) (e : V2 α) :
    (a.isSymetrical = true ↔ ∀ l ∈ a.toList, l = a.x) ∧ (c.isSymetrical = true ↔ ∀ l ∈ c.toList, l = c.x) ∧
    (e.isSymetrical = true ↔ ∀ l ∈ e.toList, l = e.x) := by
  refine ⟨?_, ?_, ?_⟩
  · simp only [V4.isSymetrical, V4.toList, Bool.and_eq_true, decide_eq_true_eq, List.mem_cons, List.not_mem_nil, or_false,
      forall_eq_or_imp, forall_eq, true_and]
    constructor
    · rintro ⟨⟨h1, h2⟩, h3⟩; exact ⟨h1.symm, h2.symm, h3 ▸ h2.symm⟩
    · rintro ⟨h1, h2, h3⟩; exact ⟨⟨h1.symm, h2.symm⟩, by rw [h2, h3]⟩
  · simp only [V3.isSymetrical, V3.toList, Bool.and_eq_true, decide_eq_true_eq, List.mem_cons, List.not_mem_nil, or_false,
      forall_eq_or_imp, forall_eq, true_and]
    constructor
    · rintro ⟨h1, h2⟩; exact ⟨h1.symm, h2.symm⟩
    · rintro ⟨h1, h2⟩; exact ⟨h1.symm, h2.symm⟩
  · simp only [V2.isSymetrical, V2.intEq, V2.toList, Bool.and_eq_true, decide_eq_true_eq, List.mem_cons, List.not_mem_nil, or_false,
      forall_eq_or_imp, forall_eq, true_and]
    constructor
    · rintro ⟨h1, _⟩; exact h1.symm
    · intro h; exact ⟨h.symm, h⟩

/-- Endian conversion reverses the bytes of each component and nothing else; twice gives the vector back. -/
theorem swapEndian_lanes (w : Endian.SWidth) (a : V2 (BitVec (8 * w.bytes))) (b : V3 (BitVec (8 * w.bytes)))
    (c : V4 (BitVec (8 * w.bytes))) :
    (a.swapEndian w).toList = a.toList.map (Endian.fbswap w) ∧ (b.swapEndian w).toList = b.toList.map (Endian.fbswap w) ∧
    (c.swapEndian w).toList = c.toList.map (Endian.fbswap w) ∧ (a.swapEndian w).swapEndian w = a ∧
    (b.swapEndian w).swapEndian w = b ∧ (c.swapEndian w).swapEndian w = c := by
  refine ⟨rfl, rfl, rfl, ?_, ?_, ?_⟩ <;>
    simp only [V2.swapEndian, V3.swapEndian, V4.swapEndian, Endian.fbswap_involutive]

/-! ### Products -/

section ring
variable {R : Type} [CommRing R]

/-- C49: the dot products are the sums of the products of the components; the SIMD instruction adds in another order. -/
theorem dot_sum (a b : V2 R) (c d : V3 R) (e f : V4 R) :
    a.dot b = (List.zipWith (· * ·) a.toList b.toList).sum ∧ c.dot d = (List.zipWith (· * ·) c.toList d.toList).sum ∧
    e.dot f = (List.zipWith (· * ·) e.toList f.toList).sum ∧ e.dpPs f = e.dot f ∧ ∀ l ∈ (e.dotV f).toList, l = e.dot f := by
  have h : e.dpPs f = e.dot f := by simp only [V4.dpPs, V4.dot]; ring
  refine ⟨?_, ?_, ?_, h, ?_⟩
  · simp [V2.dot, V2.toList]
  · simp [V3.dot, V3.toList]; ring
  · simp [V4.dot, V4.toList]; ring
  · simp [V4.dotV, V4.all, V4.toList, h]

/-- C49: dot is symmetric. For 4 components and any commutative product (also float multiplication). -/
theorem dot_comm (a b : V2 R) (c d : V3 R) (e f : V4 R) : a.dot b = b.dot a ∧ c.dot d = d.dot c ∧ e.dot f = f.dot e ∧ e.dpPs f = f.dpPs e := by
  refine ⟨?_, ?_, ?_, ?_⟩ <;> simp only [V2.dot, V3.dot, V4.dot, V4.dpPs] <;> ring

theorem dpPs_comm_any {α : Type} [Add α] [Mul α] (h : ∀ p q : α, p * q = q * p) (e f : V4 α) : e.dpPs f = f.dpPs e := by
  simp only [V4.dpPs, h e.x, h e.y, h e.z, h e.w]

/-- C49: dot is bilinear (left; right by symmetry). -/
theorem dot_bilinear (s : R) (a a' b : V2 R) (c c' d : V3 R) (e e' f : V4 R) :
    (a.add a').dot b = a.dot b + a'.dot b ∧ (a.mulS s).dot b = s * a.dot b ∧
    (c.add c').dot d = c.dot d + c'.dot d ∧ (c.mulS s).dot d = s * c.dot d ∧
    (e.add e').dot f = e.dot f + e'.dot f ∧ (e.mulS s).dot f = s * e.dot f ∧
    (e.add e').dpPs f = e.dpPs f + e'.dpPs f ∧ (e.mulS s).dpPs f = s * e.dpPs f := by
  refine ⟨?_, ?_, ?_, ?_, ?_, ?_, ?_, ?_⟩ <;>
    simp only [V2.dot, V3.dot, V4.dot, V4.dpPs, V2.add, V3.add, V4.add, V2.mulS, V3.mulS, V4.mulS, V2.mul, V3.mul, V4.mul, V2.all, V3.all,
      V4.all] <;> ring

/-- C49: the cross product is orthogonal to its operands, antisymmetric, bilinear, right handed, and has the length the angle demands. -/
theorem cross_laws (s : R) (a a' b : V3 R) :
    (a.cross b).dot a = 0 ∧ (a.cross b).dot b = 0 ∧ b.cross a = (a.cross b).neg ∧
    (a.add a').cross b = (a.cross b).add (a'.cross b) ∧ (a.mulS s).cross b = (a.cross b).mulS s ∧
    (a.cross b).dot (a.cross b) = a.dot a * b.dot b - a.dot b * a.dot b ∧
    (⟨1, 0, 0⟩ : V3 R).cross ⟨0, 1, 0⟩ = ⟨0, 0, 1⟩ := by
  refine ⟨?_, ?_, ?_, ?_, ?_, ?_, ?_⟩ <;>
    simp only [V3.cross, V3.dot, V3.neg, V3.add, V3.mulS, V3.mul, V3.all, V3.mk.injEq] <;>
    first | ring1 | (refine ⟨?_, ?_, ?_⟩ <;> ring1)

/-- The SIMD cross product is the cross product of the first three components, with fourth component 0. -/
theorem simd_cross (a b : V4 R) : a.cross b = ofV3 (a.toV3.cross b.toV3) 0 := by
  have h : a.w * b.w - a.w * b.w = 0 := sub_self _
  rw [← h]
  rfl

/-- C49: hence also orthogonal to its operands (whatever their fourth components) and antisymmetric. -/
theorem simd_cross_laws (a b : V4 R) : (a.cross b).dpPs a = 0 ∧ (a.cross b).dpPs b = 0 ∧ b.cross a = (a.cross b).neg := by
  refine ⟨?_, ?_, ?_⟩ <;> simp only [simd_cross, ofV3, setPs, V4.dpPs, V3.cross, V4.toV3, V4.neg, V4.mulS, V4.mul, V4.all, V4.mk.injEq]
  · ring
  · ring
  · refine ⟨?_, ?_, ?_, ?_⟩ <;> ring

/-- `-v` is the additive inverse. -/
theorem neg_add (a : V2 R) (b : V3 R) (c : V4 R) :
    a.add a.neg = .all 0 ∧ b.add b.neg = .all 0 ∧ c.add c.neg = .all 0 := by
  refine ⟨?_, ?_, ?_⟩ <;> simp [V2.add, V3.add, V4.add, V2.neg, V3.neg, V4.neg, V2.mulS, V3.mulS, V4.mulS, V2.mul, V3.mul, V4.mul,
    V2.all, V3.all, V4.all]

/-- `QConjugate` negates the vector part; twice gives the quaternion back. -/
theorem qConjugate_spec (q : V4 R) : q.qConjugate = ⟨-q.x, -q.y, -q.z, q.w⟩ ∧ q.qConjugate.qConjugate = q := by
  constructor <;> cases q <;> simp [V4.qConjugate, mk4, setPs, V4.mul]

end ring

/-! ### Comparison -/

section order
variable {K : Type} [Field K] [LinearOrder K] [IsStrictOrderedRing K]

theorem cmpLane_iff (eps p q : K) : cmpLane eps p q = true ↔ |q - p| ≤ eps := by
  rw [cmpLane, Bool.and_eq_true, decide_eq_true_eq, decide_eq_true_eq, abs_le]
  constructor
  · rintro ⟨h1, h2⟩; constructor <;> linarith
  · rintro ⟨h1, h2⟩; constructor <;> linarith

theorem fltcmp_iff (eps p q : K) : fltcmp eps p q = true ↔ |p - q| ≤ eps := by
  rw [fltcmp, Bool.and_eq_true, decide_eq_true_eq, decide_eq_true_eq, abs_le]
  constructor
  · rintro ⟨h1, h2⟩; constructor <;> linarith
  · rintro ⟨h1, h2⟩; constructor <;> linarith

/-- C49: float vectors are equal when every pair of components is within the tolerance. -/
theorem fltEq_iff (eps : K) (a b : V2 K) (c d : V3 K) (e f : V4 K) :
    (a.fltEq eps b = true ↔ |a.x - b.x| ≤ eps ∧ |a.y - b.y| ≤ eps) ∧
    (c.fltEq eps d = true ↔ |c.x - d.x| ≤ eps ∧ |c.y - d.y| ≤ eps ∧ |c.z - d.z| ≤ eps) ∧
    (e.fltEq eps f = true ↔ |e.x - f.x| ≤ eps ∧ |e.y - f.y| ≤ eps ∧ |e.z - f.z| ≤ eps ∧ |e.w - f.w| ≤ eps) ∧
    (e.simdEq eps f = true ↔ |e.x - f.x| ≤ eps ∧ |e.y - f.y| ≤ eps ∧ |e.z - f.z| ≤ eps ∧ |e.w - f.w| ≤ eps) := by
  simp only [V2.fltEq, V3.fltEq, V4.fltEq, V4.simdEq, compare4, allLanes, Bool.and_eq_true, fltcmp_iff, cmpLane_iff, and_assoc, and_self]

/-- C49: strict order of SIMD float vectors: in every component. -/
theorem simdLt_iff (a b : V4 K) :
    (a.simdLt b = true ↔ a.x < b.x ∧ a.y < b.y ∧ a.z < b.z ∧ a.w < b.w) ∧ (a.simdGt b = b.simdLt a) := by
  simp [V4.simdLt, V4.simdGt, allLanes, and_assoc]

/-- `<=` implies the order of all components up to the tolerance. -/
theorem simdLe_partial (eps : K) (he : 0 ≤ eps) (a b : V4 K) (h : a.simdLe eps b = true) :
    a.x ≤ b.x + eps ∧ a.y ≤ b.y + eps ∧ a.z ≤ b.z + eps ∧ a.w ≤ b.w + eps := by
  rw [V4.simdLe, Bool.or_eq_true, (simdLt_iff a b).1, (fltEq_iff eps ⟨0, 0⟩ ⟨0, 0⟩ ⟨0, 0, 0⟩ ⟨0, 0, 0⟩ a b).2.2.2] at h
  rcases h with ⟨h1, h2, h3, h4⟩ | ⟨h1, h2, h3, h4⟩
  · refine ⟨?_, ?_, ?_, ?_⟩ <;> linarith
  · rw [abs_le] at h1 h2 h3 h4
    refine ⟨?_, ?_, ?_, ?_⟩ <;> linarith

example : (⟨1, 2, 3, 4⟩ : V4 ℚ).simdLe (1 / 100) ⟨2, 3, 4, 5⟩ = true := by decide +kernel

/-- C49 is violated: `<=` is not lane by lane. With one component equal and another one smaller, `<=` and `>=` are both false, whatever
the tolerance below the difference. -/
theorem simdLe_violated (eps : K) (he : 0 ≤ eps) (x y : K) (h : eps < y) :
    (⟨x, 0, 0, 0⟩ : V4 K).simdLe eps ⟨x, y, 0, 0⟩ = false ∧ (⟨x, y, 0, 0⟩ : V4 K).simdGe eps ⟨x, 0, 0, 0⟩ = false := by
  have h0 : 0 < y := lt_of_le_of_lt he h
  have e1 : ¬ |0 - y| ≤ eps := by rw [zero_sub, abs_neg, abs_of_pos h0]; exact not_le.2 h
  have e2 : ¬ |y - 0| ≤ eps := by rw [sub_zero, abs_of_pos h0]; exact not_le.2 h
  constructor
  · rw [← Bool.not_eq_true, V4.simdLe, Bool.or_eq_true, (simdLt_iff _ _).1, (fltEq_iff eps ⟨0, 0⟩ ⟨0, 0⟩ ⟨0, 0, 0⟩ ⟨0, 0, 0⟩ _ _).2.2.2]
    rintro (⟨h1, _⟩ | ⟨_, h2, _⟩)
    · exact lt_irrefl _ h1
    · exact e1 h2
  · rw [← Bool.not_eq_true, V4.simdGe, Bool.or_eq_true, (simdLt_iff _ _).2, (simdLt_iff _ _).1,
      (fltEq_iff eps ⟨0, 0⟩ ⟨0, 0⟩ ⟨0, 0, 0⟩ ⟨0, 0, 0⟩ _ _).2.2.2]
    rintro (⟨h1, _⟩ | ⟨_, h2, _⟩)
    · exact lt_irrefl _ h1
    · exact e2 h2

/-- What `IsSymetrical` of the SIMD class decides without a tolerance: the first three components agree. -/
theorem simdIsSymetrical_iff (v : V4 K) : v.simdIsSymetrical 0 = true ↔ v.y = v.x ∧ v.z = v.x := by
  have z (q : K) : |q| ≤ 0 ↔ q = 0 := abs_nonpos_iff
  simp only [V4.simdIsSymetrical, compare4, allLanes, hsub, shuffle, V4.lane, Bool.and_eq_true, cmpLane_iff, z]
  constructor
  · rintro ⟨⟨⟨h1, h2⟩, _⟩, _⟩
    constructor <;> linarith
  · rintro ⟨h1, h2⟩
    refine ⟨⟨⟨?_, ?_⟩, ?_⟩, ?_⟩ <;> rw [h1, h2] <;> ring

/-- C49 is violated: `IsSymetrical` ("X == Y == Z == W") does not look at the fourth component. -/
theorem simdIsSymetrical_violated (eps x w : K) (he : 0 ≤ eps) : (⟨x, x, x, w⟩ : V4 K).simdIsSymetrical eps = true := by
  simp only [V4.simdIsSymetrical, compare4, allLanes, hsub, shuffle, V4.lane, Bool.and_eq_true, cmpLane_iff]
  simp [he]

/-- `Sign` is -1 exactly when some component is negative. -/
theorem simdSign_iff (v : V4 K) : (v.simdSign = -1 ↔ ∃ l ∈ v.toList, l < 0) ∧ (v.simdSign = 1 ↔ ∀ l ∈ v.toList, 0 ≤ l) := by
  unfold V4.simdSign
  by_cases h : (decide (v.x < 0) || decide (v.y < 0) || decide (v.z < 0) || decide (v.w < 0)) = true
  · rw [if_pos h]
    simp only [Bool.or_eq_true, decide_eq_true_eq] at h
    constructor
    · simp only [V4.toList, List.mem_cons, List.not_mem_nil, or_false, exists_eq_or_imp, exists_eq_left, true_iff]
      tauto
    · constructor
      · intro hh; exact absurd hh (by decide)
      · intro hh
        simp only [V4.toList, List.mem_cons, List.not_mem_nil, or_false, forall_eq_or_imp, forall_eq] at hh
        obtain ⟨h1, h2, h3, h4⟩ := hh
        rcases h with ((h | h) | h) | h <;> linarith
  · rw [if_neg h]
    simp only [Bool.or_eq_true, decide_eq_true_eq, not_or, not_lt] at h
    obtain ⟨⟨⟨h1, h2⟩, h3⟩, h4⟩ := h
    constructor
    · simp only [V4.toList, List.mem_cons, List.not_mem_nil, or_false, exists_eq_or_imp, exists_eq_left]
      constructor
      · intro hh; exact absurd hh (by decide)
      · rintro (h | h | h | h) <;> linarith
    · simp only [V4.toList, List.mem_cons, List.not_mem_nil, or_false, forall_eq_or_imp, forall_eq, true_iff]
      exact ⟨h1, h2, h3, h4⟩

end order

/-! ### Length -/

open Real in
/-- Normalising a non-zero vector gives a vector of length 1 that is a positive multiple of the vector; zero stays. -/
theorem simdNormalized_spec (v : V4 ℝ) :
    (v.dot v = 0 → v.simdNormalized sqrt = v) ∧
    (v.dot v ≠ 0 → (v.simdNormalized sqrt).simdLength sqrt = 1 ∧ ∃ k > 0, v.simdNormalized sqrt = v.mulS k) := by
  have hd : v.simdLength sqrt = sqrt (v.dot v) := by
    unfold V4.simdLength
    rw [(dot_sum ⟨0, 0⟩ ⟨0, 0⟩ ⟨0, 0, 0⟩ ⟨0, 0, 0⟩ v v).2.2.2.2 (v.dotV v).x (by simp [V4.toList])]
  have hnn : 0 ≤ v.dot v := by unfold V4.dot; nlinarith [mul_self_nonneg v.x, mul_self_nonneg v.y, mul_self_nonneg v.z, mul_self_nonneg v.w]
  constructor
  · intro h
    unfold V4.simdNormalized
    simp only [hd, h, sqrt_zero, if_true]
  · intro h
    have hp : 0 < v.dot v := lt_of_le_of_ne hnn (Ne.symm h)
    have hs : 0 < sqrt (v.dot v) := sqrt_pos.2 hp
    have hk : v.simdNormalized sqrt = v.mulS (1 / sqrt (v.dot v)) := by
      unfold V4.simdNormalized
      simp only [hd, hs.ne', if_false, V4.divS, V4.div, V4.mulS, V4.mul, V4.all, V4.mk.injEq]
      refine ⟨?_, ?_, ?_, ?_⟩ <;> ring
    refine ⟨?_, 1 / sqrt (v.dot v), by positivity, hk⟩
    have e : (v.simdNormalized sqrt).dpPs (v.simdNormalized sqrt) = 1 := by
      rw [hk]
      have b := dot_bilinear (1 / sqrt (v.dot v)) (⟨0, 0⟩ : V2 ℝ) ⟨0, 0⟩ ⟨0, 0⟩ ⟨0, 0, 0⟩ ⟨0, 0, 0⟩ ⟨0, 0, 0⟩ v v v
      have b' := dot_bilinear (1 / sqrt (v.dot v)) (⟨0, 0⟩ : V2 ℝ) ⟨0, 0⟩ ⟨0, 0⟩ ⟨0, 0, 0⟩ ⟨0, 0, 0⟩ ⟨0, 0, 0⟩ v v (v.mulS (1 / sqrt (v.dot v)))
      rw [b'.2.2.2.2.2.2.2, (dot_comm (⟨0, 0⟩ : V2 ℝ) ⟨0, 0⟩ ⟨0, 0, 0⟩ ⟨0, 0, 0⟩ v (v.mulS (1 / sqrt (v.dot v)))).2.2.2, b.2.2.2.2.2.2.2,
        (dot_sum (⟨0, 0⟩ : V2 ℝ) ⟨0, 0⟩ ⟨0, 0, 0⟩ ⟨0, 0, 0⟩ v v).2.2.2.1]
      have := mul_self_sqrt hnn
      field_simp
      nlinarith [this]
    show sqrt ((V4.dotV _ _).x) = 1
    simp only [V4.dotV, V4.all, e, sqrt_one]

example : (⟨3, 0, 4, 0⟩ : V4 ℝ).dot ⟨3, 0, 4, 0⟩ ≠ 0 := by norm_num [V4.dot]

open Real in
/-- `Normalize` of 2 component vectors. -/
theorem normalize2_spec (v : V2 ℝ) :
    (v.dot v = 0 → v.normalize sqrt = v) ∧
    (v.dot v ≠ 0 → (v.normalize sqrt).length sqrt = 1 ∧ ∃ k > 0, v.normalize sqrt = v.mulS k) := by
  have hd : v.length sqrt = sqrt (v.dot v) := by unfold V2.length V2.dot; congr 1
  have hnn : 0 ≤ v.dot v := by unfold V2.dot; nlinarith [mul_self_nonneg v.x, mul_self_nonneg v.y]
  constructor
  · intro h
    unfold V2.normalize
    simp only [hd, h, sqrt_zero, if_true]
  · intro h
    have hp : 0 < v.dot v := lt_of_le_of_ne hnn (Ne.symm h)
    have hs : 0 < sqrt (v.dot v) := sqrt_pos.2 hp
    have hk : v.normalize sqrt = v.mulS (1 / sqrt (v.dot v)) := by
      unfold V2.normalize
      simp only [hd, hs.ne', if_false, V2.divS, V2.div, V2.mulS, V2.mul, V2.all, V2.mk.injEq]
      refine ⟨?_, ?_⟩ <;> ring
    refine ⟨?_, 1 / sqrt (v.dot v), by positivity, hk⟩
    have h2 := mul_self_sqrt hnn
    rw [hk]
    unfold V2.length
    generalize hq : sqrt (v.dot v) = q at *
    rw [sqrt_eq_one]
    simp only [V2.mulS, V2.mul, V2.all]
    unfold V2.dot at h2
    field_simp
    linarith

open Real in
/-- `Normalize` of 3 component vectors. -/
theorem normalize3_spec (v : V3 ℝ) :
    (v.dot v = 0 → v.normalize sqrt = v) ∧
    (v.dot v ≠ 0 → (v.normalize sqrt).length sqrt = 1 ∧ ∃ k > 0, v.normalize sqrt = v.mulS k) := by
  have hd : v.length sqrt = sqrt (v.dot v) := by unfold V3.length V3.dot; congr 1
  have hnn : 0 ≤ v.dot v := by unfold V3.dot; nlinarith [mul_self_nonneg v.x, mul_self_nonneg v.y, mul_self_nonneg v.z]
  constructor
  · intro h
    unfold V3.normalize
    simp only [hd, h, sqrt_zero, if_true]
  · intro h
    have hp : 0 < v.dot v := lt_of_le_of_ne hnn (Ne.symm h)
    have hs : 0 < sqrt (v.dot v) := sqrt_pos.2 hp
    have hk : v.normalize sqrt = v.mulS (1 / sqrt (v.dot v)) := by
      unfold V3.normalize
      simp only [hd, hs.ne', if_false, V3.divS, V3.div, V3.mulS, V3.mul, V3.all, V3.mk.injEq]
      refine ⟨?_, ?_, ?_⟩ <;> ring
    refine ⟨?_, 1 / sqrt (v.dot v), by positivity, hk⟩
    have h2 := mul_self_sqrt hnn
    rw [hk]
    unfold V3.length
    generalize hq : sqrt (v.dot v) = q at *
    rw [sqrt_eq_one]
    simp only [V3.mulS, V3.mul, V3.all]
    unfold V3.dot at h2
    field_simp
    linarith

open Real in
/-- `Normalize` of 4 component vectors. -/
theorem normalize4_spec (v : V4 ℝ) :
    (v.dot v = 0 → v.normalize sqrt = v) ∧
    (v.dot v ≠ 0 → (v.normalize sqrt).length sqrt = 1 ∧ ∃ k > 0, v.normalize sqrt = v.mulS k) := by
  have hd : v.length sqrt = sqrt (v.dot v) := by unfold V4.length V4.dot; congr 1
  have hnn : 0 ≤ v.dot v := by unfold V4.dot; nlinarith [mul_self_nonneg v.x, mul_self_nonneg v.y, mul_self_nonneg v.z, mul_self_nonneg v.w]
  constructor
  · intro h
    unfold V4.normalize
    simp only [hd, h, sqrt_zero, if_true]
  · intro h
    have hp : 0 < v.dot v := lt_of_le_of_ne hnn (Ne.symm h)
    have hs : 0 < sqrt (v.dot v) := sqrt_pos.2 hp
    have hk : v.normalize sqrt = v.mulS (1 / sqrt (v.dot v)) := by
      unfold V4.normalize
      simp only [hd, hs.ne', if_false, V4.divS, V4.div, V4.mulS, V4.mul, V4.all, V4.mk.injEq]
      refine ⟨?_, ?_, ?_, ?_⟩ <;> ring
    refine ⟨?_, 1 / sqrt (v.dot v), by positivity, hk⟩
    have h2 := mul_self_sqrt hnn
    rw [hk]
    unfold V4.length
    generalize hq : sqrt (v.dot v) = q at *
    rw [sqrt_eq_one]
    simp only [V4.mulS, V4.mul, V4.all]
    unfold V4.dot at h2
    field_simp
    linarith

example : (⟨3, 4⟩ : V2 ℝ).dot ⟨3, 4⟩ ≠ 0 := by norm_num [V2.dot]

open Real in
/-- `QComputeElement(3)` completes a quaternion to length 1 when the element was 0 before. -/
theorem qComputeElement_partial (v : V4 ℝ) (h0 : v.w = 0) (h1 : v.dot v ≤ 1) :
    (v.qComputeElement sqrt 3).dot (v.qComputeElement sqrt 3) = 1 ∧ (v.qComputeElement sqrt 3).toV3 = v.toV3 := by
  refine ⟨?_, rfl⟩
  have hd : v.dpPs v = v.dot v := (dot_sum (⟨0, 0⟩ : V2 ℝ) ⟨0, 0⟩ ⟨0, 0, 0⟩ ⟨0, 0, 0⟩ v v).2.2.2.1
  unfold V4.qComputeElement V4.set
  simp only [hd]
  have := mul_self_sqrt (sub_nonneg.2 h1)
  simp only [V4.dot] at this ⊢
  rw [this, h0]; ring

example : (⟨3 / 5, 0, 0, 0⟩ : V4 ℝ).dot ⟨3 / 5, 0, 0, 0⟩ ≤ 1 := by norm_num [V4.dot]

open Real in
/-- C49 is violated: the old value of the element takes part, so completing an already complete quaternion sets the element to 0. -/
theorem qComputeElement_violated (v : V4 ℝ) (h : v.dot v = 1) : (v.qComputeElement sqrt 3).w = 0 := by
  have hd : v.dpPs v = v.dot v := (dot_sum (⟨0, 0⟩ : V2 ℝ) ⟨0, 0⟩ ⟨0, 0, 0⟩ ⟨0, 0, 0⟩ v v).2.2.2.1
  unfold V4.qComputeElement V4.set
  simp only [hd, h, sub_self, sqrt_zero]

example : (⟨0, 0, 0, 1⟩ : V4 ℝ).dot ⟨0, 0, 0, 1⟩ = 1 := by norm_num [V4.dot]

end PreCore.Vec
