import Verif.Model.Matrix
import Verif.Props.Vectors
import Mathlib.Algebra.Quaternion
import Mathlib.Data.Matrix.Mul
import Mathlib.LinearAlgebra.Matrix.Notation
import Mathlib.LinearAlgebra.Matrix.NonsingularInverse
/-!
# C40: matrix algebra

Specification: Mathlib's matrices and quaternions. `toMatrix` reads off the sixteen elements.
-/
namespace PreCore.Vec
open PreCore

/-- The matrix as a mathematical object. -/
def Mat.toMatrix (m : Mat R) : Matrix (Fin 4) (Fin 4) R := Matrix.of m.get

theorem toMatrix_inj (a b : Mat R) (h : a.toMatrix = b.toMatrix) : a = b := by
  have e : ∀ i j, a.get i j = b.get i j := fun i j => congrFun (congrFun h i) j
  obtain ⟨⟨a1, a2, a3, a4⟩, ⟨a5, a6, a7, a8⟩, ⟨a9, a10, a11, a12⟩, ⟨a13, a14, a15, a16⟩⟩ := a
  obtain ⟨⟨b1, b2, b3, b4⟩, ⟨b5, b6, b7, b8⟩, ⟨b9, b10, b11, b12⟩, ⟨b13, b14, b15, b16⟩⟩ := b
  have h00 : a1 = b1 := e 0 0
  have h01 : a2 = b2 := e 0 1
  have h02 : a3 = b3 := e 0 2
  have h03 : a4 = b4 := e 0 3
  have h10 : a5 = b5 := e 1 0
  have h11 : a6 = b6 := e 1 1
  have h12 : a7 = b7 := e 1 2
  have h13 : a8 = b8 := e 1 3
  have h20 : a9 = b9 := e 2 0
  have h21 : a10 = b10 := e 2 1
  have h22 : a11 = b11 := e 2 2
  have h23 : a12 = b12 := e 2 3
  have h30 : a13 = b13 := e 3 0
  have h31 : a14 = b14 := e 3 1
  have h32 : a15 = b15 := e 3 2
  have h33 : a16 = b16 := e 3 3
  subst_vars
  rfl

section ring
variable {R : Type} [CommRing R]

/-- C40: `*` is the matrix product, the default matrix is the identity, `TransposeFull` is the transpose. -/
theorem toMatrix_ops (a b : Mat R) :
    (a.mul b).toMatrix = a.toMatrix * b.toMatrix ∧ (Mat.identity : Mat R).toMatrix = 1 ∧
    a.transposeFull.toMatrix = a.toMatrix.transpose := by
  refine ⟨?_, ?_, ?_⟩
  · ext i j
    rw [Matrix.mul_apply, Fin.sum_univ_four]
    have e : ∀ r : V4 R, ∀ c : V4 R, r.dpPs c = r.x * c.x + r.y * c.y + r.z * c.z + r.w * c.w := by
      intro r c; simp only [V4.dpPs]; ring
    fin_cases i <;> fin_cases j <;> exact e _ _
  · ext i j
    fin_cases i <;> fin_cases j <;> rfl
  · ext i j
    fin_cases i <;> fin_cases j <;> rfl

/-- C40: the product is associative, with the identity on both sides; full transposition is an involution and reverses products. -/
theorem matrix_laws (a b c : Mat R) :
    (a.mul b).mul c = a.mul (b.mul c) ∧ a.mul .identity = a ∧ (Mat.identity : Mat R).mul a = a ∧
    a.transposeFull.transposeFull = a ∧ (a.mul b).transposeFull = b.transposeFull.mul a.transposeFull := by
  refine ⟨?_, ?_, ?_, rfl, ?_⟩ <;> apply toMatrix_inj
  · simp only [(toMatrix_ops _ _).1, Matrix.mul_assoc]
  · rw [(toMatrix_ops _ _).1, (toMatrix_ops a a).2.1, Matrix.mul_one]
  · rw [(toMatrix_ops _ _).1, (toMatrix_ops a a).2.1, Matrix.one_mul]
  · rw [(toMatrix_ops _ a).2.2, (toMatrix_ops _ _).1, (toMatrix_ops _ _).1, (toMatrix_ops _ a).2.2, (toMatrix_ops _ a).2.2,
      Matrix.transpose_mul]

end ring

/-- `Transpose` exchanges the elements of the 3x3 part and keeps row 4. -/
theorem transpose_part (m : Mat R) (i j : Fin 3) :
    m.transpose.get i.castSucc j.castSucc = m.get j.castSucc i.castSucc ∧ m.transpose.r4 = m.r4 := by
  refine ⟨?_, rfl⟩
  fin_cases i <;> fin_cases j <;> rfl

/-- Transposing twice: the fourth components of the first two rows become the one of the third. -/
theorem transpose_twice (m : Mat R) :
    m.transpose.transpose = { m with r1 := { m.r1 with w := m.r3.w }, r2 := { m.r2 with w := m.r3.w } } := rfl

/-- C40: an involution exactly when the fourth components of the first three rows are equal (for transforms they are 0). -/
theorem transpose_involutive_partial (m : Mat R) : m.transpose.transpose = m ↔ m.r1.w = m.r3.w ∧ m.r2.w = m.r3.w := by
  rw [transpose_twice]
  obtain ⟨⟨a1, a2, a3, a4⟩, ⟨a5, a6, a7, a8⟩, ⟨a9, a10, a11, a12⟩, r4⟩ := m
  constructor
  · intro h
    injection h with h1 h2
    injection h1 with _ _ _ h1
    injection h2 with _ _ _ h2
    exact ⟨h1.symm, h2.symm⟩
  · rintro ⟨h1, h2⟩
    simp only at h1 h2
    subst h1; subst h2; rfl

/-- C40 is violated: `Transpose` loses the fourth components of rows 1 and 2, so different matrices have the same transpose. -/
theorem transpose_violated (m : Mat R) (p q : R) :
    ({ m with r1 := { m.r1 with w := p }, r2 := { m.r2 with w := q } } : Mat R).transpose = m.transpose := rfl

/-! ### Quaternions -/

/-- The quaternion `w + x i + y j + z k` of a vector. -/
def quat [CommRing R] (q : V4 R) : Quaternion R := ⟨q.w, q.x, q.y, q.z⟩
/-- A point as a pure quaternion. -/
def pure3 [CommRing R] (p : V4 R) : Quaternion R := ⟨0, p.x, p.y, p.z⟩

theorem quat_parts [CommRing R] (q : V4 R) : (quat q).re = q.w ∧ (quat q).imI = q.x ∧ (quat q).imJ = q.y ∧ (quat q).imK = q.z :=
  ⟨rfl, rfl, rfl, rfl⟩
theorem pure3_parts [CommRing R] (q : V4 R) :
    (pure3 q).re = 0 ∧ (pure3 q).imI = q.x ∧ (pure3 q).imJ = q.y ∧ (pure3 q).imK = q.z := ⟨rfl, rfl, rfl, rfl⟩

section ring
variable {R : Type} [CommRing R]

/-- The rows `FromQuat` writes. -/
theorem fromQuat_rows (m : Mat R) (q : V4 R) :
    m.fromQuat q = ⟨⟨1 - 2 * (q.y * q.y + q.z * q.z), 2 * (q.x * q.y - q.z * q.w), 2 * (q.x * q.z + q.y * q.w), 0⟩,
      ⟨2 * (q.x * q.y + q.z * q.w), 1 - 2 * (q.x * q.x + q.z * q.z), 2 * (q.y * q.z - q.x * q.w), 0⟩,
      ⟨2 * (q.x * q.z - q.y * q.w), 2 * (q.y * q.z + q.x * q.w), 1 - 2 * (q.x * q.x + q.y * q.y), 0⟩, m.r4⟩ := by
  unfold Mat.fromQuat
  simp only [Mat.mk.injEq, and_true]
  refine ⟨?_, ?_, ?_⟩ <;>
    (simp only [shuffle, V4.lane, V4.mul, V4.add, V4.all, mk4, setPs, V4.mk.injEq]; refine ⟨?_, ?_, ?_, ?_⟩ <;> ring)

/-- `RotatePoint` in terms of the rows. -/
theorem rotatePoint_eq (m : Mat R) (p : V4 R) :
    m.rotatePoint p = ⟨m.r1.x * p.x + m.r2.x * p.y + m.r3.x * p.z + m.r3.w * p.w, m.r1.y * p.x + m.r2.y * p.y + m.r3.y * p.z + m.r3.w * p.w,
      m.r1.z * p.x + m.r2.z * p.y + m.r3.z * p.z + m.r3.w * p.w, 1⟩ := by
  simp only [Mat.rotatePoint, Mat.transpose, shuffle, V4.lane, V4.dpPs, mk4, setPs, V4.mk.injEq]
  refine ⟨?_, ?_, ?_, trivial⟩ <;> ring

/-- C40: rotating a point with the matrix of a unit quaternion is the quaternion rotation by the CONJUGATE quaternion (the matrix is
built for column vectors and applied to row vectors); the fourth component of the point is ignored. -/
theorem rotatePoint_conj (q p : V4 R) (h : q.dot q = 1) :
    pure3 ((Mat.ofQuat q).rotatePoint p) = star (quat q) * pure3 p * quat q ∧ ((Mat.ofQuat q).rotatePoint p).w = 1 := by
  rw [Mat.ofQuat, fromQuat_rows, rotatePoint_eq]
  refine ⟨?_, rfl⟩
  simp only [V4.dot] at h
  ext <;> simp only [Quaternion.re_mul, Quaternion.imI_mul, Quaternion.imJ_mul, Quaternion.imK_mul, Quaternion.re_star, Quaternion.imI_star,
    Quaternion.imJ_star, Quaternion.imK_star, quat_parts, pure3_parts]
  · ring
  · linear_combination (-p.x) * h
  · linear_combination (-p.y) * h
  · linear_combination (-p.z) * h

/-- Products of matrices of unit quaternions are matrices of the products. -/
theorem ofQuat_mul (p q r : V4 R) (hp : p.dot p = 1) (hq : q.dot q = 1) (hr : quat r = quat p * quat q) :
    (Mat.ofQuat p).mul (Mat.ofQuat q) = Mat.ofQuat r := by
  have h1 := congrArg (·.re) hr
  have h2 := congrArg (·.imI) hr
  have h3 := congrArg (·.imJ) hr
  have h4 := congrArg (·.imK) hr
  simp only [quat_parts, Quaternion.re_mul, Quaternion.imI_mul, Quaternion.imJ_mul, Quaternion.imK_mul] at h1 h2 h3 h4
  simp only [V4.dot] at hp hq
  simp only [Mat.ofQuat, fromQuat_rows, Mat.mul, Mat.transposeFull, unpacklo, unpackhi, movelh, movehl, Mat.identity, mk4, setPs, V4.dpPs,
    Mat.mk.injEq, V4.mk.injEq, h1, h2, h3, h4]
  obtain ⟨a, b, c, d⟩ := p
  obtain ⟨e, f, g, k⟩ := q
  simp only at hp hq ⊢
  have hp' : d * d = 1 - a * a - b * b - c * c := by linear_combination hp
  have hq' : k * k = 1 - e * e - f * f - g * g := by linear_combination hq
  refine ⟨⟨?_, ?_, ?_, ?_⟩, ⟨?_, ?_, ?_, ?_⟩, ⟨?_, ?_, ?_, ?_⟩, ?_, ?_, ?_, ?_⟩ <;> grind

/-- The matrix of a unit quaternion is orthogonal: its transpose (full or 3x3) is its inverse. -/
theorem ofQuat_orthogonal (q : V4 R) (h : q.dot q = 1) :
    (Mat.ofQuat q).mul (Mat.ofQuat q).transposeFull = .identity ∧ (Mat.ofQuat q).transpose = (Mat.ofQuat q).transposeFull ∧
    (Mat.ofQuat q).transpose = Mat.ofQuat q.qConjugate := by
  simp only [V4.dot] at h
  refine ⟨?_, ?_, ?_⟩
  · simp only [Mat.ofQuat, fromQuat_rows, Mat.mul, Mat.transposeFull, unpacklo, unpackhi, movelh, movehl, Mat.identity, mk4, setPs, V4.dpPs,
      Mat.mk.injEq, V4.mk.injEq]
    obtain ⟨a, b, c, d⟩ := q
    simp only at h ⊢
    refine ⟨⟨?_, ?_, ?_, ?_⟩, ⟨?_, ?_, ?_, ?_⟩, ⟨?_, ?_, ?_, ?_⟩, ?_, ?_, ?_, ?_⟩ <;> grind
  · simp only [Mat.ofQuat, fromQuat_rows]; rfl
  · rw [(qConjugate_spec q).1]
    simp only [Mat.ofQuat, fromQuat_rows, Mat.transpose, shuffle, V4.lane, Mat.mk.injEq, V4.mk.injEq]
    refine ⟨⟨?_, ?_, ?_, ?_⟩, ⟨?_, ?_, ?_, ?_⟩, ⟨?_, ?_, ?_, ?_⟩, ?_⟩ <;> first | trivial | rfl | ring1

end ring

/-- The property as usually stated fails: rotating with the matrix of `q` is not `q p q*`. -/
theorem rotatePoint_violated : ∃ q p : V4 ℚ, q.dot q = 1 ∧ pure3 ((Mat.ofQuat q).rotatePoint p) ≠ quat q * pure3 p * star (quat q) := by
  refine ⟨⟨0, 0, 3 / 5, 4 / 5⟩, ⟨1, 0, 0, 1⟩, by norm_num [V4.dot], ?_⟩
  intro h
  have := congrArg (·.imJ) h
  rw [Mat.ofQuat, fromQuat_rows, rotatePoint_eq] at this
  norm_num [quat_parts, pure3_parts] at this

example : (⟨0, 0, 3 / 5, 4 / 5⟩ : V4 ℚ).dot ⟨0, 0, 3 / 5, 4 / 5⟩ = 1 := by norm_num [V4.dot]

/-! ### Back to quaternions -/

/-- Row `r` of four times the outer product of a quaternion with itself, as a linear function of its rotation matrix. -/
def outer [CommRing R] (m : Mat R) : Fin 4 → V4 R
  | 0 => ⟨1 + m.r1.x - m.r2.y - m.r3.z, m.r1.y + m.r2.x, m.r1.z + m.r3.x, m.r3.y - m.r2.z⟩
  | 1 => ⟨m.r1.y + m.r2.x, 1 - m.r1.x + m.r2.y - m.r3.z, m.r2.z + m.r3.y, m.r1.z - m.r3.x⟩
  | 2 => ⟨m.r1.z + m.r3.x, m.r2.z + m.r3.y, 1 - m.r1.x - m.r2.y + m.r3.z, m.r2.x - m.r1.y⟩
  | 3 => ⟨m.r3.y - m.r2.z, m.r1.z - m.r3.x, m.r2.x - m.r1.y, 1 + m.r1.x + m.r2.y + m.r3.z⟩

open Real in
/-- `ToQuat` picks a row whose diagonal element is at least 1 and scales it, up to sign. -/
theorem toQuat_row (m : Mat ℝ) (hw : m.r2.w = 0) : ∃ r : Fin 4, 1 ≤ (outer m r).lane r ∧ ∃ k : ℝ, 4 * k * k * (outer m r).lane r = 1 ∧
    m.toQuat sqrt = (outer m r).mulS k := by
  have hk (X : ℝ) (h : 1 ≤ X) : 4 * (1 / (1 + 1) / sqrt X) * (1 / (1 + 1) / sqrt X) * X = 1 := by
    have h0 : 0 < sqrt X := sqrt_pos.2 (by linarith)
    have h1 : sqrt X * sqrt X = X := mul_self_sqrt (by linarith)
    have h2 : sqrt X ^ 2 = X := by rw [pow_two, h1]
    field_simp
    rw [h2]; ring
  have hneg (X : ℝ) (h : 1 ≤ X) : 4 * (1 / (1 + 1) / sqrt X * -1) * (1 / (1 + 1) / sqrt X * -1) * X = 1 := by
    linear_combination hk X h
  have t0 : ((((mk4 1 0 0 0 : V4 ℝ).add ((shuffle (shuffle m.r1 m.r2 2 0 2 0) (shuffle m.r1 m.r2 2 0 2 0) 1 2 3 0).mul (mk4 1 (-1) 1 1))).add
      ((shuffle m.r3 (moveSs m.r1 m.r3) 0 1 1 2).mul (mk4 (-1) 1 1 1))).add ((shuffle m.r2 m.r2 3 3 3 1).mulS (-1))) =
      ⟨(outer m 0).x, (outer m 0).w, (outer m 0).y, (outer m 0).z⟩ := by
    simp only [mk4, setPs, shuffle, moveSs, V4.lane, V4.add, V4.mul, V4.mulS, V4.all, outer, V4.mk.injEq, hw]
    refine ⟨?_, ?_, ?_, ?_⟩ <;> ring
  have t1 : ((((mk4 1 0 0 0 : V4 ℝ).add ((shuffle (shuffle m.r1 m.r2 2 0 2 0) (shuffle m.r1 m.r2 2 0 2 0) 1 2 3 0).mul (mk4 (-1) 1 1 1))).add
      ((shuffle m.r3 (moveSs m.r1 m.r3) 0 1 1 2).mul (mk4 (-1) 1 1 (-1)))).add (shuffle m.r2 m.r2 3 3 3 1)) =
      ⟨(outer m 1).y, (outer m 1).z, (outer m 1).x, (outer m 1).w⟩ := by
    simp only [mk4, setPs, shuffle, moveSs, V4.lane, V4.add, V4.mul, V4.mulS, V4.all, outer, V4.mk.injEq, hw]
    refine ⟨?_, ?_, ?_, ?_⟩ <;> ring
  have t2 : ((((mk4 1 0 0 0 : V4 ℝ).add ((shuffle (shuffle m.r1 m.r2 2 0 2 0) (shuffle m.r1 m.r2 2 0 2 0) 1 2 3 0).mul (mk4 (-1) 1 1 1))).add
      ((shuffle m.r3 (moveSs m.r1 m.r3) 0 1 1 2).mul (mk4 1 1 (-1) 1))).add ((shuffle m.r2 m.r2 3 3 3 1).mulS (-1))) =
      ⟨(outer m 2).z, (outer m 2).y, (outer m 2).w, (outer m 2).x⟩ := by
    simp only [mk4, setPs, shuffle, moveSs, V4.lane, V4.add, V4.mul, V4.mulS, V4.all, outer, V4.mk.injEq, hw]
    refine ⟨?_, ?_, ?_, ?_⟩ <;> ring
  have t3 : ((((mk4 1 0 0 0 : V4 ℝ).add ((shuffle (shuffle m.r1 m.r2 2 0 2 0) (shuffle m.r1 m.r2 2 0 2 0) 1 2 3 0).mul (mk4 1 (-1) 1 1))).add
      ((shuffle m.r3 (moveSs m.r1 m.r3) 0 1 1 2).mul (mk4 1 1 (-1) (-1)))).add (shuffle m.r2 m.r2 3 3 3 1)) =
      ⟨(outer m 3).w, (outer m 3).x, (outer m 3).z, (outer m 3).y⟩ := by
    simp only [mk4, setPs, shuffle, moveSs, V4.lane, V4.add, V4.mul, V4.mulS, V4.all, outer, V4.mk.injEq, hw]
    refine ⟨?_, ?_, ?_, ?_⟩ <;> ring
  unfold Mat.toQuat
  simp only [t0, t1, t2, t3]
  by_cases h0 : m.r3.z < 0
  · by_cases h1 : m.r2.y < m.r1.x
    · have hX : 1 ≤ 1 + m.r1.x - m.r2.y - m.r3.z := by linarith
      refine ⟨0, hX, 1 / (1 + 1) / sqrt (outer m 0).x, hk _ hX, ?_⟩
      simp only [h0, h1, decide_true, if_true]
      rfl
    · have hX : 1 ≤ 1 - m.r1.x + m.r2.y - m.r3.z := by linarith
      refine ⟨1, hX, 1 / (1 + 1) / sqrt (outer m 1).y * -1, hneg _ hX, ?_⟩
      simp only [h0, h1, decide_true, decide_false, if_true, Bool.false_eq_true, if_false]
      simp only [quatScale, V4.mulS, V4.mul, V4.all, shuffle, V4.lane, V4.mk.injEq, mul_assoc, and_self]
  · by_cases h1 : m.r1.x < -m.r2.y
    · have hX : 1 ≤ 1 - m.r1.x - m.r2.y + m.r3.z := by linarith
      refine ⟨2, hX, 1 / (1 + 1) / sqrt (outer m 2).z, hk _ hX, ?_⟩
      simp only [h0, h1, decide_true, decide_false, if_true, Bool.false_eq_true, if_false]
      rfl
    · have hX : 1 ≤ 1 + m.r1.x + m.r2.y + m.r3.z := by linarith
      refine ⟨3, hX, 1 / (1 + 1) / sqrt (outer m 3).w, hk _ hX, ?_⟩
      simp only [h0, h1, decide_false, Bool.false_eq_true, if_false]
      rfl

/-- The outer product for the matrix of a unit quaternion. -/
theorem outer_ofQuat [CommRing R] (q : V4 R) (h : q.dot q = 1) (r : Fin 4) : outer (Mat.ofQuat q) r = q.mulS (4 * q.lane r) := by
  simp only [V4.dot] at h
  obtain ⟨a, b, c, d⟩ := q
  simp only at h
  fin_cases r <;> simp only [Mat.ofQuat, fromQuat_rows, outer, V4.mulS, V4.mul, V4.all, V4.lane, V4.mk.injEq] <;>
    refine ⟨?_, ?_, ?_, ?_⟩ <;> grind

open Real in
/-- C40: converting a unit quaternion to a matrix and back gives the quaternion or its negative (the same rotation). -/
theorem toQuat_ofQuat (q : V4 ℝ) (h : q.dot q = 1) :
    (Mat.ofQuat q).toQuat sqrt = q ∨ (Mat.ofQuat q).toQuat sqrt = q.neg := by
  have hw : (Mat.ofQuat q).r2.w = 0 := by simp only [Mat.ofQuat, fromQuat_rows]
  obtain ⟨r, hr, k, hk, he⟩ := toQuat_row (Mat.ofQuat q) hw
  rw [outer_ofQuat q h r] at hr hk he
  have hl : (q.mulS (4 * q.lane r)).lane r = 4 * q.lane r * q.lane r := by
    fin_cases r <;> simp only [V4.mulS, V4.mul, V4.all, V4.lane] <;> ring
  rw [hl] at hk
  have h1 : (4 * q.lane r * k - 1) * (4 * q.lane r * k + 1) = 0 := by linear_combination hk
  have e : (Mat.ofQuat q).toQuat sqrt = q.mulS (4 * q.lane r * k) := by
    rw [he]; simp only [V4.mulS, V4.mul, V4.all, mul_assoc]
  rcases mul_eq_zero.1 h1 with h2 | h2
  · left
    rw [e, show 4 * q.lane r * k = 1 by linarith]
    simp [V4.mulS, V4.mul, V4.all]
  · right
    rw [e, show 4 * q.lane r * k = -1 by linarith]
    rfl

/-- A rotation matrix: fourth components 0, orthonormal rows, positively oriented. -/
structure IsRotation (m : Mat ℝ) : Prop where
  w1 : m.r1.w = 0
  w2 : m.r2.w = 0
  w3 : m.r3.w = 0
  n1 : m.r1.toV3.dot m.r1.toV3 = 1
  n2 : m.r2.toV3.dot m.r2.toV3 = 1
  n3 : m.r3.toV3.dot m.r3.toV3 = 1
  o12 : m.r1.toV3.dot m.r2.toV3 = 0
  o13 : m.r1.toV3.dot m.r3.toV3 = 0
  o23 : m.r2.toV3.dot m.r3.toV3 = 0
  det : m.r1.toV3.dot (m.r2.toV3.cross m.r3.toV3) = 1

theorem eq_of_dot (u v : V3 ℝ) (hu : u.dot u = 1) (hv : v.dot v = 1) (huv : u.dot v = 1) : u = v := by
  simp only [V3.dot] at hu hv huv
  have h : (u.x - v.x) * (u.x - v.x) + (u.y - v.y) * (u.y - v.y) + (u.z - v.z) * (u.z - v.z) = 0 := by
    linear_combination hu + hv - 2 * huv
  have h1 := mul_self_nonneg (u.x - v.x)
  have h2 := mul_self_nonneg (u.y - v.y)
  have h3 := mul_self_nonneg (u.z - v.z)
  have e1 : u.x - v.x = 0 := mul_self_eq_zero.1 (by linarith)
  have e2 : u.y - v.y = 0 := mul_self_eq_zero.1 (by linarith)
  have e3 : u.z - v.z = 0 := mul_self_eq_zero.1 (by linarith)
  cases u; cases v
  simp only [V3.mk.injEq] at *
  exact ⟨by linarith, by linarith, by linarith⟩

theorem rotation_cross {m : Mat ℝ} (h : IsRotation m) :
    m.r1.toV3 = m.r2.toV3.cross m.r3.toV3 ∧ m.r2.toV3 = m.r3.toV3.cross m.r1.toV3 ∧ m.r3.toV3 = m.r1.toV3.cross m.r2.toV3 := by
  have lag (a b : V3 ℝ) : (a.cross b).dot (a.cross b) = a.dot a * b.dot b - a.dot b * a.dot b := (cross_laws 0 a a b).2.2.2.2.2.1
  have cyc1 : m.r2.toV3.dot (m.r3.toV3.cross m.r1.toV3) = 1 := by
    rw [← h.det]; simp only [V3.dot, V3.cross]; ring
  have cyc2 : m.r3.toV3.dot (m.r1.toV3.cross m.r2.toV3) = 1 := by
    rw [← h.det]; simp only [V3.dot, V3.cross]; ring
  have o31 : m.r3.toV3.dot m.r1.toV3 = 0 := by rw [← h.o13]; simp only [V3.dot]; ring
  refine ⟨eq_of_dot _ _ h.n1 ?_ h.det, eq_of_dot _ _ h.n2 ?_ cyc1, eq_of_dot _ _ h.n3 ?_ cyc2⟩
  · rw [lag, h.n2, h.n3, h.o23]; ring
  · rw [lag, h.n3, h.n1, o31]; ring
  · rw [lag, h.n1, h.n2, h.o12]; ring

/-- For a rotation matrix the outer product has rank one. -/
theorem outer_rank {m : Mat ℝ} (h : IsRotation m) (r i j : Fin 4) :
    (outer m r).lane i * (outer m r).lane j = (outer m r).lane r * (outer m i).lane j := by
  obtain ⟨c1, c2, c3⟩ := rotation_cross h
  obtain ⟨w1, w2, w3, n1, n2, n3, o12, o13, o23, det⟩ := h
  obtain ⟨⟨a, b, c, _⟩, ⟨d, e, f, _⟩, ⟨g, k, l, _⟩, _⟩ := m
  simp only [V4.toV3, V3.cross, V3.dot, V3.mk.injEq] at *
  clear w1 w2 w3
  obtain ⟨c1, c1', c1''⟩ := c1
  obtain ⟨c2, c2', c2''⟩ := c2
  obtain ⟨c3, c3', c3''⟩ := c3
  fin_cases r <;> fin_cases i <;> fin_cases j <;> simp only [outer, V4.lane] <;> first | ring1 | grind

open Real in
/-- The products of the components `ToQuat` finds. -/
theorem toQuat_products {m : Mat ℝ} (h : IsRotation m) (i j : Fin 4) :
    4 * ((m.toQuat sqrt).lane i * (m.toQuat sqrt).lane j) = (outer m i).lane j := by
  obtain ⟨r, hr, k, hk, he⟩ := toQuat_row m h.w2
  have hl (i : Fin 4) : (m.toQuat sqrt).lane i = (outer m r).lane i * k := by
    rw [he]; fin_cases i <;> rfl
  rw [hl, hl]
  linear_combination 4 * k * k * outer_rank h r i j + (outer m i).lane j * hk

open Real in
/-- C40: a rotation matrix is the matrix of its quaternion, and that quaternion has length 1. Any fourth row is kept. -/
theorem fromQuat_toQuat (m m' : Mat ℝ) (h : IsRotation m) :
    m'.fromQuat (m.toQuat sqrt) = { m with r4 := m'.r4 } ∧ (m.toQuat sqrt).dot (m.toQuat sqrt) = 1 := by
  have hp := toQuat_products h
  have xx := hp 0 0
  have yy := hp 1 1
  have zz := hp 2 2
  have ww := hp 3 3
  have xy := hp 0 1
  have xz := hp 0 2
  have xw := hp 0 3
  have yz := hp 1 2
  have yw := hp 1 3
  have zw := hp 2 3
  simp only [outer, V4.lane] at xx yy zz ww xy xz xw yz yw zw
  generalize m.toQuat sqrt = q at *
  obtain ⟨w1, w2, w3, n1, n2, n3, o12, o13, o23, det⟩ := h
  constructor
  · rw [fromQuat_rows]
    obtain ⟨⟨a, b, c, _⟩, ⟨d, e, f, _⟩, ⟨g, k, l, _⟩, _⟩ := m
    simp only [Mat.mk.injEq, V4.mk.injEq, and_true] at *
    refine ⟨⟨?_, ?_, ?_, w1.symm⟩, ⟨?_, ?_, ?_, w2.symm⟩, ?_, ?_, ?_, w3.symm⟩ <;> linarith
  · simp only [V4.dot]; linarith

/-- A rotation that is no quarter turn about an axis: quaternion (1, 2, 2, 4) / 5. -/
example : IsRotation (Mat.ofQuat (⟨1 / 5, 2 / 5, 2 / 5, 4 / 5⟩ : V4 ℝ)) := by
  constructor <;> norm_num [Mat.ofQuat, fromQuat_rows, V4.toV3, V3.dot, V3.cross]

/-! ### Position, rotation, scale -/

/-- A transform with scaled, pairwise orthogonal, non-zero rows. -/
structure IsTransform (m : Mat ℝ) : Prop where
  w1 : m.r1.w = 0
  w2 : m.r2.w = 0
  w3 : m.r3.w = 0
  n1 : m.r1.toV3.dot m.r1.toV3 ≠ 0
  n2 : m.r2.toV3.dot m.r2.toV3 ≠ 0
  n3 : m.r3.toV3.dot m.r3.toV3 ≠ 0
  o12 : m.r1.toV3.dot m.r2.toV3 = 0
  o13 : m.r1.toV3.dot m.r3.toV3 = 0
  o23 : m.r2.toV3.dot m.r3.toV3 = 0

theorem dot_nonneg (v : V3 ℝ) : 0 ≤ v.dot v := by
  simp only [V3.dot]; nlinarith [mul_self_nonneg v.x, mul_self_nonneg v.y, mul_self_nonneg v.z]

open Real in
theorem simdLength_toV3 (v : V4 ℝ) (h : v.w = 0) : v.simdLength sqrt = sqrt (v.toV3.dot v.toV3) := by
  unfold V4.simdLength
  congr 1
  simp only [V4.dotV, V4.all, V4.dpPs, V3.dot, V4.toV3, h]; ring

/-- Dividing the rows by numbers whose squares are the squared lengths, with a positive triple product, gives a rotation. -/
theorem scaled_rotation {m : Mat ℝ} (h : IsTransform m) (a b c : ℝ) (ha : a * a = m.r1.toV3.dot m.r1.toV3)
    (hb : b * b = m.r2.toV3.dot m.r2.toV3) (hc : c * c = m.r3.toV3.dot m.r3.toV3)
    (hd : 0 < a * b * c * m.r1.toV3.dot (m.r2.toV3.cross m.r3.toV3)) :
    a ≠ 0 ∧ b ≠ 0 ∧ c ≠ 0 ∧ IsRotation { m with r1 := m.r1.divS a, r2 := m.r2.divS b, r3 := m.r3.divS c } := by
  obtain ⟨w1, w2, w3, n1, n2, n3, o12, o13, o23⟩ := h
  have a0 : a ≠ 0 := fun e => n1 (by rw [← ha, e, zero_mul])
  have b0 : b ≠ 0 := fun e => n2 (by rw [← hb, e, zero_mul])
  have c0 : c ≠ 0 := fun e => n3 (by rw [← hc, e, zero_mul])
  have lag := (cross_laws (0 : ℝ) m.r2.toV3 m.r2.toV3 m.r3.toV3).2.2.2.2.2.1
  -- the squared triple product is the product of the squared lengths
  have gram : m.r1.toV3.dot (m.r2.toV3.cross m.r3.toV3) * m.r1.toV3.dot (m.r2.toV3.cross m.r3.toV3) = (a * a) * (b * b) * (c * c) := by
    rw [ha, hb, hc]
    obtain ⟨⟨a, b, c, _⟩, ⟨d, e, f, _⟩, ⟨g, k, l, _⟩, _⟩ := m
    simp only [V4.toV3, V3.cross, V3.dot] at *
    clear lag
    grind
  have hdet : m.r1.toV3.dot (m.r2.toV3.cross m.r3.toV3) = a * b * c := by
    have : (m.r1.toV3.dot (m.r2.toV3.cross m.r3.toV3) - a * b * c) * (m.r1.toV3.dot (m.r2.toV3.cross m.r3.toV3) + a * b * c) = 0 := by
      linear_combination gram
    rcases mul_eq_zero.1 this with h | h
    · linarith
    · exfalso
      have e : m.r1.toV3.dot (m.r2.toV3.cross m.r3.toV3) = -(a * b * c) := by linarith
      rw [e] at hd
      nlinarith [mul_self_nonneg (a * b * c)]
  refine ⟨a0, b0, c0, ?_⟩
  constructor <;> simp only [V4.divS, V4.div, V4.all, V4.toV3, V3.dot, V3.cross] at * <;> field_simp <;> linarith

/-- The triple product of the rows of a transform is not 0. -/
theorem det_ne {m : Mat ℝ} (h : IsTransform m) : m.r1.toV3.dot (m.r2.toV3.cross m.r3.toV3) ≠ 0 := by
  obtain ⟨w1, w2, w3, n1, n2, n3, o12, o13, o23⟩ := h
  intro h0
  have gram : m.r1.toV3.dot (m.r2.toV3.cross m.r3.toV3) * m.r1.toV3.dot (m.r2.toV3.cross m.r3.toV3) =
      m.r1.toV3.dot m.r1.toV3 * m.r2.toV3.dot m.r2.toV3 * m.r3.toV3.dot m.r3.toV3 := by
    obtain ⟨⟨a, b, c, _⟩, ⟨d, e, f, _⟩, ⟨g, k, l, _⟩, _⟩ := m
    simp only [V4.toV3, V3.cross, V3.dot] at *
    clear h0 n1 n2 n3
    grind
  rw [h0, zero_mul] at gram
  exact mul_ne_zero (mul_ne_zero n1 n2) n3 gram.symm

open Real in
/-- What `Decompose` returns for a transform: the position, a unit quaternion, and scales with the lengths of the rows, all three
negative for a mirrored transform. -/
theorem decompose_spec (m : Mat ℝ) (w : ℝ) (h : IsTransform m) :
    ∃ s : ℝ, s * s = 1 ∧ (s = 1 ↔ 0 < m.r1.toV3.dot (m.r2.toV3.cross m.r3.toV3)) ∧
      (m.decompose sqrt w).1 = m.r4 ∧
      (m.decompose sqrt w).2.2 = ⟨s * sqrt (m.r1.toV3.dot m.r1.toV3), s * sqrt (m.r2.toV3.dot m.r2.toV3), s * sqrt (m.r3.toV3.dot m.r3.toV3),
        s * w⟩ ∧
      (m.decompose sqrt w).2.1.dot (m.decompose sqrt w).2.1 = 1 ∧
      ∀ m' : Mat ℝ, m'.compose (m.decompose sqrt w).1 (m.decompose sqrt w).2.1 (m.decompose sqrt w).2.2 = m := by
  have hn := det_ne h
  have hdp : m.r1.dpPs (ofV3 (m.r2.toV3.cross m.r3.toV3) 0) = m.r1.toV3.dot (m.r2.toV3.cross m.r3.toV3) := by
    simp only [V4.dpPs, ofV3, setPs, V3.dot, V3.cross, V4.toV3]; ring
  have l1 := simdLength_toV3 m.r1 h.w1
  have l2 := simdLength_toV3 m.r2 h.w2
  have l3 := simdLength_toV3 m.r3 h.w3
  have q1 := mul_self_sqrt (dot_nonneg m.r1.toV3)
  have q2 := mul_self_sqrt (dot_nonneg m.r2.toV3)
  have q3 := mul_self_sqrt (dot_nonneg m.r3.toV3)
  have p1 : 0 < sqrt (m.r1.toV3.dot m.r1.toV3) := sqrt_pos.2 (lt_of_le_of_ne (dot_nonneg _) (Ne.symm h.n1))
  have p2 : 0 < sqrt (m.r2.toV3.dot m.r2.toV3) := sqrt_pos.2 (lt_of_le_of_ne (dot_nonneg _) (Ne.symm h.n2))
  have p3 : 0 < sqrt (m.r3.toV3.dot m.r3.toV3) := sqrt_pos.2 (lt_of_le_of_ne (dot_nonneg _) (Ne.symm h.n3))
  -- the common end, for a sign `s`
  have fin (s : ℝ) (hs : s * s = 1) (hpos : 0 < s * m.r1.toV3.dot (m.r2.toV3.cross m.r3.toV3))
      (hdec : m.decompose sqrt w = (m.r4, (Mat.mk (m.r1.divS (s * sqrt (m.r1.toV3.dot m.r1.toV3)))
        (m.r2.divS (s * sqrt (m.r2.toV3.dot m.r2.toV3))) (m.r3.divS (s * sqrt (m.r3.toV3.dot m.r3.toV3))) m.r4).toQuat sqrt,
        ⟨s * sqrt (m.r1.toV3.dot m.r1.toV3), s * sqrt (m.r2.toV3.dot m.r2.toV3), s * sqrt (m.r3.toV3.dot m.r3.toV3), s * w⟩)) :
      (m.decompose sqrt w).1 = m.r4 ∧
      (m.decompose sqrt w).2.2 = ⟨s * sqrt (m.r1.toV3.dot m.r1.toV3), s * sqrt (m.r2.toV3.dot m.r2.toV3), s * sqrt (m.r3.toV3.dot m.r3.toV3),
        s * w⟩ ∧
      (m.decompose sqrt w).2.1.dot (m.decompose sqrt w).2.1 = 1 ∧
      ∀ m' : Mat ℝ, m'.compose (m.decompose sqrt w).1 (m.decompose sqrt w).2.1 (m.decompose sqrt w).2.2 = m := by
    rw [hdec]
    generalize sqrt (m.r1.toV3.dot m.r1.toV3) = a at *
    generalize sqrt (m.r2.toV3.dot m.r2.toV3) = b at *
    generalize sqrt (m.r3.toV3.dot m.r3.toV3) = c at *
    obtain ⟨a0, b0, c0, hrot⟩ := scaled_rotation h (s * a) (s * b) (s * c) (by linear_combination a * a * hs + q1)
      (by linear_combination b * b * hs + q2) (by linear_combination c * c * hs + q3) (by
        have : s * a * (s * b) * (s * c) * m.r1.toV3.dot (m.r2.toV3.cross m.r3.toV3) =
            (a * b * c) * (s * m.r1.toV3.dot (m.r2.toV3.cross m.r3.toV3)) := by
          linear_combination a * b * c * s * m.r1.toV3.dot (m.r2.toV3.cross m.r3.toV3) * hs
        rw [this]; positivity)
    have hq := fun m' => fromQuat_toQuat _ m' hrot
    refine ⟨rfl, rfl, (hq m).2, ?_⟩
    intro m'
    unfold Mat.compose
    simp only [(hq m').1]
    have cancel (v : V4 ℝ) (t : ℝ) (ht : t ≠ 0) : (v.divS t).mulS t = v := by
      obtain ⟨x, y, z, u⟩ := v
      simp only [V4.divS, V4.div, V4.mulS, V4.mul, V4.all, V4.mk.injEq]
      refine ⟨?_, ?_, ?_, ?_⟩ <;> field_simp
    rw [cancel _ _ a0, cancel _ _ b0, cancel _ _ c0]
  by_cases hlt : m.r1.toV3.dot (m.r2.toV3.cross m.r3.toV3) < 0
  · refine ⟨-1, by ring, ?_, fin (-1) (by ring) (by linarith) ?_⟩
    · constructor
      · intro e; norm_num at e
      · intro e; linarith
    · unfold Mat.decompose
      simp only [hdp, hlt, if_true, l1, l2, l3, mk4, setPs, V4.mulS, V4.mul, V4.all, mul_comm _ (-1 : ℝ)]
  · have hgt : 0 < m.r1.toV3.dot (m.r2.toV3.cross m.r3.toV3) := lt_of_le_of_ne (not_lt.1 hlt) (Ne.symm hn)
    refine ⟨1, by ring, by simp [hgt], fin 1 (by ring) (by linarith) ?_⟩
    unfold Mat.decompose
    simp only [hdp, hlt, if_false, l1, l2, l3, mk4, setPs, one_mul]

/-- C40: composing what was decomposed gives the transform back. -/
theorem compose_decompose (m m' : Mat ℝ) (w : ℝ) (h : IsTransform m) :
    m'.compose (m.decompose Real.sqrt w).1 (m.decompose Real.sqrt w).2.1 (m.decompose Real.sqrt w).2.2 = m := by
  obtain ⟨_, _, _, _, _, _, h⟩ := decompose_spec m w h
  exact h m'

/-- A composed matrix is a transform. -/
theorem compose_transform (m' : Mat ℝ) (p q s : V4 ℝ) (hq : q.dot q = 1) (hx : s.x ≠ 0) (hy : s.y ≠ 0) (hz : s.z ≠ 0) :
    IsTransform (m'.compose p q s) ∧ (m'.compose p q s).r1.toV3.dot (m'.compose p q s).r1.toV3 = s.x * s.x ∧
    (m'.compose p q s).r2.toV3.dot (m'.compose p q s).r2.toV3 = s.y * s.y ∧
    (m'.compose p q s).r3.toV3.dot (m'.compose p q s).r3.toV3 = s.z * s.z ∧
    (m'.compose p q s).r1.toV3.dot ((m'.compose p q s).r2.toV3.cross (m'.compose p q s).r3.toV3) = s.x * s.y * s.z := by
  unfold Mat.compose
  rw [fromQuat_rows]
  obtain ⟨a, b, c, d⟩ := q
  obtain ⟨u, v, t, _⟩ := s
  simp only [V4.dot] at hq
  simp only at hx hy hz
  have e1 : (1 - 2 * (b * b + c * c)) ^ 2 + (2 * (a * b - c * d)) ^ 2 + (2 * (a * c + b * d)) ^ 2 = 1 := by grind
  have e2 : (2 * (a * b + c * d)) ^ 2 + (1 - 2 * (a * a + c * c)) ^ 2 + (2 * (b * c - a * d)) ^ 2 = 1 := by grind
  have e3 : (2 * (a * c - b * d)) ^ 2 + (2 * (b * c + a * d)) ^ 2 + (1 - 2 * (a * a + b * b)) ^ 2 = 1 := by grind
  have f1 : (1 - 2 * (b * b + c * c)) * (2 * (a * b + c * d)) + (2 * (a * b - c * d)) * (1 - 2 * (a * a + c * c)) +
    (2 * (a * c + b * d)) * (2 * (b * c - a * d)) = 0 := by grind
  have f2 : (1 - 2 * (b * b + c * c)) * (2 * (a * c - b * d)) + (2 * (a * b - c * d)) * (2 * (b * c + a * d)) +
    (2 * (a * c + b * d)) * (1 - 2 * (a * a + b * b)) = 0 := by grind
  have f3 : (2 * (a * b + c * d)) * (2 * (a * c - b * d)) + (1 - 2 * (a * a + c * c)) * (2 * (b * c + a * d)) +
    (2 * (b * c - a * d)) * (1 - 2 * (a * a + b * b)) = 0 := by grind
  have g : (1 - 2 * (b * b + c * c)) * ((1 - 2 * (a * a + c * c)) * (1 - 2 * (a * a + b * b)) - (2 * (b * c - a * d)) * (2 * (b * c + a * d))) +
    (2 * (a * b - c * d)) * ((2 * (b * c - a * d)) * (2 * (a * c - b * d)) - (2 * (a * b + c * d)) * (1 - 2 * (a * a + b * b))) +
    (2 * (a * c + b * d)) * ((2 * (a * b + c * d)) * (2 * (b * c + a * d)) - (1 - 2 * (a * a + c * c)) * (2 * (a * c - b * d))) = 1 := by grind
  have k1 : ∀ x y z s : ℝ, x ^ 2 + y ^ 2 + z ^ 2 = 1 → x * s * (x * s) + y * s * (y * s) + z * s * (z * s) = s * s := by
    intro x y z s h; linear_combination s * s * h
  refine ⟨?_, k1 _ _ _ _ e1, k1 _ _ _ _ e2, k1 _ _ _ _ e3, ?_⟩
  · constructor
    · simp only [V4.mulS, V4.mul, V4.all, zero_mul]
    · simp only [V4.mulS, V4.mul, V4.all, zero_mul]
    · simp only [V4.mulS, V4.mul, V4.all, zero_mul]
    · exact fun h0 => mul_ne_zero hx hx ((k1 _ _ _ u e1).symm.trans h0)
    · exact fun h0 => mul_ne_zero hy hy ((k1 _ _ _ v e2).symm.trans h0)
    · exact fun h0 => mul_ne_zero hz hz ((k1 _ _ _ t e3).symm.trans h0)
    · simp only [V4.mulS, V4.mul, V4.all, V4.toV3, V3.dot]; linear_combination u * v * f1
    · simp only [V4.mulS, V4.mul, V4.all, V4.toV3, V3.dot]; linear_combination u * t * f2
    · simp only [V4.mulS, V4.mul, V4.all, V4.toV3, V3.dot]; linear_combination v * t * f3
  · simp only [V4.mulS, V4.mul, V4.all, V4.toV3, V3.dot, V3.cross]
    linear_combination u * v * t * g

open Real in
/-- Unit quaternions with the same matrix are equal up to sign. -/
theorem ofQuat_inj (p q : V4 ℝ) (hp : p.dot p = 1) (hq : q.dot q = 1) (h : Mat.ofQuat p = Mat.ofQuat q) : p = q ∨ p = q.neg := by
  have nn (v : V4 ℝ) : v.neg.neg = v := by cases v; simp [V4.neg, V4.mulS, V4.mul, V4.all]
  have h1 := toQuat_ofQuat p hp
  rw [h] at h1
  rcases h1 with h1 | h1 <;> rcases toQuat_ofQuat q hq with h2 | h2 <;> rw [h1] at h2
  · exact Or.inl h2
  · exact Or.inr h2
  · right; rw [← h2, nn]
  · left; rw [← nn p, h2, nn]

open Real in
/-- C40: decomposing what was composed of a position, a unit quaternion and positive scales gives them back, the quaternion up to sign. -/
theorem decompose_compose (m' : Mat ℝ) (p q s : V4 ℝ) (w : ℝ) (hq : q.dot q = 1) (hx : 0 < s.x) (hy : 0 < s.y) (hz : 0 < s.z) :
    ((m'.compose p q s).decompose sqrt w).1 = p ∧
    (((m'.compose p q s).decompose sqrt w).2.1 = q ∨ ((m'.compose p q s).decompose sqrt w).2.1 = q.neg) ∧
    ((m'.compose p q s).decompose sqrt w).2.2 = ⟨s.x, s.y, s.z, w⟩ := by
  obtain ⟨ht, n1, n2, n3, hd⟩ := compose_transform m' p q s hq hx.ne' hy.ne' hz.ne'
  obtain ⟨t, ht1, ht2, d1, d2, d3, d4⟩ := decompose_spec (m'.compose p q s) w ht
  have t1 : t = 1 := ht2.2 (by rw [hd]; positivity)
  have hs : ((m'.compose p q s).decompose sqrt w).2.2 = ⟨s.x, s.y, s.z, w⟩ := by
    rw [d2, n1, n2, n3, t1, sqrt_mul_self hx.le, sqrt_mul_self hy.le, sqrt_mul_self hz.le]
    simp only [one_mul]
  refine ⟨d1, ?_, hs⟩
  have he := d4 m'
  rw [hs] at he
  generalize ((m'.compose p q s).decompose sqrt w).2.1 = q' at *
  have cancel (u v : V4 ℝ) (a : ℝ) (ha : 0 < a) (h : u.mulS a = v.mulS a) : u = v := by
    obtain ⟨_, _, _, _⟩ := u
    obtain ⟨_, _, _, _⟩ := v
    simp only [V4.mulS, V4.mul, V4.all, V4.mk.injEq] at h ⊢
    exact ⟨mul_right_cancel₀ ha.ne' h.1, mul_right_cancel₀ ha.ne' h.2.1, mul_right_cancel₀ ha.ne' h.2.2.1, mul_right_cancel₀ ha.ne' h.2.2.2⟩
  unfold Mat.compose at he
  simp only [Mat.mk.injEq] at he
  have e1 := cancel _ _ _ hx he.1
  have e2 := cancel _ _ _ hy he.2.1
  have e3 := cancel _ _ _ hz he.2.2.1
  apply ofQuat_inj q' q d3 hq
  rw [fromQuat_rows, fromQuat_rows] at e1 e2 e3
  rw [Mat.ofQuat, Mat.ofQuat, fromQuat_rows, fromQuat_rows]
  simp only at e1 e2 e3
  rw [e1, e2, e3]

/-- A mirrored transform comes back with all three scales negated. -/
theorem decompose_mirror (m' : Mat ℝ) (p q s : V4 ℝ) (w : ℝ) (hq : q.dot q = 1) (hx : s.x < 0) (hy : 0 < s.y) (hz : 0 < s.z) :
    ((m'.compose p q s).decompose Real.sqrt w).2.2 = ⟨s.x, -s.y, -s.z, -w⟩ := by
  obtain ⟨ht, n1, n2, n3, hd⟩ := compose_transform m' p q s hq hx.ne hy.ne' hz.ne'
  obtain ⟨t, ht1, ht2, d1, d2, d3, d4⟩ := decompose_spec (m'.compose p q s) w ht
  have hneg : ¬ t = 1 := by
    rw [ht2, hd, not_lt]
    have := mul_pos hy hz
    nlinarith
  have t1 : t = -1 := by
    have h : (t - 1) * (t + 1) = 0 := by linear_combination ht1
    rcases mul_eq_zero.1 h with h | h
    · exact absurd (by linarith) hneg
    · linarith
  rw [d2, n1, n2, n3, t1, Real.sqrt_mul_self hy.le, Real.sqrt_mul_self hz.le, show s.x * s.x = -s.x * -s.x by ring,
    Real.sqrt_mul_self (by linarith : (0 : ℝ) ≤ -s.x)]
  simp only [V4.mk.injEq]
  refine ⟨?_, ?_, ?_, ?_⟩ <;> ring

example : (⟨1 / 5, 2 / 5, 2 / 5, 4 / 5⟩ : V4 ℝ).dot ⟨1 / 5, 2 / 5, 2 / 5, 4 / 5⟩ = 1 := by norm_num [V4.dot]

/-! ### Inverse -/

section field
variable {K : Type} [Field K] [LinearOrder K] [IsStrictOrderedRing K]

/-- The inverse of a transform is wanted for these matrices: fourth components (0, 0, 0, 1), pairwise orthogonal rows, none of them
shorter than the tolerance allows. -/
structure Invertible (eps : K) (m : Mat K) : Prop where
  pos : 0 < eps
  w1 : m.r1.w = 0
  w2 : m.r2.w = 0
  w3 : m.r3.w = 0
  w4 : m.r4.w = 1
  n1 : eps ≤ m.r1.toV3.dot m.r1.toV3
  n2 : eps ≤ m.r2.toV3.dot m.r2.toV3
  n3 : eps ≤ m.r3.toV3.dot m.r3.toV3
  o12 : m.r1.toV3.dot m.r2.toV3 = 0
  o13 : m.r1.toV3.dot m.r3.toV3 = 0
  o23 : m.r2.toV3.dot m.r3.toV3 = 0

/-- The rows of `-m`. -/
theorem inverse_rows {eps : K} {m : Mat K} (h : Invertible eps m) :
    m.inverse eps = ⟨⟨m.r1.x / m.r1.toV3.dot m.r1.toV3, m.r2.x / m.r2.toV3.dot m.r2.toV3, m.r3.x / m.r3.toV3.dot m.r3.toV3, 0⟩,
      ⟨m.r1.y / m.r1.toV3.dot m.r1.toV3, m.r2.y / m.r2.toV3.dot m.r2.toV3, m.r3.y / m.r3.toV3.dot m.r3.toV3, 0⟩,
      ⟨m.r1.z / m.r1.toV3.dot m.r1.toV3, m.r2.z / m.r2.toV3.dot m.r2.toV3, m.r3.z / m.r3.toV3.dot m.r3.toV3, 0⟩,
      ⟨-(m.r1.x / m.r1.toV3.dot m.r1.toV3 * m.r4.x + m.r2.x / m.r2.toV3.dot m.r2.toV3 * m.r4.y + m.r3.x / m.r3.toV3.dot m.r3.toV3 * m.r4.z),
       -(m.r1.y / m.r1.toV3.dot m.r1.toV3 * m.r4.x + m.r2.y / m.r2.toV3.dot m.r2.toV3 * m.r4.y + m.r3.y / m.r3.toV3.dot m.r3.toV3 * m.r4.z),
       -(m.r1.z / m.r1.toV3.dot m.r1.toV3 * m.r4.x + m.r2.z / m.r2.toV3.dot m.r2.toV3 * m.r4.y + m.r3.z / m.r3.toV3.dot m.r3.toV3 * m.r4.z),
       1⟩⟩ := by
  have c (v : V4 K) (hv : eps ≤ v.toV3.dot v.toV3) : clampEps eps (v.x * v.x + v.y * v.y + v.z * v.z) = v.toV3.dot v.toV3 :=
    if_neg (not_lt.2 hv)
  have c1 := c _ h.n1
  have c2 := c _ h.n2
  have c3 := c _ h.n3
  unfold Mat.inverse
  simp only [Mat.transpose, shuffle, V4.lane, V4.mul, V4.add, V4.div, V4.all, V4.map, c1, c2, c3, h.w3, mk4, setPs, V4.dpPs,
    (qConjugate_spec _).1]
  simp only [Mat.mk.injEq, V4.mk.injEq]
  refine ⟨⟨?_, ?_, ?_, ?_⟩, ⟨?_, ?_, ?_, ?_⟩, ⟨?_, ?_, ?_, ?_⟩, ?_, ?_, ?_, ?_⟩ <;> first | trivial | ring1

/-- C40: `m * -m` is the identity up to the translation, which comes out as `t B - B t` where `B` is the 3x3 part of the inverse. -/
theorem inverse_product {eps : K} {m : Mat K} (h : Invertible eps m) :
    (m.mul (m.inverse eps)).r1 = (Mat.identity : Mat K).r1 ∧ (m.mul (m.inverse eps)).r2 = (Mat.identity : Mat K).r2 ∧
    (m.mul (m.inverse eps)).r3 = (Mat.identity : Mat K).r3 ∧
    (m.mul (m.inverse eps)).r4 =
      ⟨m.r4.x * (m.inverse eps).r1.x + m.r4.y * (m.inverse eps).r2.x + m.r4.z * (m.inverse eps).r3.x -
        ((m.inverse eps).r1.x * m.r4.x + (m.inverse eps).r1.y * m.r4.y + (m.inverse eps).r1.z * m.r4.z),
       m.r4.x * (m.inverse eps).r1.y + m.r4.y * (m.inverse eps).r2.y + m.r4.z * (m.inverse eps).r3.y -
        ((m.inverse eps).r2.x * m.r4.x + (m.inverse eps).r2.y * m.r4.y + (m.inverse eps).r2.z * m.r4.z),
       m.r4.x * (m.inverse eps).r1.z + m.r4.y * (m.inverse eps).r2.z + m.r4.z * (m.inverse eps).r3.z -
        ((m.inverse eps).r3.x * m.r4.x + (m.inverse eps).r3.y * m.r4.y + (m.inverse eps).r3.z * m.r4.z), 1⟩ := by
  have d1 : m.r1.toV3.dot m.r1.toV3 ≠ 0 := (lt_of_lt_of_le h.pos h.n1).ne'
  have d2 : m.r2.toV3.dot m.r2.toV3 ≠ 0 := (lt_of_lt_of_le h.pos h.n2).ne'
  have d3 : m.r3.toV3.dot m.r3.toV3 ≠ 0 := (lt_of_lt_of_le h.pos h.n3).ne'
  rw [inverse_rows h]
  have o12 := h.o12
  have o13 := h.o13
  have o23 := h.o23
  have w1 := h.w1
  have w2 := h.w2
  have w3 := h.w3
  have w4 := h.w4
  have e1 : m.r1.toV3.dot m.r1.toV3 = m.r1.x * m.r1.x + m.r1.y * m.r1.y + m.r1.z * m.r1.z := rfl
  have e2 : m.r2.toV3.dot m.r2.toV3 = m.r2.x * m.r2.x + m.r2.y * m.r2.y + m.r2.z * m.r2.z := rfl
  have e3 : m.r3.toV3.dot m.r3.toV3 = m.r3.x * m.r3.x + m.r3.y * m.r3.y + m.r3.z * m.r3.z := rfl
  generalize m.r1.toV3.dot m.r1.toV3 = a at *
  generalize m.r2.toV3.dot m.r2.toV3 = b at *
  generalize m.r3.toV3.dot m.r3.toV3 = c at *
  clear h
  have ia : a * a⁻¹ = 1 := mul_inv_cancel₀ d1
  have ib : b * b⁻¹ = 1 := mul_inv_cancel₀ d2
  have ic : c * c⁻¹ = 1 := mul_inv_cancel₀ d3
  simp only [V3.dot, V4.toV3] at o12 o13 o23
  simp only [Mat.mul, Mat.transposeFull, unpacklo, unpackhi, movelh, movehl, Mat.identity, mk4, setPs, V4.dpPs, V4.mk.injEq, w1, w2, w3, w4]
  refine ⟨⟨?_, ?_, ?_, ?_⟩, ⟨?_, ?_, ?_, ?_⟩, ⟨?_, ?_, ?_, ?_⟩, ?_, ?_, ?_, ?_⟩
  · linear_combination ia - a⁻¹ * e1
  · linear_combination b⁻¹ * o12
  · linear_combination c⁻¹ * o13
  · ring
  · linear_combination a⁻¹ * o12
  · linear_combination ib - b⁻¹ * e2
  · linear_combination c⁻¹ * o23
  · ring
  · linear_combination a⁻¹ * o13
  · linear_combination b⁻¹ * o23
  · linear_combination ic - c⁻¹ * e3
  all_goals ring

/-- C40: `-m` is the inverse exactly when the translation commutes with the rotation part. -/
theorem inverse_iff {eps : K} {m : Mat K} (h : Invertible eps m) :
    (m.mul (m.inverse eps) = .identity ↔
      m.r4.x * (m.inverse eps).r1.x + m.r4.y * (m.inverse eps).r2.x + m.r4.z * (m.inverse eps).r3.x =
        (m.inverse eps).r1.x * m.r4.x + (m.inverse eps).r1.y * m.r4.y + (m.inverse eps).r1.z * m.r4.z ∧
      m.r4.x * (m.inverse eps).r1.y + m.r4.y * (m.inverse eps).r2.y + m.r4.z * (m.inverse eps).r3.y =
        (m.inverse eps).r2.x * m.r4.x + (m.inverse eps).r2.y * m.r4.y + (m.inverse eps).r2.z * m.r4.z ∧
      m.r4.x * (m.inverse eps).r1.z + m.r4.y * (m.inverse eps).r2.z + m.r4.z * (m.inverse eps).r3.z =
        (m.inverse eps).r3.x * m.r4.x + (m.inverse eps).r3.y * m.r4.y + (m.inverse eps).r3.z * m.r4.z) := by
  obtain ⟨h1, h2, h3, h4⟩ := inverse_product h
  constructor
  · intro e
    rw [e] at h4
    simp only [Mat.identity, mk4, setPs, V4.mk.injEq] at h4
    exact ⟨(sub_eq_zero.1 h4.1.symm), (sub_eq_zero.1 h4.2.1.symm), (sub_eq_zero.1 h4.2.2.1.symm)⟩
  · rintro ⟨e1, e2, e3⟩
    rw [e1, e2, e3, sub_self, sub_self, sub_self] at h4
    have : ∀ a b : Mat K, a.r1 = b.r1 → a.r2 = b.r2 → a.r3 = b.r3 → a.r4 = b.r4 → a = b := by
      rintro ⟨⟩ ⟨⟩ rfl rfl rfl rfl; rfl
    exact this _ _ h1 h2 h3 h4

/-- C40, as far as it holds: without translation `-m` is the inverse from both sides, for every rotation with every admissible scale. -/
theorem inverse_partial {eps : K} {m : Mat K} (h : Invertible eps m) (ht : m.r4 = ⟨0, 0, 0, 1⟩) :
    m.mul (m.inverse eps) = .identity ∧ (m.inverse eps).mul m = .identity := by
  have h1 : m.mul (m.inverse eps) = .identity := (inverse_iff h).2 (by simp [ht])
  refine ⟨h1, ?_⟩
  apply toMatrix_inj
  have := congrArg Mat.toMatrix h1
  rw [(toMatrix_ops _ _).1, (toMatrix_ops m m).2.1] at this ⊢
  exact mul_eq_one_comm.1 this

end field

/-- The tolerance is the single precision number nearest to 0.000001: a 24 bit significand (the interval
[2^-20, 2^-19) contains it) in units of 2^-43, nearer than any other multiple of that unit. -/
theorem epsF_nearest : epsF = 8796093 / 2 ^ 43 ∧ 2 ^ 23 ≤ 8796093 ∧ 8796093 < 2 ^ 24 ∧
    ∀ m : ℤ, |epsF - 1 / 1000000| ≤ |(m : ℚ) / 2 ^ 43 - 1 / 1000000| := by
  refine ⟨by norm_num [epsF], by norm_num, by norm_num, fun m => ?_⟩
  have h0 : |epsF - 1 / 1000000| = 347 / 137438953472000000 := by norm_num [epsF, abs_div, abs_of_neg, abs_of_nonneg]
  rw [h0]
  rcases lt_trichotomy m 8796093 with h | h | h
  · have : (m : ℚ) ≤ 8796092 := by exact_mod_cast Int.le_of_lt_add_one h
    rw [abs_of_nonpos (by norm_num; linarith)]; norm_num; linarith
  · subst h; norm_num [abs_of_neg, abs_of_nonneg]
  · have : (8796094 : ℚ) ≤ m := by exact_mod_cast h
    rw [abs_of_nonneg (by norm_num; linarith)]; norm_num; linarith

/-- A rotation by 4/5, 3/5 about an axis with scales 2, 1 and 3 and no translation meets the hypotheses. -/
example : Invertible epsF (⟨⟨8 / 5, 6 / 5, 0, 0⟩, ⟨-3 / 5, 4 / 5, 0, 0⟩, ⟨0, 0, 3, 0⟩, ⟨0, 0, 0, 1⟩⟩ : Mat ℚ) := by
  constructor <;> norm_num [V3.dot, V4.toV3, epsF]

/-- A quarter turn about the third axis with a translation. -/
def turned : Mat ℚ := ⟨⟨0, 1, 0, 0⟩, ⟨-1, 0, 0, 0⟩, ⟨0, 0, 1, 0⟩, ⟨1, 0, 0, 1⟩⟩

/-- C40 is violated: a rigid transform (quarter turn and translation) times its inverse is not the identity, on either side. -/
theorem inverse_translation_violated :
    Invertible epsF turned ∧ turned.mul (turned.inverse epsF) ≠ .identity ∧ (turned.inverse epsF).mul turned ≠ .identity := by
  refine ⟨?_, by decide +kernel, by decide +kernel⟩
  constructor <;> norm_num [V3.dot, V4.toV3, epsF, turned]

/-- C40 is violated: for rows shorter than 0.001 the factor is taken as 1; a uniform scale by 1/2000 times its inverse is the scale
1/4000000. -/
theorem inverse_small_violated :
    ∃ m : Mat ℚ, m = ⟨⟨1 / 2000, 0, 0, 0⟩, ⟨0, 1 / 2000, 0, 0⟩, ⟨0, 0, 1 / 2000, 0⟩, ⟨0, 0, 0, 1⟩⟩ ∧
      m.mul (m.inverse epsF) = ⟨⟨1 / 4000000, 0, 0, 0⟩, ⟨0, 1 / 4000000, 0, 0⟩, ⟨0, 0, 1 / 4000000, 0⟩, ⟨0, 0, 0, 1⟩⟩ :=
  ⟨_, rfl, by decide +kernel⟩

end PreCore.Vec
