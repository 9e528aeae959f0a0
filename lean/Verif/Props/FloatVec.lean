import Verif.Lemmas.Float32Ops
import Verif.Props.Matrix
import Mathlib.Tactic.Linarith
/-!
# C130, C131: vectors and matrices of floats, with every operation rounded
-/
namespace PreCore.Vec
open PreCore.F32

/-! ## Specification -/

/-- The float `x` is a finite number with the value `v`. -/
def IsF (x : Fl) (v : ℚ) : Prop := FIs x.bits v
/-- The components are finite numbers with these values. -/
structure V2.Holds (a : V2 Fl) (v : V2 ℚ) : Prop where
  x : IsF a.x v.x
  y : IsF a.y v.y
structure V3.Holds (a : V3 Fl) (v : V3 ℚ) : Prop where
  x : IsF a.x v.x
  y : IsF a.y v.y
  z : IsF a.z v.z
structure V4.Holds (a : V4 Fl) (v : V4 ℚ) : Prop where
  x : IsF a.x v.x
  y : IsF a.y v.y
  z : IsF a.z v.z
  w : IsF a.w v.w
structure Mat.Holds (m : Mat Fl) (v : Mat ℚ) : Prop where
  r1 : m.r1.Holds v.r1
  r2 : m.r2.Holds v.r2
  r3 : m.r3.Holds v.r3
  r4 : m.r4.Holds v.r4

/-- The float `x` is the exact number `v` rounded to the nearest float (ties to even, infinite when too large). -/
def IsRounded (x : Fl) (v : ℚ) : Prop := Rounded x.bits v

/-- `x` is a finite float at most `e` from `v`. -/
def Within (x : Fl) (v e : ℚ) : Prop := ∃ r, IsF x r ∧ |r - v| ≤ e

/-- Sum of the absolute products. -/
def absDot (a b : V4 ℚ) : ℚ := |a.x * b.x| + |a.y * b.y| + |a.z * b.z| + |a.w * b.w|

/-! ## Lane by lane -/

/-- C130: the sums, differences, products and quotients of float vectors are correctly rounded in every component. -/
theorem lanes_rounded (a b : V4 Fl) (u v : V4 ℚ) (ha : a.Holds u) (hb : b.Holds v) (i : Fin 4) :
    IsRounded ((a.add b).lane i) (u.lane i + v.lane i) ∧ IsRounded ((a.sub b).lane i) (u.lane i - v.lane i) ∧
    IsRounded ((a.mul b).lane i) (u.lane i * v.lane i) ∧
    (v.lane i ≠ 0 → IsRounded ((a.div b).lane i) (u.lane i / v.lane i)) := by
  have key : ∀ x y p q, IsF x p → IsF y q → IsRounded (x + y) (p + q) ∧ IsRounded (x - y) (p - q) ∧ IsRounded (x * y) (p * q) ∧
      (q ≠ 0 → IsRounded (x / y) (p / q)) := fun x y p q hx hy =>
    ⟨add_rounded hx hy, sub_rounded hx hy, mul_rounded hx hy, fun h => div_rounded hx hy h⟩
  fin_cases i
  · exact key _ _ _ _ ha.x hb.x
  · exact key _ _ _ _ ha.y hb.y
  · exact key _ _ _ _ ha.z hb.z
  · exact key _ _ _ _ ha.w hb.w

/-- Component `i` of the result is the float nearest to the exact result of the components `i` (two lists of components, the list of
components of the result, the exact operation). -/
def EachRounded (f : ℚ → ℚ → ℚ) (a b r : List Fl) : Prop :=
  ∀ (i : Nat) x y p q, a[i]? = some x → b[i]? = some y → IsF x p → IsF y q → ∃ z, r[i]? = some z ∧ IsRounded z (f p q)

/-- C130: the same for vectors of two and three components. -/
theorem lanes_rounded_small (a b : V2 Fl) (c d : V3 Fl) :
    (EachRounded (· + ·) a.toList b.toList (a.add b).toList ∧ EachRounded (· - ·) a.toList b.toList (a.sub b).toList ∧
      EachRounded (· * ·) a.toList b.toList (a.mul b).toList ∧
      ((∀ y ∈ b.toList, ¬ IsF y 0) → EachRounded (· / ·) a.toList b.toList (a.div b).toList)) ∧
    (EachRounded (· + ·) c.toList d.toList (c.add d).toList ∧ EachRounded (· - ·) c.toList d.toList (c.sub d).toList ∧
      EachRounded (· * ·) c.toList d.toList (c.mul d).toList ∧
      ((∀ y ∈ d.toList, ¬ IsF y 0) → EachRounded (· / ·) c.toList d.toList (c.div d).toList)) := by
  have key : ∀ (op : Fl → Fl → Fl) (f : ℚ → ℚ → ℚ) (l m : List Fl),
      (∀ x y p q, y ∈ m → IsF x p → IsF y q → IsRounded (op x y) (f p q)) → EachRounded f l m (List.zipWith op l m) := by
    intro op f l m h i x y p q hx hy hp hq
    refine ⟨op x y, ?_, h x y p q (List.mem_of_getElem? hy) hp hq⟩
    rw [List.getElem?_zipWith, hx, hy]
  have dv : ∀ (m : List Fl), (∀ y ∈ m, ¬ IsF y 0) → ∀ x y p q, y ∈ m → IsF x p → IsF y q → IsRounded (x / y) (p / q) := by
    intro m hm x y p q hy hp hq
    refine div_rounded hp hq ?_
    rintro rfl
    exact hm y hy hq
  exact ⟨⟨key _ _ _ _ fun _ _ _ _ _ hx hy => add_rounded hx hy, key _ _ _ _ fun _ _ _ _ _ hx hy => sub_rounded hx hy,
      key _ _ _ _ fun _ _ _ _ _ hx hy => mul_rounded hx hy, fun h => key _ _ _ _ (dv _ h)⟩,
    ⟨key _ _ _ _ fun _ _ _ _ _ hx hy => add_rounded hx hy, key _ _ _ _ fun _ _ _ _ _ hx hy => sub_rounded hx hy,
      key _ _ _ _ fun _ _ _ _ _ hx hy => mul_rounded hx hy, fun h => key _ _ _ _ (dv _ h)⟩⟩

/-! ## Accumulated errors -/

/-- `x` is at most `e` from `v`, and `v` at most `M` from zero. -/
def Acc (x : Fl) (v M e : ℚ) : Prop := (∃ r, IsF x r ∧ |r - v| ≤ e) ∧ |v| ≤ M

theorem acc_mul {x y : Fl} {a b : ℚ} (hx : IsF x a) (hy : IsF y b) (h : |a * b| ≤ 2 ^ 127) :
    Acc (x * y) (a * b) |a * b| (|a * b| / 2 ^ 24 + 1 / 2 ^ 150) := by
  obtain ⟨r, h1, h2⟩ := mul_err_s hx hy h
  exact ⟨⟨r, h1, h2⟩, le_refl _⟩

theorem acc_add {x y : Fl} {v w M N e f : ℚ} (hx : Acc x v M e) (hy : Acc y w N f) (h : M + N + e + f ≤ 2 ^ 127) :
    Acc (x + y) (v + w) (M + N) (e + f + (M + N + e + f) / 2 ^ 24 + 1 / 2 ^ 150) := by
  obtain ⟨⟨r, hr, he⟩, hM⟩ := hx
  obtain ⟨⟨s, hs, hf⟩, hN⟩ := hy
  have h1 := abs_le.1 he
  have h2 := abs_le.1 hf
  have h3 := abs_le.1 hM
  have h4 := abs_le.1 hN
  have h5 : |r + s| ≤ M + N + e + f := by rw [abs_le]; constructor <;> linarith
  obtain ⟨t, ht, hte⟩ := add_err_s hr hs (h5.trans h)
  have h6 := abs_le.1 hte
  have h7 : |r + s| / 2 ^ 24 ≤ (M + N + e + f) / 2 ^ 24 := div_le_div_of_nonneg_right h5 (by norm_num)
  refine ⟨⟨t, ht, ?_⟩, ?_⟩
  · rw [abs_le]; constructor <;> linarith
  · rw [abs_le]; constructor <;> linarith

theorem Acc.within {x : Fl} {v M e E : ℚ} (h : Acc x v M e) (he : e ≤ E) : Within x v E := by
  obtain ⟨⟨r, h1, h2⟩, -⟩ := h
  exact ⟨r, h1, h2.trans he⟩

/-- C130: the dot product of the SIMD class is at most 2^-22 of the sum of the absolute products (and 2^-147) from the exact one. -/
theorem dot_simd_accurate (a b : V4 Fl) (u v : V4 ℚ) (ha : a.Holds u) (hb : b.Holds v) (h : absDot u v ≤ 2 ^ 126) :
    Within (a.dpPs b) (u.dot v) (absDot u v / 2 ^ 22 + 1 / 2 ^ 147) := by
  unfold absDot at h ⊢
  have m1 : |u.x * v.x| ≤ 2 ^ 127 → _ := acc_mul ha.x hb.x
  have m2 : |u.y * v.y| ≤ 2 ^ 127 → _ := acc_mul ha.y hb.y
  have m3 : |u.z * v.z| ≤ 2 ^ 127 → _ := acc_mul ha.z hb.z
  have m4 : |u.w * v.w| ≤ 2 ^ 127 → _ := acc_mul ha.w hb.w
  have p1 := abs_nonneg (u.x * v.x)
  have p2 := abs_nonneg (u.y * v.y)
  have p3 := abs_nonneg (u.z * v.z)
  have p4 := abs_nonneg (u.w * v.w)
  generalize |u.x * v.x| = P1 at *
  generalize |u.y * v.y| = P2 at *
  generalize |u.z * v.z| = P3 at *
  generalize |u.w * v.w| = P4 at *
  replace m1 := m1 (by norm_num at h ⊢; linarith)
  replace m2 := m2 (by norm_num at h ⊢; linarith)
  replace m3 := m3 (by norm_num at h ⊢; linarith)
  replace m4 := m4 (by norm_num at h ⊢; linarith)
  have s1 := acc_add m1 m2 (by norm_num at h ⊢; linarith)
  have s2 := acc_add m3 m4 (by norm_num at h ⊢; linarith)
  have s3 := acc_add s1 s2 (by norm_num at h ⊢; linarith)
  have e : u.dot v = u.x * v.x + u.y * v.y + (u.z * v.z + u.w * v.w) := by unfold V4.dot; ring
  rw [e]
  refine s3.within ?_
  norm_num
  linarith

/-- C130: the same for the other vector classes (2, 3 and 4 components). -/
theorem dot_accurate (a b : V4 Fl) (u v : V4 ℚ) (ha : a.Holds u) (hb : b.Holds v) (h : absDot u v ≤ 2 ^ 126) :
    Within (a.dot b) (u.dot v) (absDot u v / 2 ^ 21 + 1 / 2 ^ 147) ∧
    Within (V3.dot ⟨a.x, a.y, a.z⟩ ⟨b.x, b.y, b.z⟩) (V3.dot ⟨u.x, u.y, u.z⟩ ⟨v.x, v.y, v.z⟩)
      ((|u.x * v.x| + |u.y * v.y| + |u.z * v.z|) / 2 ^ 22 + 1 / 2 ^ 147) ∧
    Within (V2.dot ⟨a.x, a.y⟩ ⟨b.x, b.y⟩) (V2.dot ⟨u.x, u.y⟩ ⟨v.x, v.y⟩) ((|u.x * v.x| + |u.y * v.y|) / 2 ^ 22 + 1 / 2 ^ 147) := by
  unfold absDot at h ⊢
  have m1 : |u.x * v.x| ≤ 2 ^ 127 → _ := acc_mul ha.x hb.x
  have m2 : |u.y * v.y| ≤ 2 ^ 127 → _ := acc_mul ha.y hb.y
  have m3 : |u.z * v.z| ≤ 2 ^ 127 → _ := acc_mul ha.z hb.z
  have m4 : |u.w * v.w| ≤ 2 ^ 127 → _ := acc_mul ha.w hb.w
  have p1 := abs_nonneg (u.x * v.x)
  have p2 := abs_nonneg (u.y * v.y)
  have p3 := abs_nonneg (u.z * v.z)
  have p4 := abs_nonneg (u.w * v.w)
  generalize |u.x * v.x| = P1 at *
  generalize |u.y * v.y| = P2 at *
  generalize |u.z * v.z| = P3 at *
  generalize |u.w * v.w| = P4 at *
  replace m1 := m1 (by norm_num at h ⊢; linarith)
  replace m2 := m2 (by norm_num at h ⊢; linarith)
  replace m3 := m3 (by norm_num at h ⊢; linarith)
  replace m4 := m4 (by norm_num at h ⊢; linarith)
  have s1 := acc_add m1 m2 (by norm_num at h ⊢; linarith)
  have s2 := acc_add s1 m3 (by norm_num at h ⊢; linarith)
  have s3 := acc_add s2 m4 (by norm_num at h ⊢; linarith)
  refine ⟨s3.within ?_, s2.within ?_, s1.within ?_⟩
  · norm_num; linarith
  · norm_num; linarith
  · norm_num; linarith

/-! ## Matrices -/

/-- Absolute values of the elements. -/
def absMat (m : Matrix (Fin 4) (Fin 4) ℚ) : Matrix (Fin 4) (Fin 4) ℚ := m.map abs

/-- The rows and columns of a matrix that holds numbers hold theirs. -/
theorem Mat.Holds.transposeFull {m : Mat Fl} {v : Mat ℚ} (h : m.Holds v) : m.transposeFull.Holds v.transposeFull :=
  ⟨⟨h.r1.x, h.r2.x, h.r3.x, h.r4.x⟩, ⟨h.r1.y, h.r2.y, h.r3.y, h.r4.y⟩, ⟨h.r1.z, h.r2.z, h.r3.z, h.r4.z⟩,
    ⟨h.r1.w, h.r2.w, h.r3.w, h.r4.w⟩⟩

/-- Row `i` of a matrix. -/
def Mat.row {α : Type} (m : Mat α) (i : Fin 4) : V4 α := match i with
  | 0 => m.r1 | 1 => m.r2 | 2 => m.r3 | 3 => m.r4

theorem Mat.Holds.row {m : Mat Fl} {v : Mat ℚ} (h : m.Holds v) (i : Fin 4) : (m.row i).Holds (v.row i) := by
  fin_cases i
  · exact h.r1
  · exact h.r2
  · exact h.r3
  · exact h.r4

theorem mul_get {α : Type} [Add α] [Mul α] (a b : Mat α) (i j : Fin 4) : (a.mul b).get i j = (a.row i).dpPs (b.transposeFull.row j) := by
  fin_cases i <;> fin_cases j <;> rfl

theorem absDot_get (a b : Mat ℚ) (i j : Fin 4) :
    absDot (a.row i) (b.transposeFull.row j) = (absMat a.toMatrix * absMat b.toMatrix) i j := by
  rw [Matrix.mul_apply, Fin.sum_univ_four]
  fin_cases i <;> fin_cases j <;>
    (simp only [absMat, Matrix.map_apply, ← abs_mul]; rfl)

theorem dot_get (a b : Mat ℚ) (i j : Fin 4) : (a.row i).dot (b.transposeFull.row j) = (a.toMatrix * b.toMatrix) i j := by
  rw [Matrix.mul_apply, Fin.sum_univ_four]
  fin_cases i <;> fin_cases j <;> rfl

/-- C130: every element of the product of two float matrices is at most 2^-22 of the product of the absolute values (and 2^-147) from
the element of the exact product. -/
theorem product_accurate (a b : Mat Fl) (u v : Mat ℚ) (ha : a.Holds u) (hb : b.Holds v)
    (h : ∀ i j, (absMat u.toMatrix * absMat v.toMatrix) i j ≤ 2 ^ 126) (i j : Fin 4) :
    Within ((a.mul b).get i j) ((u.toMatrix * v.toMatrix) i j) ((absMat u.toMatrix * absMat v.toMatrix) i j / 2 ^ 22 + 1 / 2 ^ 147) := by
  rw [mul_get, ← dot_get, ← absDot_get]
  refine dot_simd_accurate _ _ _ _ (ha.row i) (hb.transposeFull.row j) ?_
  rw [absDot_get]; exact h i j

/-! ## Exact results -/

theorem isF_zero : IsF 0 0 := ⟨false, 0, by decide +kernel, by simp⟩
theorem isF_one : IsF 1 1 := by
  refine ⟨false, 2 ^ 149, by decide +kernel, ?_⟩
  simp only [sgn, Bool.false_eq_true, if_false, one_mul]
  unfold unit; norm_num

theorem mul_exact {x y z : Fl} {a b : ℚ} (hx : IsF x a) (hy : IsF y b) (hz : IsF z (a * b)) : IsF (x * y) (a * b) :=
  (mul_rounded hx hy).exact hz hz.lt_lim
theorem add_exact {x y z : Fl} {a b : ℚ} (hx : IsF x a) (hy : IsF y b) (hz : IsF z (a + b)) : IsF (x + y) (a + b) :=
  (add_rounded hx hy).exact hz hz.lt_lim

/-- The dot product is exact when all intermediate results are floats. -/
theorem dpPs_exact {a b : V4 Fl} {u v : V4 ℚ} (ha : a.Holds u) (hb : b.Holds v)
    (hp : ∀ p ∈ [u.x * v.x, u.y * v.y, u.z * v.z, u.w * v.w, u.x * v.x + u.y * v.y, u.z * v.z + u.w * v.w, u.dpPs v], ∃ z, IsF z p) :
    IsF (a.dpPs b) (u.dpPs v) := by
  simp only [List.mem_cons, List.not_mem_nil, or_false, forall_eq_or_imp, forall_eq] at hp
  obtain ⟨⟨z1, h1⟩, ⟨z2, h2⟩, ⟨z3, h3⟩, ⟨z4, h4⟩, ⟨z5, h5⟩, ⟨z6, h6⟩, ⟨z7, h7⟩⟩ := hp
  exact add_exact (add_exact (mul_exact ha.x hb.x h1) (mul_exact ha.y hb.y h2) h5)
    (add_exact (mul_exact ha.z hb.z h3) (mul_exact ha.w hb.w h4) h6) h7

theorem of_get {m : Mat Fl} {v : Mat ℚ} (h : ∀ i j, IsF (m.get i j) (v.get i j)) : m.Holds v :=
  ⟨⟨h 0 0, h 0 1, h 0 2, h 0 3⟩, ⟨h 1 0, h 1 1, h 1 2, h 1 3⟩, ⟨h 2 0, h 2 1, h 2 2, h 2 3⟩, ⟨h 3 0, h 3 1, h 3 2, h 3 3⟩⟩

theorem identity_holds : (Mat.identity : Mat Fl).Holds .identity :=
  ⟨⟨isF_one, isF_zero, isF_zero, isF_zero⟩, ⟨isF_zero, isF_one, isF_zero, isF_zero⟩, ⟨isF_zero, isF_zero, isF_one, isF_zero⟩,
    ⟨isF_zero, isF_zero, isF_zero, isF_one⟩⟩

/-- C130: multiplying a matrix of finite floats with the identity matrix, from either side, gives exactly its values. -/
theorem identity_exact (m : Mat Fl) (v : Mat ℚ) (h : m.Holds v) : (m.mul .identity).Holds v ∧ (Mat.identity.mul m).Holds v := by
  have hz : ∃ z, IsF z 0 := ⟨0, isF_zero⟩
  have row : ∀ i, ∃ z, IsF z (v.row i).x := fun i => ⟨_, (h.row i).x⟩
  constructor
  · apply of_get
    intro i j
    have hr := h.row i
    have e : v.get i j = (v.row i).dpPs ((Mat.identity : Mat ℚ).transposeFull.row j) := by
      rw [← mul_get, (matrix_laws v v v).2.1]
    rw [mul_get, e]
    refine dpPs_exact hr (identity_holds.transposeFull.row j) ?_
    have hx : ∃ z, IsF z (v.row i).x := ⟨_, hr.x⟩
    have hy : ∃ z, IsF z (v.row i).y := ⟨_, hr.y⟩
    have hzz : ∃ z, IsF z (v.row i).z := ⟨_, hr.z⟩
    have hw : ∃ z, IsF z (v.row i).w := ⟨_, hr.w⟩
    fin_cases j <;>
      simp [Mat.identity, Mat.transposeFull, Mat.row, mk4, setPs, unpacklo, unpackhi, movelh, movehl, V4.dpPs] <;>
      (try simp [Mat.row] at hx hy hzz hw) <;> tauto
  · apply of_get
    intro i j
    have hr := h.transposeFull.row j
    have e : v.get i j = ((Mat.identity : Mat ℚ).row i).dpPs (v.transposeFull.row j) := by
      rw [← mul_get, (matrix_laws v v v).2.2.1]
    rw [mul_get, e]
    refine dpPs_exact (identity_holds.row i) hr ?_
    have hx : ∃ z, IsF z (v.transposeFull.row j).x := ⟨_, hr.x⟩
    have hy : ∃ z, IsF z (v.transposeFull.row j).y := ⟨_, hr.y⟩
    have hzz : ∃ z, IsF z (v.transposeFull.row j).z := ⟨_, hr.z⟩
    have hw : ∃ z, IsF z (v.transposeFull.row j).w := ⟨_, hr.w⟩
    generalize v.transposeFull.row j = c at *
    fin_cases i <;>
      simp [Mat.identity, Mat.row, mk4, setPs, V4.dpPs] <;> tauto

/-- Whole numbers below 2^24 are floats. -/
theorem int_float (z : ℤ) (h : |z| < 2 ^ 24) : ∃ x, IsF x z := by
  have hm : z.natAbs < 2 ^ 24 := by rw [Int.abs_eq_natAbs] at h; omega
  refine ⟨⟨make (decide (z < 0)) (z.natAbs * 2 ^ 149)⟩, _, _, val_make _ _ _ hm ?_, ?_⟩
  · calc z.natAbs * 2 ^ 149 < 2 ^ 24 * 2 ^ 149 := Nat.mul_lt_mul_of_pos_right hm (Nat.two_pow_pos _)
      _ ≤ 2 ^ 277 := by rw [← Nat.pow_add]; exact Nat.pow_le_pow_right (by decide) (by decide)
  · have e : ((z.natAbs * 2 ^ 149 : Nat) : ℚ) / unit = (z.natAbs : ℚ) := by
      rw [Nat.cast_mul, show ((2 ^ 149 : Nat) : ℚ) = unit by unfold unit; push_cast; rfl]
      rw [mul_div_assoc, div_self unit_pos.ne', mul_one]
    rw [e, Nat.cast_natAbs]
    by_cases hz : z < 0
    · simp only [hz, decide_true, sgn, if_true]
      rw [abs_of_neg hz]; push_cast; ring
    · simp only [hz, decide_false, sgn, Bool.false_eq_true, if_false]
      rw [abs_of_nonneg (by omega)]; ring

/-- C130: products of matrices of whole numbers are exact as long as the sums of the absolute products stay below 2^24. -/
theorem whole_numbers_exact (a b : Mat Fl) (u v : Mat ℚ) (ha : a.Holds u) (hb : b.Holds v)
    (hu : ∀ i j, ∃ z : ℤ, u.get i j = z) (hv : ∀ i j, ∃ z : ℤ, v.get i j = z)
    (h : ∀ i j, (absMat u.toMatrix * absMat v.toMatrix) i j < 2 ^ 24) : (a.mul b).Holds (u.mul v) := by
  apply of_get
  intro i j
  rw [mul_get, mul_get]
  refine dpPs_exact (ha.row i) (hb.transposeFull.row j) ?_
  have hh := h i j
  rw [← absDot_get] at hh
  have hr : ∀ k, ∃ z : ℤ, (u.row i).lane k = z := by
    intro k; obtain ⟨z, hz⟩ := hu i k; exact ⟨z, by rw [← hz]; fin_cases i <;> rfl⟩
  have hc : ∀ k, ∃ z : ℤ, (v.transposeFull.row j).lane k = z := by
    intro k; obtain ⟨z, hz⟩ := hv k j; exact ⟨z, by rw [← hz]; fin_cases j <;> fin_cases k <;> rfl⟩
  generalize u.row i = r at *
  generalize v.transposeFull.row j = c at *
  obtain ⟨a1, e1⟩ := hr 0
  obtain ⟨a2, e2⟩ := hr 1
  obtain ⟨a3, e3⟩ := hr 2
  obtain ⟨a4, e4⟩ := hr 3
  obtain ⟨b1, f1⟩ := hc 0
  obtain ⟨b2, f2⟩ := hc 1
  obtain ⟨b3, f3⟩ := hc 2
  obtain ⟨b4, f4⟩ := hc 3
  simp only [V4.lane] at e1 e2 e3 e4 f1 f2 f3 f4
  have key : ∀ z : ℤ, |(z : ℚ)| ≤ absDot r c → ∃ x, IsF x (z : ℚ) := by
    intro z hz
    apply int_float
    have : |(z : ℚ)| < 2 ^ 24 := lt_of_le_of_lt hz hh
    exact_mod_cast this
  unfold absDot at key hh
  unfold V4.dpPs
  rw [e1, e2, e3, e4, f1, f2, f3, f4] at *
  have q1 := abs_nonneg ((a1 : ℚ) * b1)
  have q2 := abs_nonneg ((a2 : ℚ) * b2)
  have q3 := abs_nonneg ((a3 : ℚ) * b3)
  have q4 := abs_nonneg ((a4 : ℚ) * b4)
  have t12 := abs_add_le ((a1 : ℚ) * b1) (a2 * b2)
  have t34 := abs_add_le ((a3 : ℚ) * b3) (a4 * b4)
  have t := abs_add_le ((a1 : ℚ) * b1 + a2 * b2) (a3 * b3 + a4 * b4)
  simp only [List.mem_cons, List.not_mem_nil, or_false, forall_eq_or_imp, forall_eq]
  refine ⟨?_, ?_, ?_, ?_, ?_, ?_, ?_⟩
  · have := key (a1 * b1); push_cast at this; exact this (by linarith)
  · have := key (a2 * b2); push_cast at this; exact this (by linarith)
  · have := key (a3 * b3); push_cast at this; exact this (by linarith)
  · have := key (a4 * b4); push_cast at this; exact this (by linarith)
  · have := key (a1 * b1 + a2 * b2); push_cast at this; exact this (by linarith)
  · have := key (a3 * b3 + a4 * b4); push_cast at this; exact this (by linarith)
  · have := key (a1 * b1 + a2 * b2 + (a3 * b3 + a4 * b4)); push_cast at this; exact this (by linarith)

/-- A matrix with the numbers 1 to 16, times itself. -/
example : ∃ (a : Mat Fl) (u : Mat ℚ), a.Holds u ∧ (∀ i j, ∃ z : ℤ, u.get i j = z) ∧
    (∀ i j, (absMat u.toMatrix * absMat u.toMatrix) i j < 2 ^ 24) ∧ u.get 3 2 = 15 := by
  have f : ∀ n : Fin 20, ∃ x, IsF x (n.val : ℤ) := fun n => int_float n (by rw [abs_of_nonneg (by omega)]; omega)
  choose g hg using f
  refine ⟨⟨⟨g 1, g 2, g 3, g 4⟩, ⟨g 5, g 6, g 7, g 8⟩, ⟨g 9, g 10, g 11, g 12⟩, ⟨g 13, g 14, g 15, g 16⟩⟩,
    ⟨⟨1, 2, 3, 4⟩, ⟨5, 6, 7, 8⟩, ⟨9, 10, 11, 12⟩, ⟨13, 14, 15, 16⟩⟩, ⟨⟨?_, ?_, ?_, ?_⟩, ⟨?_, ?_, ?_, ?_⟩, ⟨?_, ?_, ?_, ?_⟩, ⟨?_, ?_, ?_, ?_⟩⟩, ?_, ?_, rfl⟩
  · simpa using hg 1
  · simpa using hg 2
  · simpa using hg 3
  · simpa using hg 4
  · simpa using hg 5
  · simpa using hg 6
  · simpa using hg 7
  · simpa using hg 8
  · simpa using hg 9
  · simpa using hg 10
  · simpa using hg 11
  · simpa using hg 12
  · simpa using hg 13
  · simpa using hg 14
  · simpa using hg 15
  · simpa using hg 16
  · intro i j
    refine ⟨(4 * i.val + j.val + 1 : Nat), ?_⟩
    fin_cases i <;> fin_cases j <;> simp [Mat.get, V4.lane] <;> norm_num
  · intro i j
    rw [← absDot_get]
    fin_cases i <;> fin_cases j <;> norm_num [absDot, Mat.row, Mat.transposeFull, unpacklo, unpackhi, movelh, movehl]
/-- 0.1 + 0.2 and 0.1 * 0.2, 1 / 3. -/
example : ((V4.all (⟨0x3dcccccd⟩ : Fl)).add (.all ⟨0x3e4ccccd⟩)).x = ⟨0x3e99999a⟩ ∧ ((V4.all (⟨0x3dcccccd⟩ : Fl)).mul (.all ⟨0x3e4ccccd⟩)).y = ⟨0x3ca3d70b⟩ ∧
    ((V4.all (1 : Fl)).div (.all ⟨0x40400000⟩)).z = ⟨0x3eaaaaab⟩ := by decide +kernel

/-- No component of this divisor is zero. -/
example : ∀ y ∈ (⟨1, 1, 1⟩ : V3 Fl).toList, ¬ IsF y 0 := by
  intro y hy h
  have : y = 1 := by simpa [V3.toList] using hy
  subst this
  obtain ⟨s, m, h1, h2⟩ := h
  have h3 : val (1 : Fl).bits = .fin false (2 ^ 149) := by decide +kernel
  rw [h3] at h1
  cases h1
  norm_num [sgn, unit] at h2

end PreCore.Vec
