import Verif.Props.FloatVec
/-!
# C133: rotations with floats
-/
namespace PreCore.Vec
open PreCore.F32

/-- A product of a result that is off with a constant. -/
theorem acc_mulc {x c : Fl} {v M e k K : ℚ} (hx : Acc x v M e) (hc : IsF c k) (hk : |k| ≤ K) (h : (M + e) * K ≤ 2 ^ 127) :
    Acc (x * c) (v * k) (M * K) (e * K + (M + e) * K / 2 ^ 24 + 1 / 2 ^ 150) := by
  obtain ⟨⟨r, hr, he⟩, hM⟩ := hx
  have h1 := abs_le.1 he
  have h3 := abs_le.1 hM
  have he0 : 0 ≤ e := (abs_nonneg _).trans he
  have hM0 : 0 ≤ M := (abs_nonneg _).trans hM
  have hK0 : 0 ≤ K := (abs_nonneg _).trans hk
  have h5 : |r| ≤ M + e := by rw [abs_le]; constructor <;> linarith
  have h6 : |r * k| ≤ (M + e) * K := by
    rw [abs_mul]; exact mul_le_mul h5 hk (abs_nonneg _) (by linarith)
  obtain ⟨t, ht, hte⟩ := mul_err_s hr hc (h6.trans h)
  have h8 : |r * k| / 2 ^ 24 ≤ (M + e) * K / 2 ^ 24 := div_le_div_of_nonneg_right h6 (by norm_num)
  have h9 : |r * k - v * k| ≤ e * K := by
    rw [← sub_mul, abs_mul]; exact mul_le_mul he hk (abs_nonneg _) he0
  refine ⟨⟨t, ht, ?_⟩, ?_⟩
  · have a1 := abs_le.1 hte
    have a2 := abs_le.1 h9
    rw [abs_le]; constructor <;> linarith
  · rw [abs_mul]; exact mul_le_mul hM hk (abs_nonneg _) hM0

theorem acc_exact {x : Fl} {v : ℚ} (hx : IsF x v) : Acc x v |v| 0 := ⟨⟨v, hx, by simp⟩, le_refl _⟩
theorem Acc.weaken {x : Fl} {v M e M' e' : ℚ} (h : Acc x v M e) (hM : M ≤ M') (he : e ≤ e') : Acc x v M' e' := by
  obtain ⟨⟨r, hr, h1⟩, h2⟩ := h
  exact ⟨⟨r, hr, h1.trans he⟩, h2.trans hM⟩

theorem Mat.Holds.transpose {m : Mat Fl} {v : Mat ℚ} (h : m.Holds v) : m.transpose.Holds v.transpose :=
  ⟨⟨h.r1.x, h.r2.x, h.r3.x, h.r3.w⟩, ⟨h.r1.y, h.r2.y, h.r3.y, h.r3.w⟩, ⟨h.r1.z, h.r2.z, h.r3.z, h.r3.w⟩, h.r4⟩

/-- C133: every component of a rotated point is at most 2^-22 of the sum of the absolute products (and 2^-147) from the exact one; the
fourth is exactly one. -/
theorem rotatePoint_accurate (m : Mat Fl) (p : V4 Fl) (v : Mat ℚ) (q : V4 ℚ) (hm : m.Holds v) (hp : p.Holds q) (i : Fin 3) :
    let s := |v.get 0 (i.castSucc) * q.x| + |v.get 1 i.castSucc * q.y| + |v.get 2 i.castSucc * q.z| + |v.r3.w * q.w|
    s ≤ 2 ^ 126 → Within ((m.rotatePoint p).lane i.castSucc) ((v.rotatePoint q).lane i.castSucc) (s / 2 ^ 22 + 1 / 2 ^ 147) ∧
      IsF (m.rotatePoint p).w 1 := by
  intro s hs
  refine ⟨?_, isF_one⟩
  have ht := hm.transpose
  have e : ∀ a b : V4 ℚ, a.dot b = a.dpPs b := by intro a b; unfold V4.dot V4.dpPs; ring
  fin_cases i
  · have := dot_simd_accurate _ _ _ _ ht.r1 hp hs
    rw [e] at this; exact this
  · have := dot_simd_accurate _ _ _ _ ht.r2 hp hs
    rw [e] at this; exact this
  · have := dot_simd_accurate _ _ _ _ ht.r3 hp hs
    rw [e] at this; exact this

/-! ## Matrix of a quaternion -/

theorem isF_neg {x : Fl} {v : ℚ} (h : IsF x v) : IsF (-x) (-v) := negate_fis h
theorem isF_two : IsF (1 + 1) (1 + 1) := by
  refine add_exact (z := ⟨0x40000000⟩) isF_one isF_one ⟨false, 2 ^ 150, by decide +kernel, ?_⟩
  simp only [sgn, Bool.false_eq_true, if_false, one_mul]
  unfold unit; norm_num

/-- One element: products of components of the quaternion, their sum or difference, times two, plus zero or one. -/
theorem element {a b c d s t g : Fl} {p q r u σ τ γ : ℚ} (ha : IsF a p) (hb : IsF b q) (hc : IsF c r) (hd : IsF d u) (hs : IsF s σ)
    (ht : IsF t τ) (hg : IsF g γ) (hp : |p| ≤ 1) (hq : |q| ≤ 1) (hr : |r| ≤ 1) (hu : |u| ≤ 1) (hσ : |σ| ≤ 1) (hτ : |τ| ≤ 2) (hγ : |γ| ≤ 1) :
    Within (g + (a * b + c * d * s) * t) (γ + (p * q + r * u * σ) * τ) (1 / 2 ^ 19) := by
  have m1 : |p * q| ≤ 1 := by rw [abs_mul]; exact mul_le_one₀ hp (abs_nonneg _) hq
  have m2 : |r * u| ≤ 1 := by rw [abs_mul]; exact mul_le_one₀ hr (abs_nonneg _) hu
  have one_le : (1 : ℚ) ≤ 2 ^ 127 := by norm_num
  have w : ∀ x : ℚ, x ≤ 1 → x / 2 ^ 24 + 1 / 2 ^ 150 ≤ 1 / 2 ^ 24 + 1 / 2 ^ 150 := by
    intro x hx
    have := div_le_div_of_nonneg_right hx (show (0 : ℚ) ≤ 2 ^ 24 by norm_num)
    linarith
  have k1 := (acc_mul ha hb (m1.trans one_le)).weaken m1 (w _ m1)
  have k2 := (acc_mul hc hd (m2.trans one_le)).weaken m2 (w _ m2)
  have k3 := acc_mulc k2 hs hσ (by norm_num)
  have k4 := acc_add k1 k3 (by norm_num)
  have k5 := acc_mulc k4 ht hτ (by norm_num)
  have k6 := acc_add ((acc_exact hg).weaken hγ (le_refl _)) k5 (by norm_num)
  refine k6.within ?_
  norm_num

/-- An element of the fourth column. -/
theorem element_zero {a b c d : Fl} {p q r u : ℚ} (ha : IsF a p) (hb : IsF b q) (hc : IsF c r) (hd : IsF d u)
    (hp : |p| ≤ 1) (hq : |q| ≤ 1) (hr : |r| ≤ 1) (hu : |u| ≤ 1) : IsF (0 + (a * b + c * d * 0) * 0) 0 := by
  have m1 : |p * q| ≤ 1 := by rw [abs_mul]; exact mul_le_one₀ hp (abs_nonneg _) hq
  have m2 : |r * u| ≤ 1 := by rw [abs_mul]; exact mul_le_one₀ hr (abs_nonneg _) hu
  have one_le : (1 : ℚ) ≤ 2 ^ 127 := by norm_num
  have w : ∀ x : ℚ, x ≤ 1 → x / 2 ^ 24 + 1 / 2 ^ 150 ≤ 1 / 2 ^ 24 + 1 / 2 ^ 150 := by
    intro x hx
    have := div_le_div_of_nonneg_right hx (show (0 : ℚ) ≤ 2 ^ 24 by norm_num)
    linarith
  have k1 := (acc_mul ha hb (m1.trans one_le)).weaken m1 (w _ m1)
  have k2 := (acc_mul hc hd (m2.trans one_le)).weaken m2 (w _ m2)
  have k3 := acc_mulc k2 isF_zero (K := 1) (by norm_num) (by norm_num)
  obtain ⟨⟨x, hx, -⟩, -⟩ := acc_add k1 k3 (by norm_num)
  have h1 : IsF ((a * b + c * d * 0) * 0) 0 := by
    have := mul_exact (z := 0) hx isF_zero (by rw [mul_zero]; exact isF_zero)
    rwa [mul_zero] at this
  have := add_exact (z := 0) isF_zero h1 (by rw [add_zero]; exact isF_zero)
  rwa [add_zero] at this

/-- C133: the elements of the matrix built from a quaternion with components in -1..1 are at most 2^-19 from the exact ones; the fourth
column and row of a new matrix are exactly (0, 0, 0, 1). -/
theorem ofQuat_accurate (a : V4 Fl) (q : V4 ℚ) (h : a.Holds q) (hx : |q.x| ≤ 1) (hy : |q.y| ≤ 1) (hz : |q.z| ≤ 1) (hw : |q.w| ≤ 1) :
    (∀ i j : Fin 3, Within ((Mat.ofQuat a).get i.castSucc j.castSucc) ((Mat.ofQuat q).get i.castSucc j.castSucc) (1 / 2 ^ 19)) ∧
    (∀ i : Fin 3, IsF ((Mat.ofQuat a).get i.castSucc 3) 0) ∧ (Mat.ofQuat a).r4 = ⟨0, 0, 0, 1⟩ := by
  have one1 : |(1 : ℚ)| ≤ 1 := by norm_num
  have neg1 : |(-1 : ℚ)| ≤ 1 := by norm_num
  have zero1 : |(0 : ℚ)| ≤ 1 := by norm_num
  have two1 : |(1 + 1 : ℚ)| ≤ 2 := by norm_num
  have ntwo1 : |(-(1 + 1) : ℚ)| ≤ 2 := by norm_num
  have i1 := isF_one
  have i0 := isF_zero
  have in1 := isF_neg isF_one
  have i2 := isF_two
  have in2 := isF_neg isF_two
  refine ⟨?_, ?_, rfl⟩
  · intro i j
    fin_cases i <;> fin_cases j
    · exact element h.y h.y h.z h.z i1 in2 i1 hy hy hz hz one1 ntwo1 one1
    · exact element h.x h.y h.z h.w in1 i2 i0 hx hy hz hw neg1 two1 zero1
    · exact element h.x h.z h.y h.w i1 i2 i0 hx hz hy hw one1 two1 zero1
    · exact element h.x h.y h.z h.w i1 i2 i0 hx hy hz hw one1 two1 zero1
    · exact element h.x h.x h.z h.z i1 in2 i1 hx hx hz hz one1 ntwo1 one1
    · exact element h.y h.z h.x h.w in1 i2 i0 hy hz hx hw neg1 two1 zero1
    · exact element h.x h.z h.y h.w in1 i2 i0 hx hz hy hw neg1 two1 zero1
    · exact element h.y h.z h.x h.w i1 i2 i0 hy hz hx hw one1 two1 zero1
    · exact element h.x h.x h.y h.y i1 in2 i1 hx hx hy hy one1 ntwo1 one1
  · intro i
    fin_cases i
    · exact element_zero h.x h.z h.y h.w hx hz hy hw
    · exact element_zero h.y h.y h.x h.w hy hy hx hw
    · exact element_zero h.x h.x h.y h.y hx hx hy hy

/-- The quaternion (3/4, 0, 0, 1/2). -/
example : ∃ a : V4 Fl, ∃ q : V4 ℚ, a.Holds q ∧ |q.x| ≤ 1 ∧ |q.y| ≤ 1 ∧ |q.z| ≤ 1 ∧ |q.w| ≤ 1 ∧ q.x = 3 / 4 ∧ q.w = 1 / 2 := by
  refine ⟨⟨⟨0x3f400000⟩, 0, 0, ⟨0x3f000000⟩⟩, ⟨3 / 4, 0, 0, 1 / 2⟩, ⟨⟨false, 3 * 2 ^ 147, by decide +kernel, ?_⟩, isF_zero, isF_zero,
    ⟨false, 2 ^ 148, by decide +kernel, ?_⟩⟩, ?_⟩
  · simp only [sgn, Bool.false_eq_true, if_false, one_mul]; unfold unit; norm_num
  · simp only [sgn, Bool.false_eq_true, if_false, one_mul]; unfold unit; norm_num
  · norm_num [abs_of_nonneg]

end PreCore.Vec
