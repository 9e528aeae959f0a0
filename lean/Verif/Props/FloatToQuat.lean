import Verif.Props.FloatMat
import Verif.Props.FloatNorm
import Verif.Props.FloatEq
/-!
# C159: matrices back to quaternions, in floats
-/
namespace PreCore.Vec
open PreCore.F32

/-- A product with minus one is exact. -/
theorem isF_mul_neg {x : Fl} {v : ℚ} (h : IsF x v) : IsF (x * (-1)) (v * (-1)) := by
  refine mul_exact h (isF_neg isF_one) (z := -x) ?_
  rw [mul_neg_one]; exact isF_neg h

/-- One component before scaling. -/
theorem unscaled {o a s b t c : Fl} {O A σ B τ C : ℚ} (ho : IsF o O) (ha : IsF a A) (hs : IsF s σ) (hb : IsF b B) (ht : IsF t τ) (hc : IsF c C)
    (hO : |O| ≤ 1) (hA : |A| ≤ 2) (hσ : |σ| ≤ 1) (hB : |B| ≤ 2) (hτ : |τ| ≤ 1) (hC : |C| ≤ 2) :
    Within (o + a * s + b * t + c) (O + A * σ + B * τ + C) (1 / 2 ^ 19) := by
  have m1 : |A * σ| ≤ 2 := by rw [abs_mul]; nlinarith [abs_nonneg A, abs_nonneg σ]
  have m2 : |B * τ| ≤ 2 := by rw [abs_mul]; nlinarith [abs_nonneg B, abs_nonneg τ]
  have two_le : (2 : ℚ) ≤ 2 ^ 127 := by norm_num
  have w : ∀ x : ℚ, x ≤ 2 → x / 2 ^ 24 + 1 / 2 ^ 150 ≤ 2 / 2 ^ 24 + 1 / 2 ^ 150 := by
    intro x hx
    have := div_le_div_of_nonneg_right hx (show (0 : ℚ) ≤ 2 ^ 24 by norm_num)
    linarith
  have k1 := (acc_mul ha hs (m1.trans two_le)).weaken m1 (w _ m1)
  have k2 := (acc_mul hb ht (m2.trans two_le)).weaken m2 (w _ m2)
  have k3 := acc_add ((acc_exact ho).weaken hO (le_refl _)) k1 (by norm_num)
  have k4 := acc_add k3 k2 (by norm_num)
  have k5 := acc_add k4 ((acc_exact hc).weaken hC (le_refl _)) (by norm_num)
  exact k5.within (by norm_num)

theorem isF_half : IsF (1 / (1 + 1)) (1 / 2) := by
  have h : (1 / (1 + 1) : Fl) = ⟨0x3f000000⟩ := by decide +kernel
  rw [h]
  exact ⟨false, 2 ^ 148, by decide +kernel, by unfold sgn unit; norm_num⟩

set_option maxHeartbeats 1000000 in
/-- The scaling: `y * (0.5 / sqrt x)` where `x` is close to `4 c^2` and `y` to `4 c d`. -/
theorem scaled {x y : Fl} {X Y : ℚ} {c d σ η : ℝ} (h16 : 1 / 2 ^ 16 ≤ η) (h14 : η ≤ 1 / 2 ^ 14) (hx : IsF x X) (hy : IsF y Y) (hX1 : 1 - 1 / 2 ^ 19 ≤ X) (hX : |(X : ℝ) - 4 * c * c| ≤ η)
    (hY : |(Y : ℝ) - 4 * c * d| ≤ η) (hc : |c| ≤ 1) (hd : |d| ≤ 1) (hσ : c = σ * |c|) :
    Near (y * (1 / (1 + 1) / x.sqrt)) (σ * d) (4 * η) := by
  norm_num at h16 h14
  have hX0 : 0 < X := lt_of_lt_of_le (by norm_num) hX1
  obtain ⟨r, r1, r2⟩ := sqrt_err (hx.pos_is hX0)
  have hX1R : (1 : ℝ) - 1 / 2 ^ 19 ≤ X := by
    have : ((1 - 1 / 2 ^ 19 : ℚ) : ℝ) ≤ (X : ℝ) := by exact_mod_cast hX1
    push_cast at this; exact this
  have t0 := Real.sqrt_nonneg (X : ℝ)
  have t1 := Real.sq_sqrt (show (0 : ℝ) ≤ X by exact_mod_cast hX0.le)
  have hXa := abs_le.1 hX
  have hYa := abs_le.1 hY
  set e := |c| with he
  have he0 : 0 ≤ e := abs_nonneg _
  have hee : e * e = c * c := abs_mul_abs_self c
  have e1 : (499 : ℝ) / 1000 ≤ e := by
    by_contra hh
    have hh := not_le.1 hh
    have h2 : 4 * (c * c) ≥ 1 - 1 / 2 ^ 19 - 1 / 2 ^ 14 := by norm_num at hX1R ⊢; linarith
    rw [← hee] at h2
    norm_num at h2
    nlinarith
  have t2 : (1 : ℝ) - 1 / 2 ^ 19 ≤ √(X : ℝ) := by
    apply Real.le_sqrt_of_sq_le
    refine le_trans ?_ hX1R
    norm_num
  have hX4 : (X : ℝ) ≤ 5 := by nlinarith
  generalize √(X : ℝ) = t at *
  have t3 : t ≤ 3 := by nlinarith
  -- |t - 2 e| (t + 2 e) = |X - 4 e e|
  have t4 : |t - 2 * e| ≤ η * (9 / 16) := by
    have f : (t - 2 * e) * (t + 2 * e) = X - 4 * c * c := by linear_combination t1 - 4 * hee
    have f2 : |t - 2 * e| * (t + 2 * e) ≤ η := by
      rw [← abs_of_nonneg (show 0 ≤ t + 2 * e by linarith), ← abs_mul, f]; exact hX
    have f3 : (16 : ℝ) / 9 ≤ t + 2 * e := by norm_num at t2 e1 ⊢; linarith
    have f4 := abs_nonneg (t - 2 * e)
    nlinarith
  have r3 : |(r : ℝ) - 2 * e| ≤ η * (5 / 8) := by
    have a := abs_le.1 r2
    have b := abs_le.1 t4
    rw [abs_le]; norm_num at a b t3 ⊢; constructor <;> linarith
  have r3a := abs_le.1 r3
  have rlow : (99 : ℝ) / 100 ≤ r := by norm_num at r3a e1 ⊢; linarith
  have hr0 : (0 : ℝ) < r := by linarith
  have hr0q : (0 : ℚ) < r := by exact_mod_cast hr0
  have he5 : (99 : ℝ) / 200 ≤ e := by norm_num at e1 ⊢; linarith
  have hepos : 0 < e := by linarith
  have hq : |(1 / 2 : ℚ) / r| ≤ 1 := by
    rw [abs_of_pos (by positivity), div_le_one hr0q]
    have : (1 : ℝ) / 2 ≤ r := by linarith
    have h2 : ((1 / 2 : ℚ) : ℝ) ≤ r := by push_cast; exact this
    exact_mod_cast h2
  obtain ⟨k, k1, k2⟩ := div_err_s isF_half r1.fis hr0q.ne' (hq.trans (by norm_num))
  have k3 : |(k : ℝ) - 1 / 2 / r| ≤ 1 / 2 ^ 23 := by
    have : |k - 1 / 2 / r| ≤ 1 / 2 ^ 23 := by
      refine k2.trans ?_
      have := div_le_div_of_nonneg_right hq (show (0 : ℚ) ≤ 2 ^ 24 by norm_num)
      norm_num at this ⊢; linarith
    have h2 : ((|k - 1 / 2 / r| : ℚ) : ℝ) ≤ ((1 / 2 ^ 23 : ℚ) : ℝ) := by exact_mod_cast this
    push_cast at h2; exact h2
  have k4 : |(1 / 2 : ℝ) / r - 1 / 2 / (2 * e)| ≤ η * (11 / 32) := by
    have f : (1 / 2 : ℝ) / r - 1 / 2 / (2 * e) = (2 * e - r) / (r * (4 * e)) := by field_simp; ring
    rw [f, abs_div, abs_of_pos (show 0 < r * (4 * e) by positivity), div_le_iff₀ (by positivity), abs_sub_comm]
    have : (19 : ℝ) / 10 ≤ r * (4 * e) := by nlinarith
    nlinarith
  have k5 : |(k : ℝ) - 1 / 2 / (2 * e)| ≤ η * (3 / 8) := by
    have a := abs_le.1 k3
    have b := abs_le.1 k4
    rw [abs_le]; norm_num at a b ⊢; constructor <;> linarith
  have hk51 : (1 / 2 : ℝ) / (2 * e) ≤ 51 / 100 := by rw [div_le_iff₀ (by positivity)]; nlinarith
  have hk50 : 0 ≤ (1 / 2 : ℝ) / (2 * e) := by positivity
  have k6 : |(k : ℝ)| ≤ 52 / 100 := by
    have a := abs_le.1 k5
    rw [abs_le]; norm_num at a hk51 hk50 ⊢; constructor <;> linarith
  have hcd : |4 * c * d| ≤ 4 := by
    rw [abs_mul, abs_mul, ← he]; norm_num; nlinarith [abs_nonneg d]
  have y1 : |(Y : ℝ)| ≤ 5 := by
    have a := abs_le.1 hcd
    rw [abs_le]; norm_num at a hYa ⊢; constructor <;> linarith
  have yk : |(Y : ℝ) * k| ≤ 3 := by
    rw [abs_mul]
    exact (mul_le_mul y1 k6 (abs_nonneg _) (by norm_num)).trans (by norm_num)
  have ykq : |Y * k| ≤ 3 := by exact_mod_cast yk
  obtain ⟨z, z1, z2⟩ := mul_err_s hy k1 (ykq.trans (by norm_num))
  refine ⟨z, z1, ?_⟩
  have z3 : |(z : ℝ) - Y * k| ≤ 1 / 2 ^ 22 := by
    have : |z - Y * k| ≤ 1 / 2 ^ 22 := by
      refine z2.trans ?_
      have := div_le_div_of_nonneg_right ykq (show (0 : ℚ) ≤ 2 ^ 24 by norm_num)
      norm_num at this ⊢; linarith
    have h2 : ((|z - Y * k| : ℚ) : ℝ) ≤ ((1 / 2 ^ 22 : ℚ) : ℝ) := by exact_mod_cast this
    push_cast at h2; exact h2
  have w : σ * d = 4 * c * d * (1 / 2 / (2 * e)) := by
    rw [hσ]; field_simp; ring
  have y2 : |(Y : ℝ) * k - σ * d| ≤ η * (52 / 100) + 4 * (η * (3 / 8)) := by
    have f : (Y : ℝ) * k - σ * d = (Y - 4 * c * d) * k + 4 * c * d * (k - 1 / 2 / (2 * e)) := by rw [w]; ring
    rw [f]
    refine (abs_add_le _ _).trans (add_le_add ?_ ?_)
    · rw [abs_mul]; exact mul_le_mul hY k6 (abs_nonneg _) (by linarith)
    · rw [abs_mul]; exact mul_le_mul hcd k5 (abs_nonneg _) (by norm_num)
  have a := abs_le.1 y2
  have b := abs_le.1 z3
  rw [abs_le]; norm_num at a b ⊢; constructor <;> linarith

/-- The upper left 3x3 elements of `M` are at most `e` from those of the rotation matrix of the quaternion `q`. -/
def RotatesLike (M : Mat ℚ) (q : V4 ℝ) (e : ℝ) : Prop :=
  ∀ i j : Fin 3, |((M.get i.castSucc j.castSucc : ℚ) : ℝ) - (Mat.ofQuat q).get i.castSucc j.castSucc| ≤ e

/-- The elements of a rotation matrix are in -1..1. -/
theorem ofQuat_bounded (q : V4 ℝ) (h : q.dot q = 1) (i j : Fin 3) : |(Mat.ofQuat q).get i.castSucc j.castSucc| ≤ 1 := by
  obtain ⟨a, b, c, d⟩ := q
  simp only [V4.dot] at h
  simp only [Mat.ofQuat, fromQuat_rows]
  rw [abs_le]
  fin_cases i <;> fin_cases j <;> simp only [Mat.get, V4.lane, Fin.castSucc, Fin.castAdd, Fin.castLE] <;>
    constructor <;> linarith [sq_nonneg (a - b), sq_nonneg (a + b), sq_nonneg (a - c), sq_nonneg (a + c), sq_nonneg (a - d), sq_nonneg (a + d),
      sq_nonneg (b - c), sq_nonneg (b + c), sq_nonneg (b - d), sq_nonneg (b + d), sq_nonneg (c - d), sq_nonneg (c + d),
      sq_nonneg a, sq_nonneg b, sq_nonneg c, sq_nonneg d]

/-- The rows `ToQuat` scales, close to multiples of the quaternion. -/
theorem outer_near (M : Mat ℚ) (q : V4 ℝ) (h : q.dot q = 1) {δ : ℝ} (hM : RotatesLike M q δ) (r j : Fin 4) :
    |(((outer M r).lane j : ℚ) : ℝ) - 4 * q.lane r * q.lane j| ≤ 3 * δ := by
  have hδ : 0 ≤ δ := (abs_nonneg _).trans (hM 0 0)
  have e : 4 * q.lane r * q.lane j = (outer (Mat.ofQuat q) r).lane j := by
    rw [outer_ofQuat q h r]
    fin_cases j <;> simp only [V4.mulS, V4.mul, V4.all, V4.lane] <;> ring
  rw [e]
  have g := fun i j => abs_le.1 (hM i j)
  have h00 := g 0 0
  have h01 := g 0 1
  have h02 := g 0 2
  have h10 := g 1 0
  have h11 := g 1 1
  have h12 := g 1 2
  have h20 := g 2 0
  have h21 := g 2 1
  have h22 := g 2 2
  clear g e hM h
  generalize Mat.ofQuat q = Q at *
  simp only [Mat.get, V4.lane, Fin.castSucc, Fin.castAdd, Fin.castLE] at h00 h01 h02 h10 h11 h12 h20 h21 h22
  rw [abs_le]
  fin_cases r <;> fin_cases j <;> simp only [outer, V4.lane] <;> push_cast <;> constructor <;> linarith

/-- A row scaled. -/
theorem row_scaled (M : Mat ℚ) (q : V4 ℝ) (h : q.dot q = 1) {δ : ℝ} (h18 : 1 / 2 ^ 18 ≤ δ) (h16 : δ ≤ 1 / 2 ^ 16) (hM : RotatesLike M q δ) (r : Fin 4) (T : Fin 4 → Fl)
    (hT : ∀ j, Within (T j) ((outer M r).lane j) (1 / 2 ^ 19)) (h1 : 1 ≤ (outer M r).lane r) :
    ∃ σ : ℝ, (σ = 1 ∨ σ = -1) ∧ ∀ j, Near (T j * (1 / (1 + 1) / (T r).sqrt)) (σ * q.lane j) (16 * δ) := by
  have hb : ∀ j, |q.lane j| ≤ 1 := by
    intro j
    simp only [V4.dot] at h
    rw [← sq_le_one_iff_abs_le_one]
    fin_cases j <;> simp only [V4.lane] <;> nlinarith [sq_nonneg q.x, sq_nonneg q.y, sq_nonneg q.z, sq_nonneg q.w]
  have near : ∀ j, ∃ Y, IsF (T j) Y ∧ |Y - (outer M r).lane j| ≤ 1 / 2 ^ 19 ∧ |(Y : ℝ) - 4 * q.lane r * q.lane j| ≤ 4 * δ := by
    intro j
    obtain ⟨Y, y1, y2⟩ := hT j
    refine ⟨Y, y1, y2, ?_⟩
    have y3 : |(Y : ℝ) - ((outer M r).lane j : ℚ)| ≤ 1 / 2 ^ 19 := by
      have h2 : ((|Y - (outer M r).lane j| : ℚ) : ℝ) ≤ ((1 / 2 ^ 19 : ℚ) : ℝ) := by exact_mod_cast y2
      push_cast at h2; exact h2
    have a := abs_le.1 y3
    have b := abs_le.1 (outer_near M q h hM r j)
    rw [abs_le]; norm_num at a b h18 ⊢; constructor <;> linarith
  obtain ⟨X, x1, x2, x3⟩ := near r
  have hX : 1 - 1 / 2 ^ 19 ≤ X := by have := abs_le.1 x2; linarith
  have key : ∀ σ : ℝ, q.lane r = σ * |q.lane r| → ∀ j, Near (T j * (1 / (1 + 1) / (T r).sqrt)) (σ * q.lane j) (16 * δ) := by
    intro σ hσ j
    obtain ⟨Y, y1, _, y3⟩ := near j
    have := scaled (η := 4 * δ) (by norm_num at h18 ⊢; linarith) (by norm_num at h16 ⊢; linarith) x1 y1 hX x3 y3 (hb r) (hb j) hσ
    rwa [show 4 * (4 * δ) = 16 * δ by ring] at this
  rcases le_total 0 (q.lane r) with h0 | h0
  · exact ⟨1, .inl rfl, key 1 (by rw [abs_of_nonneg h0, one_mul])⟩
  · exact ⟨-1, .inr rfl, key (-1) (by rw [abs_of_nonpos h0]; ring)⟩

theorem Near.neg {x : Fl} {v e : ℝ} (h : Near x v e) : Near (x * (-1)) (-v) e := by
  obtain ⟨r, r1, r2⟩ := h
  refine ⟨r * (-1), isF_mul_neg r1, ?_⟩
  push_cast
  rw [show (r : ℝ) * -1 - -v = -(r - v) by ring, abs_neg]; exact r2

/-- C159: a float matrix that is a rotation up to a small error in every element (2^-18, up to 2^-16) gives its quaternion, or the negative of it (the same
rotation), up to 16 times this error in every component. -/
theorem toQuat_accurate (m : Mat Fl) (M : Mat ℚ) (hm : m.Holds M) (hw : M.r2.w = 0) (q : V4 ℝ) (h : q.dot q = 1)
    (δ : ℝ) (h18 : 1 / 2 ^ 18 ≤ δ) (h16 : δ ≤ 1 / 2 ^ 16) (hM : RotatesLike M q δ) :
    ∃ σ : ℝ, (σ = 1 ∨ σ = -1) ∧ ∀ i, Near ((m.toQuat Fl.sqrt).lane i) (σ * q.lane i) (16 * δ) := by
  have bd : ∀ i j : Fin 3, |M.get i.castSucc j.castSucc| ≤ 2 := by
    intro i j
    have a := abs_le.1 (hM i j)
    have b := abs_le.1 (ofQuat_bounded q h i j)
    have : |((M.get i.castSucc j.castSucc : ℚ) : ℝ)| ≤ 2 := by
      rw [abs_le]; norm_num at a b h16 ⊢; constructor <;> linarith
    exact_mod_cast this
  have b00 : |M.r1.x| ≤ 2 := bd 0 0
  have b01 : |M.r1.y| ≤ 2 := bd 0 1
  have b02 : |M.r1.z| ≤ 2 := bd 0 2
  have b10 : |M.r2.x| ≤ 2 := bd 1 0
  have b11 : |M.r2.y| ≤ 2 := bd 1 1
  have b12 : |M.r2.z| ≤ 2 := bd 1 2
  have b20 : |M.r3.x| ≤ 2 := bd 2 0
  have b21 : |M.r3.y| ≤ 2 := bd 2 1
  have b22 : |M.r3.z| ≤ 2 := bd 2 2
  have one1 : |(1 : ℚ)| ≤ 1 := by norm_num
  have neg1 : |(-1 : ℚ)| ≤ 1 := by norm_num
  have zero1 : |(0 : ℚ)| ≤ 1 := by norm_num
  have zero2 : |(0 : ℚ)| ≤ 2 := by norm_num
  have zero3 : |(0 : ℚ) * (-1)| ≤ 2 := by norm_num
  have b11' : |M.r2.y * (-1)| ≤ 2 := by rw [mul_neg_one, abs_neg]; exact b11
  have i1 := isF_one
  have i0 := isF_zero
  have in1 := isF_neg isF_one
  have w0 : IsF m.r2.w 0 := hw ▸ hm.r2.w
  have w0' := isF_mul_neg w0
  have y' := isF_mul_neg hm.r2.y
  have c0 : m.r3.z < 0 ↔ M.r3.z < 0 := less_iff hm.r3.z isF_zero
  have c1 : m.r2.y < m.r1.x ↔ M.r2.y < M.r1.x := less_iff hm.r2.y hm.r1.x
  have c2 : m.r1.x < -m.r2.y ↔ M.r1.x < -M.r2.y := less_iff hm.r1.x (isF_neg hm.r2.y)
  have eq : ∀ {x : Fl} {v w e : ℚ}, Within x v e → v = w → Within x w e := fun h e => e ▸ h
  by_cases h0 : M.r3.z < 0
  · have h0' := c0.2 h0
    by_cases h1 : M.r2.y < M.r1.x
    · have h1' := c1.2 h1
      let T : Fin 4 → Fl := fun
          | 0 => 1 + m.r1.x * 1 + m.r3.z * (-1) + m.r2.y * (-1)
          | 1 => 0 + m.r2.x * 1 + m.r1.y * 1 + m.r2.w * (-1)
          | 2 => 0 + m.r1.z * 1 + m.r3.x * 1 + m.r2.w * (-1)
          | 3 => 0 + m.r2.z * (-1) + m.r3.y * 1 + m.r2.w * (-1)
      have hT : ∀ j, Within (T j) ((outer M 0).lane j) (1 / 2 ^ 19) := by
        intro j
        fin_cases j
        · exact eq (unscaled i1 hm.r1.x i1 hm.r3.z in1 y' one1 b00 one1 b22 neg1 b11') (by simp only [outer, V4.lane]; ring)
        · exact eq (unscaled i0 hm.r2.x i1 hm.r1.y i1 w0' zero1 b10 one1 b01 one1 zero3) (by simp only [outer, V4.lane]; ring)
        · exact eq (unscaled i0 hm.r1.z i1 hm.r3.x i1 w0' zero1 b02 one1 b20 one1 zero3) (by simp only [outer, V4.lane]; ring)
        · exact eq (unscaled i0 hm.r2.z in1 hm.r3.y i1 w0' zero1 b12 neg1 b21 one1 zero3) (by simp only [outer, V4.lane]; ring)
      obtain ⟨σ, s1, s2⟩ := row_scaled M q h h18 h16 hM 0 T hT (by simp only [outer, V4.lane]; linarith)
      refine ⟨σ, s1, fun i => ?_⟩
      have s2 := s2 i
      simp only [Mat.toQuat, quatScale, h0', h1', decide_true, decide_false, Bool.false_eq_true, if_false, if_true, shuffle, V4.lane, V4.add, V4.mul, V4.mulS, V4.all, mk4,
        setPs, moveSs]
      fin_cases i <;> exact s2
    · have h1' : ¬ m.r2.y < m.r1.x := fun hh => h1 (c1.1 hh)
      let T : Fin 4 → Fl := fun
          | 0 => 0 + m.r2.x * 1 + m.r1.y * 1 + m.r2.w
          | 1 => 1 + m.r1.x * (-1) + m.r3.z * (-1) + m.r2.y
          | 2 => 0 + m.r2.z * 1 + m.r3.y * 1 + m.r2.w
          | 3 => 0 + m.r1.z * 1 + m.r3.x * (-1) + m.r2.w
      have hT : ∀ j, Within (T j) ((outer M 1).lane j) (1 / 2 ^ 19) := by
        intro j
        fin_cases j
        · exact eq (unscaled i0 hm.r2.x i1 hm.r1.y i1 w0 zero1 b10 one1 b01 one1 zero2) (by simp only [outer, V4.lane]; ring)
        · exact eq (unscaled i1 hm.r1.x in1 hm.r3.z in1 hm.r2.y one1 b00 neg1 b22 neg1 b11) (by simp only [outer, V4.lane]; ring)
        · exact eq (unscaled i0 hm.r2.z i1 hm.r3.y i1 w0 zero1 b12 one1 b21 one1 zero2) (by simp only [outer, V4.lane]; ring)
        · exact eq (unscaled i0 hm.r1.z i1 hm.r3.x in1 w0 zero1 b02 one1 b20 neg1 zero2) (by simp only [outer, V4.lane]; ring)
      obtain ⟨σ, s1, s2⟩ := row_scaled M q h h18 h16 hM 1 T hT (by simp only [outer, V4.lane]; linarith)
      refine ⟨-σ, by rcases s1 with rfl | rfl <;> simp, fun i => ?_⟩
      have s2 := s2 i
      have s2 := s2.neg
      rw [← neg_mul] at s2
      simp only [Mat.toQuat, quatScale, h0', h1', decide_true, decide_false, Bool.false_eq_true, if_false, if_true, shuffle, V4.lane, V4.add, V4.mul, V4.mulS, V4.all, mk4,
        setPs, moveSs]
      fin_cases i <;> exact s2
  · have h0' : ¬ m.r3.z < 0 := fun hh => h0 (c0.1 hh)
    by_cases h1 : M.r1.x < -M.r2.y
    · have h1' := c2.2 h1
      let T : Fin 4 → Fl := fun
          | 0 => 0 + m.r1.z * 1 + m.r3.x * 1 + m.r2.w * (-1)
          | 1 => 0 + m.r2.z * 1 + m.r3.y * 1 + m.r2.w * (-1)
          | 2 => 1 + m.r1.x * (-1) + m.r3.z * 1 + m.r2.y * (-1)
          | 3 => 0 + m.r2.x * 1 + m.r1.y * (-1) + m.r2.w * (-1)
      have hT : ∀ j, Within (T j) ((outer M 2).lane j) (1 / 2 ^ 19) := by
        intro j
        fin_cases j
        · exact eq (unscaled i0 hm.r1.z i1 hm.r3.x i1 w0' zero1 b02 one1 b20 one1 zero3) (by simp only [outer, V4.lane]; ring)
        · exact eq (unscaled i0 hm.r2.z i1 hm.r3.y i1 w0' zero1 b12 one1 b21 one1 zero3) (by simp only [outer, V4.lane]; ring)
        · exact eq (unscaled i1 hm.r1.x in1 hm.r3.z i1 y' one1 b00 neg1 b22 one1 b11') (by simp only [outer, V4.lane]; ring)
        · exact eq (unscaled i0 hm.r2.x i1 hm.r1.y in1 w0' zero1 b10 one1 b01 neg1 zero3) (by simp only [outer, V4.lane]; ring)
      obtain ⟨σ, s1, s2⟩ := row_scaled M q h h18 h16 hM 2 T hT (by simp only [outer, V4.lane]; linarith)
      refine ⟨σ, s1, fun i => ?_⟩
      have s2 := s2 i
      simp only [Mat.toQuat, quatScale, h0', h1', decide_true, decide_false, Bool.false_eq_true, if_false, if_true, shuffle, V4.lane, V4.add, V4.mul, V4.mulS, V4.all, mk4,
        setPs, moveSs]
      fin_cases i <;> exact s2
    · have h1' : ¬ m.r1.x < -m.r2.y := fun hh => h1 (c2.1 hh)
      let T : Fin 4 → Fl := fun
          | 0 => 0 + m.r2.z * (-1) + m.r3.y * 1 + m.r2.w
          | 1 => 0 + m.r1.z * 1 + m.r3.x * (-1) + m.r2.w
          | 2 => 0 + m.r2.x * 1 + m.r1.y * (-1) + m.r2.w
          | 3 => 1 + m.r1.x * 1 + m.r3.z * 1 + m.r2.y
      have hT : ∀ j, Within (T j) ((outer M 3).lane j) (1 / 2 ^ 19) := by
        intro j
        fin_cases j
        · exact eq (unscaled i0 hm.r2.z in1 hm.r3.y i1 w0 zero1 b12 neg1 b21 one1 zero2) (by simp only [outer, V4.lane]; ring)
        · exact eq (unscaled i0 hm.r1.z i1 hm.r3.x in1 w0 zero1 b02 one1 b20 neg1 zero2) (by simp only [outer, V4.lane]; ring)
        · exact eq (unscaled i0 hm.r2.x i1 hm.r1.y in1 w0 zero1 b10 one1 b01 neg1 zero2) (by simp only [outer, V4.lane]; ring)
        · exact eq (unscaled i1 hm.r1.x i1 hm.r3.z i1 hm.r2.y one1 b00 one1 b22 one1 b11) (by simp only [outer, V4.lane]; ring)
      obtain ⟨σ, s1, s2⟩ := row_scaled M q h h18 h16 hM 3 T hT (by simp only [outer, V4.lane]; linarith)
      refine ⟨σ, s1, fun i => ?_⟩
      have s2 := s2 i
      simp only [Mat.toQuat, quatScale, h0', h1', decide_true, decide_false, Bool.false_eq_true, if_false, if_true, shuffle, V4.lane, V4.add, V4.mul, V4.mulS, V4.all, mk4,
        setPs, moveSs]
      fin_cases i <;> exact s2

/-- Products of components that are a little off. -/
theorem prod_near {a b c d : ℝ} {e : ℝ} (ha : |a| ≤ 1) (hd : |d| ≤ 1) (h1 : |a - c| ≤ e) (h2 : |b - d| ≤ e) : |a * b - c * d| ≤ 2 * e := by
  have f : a * b - c * d = a * (b - d) + (a - c) * d := by ring
  have he : 0 ≤ e := (abs_nonneg _).trans h1
  rw [f]
  refine (abs_add_le _ _).trans ?_
  rw [abs_mul, abs_mul]
  have := mul_le_mul ha h2 (abs_nonneg _) (by norm_num)
  have := mul_le_mul h1 hd (abs_nonneg _) he
  linarith

/-- The matrix of a stored unit quaternion. -/
theorem ofQuat_near_unit (a : V4 Fl) (p : V4 ℚ) (ha : a.Holds p) (hp : ∀ i, |p.lane i| ≤ 1) (q : V4 ℝ) (h : q.dot q = 1)
    (hq : ∀ i, |(p.lane i : ℝ) - q.lane i| ≤ 1 / 2 ^ 23) :
    ∃ v : Fin 3 → Fin 3 → ℚ, ∀ i j, IsF ((Mat.ofQuat a).get i.castSucc j.castSucc) (v i j) ∧
      |(v i j : ℝ) - (Mat.ofQuat q).get i.castSucc j.castSucc| ≤ 3 / 2 ^ 20 := by
  obtain ⟨e1, e2, e3⟩ := ofQuat_accurate a p ha (hp 0) (hp 1) (hp 2) (hp 3)
  choose v v1 v2 using e1
  refine ⟨v, fun i j => ⟨v1 i j, ?_⟩⟩
  have hb : ∀ j, |q.lane j| ≤ 1 := by
    intro j
    simp only [V4.dot] at h
    rw [← sq_le_one_iff_abs_le_one]
    fin_cases j <;> simp only [V4.lane] <;> nlinarith [sq_nonneg q.x, sq_nonneg q.y, sq_nonneg q.z, sq_nonneg q.w]
  have hpR : ∀ j, |(p.lane j : ℝ)| ≤ 1 := fun j => by exact_mod_cast hp j
  have pr : ∀ i j : Fin 4, |(p.lane i : ℝ) * p.lane j - q.lane i * q.lane j| ≤ 2 * (1 / 2 ^ 23) :=
    fun i j => prod_near (hpR i) (hb j) (hq i) (hq j)
  have vR : ∀ i j : Fin 3, |(v i j : ℝ) - ((Mat.ofQuat p).get i.castSucc j.castSucc : ℚ)| ≤ 1 / 2 ^ 19 := by
    intro i j
    have h2 : ((|v i j - (Mat.ofQuat p).get i.castSucc j.castSucc| : ℚ) : ℝ) ≤ ((1 / 2 ^ 19 : ℚ) : ℝ) := by exact_mod_cast v2 i j
    push_cast at h2; exact h2
  have near : ∀ i j : Fin 3, |(((Mat.ofQuat p).get i.castSucc j.castSucc : ℚ) : ℝ) - (Mat.ofQuat q).get i.castSucc j.castSucc| ≤ 1 / 2 ^ 20 := by
    have xx := abs_le.1 (pr 0 0)
    have xy := abs_le.1 (pr 0 1)
    have xz := abs_le.1 (pr 0 2)
    have xw := abs_le.1 (pr 0 3)
    have yy := abs_le.1 (pr 1 1)
    have yz := abs_le.1 (pr 1 2)
    have yw := abs_le.1 (pr 1 3)
    have zz := abs_le.1 (pr 2 2)
    have zw := abs_le.1 (pr 2 3)
    simp only [V4.lane] at xx xy xz xw yy yz yw zz zw
    norm_num at xx xy xz xw yy yz yw zz zw
    intro i j
    simp only [Mat.ofQuat, fromQuat_rows]
    rw [abs_le]
    fin_cases i <;> fin_cases j <;> simp only [Mat.get, V4.lane, Fin.castSucc, Fin.castAdd, Fin.castLE] <;> push_cast <;> norm_num <;>
      constructor <;> linarith
  have a := abs_le.1 (vR i j)
  have b := abs_le.1 (near i j)
  rw [abs_le]; norm_num at a b ⊢; constructor <;> linarith

/-- C159: a unit quaternion stored in floats (every component at most 2^-23 off) survives the way through a matrix and back up to its sign and 2^-14. -/
theorem quat_matrix_quat (a : V4 Fl) (p : V4 ℚ) (ha : a.Holds p) (hp : ∀ i, |p.lane i| ≤ 1) (q : V4 ℝ) (h : q.dot q = 1)
    (hq : ∀ i, |(p.lane i : ℝ) - q.lane i| ≤ 1 / 2 ^ 23) :
    ∃ σ : ℝ, (σ = 1 ∨ σ = -1) ∧ ∀ i, Near (((Mat.ofQuat a).toQuat Fl.sqrt).lane i) (σ * q.lane i) (1 / 2 ^ 14) := by
  obtain ⟨-, e2, e3⟩ := ofQuat_accurate a p ha (hp 0) (hp 1) (hp 2) (hp 3)
  obtain ⟨v, v1⟩ := ofQuat_near_unit a p ha hp q h hq
  let M : Mat ℚ := ⟨⟨v 0 0, v 0 1, v 0 2, 0⟩, ⟨v 1 0, v 1 1, v 1 2, 0⟩, ⟨v 2 0, v 2 1, v 2 2, 0⟩, ⟨0, 0, 0, 1⟩⟩
  have hM : (Mat.ofQuat a).Holds M :=
    ⟨⟨(v1 0 0).1, (v1 0 1).1, (v1 0 2).1, e2 0⟩, ⟨(v1 1 0).1, (v1 1 1).1, (v1 1 2).1, e2 1⟩, ⟨(v1 2 0).1, (v1 2 1).1, (v1 2 2).1, e2 2⟩, by
      rw [e3]; exact ⟨isF_zero, isF_zero, isF_zero, isF_one⟩⟩
  have hr : RotatesLike M q (1 / 2 ^ 18) := by
    intro i j
    have g : M.get i.castSucc j.castSucc = v i j := by fin_cases i <;> fin_cases j <;> rfl
    rw [g]
    exact (v1 i j).2.trans (by norm_num)
  have := toQuat_accurate _ M hM rfl q h (1 / 2 ^ 18) (le_refl _) (by norm_num) hr
  rwa [show (16 : ℝ) * (1 / 2 ^ 18) = 1 / 2 ^ 14 by norm_num] at this

/-- The quaternion 3/5 i + 4/5 with its components rounded to floats. -/
example : ∃ (a : V4 Fl) (p : V4 ℚ) (q : V4 ℝ), a.Holds p ∧ (∀ i, |p.lane i| ≤ 1) ∧ q.dot q = 1 ∧ (∀ i, |(p.lane i : ℝ) - q.lane i| ≤ 1 / 2 ^ 23) ∧ q.x = 3 / 5 := by
  refine ⟨⟨⟨0x3f19999a⟩, 0, 0, ⟨0x3f4ccccd⟩⟩, ⟨10066330 / 2 ^ 24, 0, 0, 13421773 / 2 ^ 24⟩, ⟨3 / 5, 0, 0, 4 / 5⟩,
    ⟨⟨false, 10066330 * 2 ^ 125, by decide +kernel, ?_⟩, isF_zero, isF_zero, ⟨false, 13421773 * 2 ^ 125, by decide +kernel, ?_⟩⟩, ?_, ?_, ?_, rfl⟩
  · unfold sgn unit; norm_num
  · unfold sgn unit; norm_num
  · intro i; fin_cases i <;> simp only [V4.lane] <;> norm_num [abs_le]
  · norm_num [V4.dot]
  · intro i; fin_cases i <;> simp only [V4.lane] <;> push_cast <;> norm_num [abs_le]

/-- The identity matrix is such a rotation. -/
example : (Mat.identity : Mat Fl).Holds .identity ∧ RotatesLike .identity ⟨0, 0, 0, 1⟩ (1 / 2 ^ 18) := by
  refine ⟨identity_holds, ?_⟩
  intro i j
  simp only [Mat.ofQuat, fromQuat_rows]
  fin_cases i <;> fin_cases j <;> norm_num [Mat.get, V4.lane, Mat.identity, mk4, setPs, Fin.castSucc, Fin.castAdd, Fin.castLE]

end PreCore.Vec
