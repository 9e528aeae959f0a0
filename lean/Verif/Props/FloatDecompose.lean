import Verif.Props.FloatToQuat
/-!
# C160: transforms of floats taken apart
-/
namespace PreCore.Vec
open PreCore.F32

/-! ## The triple product -/

theorem acc_sub {x y : Fl} {v w M N e f : ℚ} (hx : Acc x v M e) (hy : Acc y w N f) (h : M + N + e + f ≤ 2 ^ 127) :
    Acc (x - y) (v - w) (M + N) (e + f + (M + N + e + f) / 2 ^ 24 + 1 / 2 ^ 150) := by
  obtain ⟨⟨r, hr, he⟩, hM⟩ := hx
  obtain ⟨⟨s, hs, hf⟩, hN⟩ := hy
  have h1 := abs_le.1 he
  have h2 := abs_le.1 hf
  have h3 := abs_le.1 hM
  have h4 := abs_le.1 hN
  have h5 : |r - s| ≤ M + N + e + f := by rw [abs_le]; constructor <;> linarith
  obtain ⟨t, ht, hte⟩ := sub_err_s hr hs (h5.trans h)
  have h6 := abs_le.1 hte
  have h7 : |r - s| / 2 ^ 24 ≤ (M + N + e + f) / 2 ^ 24 := div_le_div_of_nonneg_right h5 (by norm_num)
  refine ⟨⟨t, ht, ?_⟩, ?_⟩
  · rw [abs_le]; constructor <;> linarith
  · rw [abs_le]; constructor <;> linarith

/-- A product with an exact factor in front. -/
theorem acc_cmul {x c : Fl} {v M e k K : ℚ} (hc : IsF c k) (hx : Acc x v M e) (hk : |k| ≤ K) (h : K * (M + e) ≤ 2 ^ 127) :
    Acc (c * x) (k * v) (K * M) (K * e + K * (M + e) / 2 ^ 24 + 1 / 2 ^ 150) := by
  obtain ⟨⟨r, hr, he⟩, hM⟩ := hx
  have h1 := abs_le.1 he
  have h3 := abs_le.1 hM
  have he0 : 0 ≤ e := (abs_nonneg _).trans he
  have hM0 : 0 ≤ M := (abs_nonneg _).trans hM
  have hK0 : 0 ≤ K := (abs_nonneg _).trans hk
  have h5 : |r| ≤ M + e := by rw [abs_le]; constructor <;> linarith
  have h6 : |k * r| ≤ K * (M + e) := by
    rw [abs_mul]; exact mul_le_mul hk h5 (abs_nonneg _) hK0
  obtain ⟨t, ht, hte⟩ := mul_err_s hc hr (h6.trans h)
  have h8 : |k * r| / 2 ^ 24 ≤ K * (M + e) / 2 ^ 24 := div_le_div_of_nonneg_right h6 (by norm_num)
  have h9 : |k * r - k * v| ≤ K * e := by
    rw [← mul_sub, abs_mul]; exact mul_le_mul hk he (abs_nonneg _) hK0
  refine ⟨⟨t, ht, ?_⟩, ?_⟩
  · have a1 := abs_le.1 hte
    have a2 := abs_le.1 h9
    rw [abs_le]; constructor <;> linarith
  · rw [abs_mul]; exact mul_le_mul hk hM (abs_nonneg _) hK0

/-- The determinant of three rows. -/
def det3 [CommRing R] (a b c : V3 R) : R :=
  a.x * (b.y * c.z - b.z * c.y) + a.y * (b.z * c.x - b.x * c.z) + a.z * (b.x * c.y - b.y * c.x)

/-- One component of the cross product. -/
theorem cross_acc {x y z w : Fl} {a b c d B C : ℚ} (hx : IsF x a) (hy : IsF y b) (hz : IsF z c) (hw : IsF w d)
    (ha : |a| ≤ B) (hb : |b| ≤ C) (hc : |c| ≤ B) (hd : |d| ≤ C) (hlo : 1 / 2 ^ 70 ≤ B * C) (hhi : B * C ≤ 2 ^ 70) :
    Acc (x * y - z * w) (a * b - c * d) (2 * (B * C)) (5 * (B * C) / 2 ^ 24) := by
  have hB : 0 ≤ B := (abs_nonneg _).trans ha
  have m1 : |a * b| ≤ B * C := by rw [abs_mul]; exact mul_le_mul ha hb (abs_nonneg _) hB
  have m2 : |c * d| ≤ B * C := by rw [abs_mul]; exact mul_le_mul hc hd (abs_nonneg _) hB
  generalize B * C = K at *
  have big : K ≤ 2 ^ 127 := hhi.trans (by norm_num)
  have w : ∀ x : ℚ, x ≤ K → x / 2 ^ 24 + 1 / 2 ^ 150 ≤ K / 2 ^ 24 + 1 / 2 ^ 150 := by
    intro x hx
    have := div_le_div_of_nonneg_right hx (show (0 : ℚ) ≤ 2 ^ 24 by norm_num)
    linarith
  have k1 := (acc_mul hx hy (m1.trans big)).weaken m1 (w _ m1)
  have k2 := (acc_mul hz hw (m2.trans big)).weaken m2 (w _ m2)
  have k3 := acc_sub k1 k2 (by norm_num at hhi ⊢; linarith)
  exact k3.weaken (by linarith) (by norm_num at hlo ⊢; linarith)

/-- The triple product as the code computes it. -/
theorem triple_near {a b c : V4 Fl} {u v w : V4 ℚ} (ha : a.Holds u) (hb : b.Holds v) (hc : c.Holds w) (hw : u.w = 0) {A B C : ℚ}
    (ux : |u.x| ≤ A) (uy : |u.y| ≤ A) (uz : |u.z| ≤ A) (vx : |v.x| ≤ B) (vy : |v.y| ≤ B) (vz : |v.z| ≤ B)
    (wx : |w.x| ≤ C) (wy : |w.y| ≤ C) (wz : |w.z| ≤ C) (hlo : 1 / 2 ^ 70 ≤ B * C) (hhi : B * C ≤ 2 ^ 70) (hlo' : 1 / 2 ^ 100 ≤ A * (B * C))
    (hhi' : A * (B * C) ≤ 2 ^ 100) :
    Within (a.dpPs (ofV3 (b.toV3.cross c.toV3) 0)) (det3 u.toV3 v.toV3 w.toV3) (A * (B * C) / 2 ^ 18) := by
  have cx := cross_acc hb.y hc.z hb.z hc.y vy wz vz wy hlo hhi
  have cy := cross_acc hb.z hc.x hb.x hc.z vz wx vx wz hlo hhi
  have cz := cross_acc hb.x hc.y hb.y hc.x vx wy vy wx hlo hhi
  have hA : 0 ≤ A := (abs_nonneg _).trans ux
  have hAK : A * (2 * (B * C) + 5 * (B * C) / 2 ^ 24) ≤ 2 ^ 127 := by
    have e : A * (2 * (B * C) + 5 * (B * C) / 2 ^ 24) = (2 + 5 / 2 ^ 24) * (A * (B * C)) := by ring
    rw [e]; norm_num at hhi' ⊢; linarith
  have step : ∀ {x y : Fl} {k t : ℚ}, IsF x k → |k| ≤ A → Acc y t (2 * (B * C)) (5 * (B * C) / 2 ^ 24) →
      Acc (x * y) (k * t) (2 * (A * (B * C))) (8 * (A * (B * C)) / 2 ^ 24) := by
    intro x y k t hx hk hy
    refine (acc_cmul hx hy hk hAK).weaken (by linarith) ?_
    have e : A * (5 * (B * C) / 2 ^ 24) + A * (2 * (B * C) + 5 * (B * C) / 2 ^ 24) / 2 ^ 24 + 1 / 2 ^ 150 =
      (7 / 2 ^ 24 + 5 / 2 ^ 48) * (A * (B * C)) + 1 / 2 ^ 150 := by ring
    rw [e]; norm_num at hlo' ⊢; linarith
  have k1 := step ha.x ux cx
  have k2 := step ha.y uy cy
  have k3 := step ha.z uz cz
  have k4 := acc_mul ha.w isF_zero (by rw [mul_zero]; norm_num)
  rw [mul_zero, abs_zero] at k4
  generalize A * (B * C) = P at *
  have s1 := acc_add k1 k2 (by norm_num at hhi' ⊢; linarith)
  have s2 := acc_add k3 k4 (by norm_num at hhi' ⊢; linarith)
  have s3 := acc_add s1 s2 (by norm_num at hhi' ⊢; linarith)
  have s4 := s3.within (E := P / 2 ^ 18) (by norm_num at hlo' ⊢; linarith)
  have e : det3 u.toV3 v.toV3 w.toV3 = u.x * (v.y * w.z - v.z * w.y) + u.y * (v.z * w.x - v.x * w.z) + (u.z * (v.x * w.y - v.y * w.x) + 0) := by
    unfold det3 V4.toV3; ring
  rw [e]
  exact s4

/-! ## Lengths -/

/-- The length of a row that is nearly `s` times a unit vector. -/
theorem norm_close {a b c p q r s ε : ℝ} (h : p ^ 2 + q ^ 2 + r ^ 2 = 1) (hs : 0 < s) (hε : ε ≤ 1 / 4) (ha : |a - s * p| ≤ s * ε) (hb : |b - s * q| ≤ s * ε)
    (hc : |c - s * r| ≤ s * ε) : |√(a ^ 2 + b ^ 2 + c ^ 2) - s| ≤ 2 * (s * ε) := by
  obtain ⟨d, rfl⟩ : ∃ d, a = s * p + d := ⟨a - s * p, by ring⟩
  obtain ⟨e, rfl⟩ : ∃ d, b = s * q + d := ⟨b - s * q, by ring⟩
  obtain ⟨f, rfl⟩ : ∃ d, c = s * r + d := ⟨c - s * r, by ring⟩
  rw [add_sub_cancel_left] at ha hb hc
  have hg0 : 0 ≤ s * ε := (abs_nonneg _).trans ha
  have hg : s * ε ≤ s / 4 := by nlinarith
  generalize s * ε = g at *
  have d2 : d ^ 2 ≤ g ^ 2 := sq_le_sq' (abs_le.1 ha).1 (abs_le.1 ha).2
  have e2 : e ^ 2 ≤ g ^ 2 := sq_le_sq' (abs_le.1 hb).1 (abs_le.1 hb).2
  have f2 : f ^ 2 ≤ g ^ 2 := sq_le_sq' (abs_le.1 hc).1 (abs_le.1 hc).2
  set k := p * d + q * e + r * f with hk
  have cs : k ^ 2 ≤ d ^ 2 + e ^ 2 + f ^ 2 := by
    have : (d ^ 2 + e ^ 2 + f ^ 2) * (p ^ 2 + q ^ 2 + r ^ 2) - k ^ 2 = (p * e - q * d) ^ 2 + (p * f - r * d) ^ 2 + (q * f - r * e) ^ 2 := by
      rw [hk]; ring
    rw [h, mul_one] at this
    have h2 : 0 ≤ (p * e - q * d) ^ 2 + (p * f - r * d) ^ 2 + (q * f - r * e) ^ 2 := by positivity
    linarith
  have k2 : |k| ≤ 2 * g := abs_le_of_sq_le_sq (by nlinarith) (by linarith)
  have k3 := abs_le.1 k2
  have n : (s * p + d) ^ 2 + (s * q + e) ^ 2 + (s * r + f) ^ 2 = s ^ 2 + 2 * s * k + (d ^ 2 + e ^ 2 + f ^ 2) := by
    rw [hk]; linear_combination s ^ 2 * h
  rw [n, abs_le]
  constructor
  · have : s - 2 * g ≤ √(s ^ 2 + 2 * s * k + (d ^ 2 + e ^ 2 + f ^ 2)) := by
      apply Real.le_sqrt_of_sq_le
      have h1 : (s - 2 * g) ^ 2 ≤ (s + k) ^ 2 := by
        apply pow_le_pow_left₀ <;> linarith
      nlinarith
    linarith
  · have : √(s ^ 2 + 2 * s * k + (d ^ 2 + e ^ 2 + f ^ 2)) ≤ s + 2 * g := by
      rw [Real.sqrt_le_left (by linarith)]
      nlinarith
    linarith

/-! ## The sign -/

theorem triple_prod {a b c x y z ε : ℝ} (ha : |a| ≤ 1) (hb : |b| ≤ 1) (hc : |c| ≤ 1) (h1 : |x - a| ≤ ε) (h2 : |y - b| ≤ ε) (h3 : |z - c| ≤ ε)
    (hε : ε ≤ 1 / 100) : |x * y * z - a * b * c| ≤ 4 * ε := by
  have he : 0 ≤ ε := (abs_nonneg _).trans h1
  have hy : |y| ≤ 101 / 100 := by
    have := abs_le.1 h2; have := abs_le.1 hb; rw [abs_le]; constructor <;> linarith
  have hz : |z| ≤ 101 / 100 := by
    have := abs_le.1 h3; have := abs_le.1 hc; rw [abs_le]; constructor <;> linarith
  have e : x * y * z - a * b * c = (x - a) * (y * z) + a * ((y - b) * z) + a * b * (z - c) := by ring
  have t1 : |(x - a) * (y * z)| ≤ ε * (101 / 100 * (101 / 100)) := by
    rw [abs_mul, abs_mul]
    exact mul_le_mul h1 (mul_le_mul hy hz (abs_nonneg _) (by norm_num)) (by positivity) he
  have t2 : |a * ((y - b) * z)| ≤ 1 * (ε * (101 / 100)) := by
    rw [abs_mul, abs_mul]
    exact mul_le_mul ha (mul_le_mul h2 hz (abs_nonneg _) he) (by positivity) (by norm_num)
  have t3 : |a * b * (z - c)| ≤ 1 * 1 * ε := by
    rw [abs_mul, abs_mul]
    exact mul_le_mul (mul_le_mul ha hb (abs_nonneg _) (by norm_num)) h3 (abs_nonneg _) (by norm_num)
  rw [e]
  have a1 := abs_le.1 t1
  have a2 := abs_le.1 t2
  have a3 := abs_le.1 t3
  rw [abs_le]; constructor <;> linarith

/-! ## The theorem -/

/-- The upper left 3x3 elements of `M` are those of the rotation matrix of `q`, row `i` scaled by `S i`, at most `e` of the scale off. -/
def ScaledRotation (M : Mat ℚ) (q : V4 ℝ) (S : Fin 3 → ℝ) (e : ℝ) : Prop :=
  ∀ i j : Fin 3, |((M.get i.castSucc j.castSucc : ℚ) : ℝ) - S i * (Mat.ofQuat q).get i.castSucc j.castSucc| ≤ |S i| * e

/-- Scales of one sign, neither too small nor too large. -/
def SameSign (S : Fin 3 → ℝ) : Prop := (∀ i, 1 / 2 ^ 30 ≤ S i ∧ S i ≤ 2 ^ 30) ∨ ∀ i, 1 / 2 ^ 30 ≤ -S i ∧ -S i ≤ 2 ^ 30

/-- Length of a row. -/
theorem row_length {a : V4 Fl} {v : V4 ℚ} (h : a.Holds v) (hw : v.w = 0) {p q r s : ℝ} (hu : p ^ 2 + q ^ 2 + r ^ 2 = 1) (h1 : 1 / 2 ^ 30 ≤ s) (h2 : s ≤ 2 ^ 30)
    (hx : |(v.x : ℝ) - s * p| ≤ s * (1 / 2 ^ 18)) (hy : |(v.y : ℝ) - s * q| ≤ s * (1 / 2 ^ 18)) (hz : |(v.z : ℝ) - s * r| ≤ s * (1 / 2 ^ 18)) :
    ∃ L : ℚ, IsF (a.simdLength Fl.sqrt) L ∧ |(L : ℝ) - s| ≤ s * (9 / 2 ^ 20) := by
  have hs : 0 < s := lt_of_lt_of_le (by norm_num) h1
  have nc := norm_close hu hs (by norm_num) hx hy hz
  have e : ((v.sq : ℚ) : ℝ) = (v.x : ℝ) ^ 2 + (v.y : ℝ) ^ 2 + (v.z : ℝ) ^ 2 := by
    unfold V4.sq; rw [hw]; push_cast; ring
  rw [← e] at nc
  have nc' := abs_le.1 nc
  have n0 : (0 : ℝ) ≤ v.sq := by rw [e]; positivity
  have t0 := Real.sq_sqrt n0
  have hm : Moderate v.sq := by
    constructor
    · have : (1 : ℝ) / 2 ^ 100 ≤ v.sq := by
        rw [← t0]
        have h3 : (1 : ℝ) / 2 ^ 31 ≤ √(v.sq : ℝ) := by norm_num at nc' h1 ⊢; linarith
        have h4 := pow_le_pow_left₀ (by norm_num) h3 2
        refine le_trans ?_ h4
        norm_num
      have h5 : ((1 / 2 ^ 100 : ℚ) : ℝ) ≤ v.sq := by push_cast; exact this
      exact_mod_cast h5
    · have : (v.sq : ℝ) ≤ 2 ^ 120 := by
        rw [← t0]
        have h3 : √(v.sq : ℝ) ≤ 2 ^ 31 := by norm_num at nc' h2 ⊢; linarith
        have h4 := pow_le_pow_left₀ (Real.sqrt_nonneg _) h3 2
        refine le_trans h4 ?_
        norm_num
      have h5 : (v.sq : ℝ) ≤ ((2 ^ 120 : ℚ) : ℝ) := by push_cast; exact this
      exact_mod_cast h5
  obtain ⟨L, l1, l2⟩ := length_accurate.2.2.2 a v h hm
  refine ⟨L, l1, ?_⟩
  have l3 := abs_le.1 l2
  rw [abs_le]; norm_num at nc' l3 ⊢; constructor <;> linarith

/-- One element divided by the scale. -/
theorem element_div {x l : Fl} {X L : ℚ} {S R : ℝ} (hx : IsF x X) (hl : IsF l L) (hS : 0 < |S|) (hR : |R| ≤ 1) (h1 : |(X : ℝ) - S * R| ≤ |S| * (1 / 2 ^ 18))
    (h2 : |(L : ℝ) - S| ≤ |S| * (9 / 2 ^ 20)) : Near (x / l) R (1 / 2 ^ 16) := by
  have hL : |S| * (1 - 9 / 2 ^ 20) ≤ |(L : ℝ)| := by
    have := abs_sub_abs_le_abs_sub S (L : ℝ)
    rw [abs_sub_comm] at this
    linarith
  have hL0 : 0 < |(L : ℝ)| := lt_of_lt_of_le (mul_pos hS (by norm_num)) hL
  have hLne : (L : ℝ) ≠ 0 := abs_pos.1 hL0
  have hLq : L ≠ 0 := by exact_mod_cast hLne
  have q : |(X : ℝ) / L - R| ≤ 14 / 2 ^ 20 := by
    have e : (X : ℝ) / L - R = ((X - S * R) + (S - L) * R) / L := by field_simp; ring
    rw [e, abs_div, div_le_iff₀ hL0]
    have h3 : |(S - (L : ℝ)) * R| ≤ |S| * (9 / 2 ^ 20) * 1 := by
      rw [abs_mul, abs_sub_comm]
      exact mul_le_mul h2 hR (abs_nonneg _) (by positivity)
    refine (abs_add_le _ _).trans ?_
    norm_num at h1 h3 hL ⊢
    linarith
  have q2 : |(X : ℝ) / L| ≤ 2 := by
    have a := abs_le.1 q
    have b := abs_le.1 hR
    rw [abs_le]; norm_num at a b ⊢; constructor <;> linarith
  have q3 : |X / L| ≤ 2 := by exact_mod_cast q2
  obtain ⟨r, r1, r2⟩ := div_err_s hx hl hLq (q3.trans (by norm_num))
  refine ⟨r, r1, ?_⟩
  have r3 : |(r : ℝ) - X / L| ≤ 1 / 2 ^ 22 := by
    have : |r - X / L| ≤ 1 / 2 ^ 22 := by
      refine r2.trans ?_
      have := div_le_div_of_nonneg_right q3 (show (0 : ℚ) ≤ 2 ^ 24 by norm_num)
      norm_num at this ⊢; linarith
    have h2 : ((|r - X / L| : ℚ) : ℝ) ≤ ((1 / 2 ^ 22 : ℚ) : ℝ) := by exact_mod_cast this
    push_cast at h2; exact h2
  have a := abs_le.1 q
  have b := abs_le.1 r3
  rw [abs_le]; norm_num at a b ⊢; constructor <;> linarith

theorem zero_div_exact {x l : Fl} {L : ℚ} (hx : IsF x 0) (hl : IsF l L) (hL : L ≠ 0) : IsF (x / l) 0 := by
  have := div_rounded hx hl hL
  rw [zero_div] at this
  exact this.exact isF_zero (by rw [abs_zero]; unfold lim; norm_num)

theorem ofQuat_rows_unit (q : V4 ℝ) (h : q.dot q = 1) (i : Fin 3) :
    (Mat.ofQuat q).get i.castSucc 0 ^ 2 + (Mat.ofQuat q).get i.castSucc 1 ^ 2 + (Mat.ofQuat q).get i.castSucc 2 ^ 2 = 1 := by
  obtain ⟨a, b, c, d⟩ := q
  simp only [V4.dot] at h
  simp only [Mat.ofQuat, fromQuat_rows]
  fin_cases i <;> simp only [Mat.get, V4.lane, Fin.castSucc, Fin.castAdd, Fin.castLE] <;> grind

theorem ofQuat_det (q : V4 ℝ) (h : q.dot q = 1) : det3 (Mat.ofQuat q).r1.toV3 (Mat.ofQuat q).r2.toV3 (Mat.ofQuat q).r3.toV3 = 1 := by
  obtain ⟨a, b, c, d⟩ := q
  simp only [V4.dot] at h
  simp only [Mat.ofQuat, fromQuat_rows, det3, V4.toV3]
  have e : a * a + b * b + c * c + d * d = 1 := by linarith
  grind

/-- The determinant of a matrix close to a rotation. -/
theorem det_close (q : V4 ℝ) (h : q.dot q = 1) (N : Fin 3 → Fin 3 → ℝ) (hN : ∀ i j, |N i j - (Mat.ofQuat q).get i.castSucc j.castSucc| ≤ 1 / 2 ^ 18) :
    1 / 2 ≤ det3 ⟨N 0 0, N 0 1, N 0 2⟩ ⟨N 1 0, N 1 1, N 1 2⟩ ⟨N 2 0, N 2 1, N 2 2⟩ := by
  have hd := ofQuat_det q h
  have t : ∀ i j k l m n : Fin 3, |N i j * N k l * N m n - (Mat.ofQuat q).get i.castSucc j.castSucc * (Mat.ofQuat q).get k.castSucc l.castSucc *
      (Mat.ofQuat q).get m.castSucc n.castSucc| ≤ 4 * (1 / 2 ^ 18) := fun i j k l m n =>
    triple_prod (ofQuat_bounded q h i j) (ofQuat_bounded q h k l) (ofQuat_bounded q h m n) (hN i j) (hN k l) (hN m n) (by norm_num)
  have t1 := abs_le.1 (t 0 0 1 1 2 2)
  have t2 := abs_le.1 (t 0 0 1 2 2 1)
  have t3 := abs_le.1 (t 0 1 1 2 2 0)
  have t4 := abs_le.1 (t 0 1 1 0 2 2)
  have t5 := abs_le.1 (t 0 2 1 0 2 1)
  have t6 := abs_le.1 (t 0 2 1 1 2 0)
  have e : (Mat.ofQuat q).get (Fin.castSucc 0) (Fin.castSucc 0) * (Mat.ofQuat q).get (Fin.castSucc 1) (Fin.castSucc 1) * (Mat.ofQuat q).get (Fin.castSucc 2) (Fin.castSucc 2)
      - (Mat.ofQuat q).get (Fin.castSucc 0) (Fin.castSucc 0) * (Mat.ofQuat q).get (Fin.castSucc 1) (Fin.castSucc 2) * (Mat.ofQuat q).get (Fin.castSucc 2) (Fin.castSucc 1)
      + (Mat.ofQuat q).get (Fin.castSucc 0) (Fin.castSucc 1) * (Mat.ofQuat q).get (Fin.castSucc 1) (Fin.castSucc 2) * (Mat.ofQuat q).get (Fin.castSucc 2) (Fin.castSucc 0)
      - (Mat.ofQuat q).get (Fin.castSucc 0) (Fin.castSucc 1) * (Mat.ofQuat q).get (Fin.castSucc 1) (Fin.castSucc 0) * (Mat.ofQuat q).get (Fin.castSucc 2) (Fin.castSucc 2)
      + (Mat.ofQuat q).get (Fin.castSucc 0) (Fin.castSucc 2) * (Mat.ofQuat q).get (Fin.castSucc 1) (Fin.castSucc 0) * (Mat.ofQuat q).get (Fin.castSucc 2) (Fin.castSucc 1)
      - (Mat.ofQuat q).get (Fin.castSucc 0) (Fin.castSucc 2) * (Mat.ofQuat q).get (Fin.castSucc 1) (Fin.castSucc 1) * (Mat.ofQuat q).get (Fin.castSucc 2) (Fin.castSucc 0) = 1 := by
    rw [← hd]
    show _ = det3 ⟨(Mat.ofQuat q).get (Fin.castSucc 0) (Fin.castSucc 0), (Mat.ofQuat q).get (Fin.castSucc 0) (Fin.castSucc 1), (Mat.ofQuat q).get (Fin.castSucc 0) (Fin.castSucc 2)⟩
      ⟨(Mat.ofQuat q).get (Fin.castSucc 1) (Fin.castSucc 0), (Mat.ofQuat q).get (Fin.castSucc 1) (Fin.castSucc 1), (Mat.ofQuat q).get (Fin.castSucc 1) (Fin.castSucc 2)⟩
      ⟨(Mat.ofQuat q).get (Fin.castSucc 2) (Fin.castSucc 0), (Mat.ofQuat q).get (Fin.castSucc 2) (Fin.castSucc 1), (Mat.ofQuat q).get (Fin.castSucc 2) (Fin.castSucc 2)⟩
    unfold det3; ring
  unfold det3
  norm_num at t1 t2 t3 t4 t5 t6 e ⊢
  linarith

/-- The sign of the triple product is that of the scales. -/
theorem triple_sign (m : Mat Fl) (M : Mat ℚ) (hm : m.Holds M) (hw : M.r1.w = 0) (q : V4 ℝ) (h : q.dot q = 1) (τ : ℝ) (hτ : τ = 1 ∨ τ = -1) (s : Fin 3 → ℝ)
    (hs : ∀ i, 1 / 2 ^ 30 ≤ s i ∧ s i ≤ 2 ^ 30) (hM : ScaledRotation M q (fun i => τ * s i) (1 / 2 ^ 18)) :
    ∃ D : ℚ, IsF (m.r1.dpPs (ofV3 (m.r2.toV3.cross m.r3.toV3) 0)) D ∧ 0 < τ * D := by
  have h0 : ∀ i, 0 < s i := fun i => lt_of_lt_of_le (by norm_num) (hs i).1
  have τ2 : τ * τ = 1 := by rcases hτ with rfl | rfl <;> norm_num
  have τa : |τ| = 1 := by rcases hτ with rfl | rfl <;> norm_num
  have Sa : ∀ i, |τ * s i| = s i := fun i => by rw [abs_mul, τa, one_mul, abs_of_pos (h0 i)]
  -- rational bounds of the rows
  have bd : ∀ i : Fin 3, ∃ A : ℚ, s i * (1001 / 1000) < A ∧ A < s i * (1002 / 1000) := fun i => exists_rat_btwn (by have := h0 i; linarith)
  choose A a1 a2 using bd
  have el : ∀ i j : Fin 3, |M.get i.castSucc j.castSucc| ≤ A i := by
    intro i j
    have e1 := hM i j
    simp only [Sa] at e1
    have e2 := ofQuat_bounded q h i j
    have e3 : |τ * s i * (Mat.ofQuat q).get i.castSucc j.castSucc| ≤ s i * 1 := by
      rw [abs_mul, Sa]; exact mul_le_mul_of_nonneg_left e2 (h0 i).le
    have : |((M.get i.castSucc j.castSucc : ℚ) : ℝ)| ≤ A i := by
      have x1 := abs_le.1 e1
      have x2 := abs_le.1 e3
      have x3 := a1 i
      have x4 := h0 i
      have x5 : s i * (1 / 2 ^ 18) ≤ s i * (1 / 1000) := mul_le_mul_of_nonneg_left (by norm_num) x4.le
      rw [abs_le]; constructor <;> linarith
    exact_mod_cast this
  have Apos : ∀ i, (0 : ℝ) < A i := fun i => lt_trans (by have := h0 i; linarith) (a1 i)
  have Alo : ∀ i, (1 : ℝ) / 2 ^ 30 ≤ A i := fun i => by have := a1 i; have := (hs i).1; have := h0 i; linarith
  have Ahi : ∀ i, (A i : ℝ) ≤ 2 ^ 31 := fun i => by have := a2 i; have := (hs i).2; have := h0 i; norm_num at *; linarith
  have q1 : (1 : ℝ) / 2 ^ 60 ≤ A 1 * A 2 := by
    have := mul_le_mul (Alo 1) (Alo 2) (by norm_num) (Apos 1).le
    refine le_trans ?_ this; norm_num
  have q2 : (A 1 : ℝ) * A 2 ≤ 2 ^ 62 := by
    have := mul_le_mul (Ahi 1) (Ahi 2) (Apos 2).le (by norm_num)
    refine le_trans this ?_; norm_num
  have q3 : (1 : ℝ) / 2 ^ 90 ≤ A 0 * (A 1 * A 2) := by
    have := mul_le_mul (Alo 0) q1 (by norm_num) (Apos 0).le
    refine le_trans ?_ this; norm_num
  have q4 : (A 0 : ℝ) * (A 1 * A 2) ≤ 2 ^ 93 := by
    have := mul_le_mul (Ahi 0) q2 (mul_pos (Apos 1) (Apos 2)).le (by norm_num)
    refine le_trans this ?_; norm_num
  have c1 : 1 / 2 ^ 70 ≤ A 1 * A 2 := by
    have : ((1 / 2 ^ 70 : ℚ) : ℝ) ≤ ((A 1 * A 2 : ℚ) : ℝ) := by push_cast; exact le_trans (by norm_num) q1
    exact_mod_cast this
  have c2 : A 1 * A 2 ≤ 2 ^ 70 := by
    have : ((A 1 * A 2 : ℚ) : ℝ) ≤ ((2 ^ 70 : ℚ) : ℝ) := by push_cast; exact q2.trans (by norm_num)
    exact_mod_cast this
  have c3 : 1 / 2 ^ 100 ≤ A 0 * (A 1 * A 2) := by
    have : ((1 / 2 ^ 100 : ℚ) : ℝ) ≤ ((A 0 * (A 1 * A 2) : ℚ) : ℝ) := by push_cast; exact le_trans (by norm_num) q3
    exact_mod_cast this
  have c4 : A 0 * (A 1 * A 2) ≤ 2 ^ 100 := by
    have : ((A 0 * (A 1 * A 2) : ℚ) : ℝ) ≤ ((2 ^ 100 : ℚ) : ℝ) := by push_cast; exact q4.trans (by norm_num)
    exact_mod_cast this
  obtain ⟨D, d1, d2⟩ := triple_near hm.r1 hm.r2 hm.r3 hw (el 0 0) (el 0 1) (el 0 2) (el 1 0) (el 1 1) (el 1 2) (el 2 0) (el 2 1) (el 2 2) c1 c2 c3 c4
  refine ⟨D, d1, ?_⟩
  -- the exact determinant
  let N : Fin 3 → Fin 3 → ℝ := fun i j => (M.get i.castSucc j.castSucc : ℚ) / (τ * s i)
  have Sne : ∀ i, τ * s i ≠ 0 := fun i => by rw [← abs_pos, Sa]; exact h0 i
  have hN : ∀ i j, |N i j - (Mat.ofQuat q).get i.castSucc j.castSucc| ≤ 1 / 2 ^ 18 := by
    intro i j
    have e1 := hM i j
    simp only at e1
    have e : N i j - (Mat.ofQuat q).get i.castSucc j.castSucc =
        (((M.get i.castSucc j.castSucc : ℚ) : ℝ) - τ * s i * (Mat.ofQuat q).get i.castSucc j.castSucc) / (τ * s i) := by
      rw [sub_div, mul_div_cancel_left₀ _ (Sne i)]
    rw [e, abs_div, div_le_iff₀' (abs_pos.2 (Sne i))]
    exact e1
  have hd := det_close q h N hN
  have eN : ∀ i j, ((M.get i.castSucc j.castSucc : ℚ) : ℝ) = τ * s i * N i j := by
    intro i j
    show _ = τ * s i * (_ / (τ * s i))
    rw [mul_comm, div_mul_cancel₀ _ (Sne i)]
  have ed : ((det3 M.r1.toV3 M.r2.toV3 M.r3.toV3 : ℚ) : ℝ) = τ * (s 0 * (s 1 * s 2)) * det3 ⟨N 0 0, N 0 1, N 0 2⟩ ⟨N 1 0, N 1 1, N 1 2⟩ ⟨N 2 0, N 2 1, N 2 2⟩ := by
    have e00 : (M.r1.x : ℝ) = _ := eN 0 0
    have e01 : (M.r1.y : ℝ) = _ := eN 0 1
    have e02 : (M.r1.z : ℝ) = _ := eN 0 2
    have e10 : (M.r2.x : ℝ) = _ := eN 1 0
    have e11 : (M.r2.y : ℝ) = _ := eN 1 1
    have e12 : (M.r2.z : ℝ) = _ := eN 1 2
    have e20 : (M.r3.x : ℝ) = _ := eN 2 0
    have e21 : (M.r3.y : ℝ) = _ := eN 2 1
    have e22 : (M.r3.z : ℝ) = _ := eN 2 2
    unfold det3 V4.toV3
    push_cast
    rw [e00, e01, e02, e10, e11, e12, e20, e21, e22]
    generalize N 0 0 = n00; generalize N 0 1 = n01; generalize N 0 2 = n02
    generalize N 1 0 = n10; generalize N 1 1 = n11; generalize N 1 2 = n12
    generalize N 2 0 = n20; generalize N 2 1 = n21; generalize N 2 2 = n22
    linear_combination (τ * s 0 * s 1 * s 2 * (n00 * (n11 * n22 - n12 * n21) + n01 * (n12 * n20 - n10 * n22) + n02 * (n10 * n21 - n11 * n20))) * τ2
  have d3 : |(D : ℝ) - τ * (s 0 * (s 1 * s 2)) * det3 ⟨N 0 0, N 0 1, N 0 2⟩ ⟨N 1 0, N 1 1, N 1 2⟩ ⟨N 2 0, N 2 1, N 2 2⟩| ≤ A 0 * (A 1 * A 2) / 2 ^ 18 := by
    rw [← ed]
    exact_mod_cast d2
  generalize det3 (⟨N 0 0, N 0 1, N 0 2⟩ : V3 ℝ) ⟨N 1 0, N 1 1, N 1 2⟩ ⟨N 2 0, N 2 1, N 2 2⟩ = Δ at *
  have P : (A 0 : ℝ) * (A 1 * A 2) ≤ 2 * (s 0 * (s 1 * s 2)) := by
    have m1 := mul_le_mul (a2 1).le (a2 2).le (Apos 2).le (by have := h0 1; positivity)
    have m2 := mul_le_mul (a2 0).le m1 (mul_pos (Apos 1) (Apos 2)).le (by have := h0 0; positivity)
    have := mul_pos (h0 0) (mul_pos (h0 1) (h0 2))
    refine m2.trans ?_
    nlinarith
  have Sp := mul_pos (h0 0) (mul_pos (h0 1) (h0 2))
  generalize s 0 * (s 1 * s 2) = S at *
  generalize (A 0 : ℝ) * (A 1 * A 2) = Q at *
  have d4 := abs_le.1 d3
  have hSD : S * (1 / 2) ≤ S * Δ := mul_le_mul_of_nonneg_left hd Sp.le
  rcases hτ with rfl | rfl
  · norm_num at d4 ⊢
    have : (0 : ℝ) < D := by linarith
    exact_mod_cast this
  · norm_num at d4 ⊢
    have : (D : ℝ) < 0 := by linarith
    exact_mod_cast this

/-- What `Decompose` returns, once the sign and the scales are known. -/
theorem decompose_core (m : Mat Fl) (M : Mat ℚ) (hm : m.Holds M) (hw1 : M.r1.w = 0) (hw2 : M.r2.w = 0) (hw3 : M.r3.w = 0) (q : V4 ℝ) (h : q.dot q = 1)
    (S : Fin 3 → ℝ) (hS : ∀ i, 0 < |S i|) (hM : ScaledRotation M q S (1 / 2 ^ 18)) (l1 l2 l3 : Fl) (L1 L2 L3 : ℚ) (h1 : IsF l1 L1) (h2 : IsF l2 L2) (h3 : IsF l3 L3)
    (e1 : |(L1 : ℝ) - S 0| ≤ |S 0| * (9 / 2 ^ 20)) (e2 : |(L2 : ℝ) - S 1| ≤ |S 1| * (9 / 2 ^ 20)) (e3 : |(L3 : ℝ) - S 2| ≤ |S 2| * (9 / 2 ^ 20)) :
    ∃ σ : ℝ, (σ = 1 ∨ σ = -1) ∧
      ∀ i, Near ((Mat.toQuat Fl.sqrt { m with r1 := m.r1.divS l1, r2 := m.r2.divS l2, r3 := m.r3.divS l3 }).lane i) (σ * q.lane i) (1 / 2 ^ 12) := by
  have ne : ∀ {L : ℚ} {s : ℝ}, 0 < |s| → |(L : ℝ) - s| ≤ |s| * (9 / 2 ^ 20) → L ≠ 0 := by
    rintro L s hs he rfl
    rw [Rat.cast_zero, zero_sub, abs_neg] at he
    norm_num at he
    linarith [abs_pos.1 hs |> abs_pos.2]
  have n1 := fun j => element_div (R := (Mat.ofQuat q).get (Fin.castSucc 0) (Fin.castSucc j)) (S := S 0) (l := l1) (X := M.get (Fin.castSucc 0) (Fin.castSucc j))
    (x := m.get (Fin.castSucc 0) (Fin.castSucc j)) (hx := by fin_cases j; exacts [hm.r1.x, hm.r1.y, hm.r1.z]) h1 (hS 0) (ofQuat_bounded q h 0 j) (hM 0 j) e1
  have n2 := fun j => element_div (R := (Mat.ofQuat q).get (Fin.castSucc 1) (Fin.castSucc j)) (S := S 1) (l := l2) (X := M.get (Fin.castSucc 1) (Fin.castSucc j))
    (x := m.get (Fin.castSucc 1) (Fin.castSucc j)) (hx := by fin_cases j; exacts [hm.r2.x, hm.r2.y, hm.r2.z]) h2 (hS 1) (ofQuat_bounded q h 1 j) (hM 1 j) e2
  have n3 := fun j => element_div (R := (Mat.ofQuat q).get (Fin.castSucc 2) (Fin.castSucc j)) (S := S 2) (l := l3) (X := M.get (Fin.castSucc 2) (Fin.castSucc j))
    (x := m.get (Fin.castSucc 2) (Fin.castSucc j)) (hx := by fin_cases j; exacts [hm.r3.x, hm.r3.y, hm.r3.z]) h3 (hS 2) (ofQuat_bounded q h 2 j) (hM 2 j) e3
  choose a a1 a2 using n1
  choose b b1 b2 using n2
  choose c c1 c2 using n3
  have z1 := zero_div_exact (hw1 ▸ hm.r1.w) h1 (ne (hS 0) e1)
  have z2 := zero_div_exact (hw2 ▸ hm.r2.w) h2 (ne (hS 1) e2)
  have z3 := zero_div_exact (hw3 ▸ hm.r3.w) h3 (ne (hS 2) e3)
  have H : Mat.Holds { m with r1 := m.r1.divS l1, r2 := m.r2.divS l2, r3 := m.r3.divS l3 }
      ⟨⟨a 0, a 1, a 2, 0⟩, ⟨b 0, b 1, b 2, 0⟩, ⟨c 0, c 1, c 2, 0⟩, M.r4⟩ :=
    ⟨⟨a1 0, a1 1, a1 2, z1⟩, ⟨b1 0, b1 1, b1 2, z2⟩, ⟨c1 0, c1 1, c1 2, z3⟩, hm.r4⟩
  have key := toQuat_accurate _ _ H rfl q h (1 / 2 ^ 16) (by norm_num) (le_refl _) (by
    intro i j
    fin_cases i
    · fin_cases j; exacts [a2 0, a2 1, a2 2]
    · fin_cases j; exacts [b2 0, b2 1, b2 2]
    · fin_cases j; exacts [c2 0, c2 1, c2 2])
  rwa [show (16 : ℝ) * (1 / 2 ^ 16) = 1 / 2 ^ 12 by norm_num] at key

/-- C160: a float matrix that is a rotation with scaled rows (scales of one sign between 2^-30 and 2^30) up to 2^-18 of the scale in every element: `Decompose` gives
the position unchanged, the scales up to 2^-16 of them with their sign, the rotation as a quaternion up to its sign and 2^-12 in every component, and keeps the
fourth component of the caller's scale, negated when the scales are negative. -/
theorem decompose_accurate (m : Mat Fl) (M : Mat ℚ) (hm : m.Holds M) (hw1 : M.r1.w = 0) (hw2 : M.r2.w = 0) (hw3 : M.r3.w = 0) (q : V4 ℝ) (h : q.dot q = 1)
    (S : Fin 3 → ℝ) (hS : SameSign S) (hM : ScaledRotation M q S (1 / 2 ^ 18)) (w : Fl) :
    (m.decompose Fl.sqrt w).1 = m.r4 ∧
    (∃ σ : ℝ, (σ = 1 ∨ σ = -1) ∧ ∀ i, Near ((m.decompose Fl.sqrt w).2.1.lane i) (σ * q.lane i) (1 / 2 ^ 12)) ∧
    (∀ i : Fin 3, Near ((m.decompose Fl.sqrt w).2.2.lane i.castSucc) (S i) (|S i| / 2 ^ 16)) ∧
    (m.decompose Fl.sqrt w).2.2.w = if 0 < S 0 then w else w * (-1) := by
  obtain ⟨τ, s, hτ, hs, rfl⟩ : ∃ (τ : ℝ) (s : Fin 3 → ℝ), (τ = 1 ∨ τ = -1) ∧ (∀ i, 1 / 2 ^ 30 ≤ s i ∧ s i ≤ 2 ^ 30) ∧ S = fun i => τ * s i := by
    rcases hS with hS | hS
    · exact ⟨1, S, .inl rfl, hS, by simp⟩
    · exact ⟨-1, fun i => -S i, .inr rfl, hS, by simp⟩
  have h0 : ∀ i, 0 < s i := fun i => lt_of_lt_of_le (by norm_num) (hs i).1
  have τ2 : τ * τ = 1 := by rcases hτ with rfl | rfl <;> norm_num
  have τs : τ ^ 2 = 1 := by rw [pow_two, τ2]
  have τa : |τ| = 1 := by rcases hτ with rfl | rfl <;> norm_num
  have Sa : ∀ i, |τ * s i| = s i := fun i => by rw [abs_mul, τa, one_mul, abs_of_pos (h0 i)]
  obtain ⟨D, d1, d2⟩ := triple_sign m M hm hw1 q h τ hτ s hs hM
  have len : ∀ i : Fin 3, ∃ L : ℚ, IsF ((m.row i.castSucc).simdLength Fl.sqrt) L ∧ |(L : ℝ) - s i| ≤ s i * (9 / 2 ^ 20) := by
    intro i
    have hu := ofQuat_rows_unit q h i
    have hw : (M.row i.castSucc).w = 0 := by fin_cases i; exacts [hw1, hw2, hw3]
    have e := hM i
    simp only [Sa] at e
    refine row_length (hm.row i.castSucc) hw (p := τ * (Mat.ofQuat q).get i.castSucc 0) (q := τ * (Mat.ofQuat q).get i.castSucc 1)
      (r := τ * (Mat.ofQuat q).get i.castSucc 2) ?_ (hs i).1 (hs i).2 ?_ ?_ ?_
    · rw [mul_pow, mul_pow, mul_pow, τs, one_mul, one_mul, one_mul]; exact hu
    · have := e 0
      rw [mul_comm τ, mul_assoc] at this
      fin_cases i <;> exact this
    · have := e 1
      rw [mul_comm τ, mul_assoc] at this
      fin_cases i <;> exact this
    · have := e 2
      rw [mul_comm τ, mul_assoc] at this
      fin_cases i <;> exact this
  choose L l1 l2 using len
  have sgn : ∀ i, |(τ : ℝ) * L i - τ * s i| ≤ |τ * s i| * (9 / 2 ^ 20) := by
    intro i
    rw [← mul_sub, abs_mul, τa, one_mul, Sa]; exact l2 i
  have hdec : ∃ l1' l2' l3' : Fl, m.decompose Fl.sqrt w =
      (m.r4, Mat.toQuat Fl.sqrt { m with r1 := m.r1.divS l1', r2 := m.r2.divS l2', r3 := m.r3.divS l3' }, ⟨l1', l2', l3', if 0 < τ * s 0 then w else w * (-1)⟩) ∧
      ∃ L1 L2 L3 : ℚ, IsF l1' L1 ∧ IsF l2' L2 ∧ IsF l3' L3 ∧ (L1 : ℝ) = τ * L 0 ∧ (L2 : ℝ) = τ * L 1 ∧ (L3 : ℝ) = τ * L 2 := by
    rcases hτ with rfl | rfl
    · have hD : ¬ D < 0 := by
        have : (0 : ℝ) < D := by linarith
        have : 0 < D := by exact_mod_cast this
        linarith
      have hD' : ¬ m.r1.dpPs (ofV3 (m.r2.toV3.cross m.r3.toV3) 0) < 0 := fun hh => hD ((less_iff d1 isF_zero).1 hh)
      refine ⟨_, _, _, ?_, L 0, L 1, L 2, l1 0, l1 1, l1 2, by simp, by simp, by simp⟩
      have hp : (0 : ℝ) < 1 * s 0 := by have := h0 0; linarith
      simp only [Mat.decompose, if_neg hD', if_pos hp]
      rfl
    · have hD : D < 0 := by
        have : (D : ℝ) < 0 := by linarith
        exact_mod_cast this
      have hD' : m.r1.dpPs (ofV3 (m.r2.toV3.cross m.r3.toV3) 0) < 0 := (less_iff d1 isF_zero).2 hD
      refine ⟨_, _, _, ?_, L 0 * (-1), L 1 * (-1), L 2 * (-1), isF_mul_neg (l1 0), isF_mul_neg (l1 1), isF_mul_neg (l1 2), by push_cast; ring, by push_cast; ring,
        by push_cast; ring⟩
      have hp : ¬ (0 : ℝ) < -1 * s 0 := by have := h0 0; linarith
      simp only [Mat.decompose, if_pos hD', if_neg hp]
      rfl
  obtain ⟨a, b, c, hd, A, B, C, ha, hb, hc, ea, eb, ec⟩ := hdec
  have g1 : |(A : ℝ) - τ * s 0| ≤ |τ * s 0| * (9 / 2 ^ 20) := by rw [ea]; exact sgn 0
  have g2 : |(B : ℝ) - τ * s 1| ≤ |τ * s 1| * (9 / 2 ^ 20) := by rw [eb]; exact sgn 1
  have g3 : |(C : ℝ) - τ * s 2| ≤ |τ * s 2| * (9 / 2 ^ 20) := by rw [ec]; exact sgn 2
  have small : ∀ x : ℝ, |x| * (9 / 2 ^ 20) ≤ |x| / 2 ^ 16 := by
    intro x; have := abs_nonneg x; norm_num; linarith
  rw [hd]
  refine ⟨rfl, decompose_core m M hm hw1 hw2 hw3 q h _ (fun i => by rw [Sa]; exact h0 i) hM a b c A B C ha hb hc g1 g2 g3, ?_, rfl⟩
  intro i
  fin_cases i
  · exact ⟨A, ha, g1.trans (small _)⟩
  · exact ⟨B, hb, g2.trans (small _)⟩
  · exact ⟨C, hc, g3.trans (small _)⟩

/-! ## Compose -/

/-- C160: `Compose` with a stored unit quaternion (2^-23) and scales up to 2^30 gives that rotation with scaled rows, up to 2^-18 of the scale, zeros in the fourth
column, and the position as it is. -/
theorem compose_accurate (m : Mat Fl) (pos a sc : V4 Fl) (p t : V4 ℚ) (ha : a.Holds p) (hp : ∀ i, |p.lane i| ≤ 1) (q : V4 ℝ) (h : q.dot q = 1)
    (hq : ∀ i, |(p.lane i : ℝ) - q.lane i| ≤ 1 / 2 ^ 23) (hsc : sc.Holds t) (ht : ∀ i : Fin 3, 1 / 2 ^ 30 ≤ |t.lane i.castSucc| ∧ |t.lane i.castSucc| ≤ 2 ^ 30) :
    ∃ r1 r2 r3 : V4 ℚ, ((m.compose pos a sc).r1.Holds r1 ∧ (m.compose pos a sc).r2.Holds r2 ∧ (m.compose pos a sc).r3.Holds r3) ∧
      (m.compose pos a sc).r4 = pos ∧ (r1.w = 0 ∧ r2.w = 0 ∧ r3.w = 0) ∧
      ∀ r4, ScaledRotation ⟨r1, r2, r3, r4⟩ q (fun i => (t.lane i.castSucc : ℝ)) (1 / 2 ^ 18) := by
  obtain ⟨-, e2, -⟩ := ofQuat_accurate a p ha (hp 0) (hp 1) (hp 2) (hp 3)
  obtain ⟨v, hv⟩ := ofQuat_near_unit a p ha hp q h hq
  have key : ∀ (i j : Fin 3) {x : Fl}, IsF x (t.lane i.castSucc) → ∃ r : ℚ, IsF ((Mat.ofQuat a).get i.castSucc j.castSucc * x) r ∧
      |(r : ℝ) - (t.lane i.castSucc : ℝ) * (Mat.ofQuat q).get i.castSucc j.castSucc| ≤ |(t.lane i.castSucc : ℝ)| * (1 / 2 ^ 18) := by
    intro i j x hx
    obtain ⟨v1, v2⟩ := hv i j
    obtain ⟨t1, t2⟩ := ht i
    have t1R : (1 : ℝ) / 2 ^ 30 ≤ |(t.lane i.castSucc : ℝ)| := by
      have : ((1 / 2 ^ 30 : ℚ) : ℝ) ≤ ((|t.lane i.castSucc| : ℚ) : ℝ) := by exact_mod_cast t1
      push_cast at this; exact this
    have bR := ofQuat_bounded q h i j
    generalize (Mat.ofQuat q).get i.castSucc j.castSucc = R at *
    generalize t.lane i.castSucc = T at *
    have vb : |(v i j : ℝ)| ≤ 2 := by
      have x1 := abs_le.1 v2
      have x2 := abs_le.1 bR
      rw [abs_le]; norm_num at x1 ⊢; constructor <;> linarith
    have vq : |v i j| ≤ 2 := by exact_mod_cast vb
    have vt : |v i j * T| ≤ 2 * |T| := by rw [abs_mul]; exact mul_le_mul_of_nonneg_right vq (abs_nonneg _)
    obtain ⟨r, r1, r2⟩ := mul_err_s v1 hx (vt.trans (by norm_num at t2 ⊢; linarith))
    refine ⟨r, r1, ?_⟩
    have r3 : |(r : ℝ) - v i j * T| ≤ 2 * |(T : ℝ)| / 2 ^ 24 + 1 / 2 ^ 150 := by
      have h1 : |r - v i j * T| ≤ 2 * |T| / 2 ^ 24 + 1 / 2 ^ 150 := by
        refine r2.trans ?_
        have := div_le_div_of_nonneg_right vt (show (0 : ℚ) ≤ 2 ^ 24 by norm_num)
        linarith
      have h2 : ((|r - v i j * T| : ℚ) : ℝ) ≤ ((2 * |T| / 2 ^ 24 + 1 / 2 ^ 150 : ℚ) : ℝ) := by exact_mod_cast h1
      push_cast at h2; exact h2
    have r4 : |(v i j : ℝ) * T - T * R| ≤ |(T : ℝ)| * (3 / 2 ^ 20) := by
      rw [show (v i j : ℝ) * T - T * R = T * (v i j - R) by ring, abs_mul]
      exact mul_le_mul_of_nonneg_left v2 (abs_nonneg _)
    have x1 := abs_le.1 r3
    have x2 := abs_le.1 r4
    have x3 := abs_nonneg (T : ℝ)
    generalize |(T : ℝ)| = B at *
    rw [abs_le]; norm_num at x1 x2 t1R ⊢; constructor <;> linarith
  have kx : IsF sc.x (t.lane (Fin.castSucc 0)) := hsc.x
  have ky : IsF sc.y (t.lane (Fin.castSucc 1)) := hsc.y
  have kz : IsF sc.z (t.lane (Fin.castSucc 2)) := hsc.z
  have k1 := fun j => key 0 j kx
  have k2 := fun j => key 1 j ky
  have k3 := fun j => key 2 j kz
  choose u u1 u2 using k1
  choose y y1 y2 using k2
  choose z z1 z2 using k3
  have zero : ∀ {x s : Fl} {T : ℚ}, IsF x 0 → IsF s T → IsF (x * s) 0 := by
    intro x s T hx hs
    have := mul_exact (z := 0) hx hs (by rw [zero_mul]; exact isF_zero)
    rwa [zero_mul] at this
  refine ⟨⟨u 0, u 1, u 2, 0⟩, ⟨y 0, y 1, y 2, 0⟩, ⟨z 0, z 1, z 2, 0⟩,
    ⟨⟨u1 0, u1 1, u1 2, zero (e2 0) kx⟩, ⟨y1 0, y1 1, y1 2, zero (e2 1) ky⟩, ⟨z1 0, z1 1, z1 2, zero (e2 2) kz⟩⟩, rfl, ⟨rfl, rfl, rfl⟩, ?_⟩
  intro r4 i j
  fin_cases i
  · fin_cases j; exacts [u2 0, u2 1, u2 2]
  · fin_cases j; exacts [y2 0, y2 1, y2 2]
  · fin_cases j; exacts [z2 0, z2 1, z2 2]

/-- C160: what is composed in floats is taken apart again: the position exactly, the scales (of one sign) up to 2^-16 of them, the rotation up to its sign and 2^-12. -/
theorem compose_decompose_accurate (m : Mat Fl) (pos a sc : V4 Fl) (p t o : V4 ℚ) (ho : pos.Holds o) (ha : a.Holds p) (hp : ∀ i, |p.lane i| ≤ 1) (q : V4 ℝ)
    (h : q.dot q = 1) (hq : ∀ i, |(p.lane i : ℝ) - q.lane i| ≤ 1 / 2 ^ 23) (hsc : sc.Holds t) (ht : SameSign fun i => (t.lane i.castSucc : ℝ)) (w : Fl) :
    ((m.compose pos a sc).decompose Fl.sqrt w).1 = pos ∧
    (∃ σ : ℝ, (σ = 1 ∨ σ = -1) ∧ ∀ i, Near (((m.compose pos a sc).decompose Fl.sqrt w).2.1.lane i) (σ * q.lane i) (1 / 2 ^ 12)) ∧
    ∀ i : Fin 3, Near (((m.compose pos a sc).decompose Fl.sqrt w).2.2.lane i.castSucc) (t.lane i.castSucc) (|(t.lane i.castSucc : ℝ)| / 2 ^ 16) := by
  have ht' : ∀ i : Fin 3, 1 / 2 ^ 30 ≤ |t.lane i.castSucc| ∧ |t.lane i.castSucc| ≤ 2 ^ 30 := by
    intro i
    have : (1 : ℝ) / 2 ^ 30 ≤ |(t.lane i.castSucc : ℝ)| ∧ |(t.lane i.castSucc : ℝ)| ≤ 2 ^ 30 := by
      rcases ht with ht | ht
      · have h2 := ht i
        simp only at h2
        rw [abs_of_pos (lt_of_lt_of_le (by norm_num) h2.1)]; exact h2
      · have h2 := ht i
        simp only at h2
        rw [abs_of_neg (by have : (0 : ℝ) < -(t.lane i.castSucc : ℝ) := lt_of_lt_of_le (by norm_num) h2.1
                           linarith)]; exact h2
    constructor
    · have h2 : ((1 / 2 ^ 30 : ℚ) : ℝ) ≤ ((|t.lane i.castSucc| : ℚ) : ℝ) := by push_cast; exact this.1
      exact_mod_cast h2
    · have h2 : ((|t.lane i.castSucc| : ℚ) : ℝ) ≤ ((2 ^ 30 : ℚ) : ℝ) := by push_cast; exact this.2
      exact_mod_cast h2
  obtain ⟨r1, r2, r3, ⟨c1, c2, c3⟩, c4, ⟨w1, w2, w3⟩, hM⟩ := compose_accurate m pos a sc p t ha hp q h hq hsc ht'
  have H : (m.compose pos a sc).Holds ⟨r1, r2, r3, o⟩ := ⟨c1, c2, c3, c4 ▸ ho⟩
  obtain ⟨g1, g2, g3, -⟩ := decompose_accurate _ _ H w1 w2 w3 q h _ ht (hM o) w
  exact ⟨g1.trans c4, g2, g3⟩

/-- The hypotheses: the quaternion 3/5 i + 4/5 rounded, scales 2, 1/2, 1, position (1, 0, 0, 1). -/
example : ∃ (pos a sc : V4 Fl) (o p t : V4 ℚ) (q : V4 ℝ), pos.Holds o ∧ a.Holds p ∧ (∀ i, |p.lane i| ≤ 1) ∧ q.dot q = 1 ∧
    (∀ i, |(p.lane i : ℝ) - q.lane i| ≤ 1 / 2 ^ 23) ∧ sc.Holds t ∧ SameSign (fun i => (t.lane i.castSucc : ℝ)) ∧ q.x = 3 / 5 ∧ t.x = 2 := by
  refine ⟨⟨1, 0, 0, 1⟩, ⟨⟨0x3f19999a⟩, 0, 0, ⟨0x3f4ccccd⟩⟩, ⟨⟨0x40000000⟩, ⟨0x3f000000⟩, 1, 0⟩, ⟨1, 0, 0, 1⟩, ⟨10066330 / 2 ^ 24, 0, 0, 13421773 / 2 ^ 24⟩, ⟨2, 1 / 2, 1, 0⟩,
    ⟨3 / 5, 0, 0, 4 / 5⟩, ⟨isF_one, isF_zero, isF_zero, isF_one⟩,
    ⟨⟨false, 10066330 * 2 ^ 125, by decide +kernel, ?_⟩, isF_zero, isF_zero, ⟨false, 13421773 * 2 ^ 125, by decide +kernel, ?_⟩⟩, ?_, ?_, ?_,
    ⟨⟨false, 2 ^ 150, by decide +kernel, ?_⟩, ⟨false, 2 ^ 148, by decide +kernel, ?_⟩, isF_one, isF_zero⟩, ?_, rfl, rfl⟩
  · unfold sgn unit; norm_num
  · unfold sgn unit; norm_num
  · intro i; fin_cases i <;> simp only [V4.lane] <;> norm_num [abs_le]
  · norm_num [V4.dot]
  · intro i; fin_cases i <;> simp only [V4.lane] <;> push_cast <;> norm_num [abs_le]
  · unfold sgn unit; norm_num
  · unfold sgn unit; norm_num
  · left
    intro i; fin_cases i <;> simp only [V4.lane, Fin.castSucc, Fin.castAdd, Fin.castLE] <;> push_cast <;> norm_num

end PreCore.Vec
