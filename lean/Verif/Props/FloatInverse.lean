import Verif.Props.FloatDecompose
/-!
# C161: the inverse of a matrix in floats
-/
namespace PreCore.Vec
open PreCore.F32

/-! ## Specification -/

/-- The product of the directions of rows `i` and `k`; the square of the length of row `i` if they are the same. -/
def rowDot (M : Mat ℚ) (i k : Fin 3) : ℚ :=
  M.get i.castSucc 0 * M.get k.castSucc 0 + M.get i.castSucc 1 * M.get k.castSucc 1 + M.get i.castSucc 2 * M.get k.castSucc 2

/-- Row `j` is longer than 0.001 and not longer than `2^30`. -/
def Sized (M : Mat ℚ) (j : Fin 3) : Prop := 1 / 999999 ≤ rowDot M j j ∧ rowDot M j j ≤ 2 ^ 60

/-! ## Elements -/

theorem cs_ne (i : Fin 3) : i.castSucc ≠ (3 : Fin 4) := Fin.castSucc_ne_last i

theorem isF_invEpsilon : IsF invEpsilon epsF := ⟨false, 8796093 * 2 ^ 106, by decide +kernel, by norm_num [sgn, epsF, unit]⟩

theorem inverse_get (m : Mat Fl) (e : Fl) (i j : Fin 3) : (m.inverse e).get i.castSucc j.castSucc =
    m.get j.castSucc i.castSucc * (1 / clampEps e ((m.get j.castSucc 0 * m.get j.castSucc 0 + m.get j.castSucc 1 * m.get j.castSucc 1) +
      m.get j.castSucc 2 * m.get j.castSucc 2)) := by
  fin_cases i <;> fin_cases j <;> rfl

/-- The sum of the squares of three floats. -/
theorem squares_acc {a b c : Fl} {A B C : ℚ} (ha : IsF a A) (hb : IsF b B) (hc : IsF c C) (hn : A * A + B * B + C * C ≤ 2 ^ 60) :
    ∃ s, IsF ((a * a + b * b) + c * c) s ∧ |s - (A * A + B * B + C * C)| ≤ (A * A + B * B + C * C) / 2 ^ 22 + 1 / 2 ^ 147 := by
  have a0 := mul_self_nonneg A
  have b0 := mul_self_nonneg B
  have c0 := mul_self_nonneg C
  have h1 := acc_mul ha ha (by rw [abs_of_nonneg a0]; linarith)
  have h2 := acc_mul hb hb (by rw [abs_of_nonneg b0]; linarith)
  have h3 := acc_mul hc hc (by rw [abs_of_nonneg c0]; linarith)
  rw [abs_of_nonneg a0] at h1
  rw [abs_of_nonneg b0] at h2
  rw [abs_of_nonneg c0] at h3
  have h4 := acc_add (acc_add h1 h2 (by linarith)) h3 (by linarith)
  obtain ⟨⟨s, hs, he⟩, -⟩ := h4
  exact ⟨s, hs, he.trans (by linarith)⟩

/-- One element: a component over the square of the length of its row. -/
theorem element_acc {a b c x : Fl} {A B C X n : ℚ} (ha : IsF a A) (hb : IsF b B) (hc : IsF c C) (hx : IsF x X) (hn : A * A + B * B + C * C = n)
    (h1 : 1 / 999999 ≤ n) (h2 : n ≤ 2 ^ 60) (hX : X * X ≤ n) :
    Acc (x * (1 / clampEps invEpsilon ((a * a + b * b) + c * c))) (X / n) (|X| / n) (|X| / n / 2 ^ 20 + 1 / 2 ^ 140) := by
  subst hn
  obtain ⟨s, hs, he⟩ := squares_acc ha hb hc h2
  generalize A * A + B * B + C * C = n at *
  have n0 : 0 < n := by linarith
  have e1 := abs_le.1 he
  have hlow : n * (1 - 3 / 2 ^ 23) ≤ s := by linarith
  have hhigh : s ≤ n * (1 + 3 / 2 ^ 23) := by linarith
  have s0 : 0 < s := lt_of_lt_of_le (by positivity) hlow
  have hcl : clampEps invEpsilon ((a * a + b * b) + c * c) = (a * a + b * b) + c * c := by
    unfold clampEps
    rw [if_neg]
    intro hh
    have := (less_iff hs isF_invEpsilon).1 hh
    unfold epsF at this
    linarith
  rw [hcl]
  have hd : |(1 : ℚ) / s| ≤ 2 ^ 127 := by
    rw [abs_of_pos (by positivity), div_le_iff₀ s0]; linarith
  obtain ⟨d, hD, hde⟩ := div_err_s isF_one hs s0.ne' hd
  have i1 : 1 / s ≤ 1 / n * (1 + 7 / 2 ^ 24) := by
    rw [div_le_iff₀ s0]
    have : 1 ≤ 1 / n * (n * (1 - 3 / 2 ^ 23)) * (1 + 7 / 2 ^ 24) := by
      rw [show 1 / n * (n * (1 - 3 / 2 ^ 23)) * (1 + 7 / 2 ^ 24) = (1 - 3 / 2 ^ 23) * (1 + 7 / 2 ^ 24) by field_simp]; norm_num
    have h4 : 1 / n * (n * (1 - 3 / 2 ^ 23)) * (1 + 7 / 2 ^ 24) ≤ 1 / n * s * (1 + 7 / 2 ^ 24) := by gcongr
    linarith
  have i2 : 1 / n * (1 - 3 / 2 ^ 23) ≤ 1 / s := by
    rw [le_div_iff₀ s0]
    have h4 : 1 / n * (1 - 3 / 2 ^ 23) * s ≤ 1 / n * (1 - 3 / 2 ^ 23) * (n * (1 + 3 / 2 ^ 23)) := by gcongr
    have : 1 / n * (1 - 3 / 2 ^ 23) * (n * (1 + 3 / 2 ^ 23)) ≤ 1 := by
      rw [show 1 / n * (1 - 3 / 2 ^ 23) * (n * (1 + 3 / 2 ^ 23)) = (1 - 3 / 2 ^ 23) * (1 + 3 / 2 ^ 23) by field_simp]; norm_num
    linarith
  have i3 : 1 / 2 ^ 60 ≤ 1 / n := by gcongr
  rw [abs_of_pos (by positivity : (0 : ℚ) < 1 / s)] at hde
  have d1 := abs_le.1 hde
  have i4 : |d - 1 / n| ≤ 1 / n * (10 / 2 ^ 24) := by rw [abs_le]; constructor <;> linarith
  have i0 : 0 < 1 / n := by positivity
  have hX30 : |X| ≤ 2 ^ 30 := by
    by_contra hc
    have := abs_mul_abs_self X
    nlinarith [abs_nonneg X]
  have hq : 1 / n ≤ 999999 := by rw [div_le_iff₀ n0]; linarith
  have j1 : |X * d - X / n| ≤ |X| / n * (10 / 2 ^ 24) := by
    rw [show X * d - X / n = X * (d - 1 / n) by ring, abs_mul]
    calc |X| * |d - 1 / n| ≤ |X| * (1 / n * (10 / 2 ^ 24)) := by gcongr
      _ = _ := by ring
  have hXn : |X / n| = |X| / n := by rw [abs_div, abs_of_pos n0]
  have hXq : |X| / n ≤ 2 ^ 50 := by
    calc |X| / n = |X| * (1 / n) := by ring
      _ ≤ 2 ^ 30 * 999999 := by gcongr
      _ ≤ _ := by norm_num
  have hXp : 0 ≤ |X| / n := by positivity
  have j2 : |X * d| ≤ |X| / n * (1 + 10 / 2 ^ 24) := by
    have := abs_sub_abs_le_abs_sub (X * d) (X / n)
    rw [hXn] at this
    linarith
  obtain ⟨r, hr, hre⟩ := mul_err_s hx hD (j2.trans (by linarith))
  refine ⟨⟨r, hr, ?_⟩, hXn.le⟩
  have k1 := abs_le.1 hre
  have k2 := abs_le.1 j1
  rw [abs_le]; constructor <;> linarith

theorem rowDot_le (M : Mat ℚ) (i j : Fin 3) : M.get j.castSucc i.castSucc * M.get j.castSucc i.castSucc ≤ rowDot M j j := by
  have h0 := mul_self_nonneg (M.get j.castSucc 0)
  have h1 := mul_self_nonneg (M.get j.castSucc 1)
  have h2 := mul_self_nonneg (M.get j.castSucc 2)
  unfold rowDot
  fin_cases i
  · show M.get j.castSucc 0 * M.get j.castSucc 0 ≤ _; linarith
  · show M.get j.castSucc 1 * M.get j.castSucc 1 ≤ _; linarith
  · show M.get j.castSucc 2 * M.get j.castSucc 2 ≤ _; linarith

theorem Mat.Holds.get {m : Mat Fl} {M : Mat ℚ} (h : m.Holds M) (i j : Fin 4) : IsF (m.get i j) (M.get i j) := by
  obtain ⟨⟨a, b, c, d⟩, ⟨a', b', c', d'⟩, ⟨a'', b'', c'', d''⟩, ⟨a3, b3, c3, d3⟩⟩ := h
  fin_cases i <;> fin_cases j <;> assumption

theorem inverse_acc (m : Mat Fl) (M : Mat ℚ) (hm : m.Holds M) (i j : Fin 3) (hj : Sized M j) :
    Acc ((m.inverse invEpsilon).get i.castSucc j.castSucc) (M.get j.castSucc i.castSucc / rowDot M j j) (|M.get j.castSucc i.castSucc| / rowDot M j j)
      (|M.get j.castSucc i.castSucc| / rowDot M j j / 2 ^ 20 + 1 / 2 ^ 140) := by
  rw [inverse_get]
  exact element_acc (hm.get _ _) (hm.get _ _) (hm.get _ _) (hm.get _ _) rfl hj.1 hj.2 (rowDot_le M i j)

/-- C161: an element of the upper left three by three part of the inverse is the element of the transposed matrix over the square of the length
of its row of the original, up to `2^-20` of itself. -/
theorem inverse_accurate (m : Mat Fl) (M : Mat ℚ) (hm : m.Holds M) (i j : Fin 3) (hj : Sized M j) :
    Within ((m.inverse invEpsilon).get i.castSucc j.castSucc) (M.get j.castSucc i.castSucc / rowDot M j j)
      (|M.get j.castSucc i.castSucc / rowDot M j j| / 2 ^ 20 + 1 / 2 ^ 140) := by
  refine (inverse_acc m M hm i j hj).within (le_of_eq ?_)
  rw [abs_div, abs_of_pos (by have := hj.1; linarith : 0 < rowDot M j j)]

theorem one_div_one : IsF (1 / 1) 1 := by
  have h : FIs (1 : Fl).bits (1 / 1) := by rw [div_one]; exact isF_one
  have := (div_rounded isF_one isF_one one_ne_zero).exact h h.lt_lim
  rw [div_one] at this
  exact this

theorem times_one {x : Fl} {v : ℚ} (h : IsF x v) : IsF (x * (1 / 1)) v := by
  have := mul_exact h one_div_one (z := x) (by simpa using h)
  simpa using this

/-- C161: a row not longer than about 0.001 is not inverted: its elements are only transposed. -/
theorem inverse_small_row (m : Mat Fl) (M : Mat ℚ) (hm : m.Holds M) (i j : Fin 3) (hj : rowDot M j j ≤ 1 / 1000001) :
    IsF ((m.inverse invEpsilon).get i.castSucc j.castSucc) (M.get j.castSucc i.castSucc) := by
  rw [inverse_get]
  have hr : rowDot M j j = M.get j.castSucc 0 * M.get j.castSucc 0 + M.get j.castSucc 1 * M.get j.castSucc 1 + M.get j.castSucc 2 * M.get j.castSucc 2 := rfl
  obtain ⟨s, hs, he⟩ := squares_acc (hm.get j.castSucc 0) (hm.get j.castSucc 1) (hm.get j.castSucc 2) (by rw [← hr]; linarith)
  rw [← hr] at he
  have e1 := abs_le.1 he
  have hlt : less ((m.get j.castSucc 0 * m.get j.castSucc 0 + m.get j.castSucc 1 * m.get j.castSucc 1) + m.get j.castSucc 2 * m.get j.castSucc 2).bits
      invEpsilon.bits = true := by
    rw [less_iff hs isF_invEpsilon]; unfold epsF; linarith
  have hcl : clampEps invEpsilon ((m.get j.castSucc 0 * m.get j.castSucc 0 + m.get j.castSucc 1 * m.get j.castSucc 1) +
      m.get j.castSucc 2 * m.get j.castSucc 2) = 1 := by
    unfold clampEps; exact if_pos hlt
  rw [hcl]
  exact times_one (hm.get _ _)

theorem zero_mul_exact {x y : Fl} {v : ℚ} (hx : IsF x 0) (hy : IsF y v) : IsF (x * y) 0 := by
  have := mul_exact hx hy (z := 0) (by simpa using isF_zero)
  simpa using this

theorem mul_zero_exact {x y : Fl} {v : ℚ} (hx : IsF x v) (hy : IsF y 0) : IsF (x * y) 0 := by
  have := mul_exact hx hy (z := 0) (by simpa using isF_zero)
  simpa using this

theorem zero_add_exact {x y : Fl} (hx : IsF x 0) (hy : IsF y 0) : IsF (x + y) 0 := by
  have := add_exact hx hy (z := 0) (by simpa using isF_zero)
  simpa using this

/-- C161: the fourth column of the inverse is that of the identity, if the third row has a zero there. -/
theorem inverse_last_column (m : Mat Fl) (M : Mat ℚ) (hm : m.Holds M) (hw : M.r3.w = 0) (i : Fin 4) :
    IsF ((m.inverse invEpsilon).get i 3) (if i = 3 then 1 else 0) := by
  have hw' : IsF m.r3.w 0 := hw ▸ hm.r3.w
  have hz := zero_mul_exact hw' hw'
  have hs := zero_add_exact (zero_add_exact hz hz) hz
  have hlt : less ((m.r3.w * m.r3.w + m.r3.w * m.r3.w) + m.r3.w * m.r3.w).bits invEpsilon.bits = true := by
    rw [less_iff hs isF_invEpsilon]; unfold epsF; norm_num
  have hcl : clampEps invEpsilon ((m.r3.w * m.r3.w + m.r3.w * m.r3.w) + m.r3.w * m.r3.w) = 1 := by
    unfold clampEps; exact if_pos hlt
  have hx : IsF (m.r3.w * (1 / clampEps invEpsilon ((m.r3.w * m.r3.w + m.r3.w * m.r3.w) + m.r3.w * m.r3.w))) 0 := by
    rw [hcl]; exact times_one hw'
  fin_cases i
  · exact hx
  · exact hx
  · exact hx
  · have := mul_exact isF_one isF_one (z := 1) (by simpa using isF_one)
    rw [mul_one] at this
    exact this

/-! ## Sums of products -/

theorem prod_acc {x c : Fl} {v M k : ℚ} (hx : Acc x v M (M / 2 ^ 20 + 1 / 2 ^ 140)) (hc : IsF c k) (hk : |k| ≤ 2 ^ 60) (hM : M ≤ 2 ^ 50) :
    Acc (x * c) (v * k) (M * |k|) (M * |k| * (18 / 2 ^ 24) + 1 / 2 ^ 79) := by
  have hM0 : 0 ≤ M := (abs_nonneg _).trans hx.2
  have h0 := abs_nonneg k
  have hT : M * |k| ≤ 2 ^ 50 * 2 ^ 60 := by gcongr
  refine (acc_mulc hx hc (le_refl |k|) ?_).weaken (le_refl _) ?_
  · rw [show (M + (M / 2 ^ 20 + 1 / 2 ^ 140)) * |k| = M * |k| * (1 + 1 / 2 ^ 20) + |k| / 2 ^ 140 by ring]; linarith
  · rw [show (M / 2 ^ 20 + 1 / 2 ^ 140) * |k| + (M + (M / 2 ^ 20 + 1 / 2 ^ 140)) * |k| / 2 ^ 24 + 1 / 2 ^ 150 =
      M * |k| * (1 / 2 ^ 20 + (1 + 1 / 2 ^ 20) / 2 ^ 24) + |k| * (1 / 2 ^ 140 + 1 / 2 ^ 164) + 1 / 2 ^ 150 by ring]
    have : 0 ≤ M * |k| := by positivity
    linarith

theorem prod_acc' {x c : Fl} {v M k : ℚ} (hx : Acc x v M (M / 2 ^ 20 + 1 / 2 ^ 140)) (hc : IsF c k) (hk : |k| ≤ 2 ^ 60) (hM : M ≤ 2 ^ 50) :
    Acc (c * x) (k * v) (|k| * M) (|k| * M * (18 / 2 ^ 24) + 1 / 2 ^ 79) := by
  have hM0 : 0 ≤ M := (abs_nonneg _).trans hx.2
  have h0 := abs_nonneg k
  have hT : |k| * M ≤ 2 ^ 60 * 2 ^ 50 := by gcongr
  refine (acc_cmul hc hx (le_refl |k|) ?_).weaken (le_refl _) ?_
  · rw [show |k| * (M + (M / 2 ^ 20 + 1 / 2 ^ 140)) = |k| * M * (1 + 1 / 2 ^ 20) + |k| / 2 ^ 140 by ring]; linarith
  · rw [show |k| * (M / 2 ^ 20 + 1 / 2 ^ 140) + |k| * (M + (M / 2 ^ 20 + 1 / 2 ^ 140)) / 2 ^ 24 + 1 / 2 ^ 150 =
      |k| * M * (1 / 2 ^ 20 + (1 + 1 / 2 ^ 20) / 2 ^ 24) + |k| * (1 / 2 ^ 140 + 1 / 2 ^ 164) + 1 / 2 ^ 150 by ring]
    have : 0 ≤ |k| * M := by positivity
    linarith

theorem sum_acc {x y z t : Fl} {u v w A B C : ℚ} (hx : Acc x u A (A * (18 / 2 ^ 24) + 1 / 2 ^ 79)) (hy : Acc y v B (B * (18 / 2 ^ 24) + 1 / 2 ^ 79))
    (hz : Acc z w C (C * (18 / 2 ^ 24) + 1 / 2 ^ 79)) (ht : IsF t 0) (h : A + B + C ≤ 2 ^ 120) :
    Acc ((x + y) + (z + t)) (u + v + w) (A + B + C) ((A + B + C) / 2 ^ 19 + 1 / 2 ^ 75) := by
  have a0 : 0 ≤ A := (abs_nonneg _).trans hx.2
  have b0 : 0 ≤ B := (abs_nonneg _).trans hy.2
  have c0 : 0 ≤ C := (abs_nonneg _).trans hz.2
  have h1 := acc_add hx hy (by linarith)
  have ht' := acc_exact ht
  rw [abs_zero] at ht'
  have h2 := acc_add hz ht' (by linarith)
  have h3 := acc_add h1 h2 (by linarith)
  rw [show u + v + w = u + v + (w + 0) by ring]
  exact h3.weaken (by linarith) (by linarith)

theorem inverse_row4 (m : Mat Fl) (e : Fl) (i : Fin 3) : (m.inverse e).get 3 i.castSucc =
    (((m.inverse e).get i.castSucc 0 * m.get 3 0 + (m.inverse e).get i.castSucc 1 * m.get 3 1) +
      ((m.inverse e).get i.castSucc 2 * m.get 3 2 + (m.inverse e).get i.castSucc 3 * m.get 3 3)) * (-1) := by
  fin_cases i <;> rfl

theorem mul_get_sum (a b : Mat Fl) (i k : Fin 4) : (a.mul b).get i k =
    (a.get i 0 * b.get 0 k + a.get i 1 * b.get 1 k) + (a.get i 2 * b.get 2 k + a.get i 3 * b.get 3 k) := by
  fin_cases i <;> fin_cases k <;> rfl

theorem comp_abs (M : Mat ℚ) (i j : Fin 3) (hj : Sized M j) : |M.get j.castSucc i.castSucc| ≤ 2 ^ 30 ∧ |M.get j.castSucc i.castSucc| / rowDot M j j ≤ 2 ^ 50 := by
  have h1 := rowDot_le M i j
  have h2 := hj.1
  have h3 := hj.2
  have n0 : 0 < rowDot M j j := by linarith
  generalize M.get j.castSucc i.castSucc = X at *
  generalize rowDot M j j = n at *
  have hX : |X| ≤ 2 ^ 30 := by
    by_contra hc
    have := abs_mul_abs_self X
    nlinarith [abs_nonneg X]
  refine ⟨hX, ?_⟩
  rw [div_le_iff₀ n0]
  have : (2 : ℚ) ^ 50 * (1 / 999999) ≤ 2 ^ 50 * n := by gcongr
  linarith

/-- C161: the fourth row of the inverse is minus the upper part applied to the translation, each product taken row by row. -/
theorem inverse_translation_accurate (m : Mat Fl) (M : Mat ℚ) (hm : m.Holds M) (hw : M.r3.w = 0) (hs : ∀ j, Sized M j)
    (hp : ∀ j : Fin 3, |M.get 3 j.castSucc| ≤ 2 ^ 60) (i : Fin 3) :
    Within ((m.inverse invEpsilon).get 3 i.castSucc)
      (-(M.get 0 i.castSucc / rowDot M 0 0 * M.get 3 0 + M.get 1 i.castSucc / rowDot M 1 1 * M.get 3 1 + M.get 2 i.castSucc / rowDot M 2 2 * M.get 3 2))
      ((|M.get 0 i.castSucc / rowDot M 0 0 * M.get 3 0| + |M.get 1 i.castSucc / rowDot M 1 1 * M.get 3 1| +
        |M.get 2 i.castSucc / rowDot M 2 2 * M.get 3 2|) / 2 ^ 19 + 1 / 2 ^ 75) := by
  have P : ∀ j : Fin 3, Acc ((m.inverse invEpsilon).get i.castSucc j.castSucc * m.get 3 j.castSucc)
      (M.get j.castSucc i.castSucc / rowDot M j j * M.get 3 j.castSucc) |M.get j.castSucc i.castSucc / rowDot M j j * M.get 3 j.castSucc|
      (|M.get j.castSucc i.castSucc / rowDot M j j * M.get 3 j.castSucc| * (18 / 2 ^ 24) + 1 / 2 ^ 79) := by
    intro j
    have := prod_acc (inverse_acc m M hm i j (hs j)) (hm.get 3 j.castSucc) (hp j) (comp_abs M i j (hs j)).2
    rwa [← abs_of_pos (by have := (hs j).1; linarith : 0 < rowDot M j j), ← abs_div, ← abs_mul,
      abs_of_pos (by have := (hs j).1; linarith : 0 < rowDot M j j)] at this
  have B : ∀ j : Fin 3, |M.get j.castSucc i.castSucc / rowDot M j j * M.get 3 j.castSucc| ≤ 2 ^ 110 := by
    intro j
    rw [abs_mul, abs_div, abs_of_pos (by have := (hs j).1; linarith : 0 < rowDot M j j)]
    calc _ ≤ (2 : ℚ) ^ 50 * 2 ^ 60 := mul_le_mul (comp_abs M i j (hs j)).2 (hp j) (abs_nonneg _) (by norm_num)
      _ = _ := by norm_num
  have Z : IsF ((m.inverse invEpsilon).get i.castSucc 3 * m.get 3 3) 0 := by
    have := inverse_last_column m M hm hw i.castSucc
    rw [if_neg (cs_ne i)] at this
    exact zero_mul_exact this (hm.get 3 3)
  have b0 := B 0
  have b1 := B 1
  have b2 := B 2
  obtain ⟨⟨r, hr, he⟩, -⟩ := sum_acc (P 0) (P 1) (P 2) Z (by linarith)
  rw [inverse_row4]
  refine ⟨r * (-1), isF_mul_neg hr, ?_⟩
  rw [show r * -1 - -(M.get 0 i.castSucc / rowDot M 0 0 * M.get 3 0 + M.get 1 i.castSucc / rowDot M 1 1 * M.get 3 1 +
    M.get 2 i.castSucc / rowDot M 2 2 * M.get 3 2) = -(r - (M.get 0 i.castSucc / rowDot M 0 0 * M.get 3 0 +
      M.get 1 i.castSucc / rowDot M 1 1 * M.get 3 1 + M.get 2 i.castSucc / rowDot M 2 2 * M.get 3 2)) by ring, abs_neg]
  exact he

/-- C161: an element of the upper part of the product of a matrix with its inverse is, up to rounding, what the directions of the rows make it:
one on the diagonal, zero for orthogonal rows. -/
theorem inverse_product_accurate (m : Mat Fl) (M : Mat ℚ) (hm : m.Holds M) (hw : ∀ j : Fin 3, M.get j.castSucc 3 = 0) (hs : ∀ j, Sized M j)
    (hp : ∀ j : Fin 3, |M.get 3 j.castSucc| ≤ 2 ^ 60) (i k : Fin 3) :
    Within ((m.mul (m.inverse invEpsilon)).get i.castSucc k.castSucc) (rowDot M i k / rowDot M k k)
      ((rowDot M i i / rowDot M k k + 1) / 2 ^ 20 + 1 / 2 ^ 75) := by
  have n0 : 0 < rowDot M k k := by have := (hs k).1; linarith
  have P : ∀ j : Fin 3, Acc (m.get i.castSucc j.castSucc * (m.inverse invEpsilon).get j.castSucc k.castSucc)
      (M.get i.castSucc j.castSucc * (M.get k.castSucc j.castSucc / rowDot M k k)) (|M.get i.castSucc j.castSucc| * (|M.get k.castSucc j.castSucc| / rowDot M k k))
      (|M.get i.castSucc j.castSucc| * (|M.get k.castSucc j.castSucc| / rowDot M k k) * (18 / 2 ^ 24) + 1 / 2 ^ 79) := by
    intro j
    exact prod_acc' (inverse_acc m M hm j k (hs k)) (hm.get _ _) ((comp_abs M j i (hs i)).1.trans (by norm_num)) (comp_abs M j k (hs k)).2
  have B : ∀ j : Fin 3, |M.get i.castSucc j.castSucc| * (|M.get k.castSucc j.castSucc| / rowDot M k k) ≤ 2 ^ 110 := by
    intro j
    calc _ ≤ (2 : ℚ) ^ 60 * 2 ^ 50 := mul_le_mul ((comp_abs M j i (hs i)).1.trans (by norm_num)) (comp_abs M j k (hs k)).2 (by positivity) (by norm_num)
      _ = _ := by norm_num
  have Z : IsF (m.get i.castSucc 3 * (m.inverse invEpsilon).get 3 k.castSucc) 0 := by
    obtain ⟨r, hr, -⟩ := inverse_translation_accurate m M hm (hw 2) hs hp k
    have := hm.get i.castSucc 3
    rw [hw i] at this
    exact zero_mul_exact this hr
  have b0 := B 0
  have b1 := B 1
  have b2 := B 2
  rw [mul_get_sum]
  obtain ⟨⟨r, hr, he⟩, -⟩ := sum_acc (P 0) (P 1) (P 2) Z (by linarith)
  refine ⟨r, hr, ?_⟩
  have e1 : M.get i.castSucc (0 : Fin 3).castSucc * (M.get k.castSucc (0 : Fin 3).castSucc / rowDot M k k) +
      M.get i.castSucc (1 : Fin 3).castSucc * (M.get k.castSucc (1 : Fin 3).castSucc / rowDot M k k) +
      M.get i.castSucc (2 : Fin 3).castSucc * (M.get k.castSucc (2 : Fin 3).castSucc / rowDot M k k) = rowDot M i k / rowDot M k k := by
    rw [show rowDot M i k = M.get i.castSucc (0 : Fin 3).castSucc * M.get k.castSucc (0 : Fin 3).castSucc +
      M.get i.castSucc (1 : Fin 3).castSucc * M.get k.castSucc (1 : Fin 3).castSucc + M.get i.castSucc (2 : Fin 3).castSucc * M.get k.castSucc (2 : Fin 3).castSucc from rfl]
    ring
  rw [e1] at he
  refine he.trans ?_
  have T : ∀ j : Fin 3, |M.get i.castSucc j.castSucc| * (|M.get k.castSucc j.castSucc| / rowDot M k k) ≤
      (M.get i.castSucc j.castSucc * M.get i.castSucc j.castSucc + M.get k.castSucc j.castSucc * M.get k.castSucc j.castSucc) / 2 / rowDot M k k := by
    intro j
    rw [← mul_div_assoc]
    gcongr
    have h1 := abs_mul_abs_self (M.get i.castSucc j.castSucc)
    have h2 := abs_mul_abs_self (M.get k.castSucc j.castSucc)
    nlinarith [sq_nonneg (|M.get i.castSucc j.castSucc| - |M.get k.castSucc j.castSucc|)]
  have t0 := T 0
  have t1 := T 1
  have t2 := T 2
  have hsum : (M.get i.castSucc (0 : Fin 3).castSucc * M.get i.castSucc (0 : Fin 3).castSucc + M.get k.castSucc (0 : Fin 3).castSucc * M.get k.castSucc (0 : Fin 3).castSucc) / 2 / rowDot M k k +
      (M.get i.castSucc (1 : Fin 3).castSucc * M.get i.castSucc (1 : Fin 3).castSucc + M.get k.castSucc (1 : Fin 3).castSucc * M.get k.castSucc (1 : Fin 3).castSucc) / 2 / rowDot M k k +
      (M.get i.castSucc (2 : Fin 3).castSucc * M.get i.castSucc (2 : Fin 3).castSucc + M.get k.castSucc (2 : Fin 3).castSucc * M.get k.castSucc (2 : Fin 3).castSucc) / 2 / rowDot M k k =
      (rowDot M i i / rowDot M k k + 1) / 2 := by
    have hk : rowDot M k k / rowDot M k k = 1 := div_self n0.ne'
    rw [← hk]
    have u : ∀ a, rowDot M a a = M.get a.castSucc (0 : Fin 3).castSucc * M.get a.castSucc (0 : Fin 3).castSucc +
      M.get a.castSucc (1 : Fin 3).castSucc * M.get a.castSucc (1 : Fin 3).castSucc + M.get a.castSucc (2 : Fin 3).castSucc * M.get a.castSucc (2 : Fin 3).castSucc := fun _ => rfl
    generalize hN : rowDot M k k = N at *
    rw [u i, show N / N = (M.get k.castSucc (0 : Fin 3).castSucc * M.get k.castSucc (0 : Fin 3).castSucc +
      M.get k.castSucc (1 : Fin 3).castSucc * M.get k.castSucc (1 : Fin 3).castSucc + M.get k.castSucc (2 : Fin 3).castSucc * M.get k.castSucc (2 : Fin 3).castSucc) / N by rw [← u k, hN]]
    ring
  linarith

/-- C161: without a translation the last row and the last column of the product are exactly those of the identity. -/
theorem inverse_product_border (m : Mat Fl) (M : Mat ℚ) (hm : m.Holds M) (hw : ∀ j : Fin 3, M.get j.castSucc 3 = 0) (hs : ∀ j, Sized M j)
    (ht : M.r4 = ⟨0, 0, 0, 1⟩) (i : Fin 4) :
    IsF ((m.mul (m.inverse invEpsilon)).get i 3) (if i = 3 then 1 else 0) ∧ IsF ((m.mul (m.inverse invEpsilon)).get 3 i) (if i = 3 then 1 else 0) := by
  have C := inverse_last_column m M hm (hw 2)
  have c0 : IsF ((m.inverse invEpsilon).get 0 3) 0 := C 0
  have c1 : IsF ((m.inverse invEpsilon).get 1 3) 0 := C 1
  have c2 : IsF ((m.inverse invEpsilon).get 2 3) 0 := C 2
  have c3 : IsF ((m.inverse invEpsilon).get 3 3) 1 := C 3
  have m30 : IsF (m.get 3 0) 0 := by have := hm.get 3 0; rwa [show M.get 3 0 = 0 from congrArg V4.x ht] at this
  have m31 : IsF (m.get 3 1) 0 := by have := hm.get 3 1; rwa [show M.get 3 1 = 0 from congrArg V4.y ht] at this
  have m32 : IsF (m.get 3 2) 0 := by have := hm.get 3 2; rwa [show M.get 3 2 = 0 from congrArg V4.z ht] at this
  have m33 : IsF (m.get 3 3) 1 := by have := hm.get 3 3; rwa [show M.get 3 3 = 1 from congrArg V4.w ht] at this
  have G : ∀ a b : Fin 3, ∃ r, IsF ((m.inverse invEpsilon).get a.castSucc b.castSucc) r := fun a b => by
    obtain ⟨⟨r, hr, -⟩, -⟩ := inverse_acc m M hm a b (hs b); exact ⟨r, hr⟩
  have R : ∀ a : Fin 3, IsF ((m.inverse invEpsilon).get 3 a.castSucc) 0 := by
    intro a
    obtain ⟨r0, g0⟩ := G a 0
    obtain ⟨r1, g1⟩ := G a 1
    obtain ⟨r2, g2⟩ := G a 2
    rw [inverse_row4]
    have c := C a.castSucc
    rw [if_neg (cs_ne a)] at c
    have := isF_mul_neg (zero_add_exact (zero_add_exact (mul_zero_exact g0 m30) (mul_zero_exact g1 m31)) (zero_add_exact (mul_zero_exact g2 m32) (zero_mul_exact c m33)))
    rwa [zero_mul] at this
  have zo : ∀ {x y : Fl}, IsF x 0 → IsF y 1 → IsF (x + y) 1 := by
    intro x y hx hy
    have := add_exact hx hy (z := 1) (by rw [zero_add]; exact isF_one)
    rwa [zero_add] at this
  have oo : ∀ {x y : Fl}, IsF x 1 → IsF y 1 → IsF (x * y) 1 := by
    intro x y hx hy
    have := mul_exact hx hy (z := 1) (by rw [one_mul]; exact isF_one)
    rwa [one_mul] at this
  have corner : IsF ((m.mul (m.inverse invEpsilon)).get 3 3) 1 := by
    rw [mul_get_sum]
    exact zo (zero_add_exact (zero_mul_exact m30 c0) (zero_mul_exact m31 c1)) (zo (zero_mul_exact m32 c2) (oo m33 c3))
  have col : ∀ a : Fin 3, IsF ((m.mul (m.inverse invEpsilon)).get a.castSucc 3) 0 := by
    intro a
    rw [mul_get_sum]
    have w := hm.get a.castSucc 3
    rw [hw a] at w
    exact zero_add_exact (zero_add_exact (mul_zero_exact (hm.get _ _) c0) (mul_zero_exact (hm.get _ _) c1)) (zero_add_exact (mul_zero_exact (hm.get _ _) c2) (zero_mul_exact w c3))
  have row : ∀ a : Fin 3, IsF ((m.mul (m.inverse invEpsilon)).get 3 a.castSucc) 0 := by
    intro a
    rw [mul_get_sum]
    obtain ⟨r0, g0⟩ := G 0 a
    obtain ⟨r1, g1⟩ := G 1 a
    obtain ⟨r2, g2⟩ := G 2 a
    exact zero_add_exact (zero_add_exact (zero_mul_exact m30 g0) (zero_mul_exact m31 g1)) (zero_add_exact (zero_mul_exact m32 g2) (mul_zero_exact m33 (R a)))
  fin_cases i
  · exact ⟨col 0, row 0⟩
  · exact ⟨col 1, row 1⟩
  · exact ⟨col 2, row 2⟩
  · exact ⟨corner, corner⟩

/-- C161: the product of a matrix without translation with its inverse is the identity up to `2^-17` and the error `δ` of the right angles
between its rows, when no row is more than twice as long as another. -/
theorem inverse_identity_partial (m : Mat Fl) (M : Mat ℚ) (hm : m.Holds M) (hw : ∀ j : Fin 3, M.get j.castSucc 3 = 0) (hs : ∀ j, Sized M j)
    (ht : M.r4 = ⟨0, 0, 0, 1⟩) (δ : ℚ) (ho : ∀ i k : Fin 3, i ≠ k → |rowDot M i k| ≤ δ * rowDot M k k)
    (hl : ∀ i k : Fin 3, rowDot M i i ≤ 4 * rowDot M k k) (i k : Fin 4) :
    Within ((m.mul (m.inverse invEpsilon)).get i k) (if i = k then 1 else 0) (δ + 1 / 2 ^ 17) := by
  have n0 : ∀ k, 0 < rowDot M k k := fun k => by have := (hs k).1; linarith
  have d0 : 0 ≤ δ := by
    have h1 := (abs_nonneg _).trans (ho 0 1 (by decide))
    by_contra hc
    have := n0 1
    nlinarith
  have hp : ∀ j : Fin 3, |M.get 3 j.castSucc| ≤ 2 ^ 60 := by
    intro j
    have : M.get 3 j.castSucc = 0 := by
      show M.r4.lane j.castSucc = 0
      rw [ht]; fin_cases j <;> rfl
    rw [this]; norm_num
  have B := inverse_product_border m M hm hw hs ht
  have main : ∀ i k : Fin 3, Within ((m.mul (m.inverse invEpsilon)).get i.castSucc k.castSucc) (if i = k then 1 else 0) (δ + 1 / 2 ^ 17) := by
    intro i k
    obtain ⟨r, hr, he⟩ := inverse_product_accurate m M hm hw hs hp i k
    refine ⟨r, hr, ?_⟩
    have hq : rowDot M i i / rowDot M k k ≤ 4 := by rw [div_le_iff₀ (n0 k)]; exact hl i k
    have he' := abs_le.1 he
    by_cases hik : i = k
    · subst hik
      rw [if_pos rfl]
      rw [div_self (n0 i).ne'] at he'
      rw [abs_le]; constructor <;> linarith
    · rw [if_neg hik]
      have h1 : |rowDot M i k / rowDot M k k| ≤ δ := by
        rw [abs_div, abs_of_pos (n0 k), div_le_iff₀ (n0 k)]; exact ho i k hik
      have h2 := abs_le.1 h1
      rw [abs_le]; constructor <;> linarith
  have ex : ∀ {x : Fl} {v : ℚ}, IsF x v → Within x v (δ + 1 / 2 ^ 17) := fun h => ⟨_, h, by rw [sub_self, abs_zero]; positivity⟩
  refine Fin.lastCases ?_ (fun i => ?_) i
  · refine Fin.lastCases ?_ (fun k => ?_) k
    · exact ex (B 3).1
    · have := (B k.castSucc).2
      rw [if_neg (cs_ne k)] at this
      rw [if_neg (Fin.castSucc_ne_last k).symm]
      exact ex this
  · refine Fin.lastCases ?_ (fun k => ?_) k
    · have := (B i.castSucc).1
      rw [if_neg (cs_ne i)] at this
      rw [if_neg (Fin.castSucc_ne_last i)]
      exact ex this
    · have := main i k
      simpa only [Fin.castSucc_inj] using this

/-! ## Cases -/

/-- Rows of length five, and a translation. -/
def five (p : V4 ℚ) : Mat ℚ := ⟨⟨3, 4, 0, 0⟩, ⟨-4, 3, 0, 0⟩, ⟨0, 0, 5, 0⟩, p⟩
/-- The same as floats. -/
def fiveF (p : V4 Fl) : Mat Fl :=
  ⟨⟨⟨0x40400000⟩, ⟨0x40800000⟩, 0, 0⟩, ⟨⟨0xc0800000⟩, ⟨0x40400000⟩, 0, 0⟩, ⟨0, 0, ⟨0x40a00000⟩, 0⟩, p⟩

theorem five_holds {p : V4 Fl} {q : V4 ℚ} (h : p.Holds q) : (fiveF p).Holds (five q) := by
  have h3 : IsF ⟨0x40400000⟩ 3 := ⟨false, 3 * 2 ^ 149, by decide +kernel, by norm_num [sgn, unit]⟩
  have h4 : IsF ⟨0x40800000⟩ 4 := ⟨false, 4 * 2 ^ 149, by decide +kernel, by norm_num [sgn, unit]⟩
  have h4' : IsF ⟨0xc0800000⟩ (-4) := ⟨true, 4 * 2 ^ 149, by decide +kernel, by norm_num [sgn, unit]⟩
  have h5 : IsF ⟨0x40a00000⟩ 5 := ⟨false, 5 * 2 ^ 149, by decide +kernel, by norm_num [sgn, unit]⟩
  exact ⟨⟨h3, h4, isF_zero, isF_zero⟩, ⟨h4', h3, isF_zero, isF_zero⟩, ⟨isF_zero, isF_zero, h5, isF_zero⟩, h⟩

theorem five_row (q : V4 ℚ) (i k : Fin 3) : rowDot (five q) i k = if i = k then 25 else 0 := by
  have h : rowDot (five q) i k = rowDot (five ⟨0, 0, 0, 0⟩) i k := by fin_cases i <;> fin_cases k <;> rfl
  rw [h]
  clear h
  revert i k
  decide +kernel

theorem five_sized (q : V4 ℚ) (j : Fin 3) : Sized (five q) j := by
  unfold Sized; rw [five_row]; norm_num

/-- The hypotheses of the accuracy theorems hold for a turned matrix with scale five. -/
example (i j : Fin 3) := inverse_accurate _ _ (five_holds (p := ⟨0, 0, 0, 1⟩) (q := ⟨0, 0, 0, 1⟩) ⟨isF_zero, isF_zero, isF_zero, isF_one⟩) i j (five_sized _ j)
example (i : Fin 3) := inverse_translation_accurate _ _ (five_holds (p := ⟨1, 0, 1, 1⟩) (q := ⟨1, 0, 1, 1⟩) ⟨isF_one, isF_zero, isF_one, isF_one⟩) rfl (five_sized _)
  (by decide +kernel) i
example (i k : Fin 4) := inverse_identity_partial _ _ (five_holds (p := ⟨0, 0, 0, 1⟩) (q := ⟨0, 0, 0, 1⟩) ⟨isF_zero, isF_zero, isF_zero, isF_one⟩)
  (by intro j; fin_cases j <;> rfl) (five_sized _) rfl 0 (by intro i k h; rw [five_row, if_neg h]; norm_num)
  (by intro i k; rw [five_row, five_row]; norm_num) i k

/-- A scale by zero is not inverted. -/
example (i j : Fin 3) : IsF (((⟨⟨0, 0, 0, 0⟩, ⟨0, 0, 0, 0⟩, ⟨0, 0, 0, 0⟩, ⟨0, 0, 0, 1⟩⟩ : Mat Fl).inverse invEpsilon).get i.castSucc j.castSucc)
    ((⟨⟨0, 0, 0, 0⟩, ⟨0, 0, 0, 0⟩, ⟨0, 0, 0, 0⟩, ⟨0, 0, 0, 1⟩⟩ : Mat ℚ).get j.castSucc i.castSucc) := by
  refine inverse_small_row _ _ ⟨⟨isF_zero, isF_zero, isF_zero, isF_zero⟩, ⟨isF_zero, isF_zero, isF_zero, isF_zero⟩,
    ⟨isF_zero, isF_zero, isF_zero, isF_zero⟩, ⟨isF_zero, isF_zero, isF_zero, isF_one⟩⟩ i j ?_
  revert j; decide +kernel

/-- C161 is violated with a translation: a quarter turn with the translation (1, 0, 0), times its inverse, has -2 as the
second component of its translation, not 0. -/
theorem inverse_identity_violated :
    let m : Mat Fl := ⟨⟨0, 1, 0, 0⟩, ⟨-1, 0, 0, 0⟩, ⟨0, 0, 1, 0⟩, ⟨1, 0, 0, 1⟩⟩
    m.Holds turned ∧ (∀ j, Sized turned j) ∧ (∀ i k, rowDot turned i k = if i = k then 1 else 0) ∧
      ((m.mul (m.inverse invEpsilon)).get 3 1).bits = 0xc0000000#32 := by
  have hr : ∀ i k, rowDot turned i k = if i = k then 1 else 0 := by decide +kernel
  refine ⟨⟨⟨isF_zero, isF_one, isF_zero, isF_zero⟩, ⟨isF_neg isF_one, isF_zero, isF_zero, isF_zero⟩, ⟨isF_zero, isF_zero, isF_one, isF_zero⟩,
    ⟨isF_one, isF_zero, isF_zero, isF_one⟩⟩, fun j => ?_, hr, by decide +kernel⟩
  unfold Sized; rw [hr]; norm_num

end PreCore.Vec
