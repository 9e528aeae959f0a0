import Verif.Props.FloatVec
import Mathlib.Analysis.SpecialFunctions.Pow.NNReal
/-!
# C131: lengths and normalized vectors of floats
-/
namespace PreCore.Vec
open PreCore.F32

/-! ## Specification -/

/-- Sum of the squares of the components. -/
def V2.sq (v : V2 ℚ) : ℚ := v.x ^ 2 + v.y ^ 2
def V3.sq (v : V3 ℚ) : ℚ := v.x ^ 2 + v.y ^ 2 + v.z ^ 2
def V4.sq (v : V4 ℚ) : ℚ := v.x ^ 2 + v.y ^ 2 + v.z ^ 2 + v.w ^ 2

/-- `x` is a finite float at most `e` from the real number `v`. -/
def Near (x : Fl) (v e : ℝ) : Prop := ∃ r : ℚ, IsF x r ∧ |(r : ℝ) - v| ≤ e

/-- The squares are neither too small nor too large for floats. -/
def Moderate (n : ℚ) : Prop := 1 / 2 ^ 100 ≤ n ∧ n ≤ 2 ^ 120

/-! ## The core -/

/-- A positive value is stored without a sign. -/
theorem IsF.pos_is {x : Fl} {v : ℚ} (h : IsF x v) (hv : 0 < v) : Is x.bits v := by
  obtain ⟨s, m, h1, h2⟩ := h
  cases s
  · exact ⟨m, h1, by rw [h2]; simp [sgn]⟩
  · exfalso
    have hm : (0 : ℚ) ≤ (m : ℚ) / unit := div_nonneg (Nat.cast_nonneg _) unit_pos.le
    simp only [sgn, if_true] at h2
    linarith

/-- The square root of a sum of squares that is off by 2^-21 is off by 2^-21. -/
theorem sqrt_near {S : Fl} {s n : ℚ} (hS : IsF S s) (hn : Moderate n) (hs : |s - n| ≤ n / 2 ^ 21 + 1 / 2 ^ 147) :
    ∃ r : ℚ, IsF S.sqrt r ∧ |(r : ℝ) - √n| ≤ √n / 2 ^ 21 := by
  obtain ⟨h1, h2⟩ := hn
  have hn0 : 0 < n := lt_of_lt_of_le (by norm_num) h1
  have hs' := abs_le.1 hs
  have hc : (1 : ℚ) / 2 ^ 147 ≤ n / 2 ^ 47 := by
    rw [le_div_iff₀ (by norm_num)]
    refine le_trans (le_of_eq ?_) h1
    norm_num
  have hs0 : 0 < s := by
    have : n / 2 ^ 21 + n / 2 ^ 47 < n := by
      have e : n / 2 ^ 21 + n / 2 ^ 47 = n * (1 / 2 ^ 21 + 1 / 2 ^ 47) := by ring
      rw [e]
      nlinarith
    linarith
  obtain ⟨r, hr, he⟩ := sqrt_err (hS.pos_is hs0)
  refine ⟨r, hr.fis, ?_⟩
  have hsR : |(s : ℝ) - n| ≤ n / 2 ^ 21 + n / 2 ^ 47 := by
    have : |s - n| ≤ n / 2 ^ 21 + n / 2 ^ 47 := by linarith
    exact_mod_cast this
  have hnR : (0 : ℝ) < n := by exact_mod_cast hn0
  have hsR0 : (0 : ℝ) < s := by exact_mod_cast hs0
  have hlow : (1 : ℝ) / 2 ^ 100 ≤ n := by
    have : ((1 / 2 ^ 100 : ℚ) : ℝ) ≤ n := by exact_mod_cast h1
    push_cast at this; exact this
  have a1 := Real.sqrt_pos.2 hnR
  have a2 := Real.sqrt_pos.2 hsR0
  have a3 := Real.sq_sqrt hnR.le
  have a4 := Real.sq_sqrt hsR0.le
  have a5 : (1 : ℝ) / 2 ^ 50 ≤ √(n : ℝ) := by
    apply Real.le_sqrt_of_sq_le
    refine le_trans (le_of_eq ?_) hlow
    norm_num
  clear hs hs' h1 h2 hc
  generalize √(n : ℝ) = y at *
  generalize √(s : ℝ) = x at *
  generalize (r : ℝ) = z at *
  have b1 := abs_le.1 hsR
  rw [← a3, ← a4] at b1
  obtain ⟨b1, b2⟩ := b1
  have c1 : x ≤ y + y / 2 ^ 22 + y / 2 ^ 47 := by
    by_contra hh
    have hh := not_le.1 hh
    have : (y + y / 2 ^ 22 + y / 2 ^ 47) ^ 2 < x ^ 2 := by
      apply pow_lt_pow_left₀ hh (by positivity) (by norm_num)
    have h2 : 0 < y ^ 2 := by positivity
    norm_num at *
    nlinarith
  have c2 : y - y / 2 ^ 22 - y / 2 ^ 42 ≤ x := by
    by_contra hh
    have hh := not_le.1 hh
    have : x ^ 2 < (y - y / 2 ^ 22 - y / 2 ^ 42) ^ 2 := by
      apply pow_lt_pow_left₀ hh a2.le (by norm_num)
    have h2 : 0 < y ^ 2 := by positivity
    norm_num at *
    nlinarith
  have d := abs_le.1 he
  have a6 : (1 : ℝ) / 2 ^ 149 ≤ y / 2 ^ 99 := by
    rw [le_div_iff₀ (by norm_num)]
    refine le_trans (le_of_eq ?_) a5
    norm_num
  rw [abs_le]
  constructor
  · norm_num at *; linarith
  · norm_num at *; linarith

/-- Division of a component by the length. -/
theorem div_near {X L : Fl} {x l : ℚ} {y : ℝ} (hX : IsF X x) (hL : IsF L l) (hy : 0 < y) (hx : |(x : ℝ)| ≤ y) (hl : |(l : ℝ) - y| ≤ y / 2 ^ 21) :
    Near (X / L) (x / y) (1 / 2 ^ 20) := by
  have hl' := abs_le.1 hl
  have hlp : y * (1 - 1 / 2 ^ 21) ≤ (l : ℝ) := by linarith
  have hl0R : (0 : ℝ) < l := lt_of_lt_of_le (by norm_num; exact hy) hlp
  have hl0 : (0 : ℚ) < l := by exact_mod_cast hl0R
  -- the exact quotient
  have q : |(x : ℝ) / l - x / y| ≤ 1 / 2 ^ 21 * (1 + 1 / 2 ^ 20) := by
    have e : (x : ℝ) / l - x / y = x / y * ((y - l) / l) := by field_simp
    rw [e, abs_mul, abs_div, abs_div, abs_of_pos hy, abs_of_pos hl0R]
    have f1 : |(x : ℝ)| / y ≤ 1 := by rw [div_le_one hy]; exact hx
    have f2 : |y - (l : ℝ)| / l ≤ 1 / 2 ^ 21 * (1 + 1 / 2 ^ 20) := by
      rw [div_le_iff₀ hl0R, abs_sub_comm]
      refine hl.trans ?_
      have : 1 / 2 ^ 21 * (1 + 1 / 2 ^ 20) * (y * (1 - 1 / 2 ^ 21)) ≤ 1 / 2 ^ 21 * (1 + 1 / 2 ^ 20) * (l : ℝ) :=
        mul_le_mul_of_nonneg_left hlp (by norm_num)
      refine le_trans ?_ this
      norm_num
      linarith
    have f0 : 0 ≤ |(x : ℝ)| / y := by positivity
    calc |(x : ℝ)| / y * (|y - (l : ℝ)| / l) ≤ 1 * (|y - (l : ℝ)| / l) := by
          apply mul_le_mul_of_nonneg_right f1; positivity
      _ ≤ _ := by rw [one_mul]; exact f2
  have hxy : |(x : ℝ) / y| ≤ 1 := by rw [abs_div, abs_of_pos hy, div_le_one hy]; exact hx
  have q2 : |(x : ℝ) / l| ≤ 2 := by
    have := abs_le.1 q
    have := abs_le.1 hxy
    rw [abs_le]
    constructor
    · norm_num at *; linarith
    · norm_num at *; linarith
  have q3 : |x / l| ≤ 2 := by exact_mod_cast q2
  obtain ⟨r, hr, he⟩ := div_err_s hX hL hl0.ne' (q3.trans (by norm_num))
  refine ⟨r, hr, ?_⟩
  have he' : |(r : ℝ) - x / l| ≤ 2 / 2 ^ 24 + 1 / 2 ^ 150 := by
    have : |r - x / l| ≤ 2 / 2 ^ 24 + 1 / 2 ^ 150 := by
      refine he.trans ?_
      have := div_le_div_of_nonneg_right q3 (show (0 : ℚ) ≤ 2 ^ 24 by norm_num)
      linarith
    have h2 : ((|r - x / l| : ℚ) : ℝ) ≤ ((2 / 2 ^ 24 + 1 / 2 ^ 150 : ℚ) : ℝ) := by exact_mod_cast this
    push_cast at h2
    exact h2
  have g1 := abs_le.1 he'
  have g2 := abs_le.1 q
  rw [abs_le]
  constructor
  · norm_num at *; linarith
  · norm_num at *; linarith

theorem absDot_self (v : V4 ℚ) : absDot v v = v.sq := by
  unfold absDot V4.sq
  rw [abs_mul_self, abs_mul_self, abs_mul_self, abs_mul_self]; ring

theorem Moderate.le {n : ℚ} (h : Moderate n) : n ≤ 2 ^ 126 := h.2.trans (by norm_num)
theorem Moderate.pos {n : ℚ} (h : Moderate n) : 0 < n := lt_of_lt_of_le (by norm_num) h.1

theorem comp_le {x n : ℚ} (h : x ^ 2 ≤ n) : |(x : ℝ)| ≤ √(n : ℝ) := by
  apply Real.abs_le_sqrt
  exact_mod_cast h

theorem sq_v4 {a : V4 Fl} {v : V4 ℚ} (h : a.Holds v) (hn : Moderate v.sq) :
    ∃ s, IsF (a.x * a.x + a.y * a.y + a.z * a.z + a.w * a.w) s ∧ |s - v.sq| ≤ v.sq / 2 ^ 21 + 1 / 2 ^ 147 := by
  have hd := (dot_accurate a a v v h h (by rw [absDot_self]; exact hn.le)).1
  rw [absDot_self] at hd
  have e : v.dot v = v.sq := by unfold V4.dot V4.sq; ring
  rw [e] at hd
  exact hd

theorem sq_simd {a : V4 Fl} {v : V4 ℚ} (h : a.Holds v) (hn : Moderate v.sq) :
    ∃ s, IsF (a.dpPs a) s ∧ |s - v.sq| ≤ v.sq / 2 ^ 21 + 1 / 2 ^ 147 := by
  have hd := dot_simd_accurate a a v v h h (by rw [absDot_self]; exact hn.le)
  rw [absDot_self] at hd
  have e : v.dot v = v.sq := by unfold V4.dot V4.sq; ring
  rw [e] at hd
  obtain ⟨s, h1, h2⟩ := hd
  refine ⟨s, h1, h2.trans ?_⟩
  have := hn.pos
  norm_num
  linarith

theorem sq_v3 {a : V3 Fl} {v : V3 ℚ} (h : a.Holds v) (hn : Moderate v.sq) :
    ∃ s, IsF (a.x * a.x + a.y * a.y + a.z * a.z) s ∧ |s - v.sq| ≤ v.sq / 2 ^ 21 + 1 / 2 ^ 147 := by
  have e4 : absDot ⟨v.x, v.y, v.z, 0⟩ ⟨v.x, v.y, v.z, 0⟩ = v.sq := by
    rw [absDot_self]; unfold V4.sq V3.sq; ring
  have hd := (dot_accurate ⟨a.x, a.y, a.z, 0⟩ ⟨a.x, a.y, a.z, 0⟩ ⟨v.x, v.y, v.z, 0⟩ ⟨v.x, v.y, v.z, 0⟩ ⟨h.x, h.y, h.z, isF_zero⟩
    ⟨h.x, h.y, h.z, isF_zero⟩ (by rw [e4]; exact hn.le)).2.1
  simp only [abs_mul_self] at hd
  have e : V3.dot (⟨v.x, v.y, v.z⟩ : V3 ℚ) ⟨v.x, v.y, v.z⟩ = v.sq := by unfold V3.dot V3.sq; ring
  have e' : v.x * v.x + v.y * v.y + v.z * v.z = v.sq := by unfold V3.sq; ring
  rw [e, e'] at hd
  obtain ⟨s, h1, h2⟩ := hd
  refine ⟨s, h1, h2.trans ?_⟩
  have := hn.pos
  norm_num
  linarith

theorem sq_v2 {a : V2 Fl} {v : V2 ℚ} (h : a.Holds v) (hn : Moderate v.sq) :
    ∃ s, IsF (a.x * a.x + a.y * a.y) s ∧ |s - v.sq| ≤ v.sq / 2 ^ 21 + 1 / 2 ^ 147 := by
  have e4 : absDot ⟨v.x, v.y, 0, 0⟩ ⟨v.x, v.y, 0, 0⟩ = v.sq := by
    rw [absDot_self]; unfold V4.sq V2.sq; ring
  have hd := (dot_accurate ⟨a.x, a.y, 0, 0⟩ ⟨a.x, a.y, 0, 0⟩ ⟨v.x, v.y, 0, 0⟩ ⟨v.x, v.y, 0, 0⟩ ⟨h.x, h.y, isF_zero, isF_zero⟩
    ⟨h.x, h.y, isF_zero, isF_zero⟩ (by rw [e4]; exact hn.le)).2.2
  simp only [abs_mul_self] at hd
  have e : V2.dot (⟨v.x, v.y⟩ : V2 ℚ) ⟨v.x, v.y⟩ = v.sq := by unfold V2.dot V2.sq; ring
  have e' : v.x * v.x + v.y * v.y = v.sq := by unfold V2.sq; ring
  rw [e, e'] at hd
  obtain ⟨s, h1, h2⟩ := hd
  refine ⟨s, h1, h2.trans ?_⟩
  have := hn.pos
  norm_num
  linarith

theorem not_zero {L : Fl} {l : ℚ} {y : ℝ} (hL : IsF L l) (hy : 0 < y) (hl : |(l : ℝ) - y| ≤ y / 2 ^ 21) : L ≠ 0 := by
  rintro rfl
  have e : l = 0 := FIs.unique hL isF_zero
  rw [e] at hl
  have := abs_le.1 hl
  norm_num at this
  linarith

/-! ## Theorems -/

/-- C131: the length of a vector is at most 2^-21 of it off. -/
theorem length_accurate :
    (∀ (a : V2 Fl) v, a.Holds v → Moderate v.sq → Near (a.length Fl.sqrt) (√v.sq) (√v.sq / 2 ^ 21)) ∧
    (∀ (a : V3 Fl) v, a.Holds v → Moderate v.sq → Near (a.length Fl.sqrt) (√v.sq) (√v.sq / 2 ^ 21)) ∧
    (∀ (a : V4 Fl) v, a.Holds v → Moderate v.sq → Near (a.length Fl.sqrt) (√v.sq) (√v.sq / 2 ^ 21)) ∧
    (∀ (a : V4 Fl) v, a.Holds v → Moderate v.sq → Near (a.simdLength Fl.sqrt) (√v.sq) (√v.sq / 2 ^ 21)) := by
  refine ⟨fun a v h hn => ?_, fun a v h hn => ?_, fun a v h hn => ?_, fun a v h hn => ?_⟩
  · obtain ⟨s, h1, h2⟩ := sq_v2 h hn; exact sqrt_near h1 hn h2
  · obtain ⟨s, h1, h2⟩ := sq_v3 h hn; exact sqrt_near h1 hn h2
  · obtain ⟨s, h1, h2⟩ := sq_v4 h hn; exact sqrt_near h1 hn h2
  · obtain ⟨s, h1, h2⟩ := sq_simd h hn; exact sqrt_near h1 hn h2

/-- C131 (for vectors whose sum of squares is between 2^-100 and 2^120): every component of the normalized vector is at most 2^-20 from
the component divided by the exact length. -/
theorem normalize_accurate_partial :
    (∀ (a : V2 Fl) v, a.Holds v → Moderate v.sq →
      Near (a.normalize Fl.sqrt).x (v.x / √v.sq) (1 / 2 ^ 20) ∧ Near (a.normalize Fl.sqrt).y (v.y / √v.sq) (1 / 2 ^ 20)) ∧
    (∀ (a : V3 Fl) v, a.Holds v → Moderate v.sq →
      Near (a.normalize Fl.sqrt).x (v.x / √v.sq) (1 / 2 ^ 20) ∧ Near (a.normalize Fl.sqrt).y (v.y / √v.sq) (1 / 2 ^ 20) ∧
      Near (a.normalize Fl.sqrt).z (v.z / √v.sq) (1 / 2 ^ 20)) ∧
    (∀ (a : V4 Fl) v, a.Holds v → Moderate v.sq → ∀ i,
      Near ((a.normalize Fl.sqrt).lane i) (v.lane i / √v.sq) (1 / 2 ^ 20) ∧
      Near ((a.simdNormalized Fl.sqrt).lane i) (v.lane i / √v.sq) (1 / 2 ^ 20)) := by
  obtain ⟨l2, l3, l4, l5⟩ := length_accurate
  refine ⟨fun a v h hn => ?_, fun a v h hn => ?_, fun a v h hn i => ?_⟩
  · obtain ⟨l, hl, he⟩ := l2 a v h hn
    have hy : 0 < √(v.sq : ℝ) := Real.sqrt_pos.2 (by exact_mod_cast hn.pos)
    have e : a.normalize Fl.sqrt = a.divS (a.length Fl.sqrt) := by
      unfold V2.normalize; exact if_neg (not_zero hl hy he)
    rw [e]
    have c1 : v.x ^ 2 ≤ v.sq := by unfold V2.sq; nlinarith
    have c2 : v.y ^ 2 ≤ v.sq := by unfold V2.sq; nlinarith
    exact ⟨div_near h.x hl hy (comp_le c1) he, div_near h.y hl hy (comp_le c2) he⟩
  · obtain ⟨l, hl, he⟩ := l3 a v h hn
    have hy : 0 < √(v.sq : ℝ) := Real.sqrt_pos.2 (by exact_mod_cast hn.pos)
    have e : a.normalize Fl.sqrt = a.divS (a.length Fl.sqrt) := by
      unfold V3.normalize; exact if_neg (not_zero hl hy he)
    rw [e]
    have c1 : v.x ^ 2 ≤ v.sq := by unfold V3.sq; nlinarith
    have c2 : v.y ^ 2 ≤ v.sq := by unfold V3.sq; nlinarith
    have c3 : v.z ^ 2 ≤ v.sq := by unfold V3.sq; nlinarith
    exact ⟨div_near h.x hl hy (comp_le c1) he, div_near h.y hl hy (comp_le c2) he, div_near h.z hl hy (comp_le c3) he⟩
  · have hy : 0 < √(v.sq : ℝ) := Real.sqrt_pos.2 (by exact_mod_cast hn.pos)
    have c1 : v.x ^ 2 ≤ v.sq := by unfold V4.sq; nlinarith
    have c2 : v.y ^ 2 ≤ v.sq := by unfold V4.sq; nlinarith
    have c3 : v.z ^ 2 ≤ v.sq := by unfold V4.sq; nlinarith
    have c4 : v.w ^ 2 ≤ v.sq := by unfold V4.sq; nlinarith
    have key : ∀ L l, IsF L l → |(l : ℝ) - √v.sq| ≤ √v.sq / 2 ^ 21 → Near ((a.divS L).lane i) (v.lane i / √v.sq) (1 / 2 ^ 20) := by
      intro L l hl he
      fin_cases i
      · exact div_near h.x hl hy (comp_le c1) he
      · exact div_near h.y hl hy (comp_le c2) he
      · exact div_near h.z hl hy (comp_le c3) he
      · exact div_near h.w hl hy (comp_le c4) he
    constructor
    · obtain ⟨l, hl, he⟩ := l4 a v h hn
      have e : a.normalize Fl.sqrt = a.divS (a.length Fl.sqrt) := by
        unfold V4.normalize; exact if_neg (not_zero hl hy he)
      rw [e]; exact key _ _ hl he
    · obtain ⟨l, hl, he⟩ := l5 a v h hn
      have e : a.simdNormalized Fl.sqrt = a.divS (a.simdLength Fl.sqrt) := by
        unfold V4.simdNormalized; exact if_neg (not_zero hl hy he)
      rw [e]; exact key _ _ hl he

/-- The squares of four numbers that are at most 2^-20 from those of a unit vector add up to nearly one. -/
theorem unit_near {x y z w p q r s : ℝ} (h : p ^ 2 + q ^ 2 + r ^ 2 + s ^ 2 = 1) (h1 : |x - p| ≤ 1 / 2 ^ 20) (h2 : |y - q| ≤ 1 / 2 ^ 20)
    (h3 : |z - r| ≤ 1 / 2 ^ 20) (h4 : |w - s| ≤ 1 / 2 ^ 20) : |x ^ 2 + y ^ 2 + z ^ 2 + w ^ 2 - 1| ≤ 1 / 2 ^ 17 := by
  have key : ∀ e t : ℝ, |e| ≤ 1 / 2 ^ 20 → |(t + e) ^ 2 - t ^ 2| ≤ 1 / 2 ^ 19 * (t ^ 2 + 1 / 4) + 1 / 2 ^ 40 := by
    intro e t he
    have e1 : (t + e) ^ 2 - t ^ 2 = 2 * (t * e) + e ^ 2 := by ring
    have e2 : |t * e| ≤ |t| * (1 / 2 ^ 20) := by rw [abs_mul]; exact mul_le_mul_of_nonneg_left he (abs_nonneg _)
    have e3 : |t| ≤ t ^ 2 + 1 / 4 := by
      rw [← sq_abs]; nlinarith [sq_nonneg (|t| - 1 / 2)]
    have e4 : e ^ 2 ≤ 1 / 2 ^ 40 := by
      rw [← sq_abs]
      calc |e| ^ 2 ≤ (1 / 2 ^ 20) ^ 2 := pow_le_pow_left₀ (abs_nonneg _) he 2
        _ = _ := by norm_num
    have e5 := sq_nonneg e
    have e6 := abs_le.1 e2
    rw [e1, abs_le]
    constructor
    · norm_num at *; linarith
    · norm_num at *; linarith
  have k1 := key (x - p) p h1
  have k2 := key (y - q) q h2
  have k3 := key (z - r) r h3
  have k4 := key (w - s) s h4
  simp only [add_sub_cancel] at k1 k2 k3 k4
  have k1 := abs_le.1 k1
  have k2 := abs_le.1 k2
  have k3 := abs_le.1 k3
  have k4 := abs_le.1 k4
  rw [abs_le]
  constructor
  · norm_num at *; linarith
  · norm_num at *; linarith

theorem unit_sum {x y z w n : ℚ} (hn : 0 < n) (h : x ^ 2 + y ^ 2 + z ^ 2 + w ^ 2 = n) :
    ((x : ℝ) / √n) ^ 2 + (y / √n) ^ 2 + (z / √n) ^ 2 + (w / √n) ^ 2 = 1 := by
  have hR : (0 : ℝ) < n := by exact_mod_cast hn
  have hh : (x : ℝ) ^ 2 + y ^ 2 + z ^ 2 + w ^ 2 = n := by exact_mod_cast h
  simp only [div_pow, Real.sq_sqrt hR.le]
  rw [← add_div, ← add_div, ← add_div, hh, div_self hR.ne']

/-- C131 (same range): the length of the normalized vector squared is at most 2^-17 from one. -/
theorem normalize_unit_partial :
    (∀ (a : V2 Fl) v, a.Holds v → Moderate v.sq → ∃ u, (a.normalize Fl.sqrt).Holds u ∧ |u.sq - 1| ≤ 1 / 2 ^ 17) ∧
    (∀ (a : V3 Fl) v, a.Holds v → Moderate v.sq → ∃ u, (a.normalize Fl.sqrt).Holds u ∧ |u.sq - 1| ≤ 1 / 2 ^ 17) ∧
    (∀ (a : V4 Fl) v, a.Holds v → Moderate v.sq → (∃ u, (a.normalize Fl.sqrt).Holds u ∧ |u.sq - 1| ≤ 1 / 2 ^ 17) ∧
      (∃ u, (a.simdNormalized Fl.sqrt).Holds u ∧ |u.sq - 1| ≤ 1 / 2 ^ 17)) := by
  obtain ⟨n2, n3, n4⟩ := normalize_accurate_partial
  have cast : ∀ q : ℚ, |(q : ℝ) - 1| ≤ 1 / 2 ^ 17 → |q - 1| ≤ 1 / 2 ^ 17 := by
    intro q h
    have : ((|q - 1| : ℚ) : ℝ) ≤ ((1 / 2 ^ 17 : ℚ) : ℝ) := by push_cast; exact h
    exact_mod_cast this
  refine ⟨fun a v h hn => ?_, fun a v h hn => ?_, fun a v h hn => ?_⟩
  · obtain ⟨⟨x, hx, ex⟩, ⟨y, hy, ey⟩⟩ := n2 a v h hn
    refine ⟨⟨x, y⟩, ⟨hx, hy⟩, cast _ ?_⟩
    have hu := unit_sum (x := v.x) (y := v.y) (z := 0) (w := 0) hn.pos (by unfold V2.sq; ring)
    have := unit_near (z := 0) (w := 0) hu ex ey (by simp) (by simp)
    unfold V2.sq
    push_cast
    simpa using this
  · obtain ⟨⟨x, hx, ex⟩, ⟨y, hy, ey⟩, ⟨z, hz, ez⟩⟩ := n3 a v h hn
    refine ⟨⟨x, y, z⟩, ⟨hx, hy, hz⟩, cast _ ?_⟩
    have hu := unit_sum (x := v.x) (y := v.y) (z := v.z) (w := 0) hn.pos (by unfold V3.sq; ring)
    have := unit_near (w := 0) hu ex ey ez (by simp)
    unfold V3.sq
    push_cast
    simpa using this
  · have hu := unit_sum (x := v.x) (y := v.y) (z := v.z) (w := v.w) hn.pos rfl
    constructor
    · obtain ⟨x, hx, ex⟩ := (n4 a v h hn 0).1
      obtain ⟨y, hy, ey⟩ := (n4 a v h hn 1).1
      obtain ⟨z, hz, ez⟩ := (n4 a v h hn 2).1
      obtain ⟨w, hw, ew⟩ := (n4 a v h hn 3).1
      refine ⟨⟨x, y, z, w⟩, ⟨hx, hy, hz, hw⟩, cast _ ?_⟩
      have := unit_near hu ex ey ez ew
      unfold V4.sq
      push_cast
      exact this
    · obtain ⟨x, hx, ex⟩ := (n4 a v h hn 0).2
      obtain ⟨y, hy, ey⟩ := (n4 a v h hn 1).2
      obtain ⟨z, hz, ez⟩ := (n4 a v h hn 2).2
      obtain ⟨w, hw, ew⟩ := (n4 a v h hn 3).2
      refine ⟨⟨x, y, z, w⟩, ⟨hx, hy, hz, hw⟩, cast _ ?_⟩
      have := unit_near hu ex ey ez ew
      unfold V4.sq
      push_cast
      exact this

/-- The vector (2^64, 0, 0, 0). -/
def huge : V4 Fl := ⟨⟨0x5f800000⟩, 0, 0, 0⟩
/-- The vector (2^-80, 0, 0, 0). -/
def tiny : V4 Fl := ⟨⟨0x17800000⟩, 0, 0, 0⟩

/-- C131 VIOLATED outside of the range: normalizing (2^64, 0, 0, 0) gives the zero vector, and normalizing (2^-80, 0, 0, 0) does nothing. -/
theorem normalize_range_violated :
    huge.Holds ⟨2 ^ 64, 0, 0, 0⟩ ∧ huge.normalize Fl.sqrt = ⟨0, 0, 0, 0⟩ ∧ huge.simdNormalized Fl.sqrt = ⟨0, 0, 0, 0⟩ ∧
    tiny.Holds ⟨1 / 2 ^ 80, 0, 0, 0⟩ ∧ tiny.normalize Fl.sqrt = tiny ∧ tiny.simdNormalized Fl.sqrt = tiny := by
  refine ⟨⟨⟨false, 2 ^ 213, by decide +kernel, ?_⟩, isF_zero, isF_zero, isF_zero⟩, by decide +kernel, by decide +kernel,
    ⟨⟨false, 2 ^ 69, by decide +kernel, ?_⟩, isF_zero, isF_zero, isF_zero⟩, by decide +kernel, by decide +kernel⟩
  · simp only [sgn, Bool.false_eq_true, if_false, one_mul]; unfold unit; norm_num
  · simp only [sgn, Bool.false_eq_true, if_false, one_mul]; unfold unit; norm_num

/-- The vector (3, 4, 12, 84) has length 85. -/
example : ∃ a : V4 Fl, a.Holds ⟨3, 4, 12, 84⟩ ∧ Moderate (V4.sq ⟨3, 4, 12, 84⟩) := by
  obtain ⟨x, hx⟩ := int_float 3 (by decide)
  obtain ⟨y, hy⟩ := int_float 4 (by decide)
  obtain ⟨z, hz⟩ := int_float 12 (by decide)
  obtain ⟨w, hw⟩ := int_float 84 (by decide)
  refine ⟨⟨x, y, z, w⟩, ⟨by exact_mod_cast hx, by exact_mod_cast hy, by exact_mod_cast hz, by exact_mod_cast hw⟩, ?_, ?_⟩
  · unfold V4.sq; norm_num
  · unfold V4.sq; norm_num
example : (V3.mk (⟨0x40400000⟩ : Fl) 0 ⟨0x40800000⟩).length Fl.sqrt = ⟨0x40a00000⟩ := by decide +kernel
example : (V3.mk (⟨0x40400000⟩ : Fl) 0 ⟨0x40800000⟩).normalize Fl.sqrt = ⟨⟨0x3f19999a⟩, 0, ⟨0x3f4ccccd⟩⟩ := by decide +kernel

end PreCore.Vec
