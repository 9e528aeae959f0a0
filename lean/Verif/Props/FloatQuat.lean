import Verif.Props.FloatNorm
import Verif.Props.FloatSpecial
/-!
# C158: the missing component of a unit quaternion, in floats
-/
namespace PreCore.Vec
open PreCore.F32

/-- C141: the square root of floats: of zeros the same zero, of negative numbers and of minus infinity not a number, of infinity infinity. -/
theorem sqrt_special (x : Fl) :
    (∀ s, IsZero x s → IsZero x.sqrt s) ∧ (∀ m, val x.bits = .fin true m → m ≠ 0 → NotNumber x.sqrt) ∧
    (Infinite x true → NotNumber x.sqrt) ∧ (Infinite x false → Infinite x.sqrt false) := by
  refine ⟨?_, ?_, ?_, ?_⟩
  · intro s h
    show val (sqrtFull x.bits) = .fin s 0
    have h : val x.bits = .fin s 0 := h
    unfold sqrtFull
    rw [h]
    cases s with
    | true => simp only [if_true]; exact h
    | false =>
      simp only [Block.sqrtF, h]
      decide +kernel
  · intro m h hm
    show val (sqrtFull x.bits) = .nan
    unfold sqrtFull
    rw [h]
    simp only [if_neg hm]
    decide +kernel
  · intro h
    show val (sqrtFull x.bits) = .nan
    unfold sqrtFull
    rw [show val x.bits = .inf true from h]
    simp only [if_true]
    decide +kernel
  · intro h
    show val (sqrtFull x.bits) = .inf false
    unfold sqrtFull
    rw [show val x.bits = .inf false from h]
    exact h

example : IsZero ⟨0x80000000⟩ true ∧ (∃ m, val 0xbf800000 = .fin true m ∧ m ≠ 0) ∧ Infinite ⟨0xff800000⟩ true :=
  ⟨by unfold IsZero; decide +kernel, ⟨2 ^ 149, by decide +kernel, by decide +kernel⟩, by unfold Infinite; decide +kernel⟩

theorem lane_set (a : V4 Fl) (i : Fin 4) (x : Fl) : (a.set i x).lane i = x ∧ ∀ j, j ≠ i → (a.set i x).lane j = a.lane j := by
  fin_cases i <;> refine ⟨rfl, fun j hj => ?_⟩ <;> fin_cases j <;> first | rfl | exact absurd rfl hj

theorem sq_nonneg' (v : V4 ℚ) : 0 ≤ v.sq := by unfold V4.sq; positivity

/-- `1 - |v|^2` as the code computes it. -/
theorem rest_near {a : V4 Fl} {v : V4 ℚ} (h : a.Holds v) (hn : v.sq ≤ 2 ^ 100) :
    ∃ d s : ℚ, IsF (a.dpPs a) d ∧ |d - v.sq| ≤ v.sq / 2 ^ 22 + 1 / 2 ^ 147 ∧ IsF (1 - a.dpPs a) s ∧ |s - (1 - d)| ≤ |1 - d| / 2 ^ 24 + 1 / 2 ^ 150 := by
  have h0 := sq_nonneg' v
  have hd := dot_simd_accurate a a v v h h (by rw [absDot_self]; exact hn.trans (by norm_num))
  rw [absDot_self, show v.dot v = v.sq by unfold V4.dot V4.sq; ring] at hd
  obtain ⟨d, d1, d2⟩ := hd
  have d3 := abs_le.1 d2
  obtain ⟨s, s1, s2⟩ := sub_err_s isF_one d1 (by rw [abs_le]; constructor <;> norm_num at d3 hn ⊢ <;> linarith)
  exact ⟨d, s, d1, d2, s1, s2⟩

/-- **C158, partial**: a component that is zero, of a vector at least 2^-20 shorter than a unit vector (in the square), is replaced by one that makes a unit
quaternion to 2^-20; it is not negative, and the others stay. Missing: shorter rests. -/
theorem missing_component_partial (a : V4 Fl) (v : V4 ℚ) (h : a.Holds v) (i : Fin 4) (h0 : v.lane i = 0) (hn : v.sq ≤ 1 - 1 / 2 ^ 20) :
    ∃ q : V4 ℚ, (a.qComputeElement Fl.sqrt i).Holds q ∧ (∀ j, j ≠ i → q.lane j = v.lane j) ∧ 0 ≤ q.lane i ∧ |q.sq - 1| ≤ 1 / 2 ^ 20 := by
  suffices hr : ∃ r, IsF ((a.qComputeElement Fl.sqrt i).lane i) r ∧ 0 ≤ r ∧ |r ^ 2 + v.sq - 1| ≤ 1 / 2 ^ 20 by
    obtain ⟨r, r1, r2, r3⟩ := hr
    have hl := (lane_set a i (Fl.sqrt (1 - a.dpPs a))).2
    change IsF ((a.set i _).lane i) r at r1
    refine ⟨v.set i r, ?_, ?_, ?_, ?_⟩
    · change (a.set i _).Holds _
      fin_cases i
      · exact ⟨r1, h.y, h.z, h.w⟩
      · exact ⟨h.x, r1, h.z, h.w⟩
      · exact ⟨h.x, h.y, r1, h.w⟩
      · exact ⟨h.x, h.y, h.z, r1⟩
    · intro j hj
      fin_cases i <;> fin_cases j <;> first | rfl | exact absurd rfl hj
    · fin_cases i <;> exact r2
    · have e : (v.set i r).sq = r ^ 2 + v.sq := by
        unfold V4.sq
        fin_cases i
        all_goals
          simp only [V4.lane] at h0
          simp only [V4.set]
          rw [h0]
          ring
      rw [e]; exact r3
  unfold V4.qComputeElement
  rw [(lane_set a i _).1]
  clear h0
  have h0 := sq_nonneg' v
  obtain ⟨d, s, _, d2, s1, s2⟩ := rest_near h (hn.trans (by norm_num))
  have d3 := abs_le.1 d2
  have hd1 : 0 < 1 - d := by norm_num at d3 hn ⊢; linarith
  rw [abs_of_pos hd1] at s2
  have s3 := abs_le.1 s2
  have hd2 : 1 - d ≤ 1 + 1 / 2 ^ 147 := by linarith [d3.1, div_nonneg h0 (show (0:ℚ) ≤ 2 ^ 22 by norm_num), show v.sq / 2 ^ 22 ≤ v.sq by rw [div_le_iff₀ (by norm_num)]; linarith]
  have hs0 : 0 < s := by norm_num at s3 d3 hn ⊢; linarith
  have hs1 : s ≤ 1 + 1 / 2 ^ 22 := by norm_num at s3 hd2 ⊢; linarith
  obtain ⟨r, r1, r2⟩ := sqrt_err (s1.pos_is hs0)
  have hr0 := r1.nonneg
  refine ⟨r, r1.fis, hr0, ?_⟩
  -- in the reals
  have e1 : |(r : ℝ) ^ 2 - s| ≤ 1 / 2 ^ 22 := by
    have hsR : (0 : ℝ) ≤ s := by exact_mod_cast hs0.le
    have hs1R : (s : ℝ) ≤ 1 + 1 / 2 ^ 22 := by
      have : ((s : ℚ) : ℝ) ≤ ((1 + 1 / 2 ^ 22 : ℚ) : ℝ) := by exact_mod_cast hs1
      push_cast at this; exact this
    have t0 := Real.sqrt_nonneg (s : ℝ)
    have t1 := Real.sq_sqrt hsR
    have t2 : √(s : ℝ) ≤ 1 + 1 / 2 ^ 22 := by
      rw [Real.sqrt_le_left (by norm_num)]
      refine hs1R.trans ?_
      norm_num
    generalize √(s : ℝ) = t at *
    have r3 := abs_le.1 r2
    have hrR : (0 : ℝ) ≤ r := by exact_mod_cast hr0
    rw [← t1]
    have e2 : (r : ℝ) ^ 2 - t ^ 2 = (r - t) * (r + t) := by ring
    rw [e2, abs_mul, abs_of_nonneg (show (0 : ℝ) ≤ r + t by linarith)]
    have b1 : |(r : ℝ) - t| ≤ (1 + 1 / 2 ^ 20) / 2 ^ 24 := by refine r2.trans ?_; norm_num at t2 ⊢; linarith
    have b2 : (r : ℝ) + t ≤ 3 := by norm_num at t2 r3 ⊢; linarith
    calc |(r : ℝ) - t| * (r + t) ≤ (1 + 1 / 2 ^ 20) / 2 ^ 24 * 3 := mul_le_mul b1 b2 (by linarith) (by norm_num)
      _ ≤ 1 / 2 ^ 22 := by norm_num
  have e3 : |r ^ 2 - s| ≤ 1 / 2 ^ 22 := by
    have : ((|r ^ 2 - s| : ℚ) : ℝ) ≤ ((1 / 2 ^ 22 : ℚ) : ℝ) := by push_cast; exact e1
    exact_mod_cast this
  have e4 := abs_le.1 e3
  rw [abs_le]
  norm_num at e4 s3 d3 hd2 hn ⊢
  constructor <;> linarith

/-- A vector that is too long, however little, leaves no number. -/
theorem missing_too_long (a : V4 Fl) (i : Fin 4) (d : ℚ) (hd : IsF (a.dpPs a) d) (h1 : 1 < d) (h2 : d ≤ 2 ^ 126) : NotNumber ((a.qComputeElement Fl.sqrt i).lane i) := by
  unfold V4.qComputeElement
  rw [(lane_set a i _).1]
  obtain ⟨s, s1, s2⟩ := sub_err_s isF_one hd (by rw [abs_le]; constructor <;> norm_num at h2 ⊢ <;> linarith)
  have gap : 1 / 2 ^ 149 ≤ d - 1 := by
    obtain ⟨sg, m, _, hm⟩ := hd
    cases sg with
    | true =>
      exfalso
      have : (0 : ℚ) ≤ (m : ℚ) / unit := div_nonneg (Nat.cast_nonneg _) unit_pos.le
      simp only [sgn, if_true] at hm
      linarith
    | false =>
      simp only [sgn, Bool.false_eq_true, if_false, one_mul] at hm
      have hu : unit = 2 ^ 149 := rfl
      rw [hm, hu] at h1 ⊢
      rw [lt_div_iff₀ (by norm_num)] at h1
      have h2 : 2 ^ 149 + 1 ≤ m := by
        have : ((2 ^ 149 : Nat) : ℚ) < (m : ℚ) := by push_cast; linarith
        exact_mod_cast this
      have h3 : ((2 ^ 149 + 1 : Nat) : ℚ) ≤ (m : ℚ) := by exact_mod_cast h2
      push_cast at h3
      rw [le_sub_iff_add_le, le_div_iff₀ (by norm_num)]
      norm_num at h3 ⊢
      linarith
  rw [abs_of_neg (show 1 - d < 0 by linarith)] at s2
  have s3 := abs_le.1 s2
  have hs : s < 0 := by norm_num at s3 gap ⊢; linarith
  obtain ⟨sg, m, hv, hm⟩ := s1
  have hu := unit_pos
  cases sg with
  | false =>
    exfalso
    have : (0 : ℚ) ≤ (m : ℚ) / unit := div_nonneg (Nat.cast_nonneg _) unit_pos.le
    simp only [sgn, Bool.false_eq_true, if_false, one_mul] at hm
    linarith
  | true =>
    refine (sqrt_special _).2.1 m hv ?_
    rintro rfl
    simp at hm
    linarith

/-- Three of the components of the quaternion 1/2 (1 + i + j + k). -/
example : (⟨⟨0x3f000000⟩, ⟨0x3f000000⟩, ⟨0x3f000000⟩, 0⟩ : V4 Fl).Holds ⟨1 / 2, 1 / 2, 1 / 2, 0⟩ ∧ (⟨1 / 2, 1 / 2, 1 / 2, 0⟩ : V4 ℚ).sq ≤ 1 - 1 / 2 ^ 20 := by
  have h : IsF ⟨0x3f000000⟩ (1 / 2) := ⟨false, 2 ^ 148, by decide +kernel, by unfold sgn unit; norm_num⟩
  exact ⟨⟨h, h, h, isF_zero⟩, by unfold V4.sq; norm_num⟩

/-- **C158 violated**: there is a rotation by 180 degrees, (20 i + 28 j + 29 k) / 45, whose components, each rounded to the nearest float, give something that is
not a number for the last component, which is 0. -/
theorem missing_component_violated : ∃ (v : V4 ℚ) (a : V4 Fl), v.sq = 1 ∧ v.w = 0 ∧
    (IsRounded a.x v.x ∧ IsRounded a.y v.y ∧ IsRounded a.z v.z ∧ a.w = 0) ∧ NotNumber (a.qComputeElement Fl.sqrt 3).w := by
  refine ⟨⟨20 / 45, 28 / 45, 29 / 45, 0⟩, ⟨⟨0x3ee38e39⟩, ⟨0x3f1f49f5⟩, ⟨0x3f24fa50⟩, 0⟩, ?_, rfl, ⟨?_, ?_, ?_, rfl⟩, ?_⟩
  · unfold V4.sq; norm_num
  · have := makeQ_rounded false (20 * 2 ^ 149) 45 (by decide)
    rw [show makeQ false (20 * 2 ^ 149) 45 = 0x3ee38e39 by decide +kernel] at this
    have e : sgn false * (((20 * 2 ^ 149 : Nat) : ℚ) / ((45 : Nat) : ℚ) / unit) = 20 / 45 := by unfold sgn unit; norm_num
    rw [e] at this; exact this
  · have := makeQ_rounded false (28 * 2 ^ 149) 45 (by decide)
    rw [show makeQ false (28 * 2 ^ 149) 45 = 0x3f1f49f5 by decide +kernel] at this
    have e : sgn false * (((28 * 2 ^ 149 : Nat) : ℚ) / ((45 : Nat) : ℚ) / unit) = 28 / 45 := by unfold sgn unit; norm_num
    rw [e] at this; exact this
  · have := makeQ_rounded false (29 * 2 ^ 149) 45 (by decide)
    rw [show makeQ false (29 * 2 ^ 149) 45 = 0x3f24fa50 by decide +kernel] at this
    have e : sgn false * (((29 * 2 ^ 149 : Nat) : ℚ) / ((45 : Nat) : ℚ) / unit) = 29 / 45 := by unfold sgn unit; norm_num
    rw [e] at this; exact this
  · unfold NotNumber
    decide +kernel

example : IsF ((⟨1, 1, 0, 0⟩ : V4 Fl).dpPs ⟨1, 1, 0, 0⟩) 2 := ⟨false, 2 ^ 150, by decide +kernel, by unfold sgn unit; norm_num⟩

end PreCore.Vec
