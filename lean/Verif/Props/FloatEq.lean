import Verif.Props.FloatVec
/-!
# C132: comparing float vectors with the tolerance
-/
namespace PreCore.Vec
open PreCore.F32

/-! ## Specification -/

/-- `FLT_EPSILON`: 2^-23. -/
theorem fltEpsilon_value : IsF fltEpsilon (1 / 2 ^ 23) := by
  refine ⟨false, 2 ^ 126, by decide +kernel, ?_⟩
  simp only [sgn, Bool.false_eq_true, if_false, one_mul]
  unfold unit; norm_num

/-- All components of two vectors satisfy a relation. -/
def V2.Each (R : ℚ → ℚ → Prop) (u v : V2 ℚ) : Prop := R u.x v.x ∧ R u.y v.y
def V3.Each (R : ℚ → ℚ → Prop) (u v : V3 ℚ) : Prop := R u.x v.x ∧ R u.y v.y ∧ R u.z v.z
def V4.Each (R : ℚ → ℚ → Prop) (u v : V4 ℚ) : Prop := R u.x v.x ∧ R u.y v.y ∧ R u.z v.z ∧ R u.w v.w

/-- The exact difference is at most 2^-23. -/
def Close (x y : ℚ) : Prop := |x - y| ≤ 1 / 2 ^ 23
/-- The exact difference is at most 2^-23 and the rounding error of the bound. -/
def Nearly (x y : ℚ) : Prop := |x - y| ≤ 1 / 2 ^ 23 + (|y| + 1 / 2 ^ 23) / 2 ^ 24 + 1 / 2 ^ 150

/-! ## The order of floats -/

theorem val_ordered {s t : Bool} {m n : Nat} : ((if s then - (m : Int) else m) ≤ (if t then - (n : Int) else n)) ↔
    sgn s * ((m : ℚ) / unit) ≤ sgn t * ((n : ℚ) / unit) := by
  have hu := unit_pos
  have e : ∀ (s : Bool) (m : Nat), sgn s * ((m : ℚ) / unit) = (((if s then - (m : Int) else m) : Int) : ℚ) / unit := by
    intro s m; cases s
    · simp [sgn]
    · simp [sgn]; ring
  rw [e, e, div_le_div_iff_of_pos_right hu]
  exact_mod_cast Iff.rfl

theorem lessEq_iff {a b : F32} {v w : ℚ} (ha : FIs a v) (hb : FIs b w) : lessEq a b = true ↔ v ≤ w := by
  obtain ⟨s, m, h1, rfl⟩ := ha
  obtain ⟨t, n, h2, rfl⟩ := hb
  unfold lessEq
  rw [h1, h2]
  simp only [decide_eq_true_eq]
  exact val_ordered

theorem less_iff {a b : F32} {v w : ℚ} (ha : FIs a v) (hb : FIs b w) : less a b = true ↔ v < w := by
  obtain ⟨s, m, h1, rfl⟩ := ha
  obtain ⟨t, n, h2, rfl⟩ := hb
  unfold less
  rw [h1, h2]
  simp only [decide_eq_true_eq]
  rw [← not_le, ← not_le, not_iff_not]
  exact val_ordered

/-- C132: `<` of the SIMD class compares the values of all components, `>` likewise. -/
theorem order_exact (a b : V4 Fl) (u v : V4 ℚ) (ha : a.Holds u) (hb : b.Holds v) :
    (a.simdLt b = true ↔ u.Each (· < ·) v) ∧ (a.simdGt b = true ↔ u.Each (· > ·) v) := by
  have key : ∀ {x y : Fl} {p q : ℚ}, IsF x p → IsF y q → (x < y ↔ p < q) := fun hx hy => less_iff hx hy
  unfold V4.simdLt V4.simdGt allLanes V4.Each
  simp only [Bool.and_eq_true, decide_eq_true_eq, key ha.x hb.x, key ha.y hb.y, key ha.z hb.z, key ha.w hb.w,
    key hb.x ha.x, key hb.y ha.y, key hb.z ha.z, key hb.w ha.w, and_assoc, gt_iff_lt, and_self]

/-! ## The tolerance -/

theorem below_sum {a b e : Fl} {v w t : ℚ} (ha : IsF a v) (hb : IsF b w) (he : IsF e t) (ht : 0 ≤ t) (h : v ≤ w + t) : a ≤ b + e := by
  have hr := add_rounded hb he
  by_cases hl : |w + t| < lim
  · obtain ⟨r, h1, h2, -⟩ := (hr.2 hl).mono ha
    exact (lessEq_iff ha h1).2 (h2 h)
  · have hl := not_lt.1 hl
    have hv := hr.1 hl
    have hw := abs_lt.1 hb.lt_lim
    have hpos : ¬ (w + t < 0) := by
      intro hneg
      rw [abs_of_neg hneg] at hl
      linarith
    rw [decide_eq_false hpos] at hv
    obtain ⟨s, m, h1, -⟩ := ha
    show lessEq a.bits (add b.bits e.bits) = true
    unfold lessEq
    rw [h1, hv]; rfl

theorem above_diff {a b e : Fl} {v w t : ℚ} (ha : IsF a v) (hb : IsF b w) (he : IsF e t) (ht : 0 ≤ t) (h : w - t ≤ v) : b - e ≤ a := by
  have hr := sub_rounded hb he
  by_cases hl : |w - t| < lim
  · obtain ⟨r, h1, -, h2⟩ := (hr.2 hl).mono ha
    exact (lessEq_iff h1 ha).2 (h2 h)
  · have hl := not_lt.1 hl
    have hv := hr.1 hl
    have hw := abs_lt.1 hb.lt_lim
    have hneg : w - t < 0 := by
      by_contra hp
      rw [abs_of_nonneg (not_lt.1 hp)] at hl
      linarith
    rw [decide_eq_true hneg] at hv
    obtain ⟨s, m, h1, -⟩ := ha
    show lessEq (sub b.bits e.bits) a.bits = true
    unfold lessEq
    rw [h1, hv]

theorem fltcmp_close {a b : Fl} {v w : ℚ} (ha : IsF a v) (hb : IsF b w) (h : Close v w) : fltcmp fltEpsilon a b = true := by
  have h' := abs_le.1 h
  unfold fltcmp
  rw [Bool.and_eq_true]
  exact ⟨decide_eq_true (below_sum ha hb fltEpsilon_value (by norm_num) (by linarith)),
    decide_eq_true (above_diff ha hb fltEpsilon_value (by norm_num) (by linarith))⟩

theorem fltcmp_nearly {a b : Fl} {v w : ℚ} (ha : IsF a v) (hb : IsF b w) (hw : |w| ≤ 2 ^ 126) (h : fltcmp fltEpsilon a b = true) :
    Nearly v w := by
  unfold fltcmp at h
  rw [Bool.and_eq_true, decide_eq_true_eq, decide_eq_true_eq] at h
  have hw' := abs_le.1 hw
  have t1 : |w + 1 / 2 ^ 23| ≤ |w| + 1 / 2 ^ 23 := by
    refine (abs_add_le _ _).trans ?_
    rw [abs_of_pos (show (0 : ℚ) < 1 / 2 ^ 23 by norm_num)]
  have t2 : |w - 1 / 2 ^ 23| ≤ |w| + 1 / 2 ^ 23 := by
    refine (abs_sub _ _).trans ?_
    rw [abs_of_pos (show (0 : ℚ) < 1 / 2 ^ 23 by norm_num)]
  have hb1 : |w| + 1 / 2 ^ 23 ≤ 2 ^ 127 := by
    clear t1 t2 hw' h
    generalize |w| = W at *
    norm_num at hw ⊢
    linarith
  obtain ⟨r, hr, e1⟩ := add_err_s hb fltEpsilon_value (t1.trans hb1)
  obtain ⟨s, hs, e2⟩ := sub_err_s hb fltEpsilon_value (t2.trans hb1)
  have l1 := (lessEq_iff ha hr).1 h.1
  have l2 := (lessEq_iff hs ha).1 h.2
  have d1 := div_le_div_of_nonneg_right t1 (show (0 : ℚ) ≤ 2 ^ 24 by norm_num)
  have d2 := div_le_div_of_nonneg_right t2 (show (0 : ℚ) ≤ 2 ^ 24 by norm_num)
  have f1 := abs_le.1 e1
  have f2 := abs_le.1 e2
  unfold Nearly
  rw [abs_le]
  constructor <;> linarith

/-- C132: vectors whose components differ by at most 2^-23 are equal, for all vector classes; in particular a vector is equal to itself. -/
theorem close_equal :
    (∀ (a b : V2 Fl) u v, a.Holds u → b.Holds v → u.Each Close v → a.fltEq fltEpsilon b = true) ∧
    (∀ (a b : V3 Fl) u v, a.Holds u → b.Holds v → u.Each Close v → a.fltEq fltEpsilon b = true) ∧
    (∀ (a b : V4 Fl) u v, a.Holds u → b.Holds v → u.Each Close v → a.fltEq fltEpsilon b = true ∧ a.simdEq fltEpsilon b = true) := by
  refine ⟨fun a b u v ha hb h => ?_, fun a b u v ha hb h => ?_, fun a b u v ha hb h => ?_⟩
  · unfold V2.fltEq
    rw [fltcmp_close ha.x hb.x h.1, fltcmp_close ha.y hb.y h.2]; rfl
  · unfold V3.fltEq
    rw [fltcmp_close ha.x hb.x h.1, fltcmp_close ha.y hb.y h.2.1, fltcmp_close ha.z hb.z h.2.2]; rfl
  · have k1 := fltcmp_close ha.x hb.x h.1
    have k2 := fltcmp_close ha.y hb.y h.2.1
    have k3 := fltcmp_close ha.z hb.z h.2.2.1
    have k4 := fltcmp_close ha.w hb.w h.2.2.2
    constructor
    · unfold V4.fltEq; rw [k1, k2, k3, k4]; rfl
    · have e : ∀ x y : Fl, cmpLane fltEpsilon y x = fltcmp fltEpsilon x y := fun _ _ => rfl
      unfold V4.simdEq compare4 allLanes
      rw [e, e, e, e, k1, k2, k3, k4]; rfl

/-- C132: vectors that compare equal differ by at most 2^-23 and half a unit in the last place in every component. -/
theorem equal_nearly :
    (∀ (a b : V2 Fl) u v, a.Holds u → b.Holds v → v.Each (fun x _ => |x| ≤ 2 ^ 126) v → a.fltEq fltEpsilon b = true → u.Each Nearly v) ∧
    (∀ (a b : V3 Fl) u v, a.Holds u → b.Holds v → v.Each (fun x _ => |x| ≤ 2 ^ 126) v → a.fltEq fltEpsilon b = true → u.Each Nearly v) ∧
    (∀ (a b : V4 Fl) u v, a.Holds u → b.Holds v → v.Each (fun x _ => |x| ≤ 2 ^ 126) v →
      a.fltEq fltEpsilon b = true ∨ a.simdEq fltEpsilon b = true → u.Each Nearly v) := by
  refine ⟨fun a b u v ha hb hv h => ?_, fun a b u v ha hb hv h => ?_, fun a b u v ha hb hv h => ?_⟩
  · unfold V2.fltEq at h
    rw [Bool.and_eq_true] at h
    exact ⟨fltcmp_nearly ha.x hb.x hv.1 h.1, fltcmp_nearly ha.y hb.y hv.2 h.2⟩
  · unfold V3.fltEq at h
    rw [Bool.and_eq_true, Bool.and_eq_true] at h
    exact ⟨fltcmp_nearly ha.x hb.x hv.1 h.1.1, fltcmp_nearly ha.y hb.y hv.2.1 h.1.2, fltcmp_nearly ha.z hb.z hv.2.2 h.2⟩
  · have h : a.fltEq fltEpsilon b = true := h.elim id id
    unfold V4.fltEq at h
    rw [Bool.and_eq_true, Bool.and_eq_true, Bool.and_eq_true] at h
    exact ⟨fltcmp_nearly ha.x hb.x hv.1 h.1.1.1, fltcmp_nearly ha.y hb.y hv.2.1 h.1.1.2, fltcmp_nearly ha.z hb.z hv.2.2.1 h.1.2,
      fltcmp_nearly ha.w hb.w hv.2.2.2 h.2⟩

/-- C132: a vector with a component that is not a number is equal to no vector, not even itself. -/
theorem nan_unequal (a b : V4 Fl) (i : Fin 4) (h : val (a.lane i).bits = .nan) :
    a.fltEq fltEpsilon b = false ∧ a.simdEq fltEpsilon b = false := by
  have key : ∀ x y : Fl, val x.bits = .nan → fltcmp fltEpsilon x y = false := by
    intro x y hx
    unfold fltcmp
    have : decide (x ≤ y + fltEpsilon) = false := by
      apply decide_eq_false
      show ¬ (lessEq x.bits _ = true)
      unfold lessEq
      rw [hx]; simp
    rw [this]; rfl
  have e : ∀ x y : Fl, cmpLane fltEpsilon y x = fltcmp fltEpsilon x y := fun _ _ => rfl
  unfold V4.simdEq compare4 allLanes V4.fltEq
  rw [e, e, e, e, and_self]
  fin_cases i
  · rw [key a.x _ h]; rfl
  · rw [key a.y _ h]; simp
  · rw [key a.z _ h]; simp
  · rw [key a.w _ h]; simp

/-- The numbers 2 and 2 + 2^-22. -/
def two : Fl := ⟨0x40000000⟩
def twoUp : Fl := ⟨0x40000001⟩

/-- C132 VIOLATED: equality is not symmetric. 2 is equal to 2 + 2^-22, but 2 + 2^-22 is not equal to 2. -/
theorem equal_symmetric_violated :
    (V2.mk two two).fltEq fltEpsilon ⟨twoUp, two⟩ = true ∧ (V2.mk twoUp two).fltEq fltEpsilon ⟨two, two⟩ = false ∧
    (V4.all two).simdEq fltEpsilon (.all twoUp) = true ∧ (V4.all twoUp).simdEq fltEpsilon (.all two) = false := by
  decide +kernel

/-- 1 and 1 + 2^-23 differ and compare equal. -/
example : ∃ a b : V2 Fl, a.Holds ⟨1, 0⟩ ∧ b.Holds ⟨1 + 1 / 2 ^ 23, 0⟩ ∧ V2.Each Close ⟨1, 0⟩ ⟨1 + 1 / 2 ^ 23, 0⟩ ∧ a ≠ b ∧ a.fltEq fltEpsilon b = true := by
  refine ⟨⟨1, 0⟩, ⟨⟨0x3f800001⟩, 0⟩, ⟨isF_one, isF_zero⟩, ⟨⟨false, (2 ^ 23 + 1) * 2 ^ 126, by decide +kernel, ?_⟩, isF_zero⟩, ?_, by decide, by decide +kernel⟩
  · simp only [sgn, Bool.false_eq_true, if_false, one_mul]; unfold unit; norm_num
  · unfold V2.Each Close; norm_num [abs_le]

end PreCore.Vec
