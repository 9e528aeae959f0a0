import Verif.Lemmas.Float32Err
/-!
# Error bounds of single precision arithmetic, signed
-/
namespace PreCore.F32

/-- The sign as a factor. -/
def sgn (s : Bool) : ℚ := if s then -1 else 1

theorem sgn_abs (s : Bool) : |sgn s| = 1 := by cases s <;> simp [sgn]
theorem sgn_mul (s t : Bool) : sgn (s != t) = sgn s * sgn t := by cases s <;> cases t <;> simp [sgn]
theorem sgn_sq (s : Bool) : sgn s * sgn s = 1 := by cases s <;> simp [sgn]

/-- `x` is a finite float with the value `v`. -/
def FIs (x : F32) (v : ℚ) : Prop := ∃ s m, val x = .fin s m ∧ v = sgn s * ((m : ℚ) / unit)

theorem Is.fis {x : F32} {v : ℚ} (h : Is x v) : FIs x v := by
  obtain ⟨m, h1, rfl⟩ := h
  exact ⟨false, m, h1, by simp [sgn]⟩

theorem FIs.unique {x : F32} {v w : ℚ} (h : FIs x v) (h' : FIs x w) : v = w := by
  obtain ⟨s, m, h1, rfl⟩ := h
  obtain ⟨t, n, h2, rfl⟩ := h'
  rw [h1] at h2
  injection h2 with e1 e2
  rw [e1, e2]

/-- Rounding with a sign. -/
theorem makeQ_err_s (s : Bool) (n d : Nat) (hd : 0 < d) (h : n ≤ d * 2 ^ 276) :
    ∃ r : ℚ, FIs (makeQ s n d) r ∧ |r - sgn s * ((n : ℚ) / d / unit)| ≤ (n : ℚ) / d / unit / 2 ^ 24 + 1 / 2 ^ 150 := by
  obtain ⟨r, ⟨m, h1, h2⟩, h3⟩ := makeQ_err n d hd h
  have hs := roundQ_small n d hd h
  rw [val_makeQ false n d hs] at h1
  injection h1 with _ hm
  refine ⟨sgn s * r, ⟨s, m, ?_, by rw [h2]⟩, ?_⟩
  · rw [val_makeQ s n d hs, hm]
  · rw [← mul_sub, abs_mul, sgn_abs, one_mul]; exact h3

/-- A product is off by at most `2^-24` of itself and `2^-150`. -/
theorem mul_err_s {x y : F32} {a b : ℚ} (hx : FIs x a) (hy : FIs y b) (h : |a * b| ≤ 2 ^ 127) :
    ∃ r : ℚ, FIs (mul x y) r ∧ |r - a * b| ≤ |a * b| / 2 ^ 24 + 1 / 2 ^ 150 := by
  obtain ⟨s, m, hm, rfl⟩ := hx
  obtain ⟨t, n, hn, rfl⟩ := hy
  have hu := unit_pos
  have e : mul x y = makeQ (s != t) (m * n) (2 ^ 149) := by
    unfold mul; rw [hm, hn]
  have habs : |sgn s * ((m : ℚ) / unit) * (sgn t * ((n : ℚ) / unit))| = (m : ℚ) / unit * (n / unit) := by
    rw [abs_mul, abs_mul, abs_mul, sgn_abs, sgn_abs, one_mul, one_mul, abs_of_nonneg (by positivity), abs_of_nonneg (by positivity)]
  rw [habs] at h ⊢
  have hle : m * n ≤ 2 ^ 149 * 2 ^ 276 := by
    have : ((m * n : Nat) : ℚ) ≤ 2 ^ 127 * unit * unit := by
      have h' : (m : ℚ) * n / (unit * unit) ≤ 2 ^ 127 := by
        rw [← div_mul_div_comm]; exact h
      rw [div_le_iff₀ (by positivity)] at h'
      push_cast; linarith
    unfold unit at this
    have h3 : m * n ≤ 2 ^ 127 * 2 ^ 149 * 2 ^ 149 := by exact_mod_cast this
    refine h3.trans ?_
    rw [← Nat.pow_add, ← Nat.pow_add, ← Nat.pow_add]
  obtain ⟨r, h1, h2⟩ := makeQ_err_s (s != t) (m * n) (2 ^ 149) (Nat.two_pow_pos _) hle
  rw [e]
  refine ⟨r, h1, ?_⟩
  have eq : ((m * n : Nat) : ℚ) / ((2 ^ 149 : Nat) : ℚ) / unit = (m : ℚ) / unit * (n / unit) := by
    push_cast; unfold unit; ring
  rw [eq, sgn_mul] at h2
  have e2 : sgn s * ((m : ℚ) / unit) * (sgn t * ((n : ℚ) / unit)) = sgn s * sgn t * ((m : ℚ) / unit * (n / unit)) := by ring
  rw [e2]
  exact h2

theorem make_eq (s : Bool) (n : Nat) : make s n = makeQ s n 1 := by
  unfold make makeQ; rw [roundMag_eq]

theorem make_err_s (s : Bool) (n : Nat) (h : (n : ℚ) / unit ≤ 2 ^ 127) :
    ∃ r : ℚ, FIs (make s n) r ∧ |r - sgn s * ((n : ℚ) / unit)| ≤ (n : ℚ) / unit / 2 ^ 24 + 1 / 2 ^ 150 := by
  have hu := unit_pos
  rw [make_eq]
  have hle : n ≤ 1 * 2 ^ 276 := by
    rw [div_le_iff₀ hu] at h
    unfold unit at h
    have h3 : n ≤ 2 ^ 127 * 2 ^ 149 := by exact_mod_cast h
    rw [← Nat.pow_add] at h3; omega
  have := makeQ_err_s s n 1 (by omega) hle
  simpa using this

/-- A sum is off by at most `2^-24` of itself and `2^-150`. -/
theorem add_err_s {x y : F32} {a b : ℚ} (hx : FIs x a) (hy : FIs y b) (h : |a + b| ≤ 2 ^ 127) :
    ∃ r : ℚ, FIs (add x y) r ∧ |r - (a + b)| ≤ |a + b| / 2 ^ 24 + 1 / 2 ^ 150 := by
  obtain ⟨s, m, hm, rfl⟩ := hx
  obtain ⟨t, n, hn, rfl⟩ := hy
  have hu := unit_pos
  have key : ∀ (q : Bool) (k : Nat), sgn s * ((m : ℚ) / unit) + sgn t * ((n : ℚ) / unit) = sgn q * ((k : ℚ) / unit) → add x y = make q k →
      ∃ r : ℚ, FIs (add x y) r ∧ |r - (sgn s * ((m : ℚ) / unit) + sgn t * ((n : ℚ) / unit))| ≤
        |sgn s * ((m : ℚ) / unit) + sgn t * ((n : ℚ) / unit)| / 2 ^ 24 + 1 / 2 ^ 150 := by
    intro q k he ha
    have habs : |sgn q * ((k : ℚ) / unit)| = (k : ℚ) / unit := by
      rw [abs_mul, sgn_abs, one_mul, abs_of_nonneg (by positivity)]
    rw [he] at h ⊢
    rw [habs] at h ⊢
    rw [ha]
    exact make_err_s q k h
  have hadd : add x y = if s = t then make s (m + n) else if m = n then 0 else if n < m then make s (m - n) else make t (n - m) := by
    unfold add; rw [hm, hn]
  by_cases hst : s = t
  · subst hst
    apply key s (m + n)
    · push_cast; ring
    · rw [hadd, if_pos rfl]
  · have hts : sgn t = - sgn s := by cases s <;> cases t <;> simp_all [sgn]
    rw [if_neg hst] at hadd
    by_cases hmn : m = n
    · rw [if_pos hmn] at hadd
      refine ⟨0, ?_, ?_⟩
      · rw [hadd]; exact ⟨false, 0, by decide, by simp⟩
      · rw [hts, hmn]; ring_nf; simp
    · rw [if_neg hmn] at hadd
      by_cases hlt : n < m
      · rw [if_pos hlt] at hadd
        apply key s (m - n) _ hadd
        rw [Nat.cast_sub hlt.le, hts]; ring
      · rw [if_neg hlt] at hadd
        apply key t (n - m) _ hadd
        rw [Nat.cast_sub (by omega), hts]; ring

end PreCore.F32
