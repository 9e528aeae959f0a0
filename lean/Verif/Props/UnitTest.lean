import Verif.Model.UnitTest
/-!
# C116: the test macros
-/
namespace PreCore.UnitTest

/-- The tree `bang e` has the tokens `!` followed by those of `e`, and is what C++ parses them to. -/
theorem bang_parses (e : Ex) (h : e.WF) : (bang e).toks = .bang :: e.toks ∧ (bang e).WF ∧ (e.prec ≤ 15 → e.prec ≤ (bang e).prec) := by
  induction e with
  | atom v => exact ⟨rfl, ⟨by simp [Ex.prec], trivial⟩, by simp [Ex.prec]⟩
  | paren e _ => exact ⟨rfl, ⟨by simp [Ex.prec], h⟩, by simp [Ex.prec]⟩
  | not e _ => exact ⟨rfl, ⟨by simp [Ex.prec], h⟩, by simp [bang, Ex.prec]⟩
  | bin op l r ihl _ =>
    obtain ⟨h1, h2, h3, h4⟩ := h
    obtain ⟨i1, i2, i3⟩ := ihl h3
    refine ⟨by simp [bang, Ex.toks, i1], ⟨?_, h2, i2, h4⟩, by simp [bang, Ex.prec]⟩
    by_cases hl : l.prec ≤ 15
    · exact Nat.le_trans h1 (i3 hl)
    · cases l with
      | atom v => simp only [bang, Ex.prec]; cases op <;> decide
      | paren e => simp only [bang, Ex.prec]; cases op <;> decide
      | not e => simp [Ex.prec] at hl
      | bin o a b => simp only [Ex.prec] at hl; exfalso; apply hl; cases o <;> decide

/-- C116: `TEST_CHECK` of a name, a call, a parenthesised or a negated expression fails exactly when it is false. -/
theorem check_partial (e : Ex) (h : ∀ op l r, e ≠ .bin op l r) : checkFails e = true ↔ e.eval = 0 := by
  have hb : bang e = .not e := by
    cases e with
    | bin op l r => exact absurd rfl (h op l r)
    | _ => rfl
  unfold checkFails
  rw [hb, decide_eq_true_iff]
  simp only [Ex.eval, boolVal, decide_eq_true_eq]
  constructor
  · intro h; exact Classical.byContradiction fun hn => h (by rw [if_neg hn])
  · intro h; rw [if_pos h]; decide

example : checkFails (.paren (.bin .eq (.atom 1) (.atom 2))) = true := by decide

/-- `TEST_CHECK(a == b)` passes for all numbers other than 0, equal or not, and `TEST_CHECK(a < b)` does not look at `a`. -/
theorem check_equal_violated (a b : Int) (ha : a ≠ 0) :
    (b ≠ 0 → checkFails (.bin .eq (.atom a) (.atom b)) = false ∧ checkFails (.bin .lt (.atom a) (.atom b)) = decide (0 < b)) := by
  intro hb
  have h0 : boolVal (decide (a = 0)) = 0 := by simp [boolVal, ha]
  have h1 : Ex.eval (bang (.atom a)) = 0 := h0
  constructor
  · have : Ex.eval (bang (.bin .eq (.atom a) (.atom b))) = 0 := by
      show boolVal (decide (Ex.eval (bang (.atom a)) = b)) = 0
      rw [h1]
      simp [boolVal, hb.symm]
    simp [checkFails, this]
  · have : Ex.eval (bang (.bin .lt (.atom a) (.atom b))) = boolVal (decide (0 < b)) := by
      show boolVal (decide (Ex.eval (bang (.atom a)) < b)) = _
      rw [h1]
    unfold checkFails
    rw [this]
    by_cases h : 0 < b <;> simp [h, boolVal]

/-- C119: `TEST_NOT_CHECK`, which pastes its argument between parentheses of its own, fails exactly when the argument is true. -/
theorem not_check (e : Ex) : notCheckFails e = true ↔ e.eval ≠ 0 := by
  unfold notCheckFails; exact decide_eq_true_iff

/-- C++'s grammar: `0 == 1 || 2 < 3 + 1` is parsed as `(0 == 1) || (2 < (3 + 1))`. -/
example : (Ex.bin .lor (.bin .eq (.atom 0) (.atom 1)) (.bin .lt (.atom 2) (.bin .add (.atom 3) (.atom 1)))).WF ∧
    notCheckFails (.bin .lor (.bin .eq (.atom 0) (.atom 1)) (.bin .lt (.atom 2) (.bin .add (.atom 3) (.atom 1)))) = true := by
  constructor
  · simp [Ex.WF, Ex.prec, BinOp.prec]
  · decide

/-- The demanded relation of each comparing macro. -/
def Cmp.holds : Cmp → Int → Int → Prop
  | .equal, a, b => a = b
  | .gt, a, b => a > b
  | .lt, a, b => a < b
  | .gtEq, a, b => a ≥ b
  | .leEq, a, b => a ≤ b
  | .notEqual, a, b => a ≠ b

/-- C116: the comparing macros, whose arguments bind tighter than comparisons (calls, sums, products, parentheses), fail exactly when the
relation of their name does not hold; the pasted text is parsed as that comparison. -/
theorem compare_checks (c : Cmp) (a b : Ex) (ha : a.WF) (hb : b.WF) (hpa : 12 ≤ a.prec) (hpb : 12 ≤ b.prec) :
    (Ex.bin c.failOp a b).WF ∧ (cmpFails c a b = true ↔ ¬ c.holds a.eval b.eval) := by
  refine ⟨⟨?_, ?_, ha, hb⟩, ?_⟩
  · cases c <;> simp only [Cmp.failOp, BinOp.prec] <;> omega
  · cases c <;> simp only [Cmp.failOp, BinOp.prec] <;> omega
  · unfold cmpFails
    rw [decide_eq_true_iff]
    have hbv : ∀ (p : Prop) [Decidable p], boolVal (decide p) ≠ 0 ↔ p := by
      intro p _; unfold boolVal; by_cases h : p <;> simp [h]
    cases c <;> simp only [Cmp.failOp, Ex.eval, BinOp.apply, hbv, Cmp.holds] <;> omega

example : cmpFails .equal (.bin .add (.atom 1) (.atom 2)) (.atom 3) = false ∧ cmpFails .gt (.atom 3) (.atom 3) = true := by decide

/-- Arguments with weaker operators are torn apart: `TEST_EQUAL(0, 2 == 1)` is parsed as `(0 != 2) == 1` and fails although both
arguments are 0. -/
theorem cmp_precedence_violated : ∃ t : Ex, t.WF ∧ t.toks = (Ex.atom 0).toks ++ .op .ne :: (Ex.bin .eq (.atom 2) (.atom 1)).toks ∧
    t.eval ≠ 0 ∧ (Ex.atom 0).eval = (Ex.bin .eq (.atom 2) (.atom 1)).eval :=
  ⟨.bin .eq (.bin .ne (.atom 0) (.atom 2)) (.atom 1), by simp [Ex.WF, Ex.prec, BinOp.prec], rfl, by decide, by decide⟩

theorem sum_eq (l : List Int) (acc : Int) (s : Int) (h : sumCases l acc = some s) : s = acc + l.sum := by
  induction l generalizing acc with
  | nil => simp only [sumCases, Option.some.injEq] at h; simp [h]
  | cons r l ih =>
    simp only [sumCases] at h
    split at h
    · rw [ih _ h]; simp [Int.add_assoc]
    · simp at h

theorem sum_zero (l : List Int) (h : ∀ r ∈ l, 0 ≤ r) : 0 ≤ l.sum ∧ (l.sum = 0 ↔ ∀ r ∈ l, r = 0) := by
  induction l with
  | nil => simp
  | cons r l ih =>
    obtain ⟨i1, i2⟩ := ih (fun x hx => h x (List.mem_cons_of_mem _ hx))
    have hr := h r List.mem_cons_self
    rw [List.sum_cons]
    refine ⟨by omega, ?_⟩
    constructor
    · intro hs
      have h1 : r = 0 := by omega
      have h2 : l.sum = 0 := by omega
      intro x hx
      rcases List.mem_cons.1 hx with rfl | hx
      · exact h1
      · exact i2.1 h2 x hx
    · intro ha
      have h1 := ha r List.mem_cons_self
      have h2 := i2.2 (fun x hx => ha x (List.mem_cons_of_mem _ hx))
      omega

theorem filter_split (l : List Int) : (l.filter (· ≠ 0)).length + (l.filter (· = 0)).length = l.length := by
  induction l with
  | nil => rfl
  | cons r l ih =>
    by_cases hr : r = 0
    · rw [List.filter_cons_of_neg (by simp [hr]), List.filter_cons_of_pos (by simp [hr]), List.length_cons, List.length_cons]; omega
    · rw [List.filter_cons_of_pos (by simp [hr]), List.filter_cons_of_neg (by simp [hr]), List.length_cons, List.length_cons]; omega

/-- C116: cases that return 0 or 1 (as the macros make them): the result is the number of failed cases, so it is 0 exactly when all
passed, the reported methods are exactly the failed ones, and the number of successes is right. -/
theorem cases_count (l : List Int) (h : ∀ r ∈ l, r = 0 ∨ r = 1) (hl : l.length < 2 ^ 31) :
    sumCases l 0 = some ((l.filter (· ≠ 0)).length : Int) ∧ ((l.filter (· ≠ 0)).length = 0 ↔ ∀ r ∈ l, r = 0) ∧
    successed l = some ((l.filter (· = 0)).length : Int) ∧ (∀ i, i ∈ reported l ↔ ∃ r, l[i]? = some r ∧ r ≠ 0) := by
  have key : ∀ (l : List Int) (acc : Nat), (∀ r ∈ l, r = 0 ∨ r = 1) → acc + l.length < 2 ^ 31 →
      sumCases l acc = some ((acc + (l.filter (· ≠ 0)).length : Nat) : Int) := by
    intro l
    induction l with
    | nil => intro acc _ _; simp [sumCases]
    | cons r l ih =>
      intro acc h hl
      simp only [List.length_cons] at hl
      rcases h r List.mem_cons_self with rfl | rfl
      · simp only [sumCases, Int.add_zero]
        rw [if_pos (by omega), ih acc (fun x hx => h x (List.mem_cons_of_mem _ hx)) (by omega)]
        simp
      · simp only [sumCases]
        rw [if_pos (by omega)]
        have := ih (acc + 1) (fun x hx => h x (List.mem_cons_of_mem _ hx)) (by omega)
        rw [show ((acc : Int) + 1) = ((acc + 1 : Nat) : Int) by omega, this]
        simp only [Option.some.injEq, List.filter_cons]
        simp
        omega
  have hk := key l 0 h (by omega)
  simp only [Nat.zero_add] at hk
  have hk : sumCases l 0 = some ((l.filter (· ≠ 0)).length : Int) := hk
  have hlen : (l.filter (· ≠ 0)).length + (l.filter (· = 0)).length = l.length := filter_split l
  refine ⟨hk, ?_, ?_, ?_⟩
  · rw [List.length_eq_zero_iff, List.filter_eq_nil_iff]
    simp
  · unfold successed
    rw [hk, Option.map_some, Option.some.injEq]
    omega
  · intro i
    simp only [reported, List.mem_filter, List.mem_range, decide_eq_true_eq]
    constructor
    · rintro ⟨hi, hr⟩
      refine ⟨l[i], List.getElem?_eq_getElem hi, ?_⟩
      rwa [List.getD_eq_getElem?_getD, List.getElem?_eq_getElem hi, Option.getD_some] at hr
    · rintro ⟨r, hr, hne⟩
      obtain ⟨hi, rfl⟩ := List.getElem?_eq_some_iff.1 hr
      refine ⟨hi, ?_⟩
      rwa [List.getD_eq_getElem?_getD, hr, Option.getD_some]

example : sumCases [0, 1, 0, 1] 0 = some 2 ∧ successed [0, 1, 0, 1] = some 2 ∧ reported [0, 1, 0, 1] = [1, 3] := by decide

/-- C116, any results that are not negative: 0 exactly when all cases passed. -/
theorem cases_zero (l : List Int) (h : ∀ r ∈ l, 0 ≤ r) (s : Int) (hs : sumCases l 0 = some s) : s = 0 ↔ ∀ r ∈ l, r = 0 := by
  rw [sum_eq l 0 s hs, Int.zero_add]
  exact (sum_zero l h).2

/-- Cases that return negative numbers can cancel failures out. -/
theorem cases_cancel_violated : sumCases [1, -1] 0 = some 0 ∧ reported [1, -1] = [0, 1] ∧ successed [1, -1] = some 2 := by decide

end PreCore.UnitTest
