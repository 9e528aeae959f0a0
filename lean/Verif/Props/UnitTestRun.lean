import Verif.Model.UnitTestRun
import Verif.Props.ReflReg
import Verif.Props.FloatSpecial
/-!
# C144: a test program succeeds exactly when its checks hold
-/
namespace PreCore.UnitTestRun
open Refl

/-! ## Specification: expressions as trees -/

/-- An expression of C++. -/
inductive Expr
  | leaf (v : Int)
  | node (op : BinOp) (l r : Expr)
deriving DecidableEq, Repr

/-- Its value. -/
def Expr.eval : Expr → Int
  | .leaf v => v
  | .node op l r => op.apply l.eval r.eval

/-- Its text, written without parentheses. -/
def Expr.text : Expr → Arg
  | .leaf v => ⟨v, []⟩
  | .node op l r => joinText op l.text r.text

/-- How tight its outermost operator binds; 10 for an operand. -/
def Expr.tight : Expr → Nat
  | .leaf _ => 10
  | .node op _ _ => op.prec

/-- The tree needs no parentheses: the text means this tree. -/
def Expr.Plain : Expr → Prop
  | .leaf _ => True
  | .node op l r => l.Plain ∧ r.Plain ∧ op.prec ≤ l.tight ∧ op.prec < r.tight

/-- An argument of a macro that stands for the expression `e`. -/
def Stands (a : Arg) (e : Expr) : Prop := e.Plain ∧ e.text = a

/-! ## Evaluation of texts -/

theorem prec_range (op : BinOp) : 1 ≤ op.prec ∧ op.prec ≤ 9 := by cases op <;> decide

/-- The first `n` levels. -/
def levels : Nat → Int × List (BinOp × Int) → Int × List (BinOp × Int)
  | 0, x => x
  | n + 1, x => reduce (9 - n) (levels n x).1 (levels n x).2

theorem value_levels (a : Arg) : value a = (levels 9 (a.head, a.rest)).1 := rfl

theorem reduce_join (p : Nat) (op : BinOp) (h : op.prec ≠ p) (w : Int) (y : List (BinOp × Int)) : ∀ (x : List (BinOp × Int)) (v : Int),
    reduce p v (x ++ (op, w) :: y) = ((reduce p v x).1, (reduce p v x).2 ++ (op, (reduce p w y).1) :: (reduce p w y).2) := by
  intro x
  induction x with
  | nil => intro v; simp [reduce, h]
  | cons a x ih =>
    intro v
    obtain ⟨o, u⟩ := a
    rw [List.cons_append, reduce, reduce]
    by_cases ho : o.prec = p
    · rw [if_pos ho, if_pos ho]; exact ih _
    · rw [if_neg ho, if_neg ho, ih]; rfl

theorem levels_join (n : Nat) (op : BinOp) (h : n + op.prec ≤ 9) (x y : Int × List (BinOp × Int)) :
    levels n (x.1, x.2 ++ (op, y.1) :: y.2) = ((levels n x).1, (levels n x).2 ++ (op, (levels n y).1) :: (levels n y).2) := by
  induction n with
  | zero => rfl
  | succ n ih =>
    rw [levels, ih (by omega), levels, levels]
    exact reduce_join _ _ (by omega) _ _ _ _

theorem reduce_snoc (p : Nat) (op : BinOp) (h : op.prec = p) (w : Int) : ∀ (x : List (BinOp × Int)) (v a : Int),
    reduce p v x = (a, []) → reduce p v (x ++ [(op, w)]) = (op.apply a w, []) := by
  intro x
  induction x with
  | nil => intro v a hx; simp only [reduce, Prod.mk.injEq, and_true] at hx; subst hx; simp [reduce, h]
  | cons b x ih =>
    intro v a hx
    obtain ⟨o, u⟩ := b
    rw [reduce] at hx
    by_cases ho : o.prec = p
    · rw [if_pos ho] at hx
      rw [List.cons_append, reduce, if_pos ho]
      exact ih _ _ hx
    · rw [if_neg ho] at hx
      simp at hx

theorem levels_done (v : Int) : ∀ n, levels n (v, []) = (v, []) := by
  intro n
  induction n with
  | zero => rfl
  | succ n ih => rw [levels, ih]; rfl

theorem levels_more {x : Int × List (BinOp × Int)} {v : Int} {n m : Nat} (h : n ≤ m) (hn : levels n x = (v, [])) : levels m x = (v, []) := by
  induction h with
  | refl => exact hn
  | step _ ih => rw [levels, ih]; rfl

theorem text_levels (e : Expr) (h : e.Plain) : ∀ n, n ≤ 9 → 10 ≤ n + e.tight → levels n (e.text.head, e.text.rest) = (e.eval, []) := by
  induction e with
  | leaf v => intro n _ _; exact levels_done v n
  | node op l r ihl ihr =>
    obtain ⟨h1, h2, h3, h4⟩ := h
    intro n hn ht
    have hq := prec_range op
    have ht : 10 ≤ n + op.prec := ht
    refine levels_more (n := 10 - op.prec) (by omega) ?_
    have e1 : 10 - op.prec = (9 - op.prec) + 1 := by omega
    rw [e1, levels]
    have hj := levels_join (9 - op.prec) op (by omega) (l.text.head, l.text.rest) (r.text.head, r.text.rest)
    have hr := ihr h2 (9 - op.prec) (by omega) (by omega)
    rw [hr] at hj
    have hl := ihl h1 (10 - op.prec) (by omega) (by omega)
    rw [e1, levels] at hl
    show reduce (9 - (9 - op.prec)) (levels _ (l.text.head, l.text.rest ++ (op, r.text.head) :: r.text.rest)).1
      (levels _ (l.text.head, l.text.rest ++ (op, r.text.head) :: r.text.rest)).2 = _
    rw [hj]
    exact reduce_snoc _ op (by omega) _ _ _ _ hl

/-- The text of a tree that needs no parentheses has its value. -/
theorem value_text {a : Arg} {e : Expr} (h : Stands a e) : value a = e.eval := by
  obtain ⟨hp, rfl⟩ := h
  have hr : 1 ≤ e.tight := by
    cases e with
    | leaf v => exact (by decide : 1 ≤ 10)
    | node op l r => exact (prec_range op).1
  rw [value_levels, text_levels e hp 9 (by omega) (by omega)]

theorem value_join {a b : Arg} {x y : Expr} (ha : Stands a x) (hb : Stands b y) (op : BinOp) (h1 : op.prec ≤ x.tight) (h2 : op.prec < y.tight) :
    value (joinText op a b) = op.apply x.eval y.eval := by
  have : Stands (joinText op a b) (.node op x y) := by
    refine ⟨⟨ha.1, hb.1, h1, h2⟩, ?_⟩
    obtain ⟨-, rfl⟩ := ha
    obtain ⟨-, rfl⟩ := hb
    rfl
  rw [value_text this]; rfl

theorem truth_ne (b : Bool) : truth b ≠ 0 ↔ b = true := by cases b <;> simp [truth]

/-- C144: the comparing checks report a failure exactly when the comparison does not hold, for arguments whose operators bind tighter
than the comparison (equality for TEST_EQUAL and TEST_NOT_EQUAL, relations for the others). -/
theorem comparisons_partial (a b : Arg) (x y : Expr) (ha : Stands a x) (hb : Stands b y) :
    (5 ≤ x.tight → 5 < y.tight → (failed (.equal a b) = true ↔ x.eval ≠ y.eval) ∧ (failed (.notEqual a b) = true ↔ x.eval = y.eval)) ∧
    (6 ≤ x.tight → 6 < y.tight →
      (failed (.gt a b) = true ↔ ¬ x.eval > y.eval) ∧ (failed (.lt a b) = true ↔ ¬ x.eval < y.eval) ∧
      (failed (.gtEq a b) = true ↔ ¬ x.eval ≥ y.eval) ∧ (failed (.leEq a b) = true ↔ ¬ x.eval ≤ y.eval)) := by
  constructor
  · intro h1 h2
    simp only [failed, decide_eq_true_eq]
    rw [value_join ha hb .ne h1 h2, value_join ha hb .eq h1 h2]
    simp only [BinOp.apply, truth_ne, decide_eq_true_eq, and_self, ne_eq]
  · intro h1 h2
    simp only [failed, decide_eq_true_eq]
    rw [value_join ha hb .le h1 h2, value_join ha hb .ge h1 h2, value_join ha hb .lt h1 h2, value_join ha hb .gt h1 h2]
    simp only [BinOp.apply, truth_ne, decide_eq_true_eq]
    omega

/-- C144: TEST_NOT_CHECK reports exactly the true arguments, TEST_CHECK the false ones when the argument is a single operand (a name, a
call, a parenthesised expression), TEST_THROW everything but the exception asked for. -/
theorem checks_partial (a : Arg) (x : Expr) (ha : Stands a x) :
    (failed (.notCheck a) = true ↔ x.eval ≠ 0) ∧
    (a.rest = [] → (failed (.check a) = true ↔ x.eval = 0)) ∧
    (∀ t, failed (.throws t) = true ↔ t ≠ some true) := by
  refine ⟨?_, fun hr => ?_, fun t => ?_⟩
  · simp only [failed, decide_eq_true_eq]; rw [value_text ha]
  · obtain ⟨h, r⟩ := a
    subst hr
    have hv : x.eval = h := by rw [← value_text ha, value_levels, levels_done]
    simp only [failed, decide_eq_true_eq]
    rw [value_levels]
    simp only [notText, levels_done, truth_ne, decide_eq_true_eq, hv]
  · cases t with
    | none => simp [failed]
    | some c => cases c <;> simp [failed]

/-- C144 VIOLATED: `TEST_CHECK(a == b)` tests `!a == b`: for all numbers, it reports a failure exactly when `b` is 1 and `a` is 0 or `b` is 0 and
`a` is not. So TEST_CHECK(1 == 2) succeeds, and no comparison with a number
other than 0 and 1 on the right side ever fails. -/
theorem check_equality_violated (a b : Int) :
    (failed (.check ⟨a, [(.eq, b)]⟩) = true ↔ (a = 0 ∧ b = 1) ∨ (a ≠ 0 ∧ b = 0)) ∧
    Stands ⟨1, [(.eq, 2)]⟩ (.node .eq (.leaf 1) (.leaf 2)) ∧ (Expr.node .eq (.leaf 1) (.leaf 2)).eval = 0 ∧ failed (.check ⟨1, [(.eq, 2)]⟩) = false ∧
    (∀ c : Int, c ≠ 0 → c ≠ 1 → ∀ d : Int, failed (.check ⟨d, [(.eq, c)]⟩) = false) := by
  have key : ∀ a b : Int, failed (.check ⟨a, [(.eq, b)]⟩) = true ↔ (a = 0 ∧ b = 1) ∨ (a ≠ 0 ∧ b = 0) := by
    intro a b
    have hs : Stands (notText ⟨a, [(.eq, b)]⟩) (.node .eq (.leaf (truth (decide (a = 0)))) (.leaf b)) :=
      ⟨⟨trivial, trivial, by simp [BinOp.prec, Expr.tight], by simp [BinOp.prec, Expr.tight]⟩, rfl⟩
    simp only [failed, decide_eq_true_eq]
    rw [value_text hs]
    show truth (decide (truth (decide (a = 0)) = b)) ≠ 0 ↔ _
    rw [truth_ne, decide_eq_true_eq]
    by_cases h : a = 0
    · simp only [h, decide_true, truth, if_true, true_and, ne_eq, not_true_eq_false, false_and, or_false]
      exact eq_comm
    · simp only [h, decide_false, truth, Bool.false_eq_true, if_false, false_and, ne_eq, not_false_eq_true, true_and, false_or]
      exact eq_comm
  refine ⟨key a b, ⟨⟨trivial, trivial, by decide, by decide⟩, rfl⟩, by decide, by decide, fun c h0 h1 d => ?_⟩
  rw [Bool.eq_false_iff]
  intro h
  rcases (key d c).1 h with h | h <;> omega

/-- C144 VIOLATED: operators that bind looser than the comparison take parts of it: `TEST_EQUAL(6 & 3, 1)` tests `6 & (3 != 1)` and succeeds although
`6 & 3` is 2; `TEST_EQUAL(1, 1 || 0)` tests `(1 != 1) || 0`. -/
theorem loose_argument_violated :
    Stands ⟨6, [(.band, 3)]⟩ (.node .band (.leaf 6) (.leaf 3)) ∧ (Expr.node .band (.leaf 6) (.leaf 3)).eval = 2 ∧
    failed (.equal ⟨6, [(.band, 3)]⟩ ⟨1, []⟩) = false ∧ failed (.equal ⟨6, [(.band, 3)]⟩ ⟨2, []⟩) = false := by
  refine ⟨⟨⟨trivial, trivial, by decide, by decide⟩, rfl⟩, by decide +kernel, by decide +kernel, by decide +kernel⟩

/-- C144: what is not a number: the condition of TEST_GT is `x <= y`, so it succeeds when a side is not a number although nothing is
greater; likewise for the other three. -/
theorem nan_checks_violated (x y : Vec.Fl) (h : Vec.NotNumber x) : (¬ x ≤ y ∧ ¬ y < x) ∧ (¬ y ≤ x ∧ ¬ x < y) := by
  have hp : Vec.place x = none := by unfold Vec.place; rw [show F32.val x.bits = .nan from h]
  refine ⟨⟨fun hx => ?_, fun hx => ?_⟩, fun hx => ?_, fun hx => ?_⟩
  · obtain ⟨p, q, h1, -⟩ := (Vec.order_line x y).2.1 hx; rw [hp] at h1; cases h1
  · obtain ⟨p, q, -, h1, -⟩ := (Vec.order_line y x).1.1 hx; rw [hp] at h1; cases h1
  · obtain ⟨p, q, -, h1, -⟩ := (Vec.order_line y x).2.1 hx; rw [hp] at h1; cases h1
  · obtain ⟨p, q, h1, -⟩ := (Vec.order_line x y).1.1 hx; rw [hp] at h1; cases h1

/-! ## Functions and programs -/

/-- C144: a test function returns 0 or 1, and 0 exactly when no check failed. -/
theorem function_result (cs : List Check) :
    (testFunction cs = 0 ∨ testFunction cs = 1) ∧ (testFunction cs = 0 ↔ ∀ c ∈ cs, failed c = false) := by
  induction cs with
  | nil => simp [testFunction]
  | cons c cs ih =>
    unfold testFunction
    cases h : failed c with
    | true => simp [h]
    | false => simpa [h] using ih

theorem runCases_eq : ∀ (rs : List Int) (n : Nat) (t : Int), runCases (n, t) rs = (n + (rs.filter (· ≠ 0)).length, t + rs.sum) := by
  intro rs
  induction rs with
  | nil => intro n t; simp [runCases]
  | cons r rs ih =>
    intro n t
    unfold runCases
    rw [ih]
    by_cases h : r = 0
    · simp [h]
    · simp [h]; omega

theorem mapM_some_id {α : Type} (l : List α) : (l.map some).mapM id = some l := by
  induction l with
  | nil => rfl
  | cons a l ih => rw [List.map_cons, List.mapM_cons, ih]; rfl

theorem sum_bits : ∀ (rs : List Int), (∀ r ∈ rs, r = 0 ∨ r = 1) → rs.sum = ((rs.filter (· ≠ 0)).length : Int) := by
  intro rs
  induction rs with
  | nil => intro _; rfl
  | cons r rs ih =>
    intro h
    have := ih (fun x hx => h x (by simp [hx]))
    rcases h r (by simp) with rfl | rfl
    · simpa using this
    · simp [this]; omega

/-- C144: a program of 1 to 86 (or 89) test functions: the result is the number of functions with a failed check, one line is printed for
each of them, and it is 0 exactly when every check of every function holds. -/
theorem program_result_partial (fs : List (List Check)) (h : GoodCount fs.length) :
    ∃ n : Nat, testCases (fs.map testFunction) = some (MArg.num fs.length, n, (n : Int)) ∧
      n = (fs.filter (fun f => f.any failed)).length ∧ (n = 0 ↔ ∀ f ∈ fs, ∀ c ∈ f, failed c = false) := by
  have hl : (fs.map testFunction).length = fs.length := List.length_map _
  have hv := vaNArgs_good (fs.map testFunction) (by rw [hl]; exact h)
  have hs := ((macro_loop_partial (fs.map testFunction)).1 (by rw [hl]; exact h)).1
  have h01 : ∀ r ∈ fs.map testFunction, r = 0 ∨ r = 1 := by
    intro r hr
    obtain ⟨f, -, rfl⟩ := List.mem_map.1 hr
    exact (function_result f).1
  have hany : ∀ f, (decide (testFunction f ≠ 0)) = f.any failed := by
    intro f
    rw [Bool.eq_iff_iff, decide_eq_true_eq, List.any_eq_true, ne_eq, (function_result f).2]
    constructor
    · intro hn
      by_contra hc
      apply hn
      intro c hm
      by_contra hf
      exact hc ⟨c, hm, by simpa using hf⟩
    · rintro ⟨c, hm, hf⟩ hn
      rw [hn c hm] at hf; cases hf
  have hcount : ((fs.map testFunction).filter (· ≠ 0)).length = (fs.filter (fun f => f.any failed)).length := by
    rw [List.filter_map, List.length_map]
    congr 1
    apply List.filter_congr
    intro f _
    exact hany f
  refine ⟨(fs.filter (fun f => f.any failed)).length, ?_, rfl, ?_⟩
  · unfold testCases
    rw [hv, hs, hl]
    simp only [mapM_some_id, Option.map_some, runCases_eq, sum_bits _ h01, hcount, Nat.zero_add, Int.zero_add]
  · rw [List.length_eq_zero_iff, List.filter_eq_nil_iff]
    constructor
    · intro hn f hf c hc
      have := hn f hf
      rw [List.any_eq_true] at this
      by_contra hx
      exact this ⟨c, hc, by simpa using hx⟩
    · intro hn f hf ha
      obtain ⟨c, hc, hx⟩ := List.any_eq_true.1 ha
      rw [hn f hf c hc] at hx; cases hx

/-- C144 VIOLATED: functions that return other numbers: the sum of a -1 and a 1 is 0, two failures make a successful program. -/
theorem sum_violated : ∃ n : Nat, testCases [-1, 1] = some (MArg.num 2, n, 0) ∧ n = 2 := ⟨2, by decide +kernel, rfl⟩

/-- Arguments with operators: `1 + 2 * 3` compared with `7`. -/
example : Stands ⟨1, [(.add, 2), (.mul, 3)]⟩ (.node .add (.leaf 1) (.node .mul (.leaf 2) (.leaf 3))) ∧
    6 < (Expr.node .add (.leaf 1) (.node .mul (.leaf 2) (.leaf 3))).tight ∧
    failed (.equal ⟨1, [(.add, 2), (.mul, 3)]⟩ ⟨7, []⟩) = false ∧ failed (.equal ⟨1, [(.add, 2), (.mul, 3)]⟩ ⟨9, []⟩) = true :=
  ⟨⟨⟨trivial, ⟨trivial, trivial, by decide, by decide⟩, by decide, by decide⟩, rfl⟩, by decide, by decide, by decide⟩

/-- A program of two functions, one of which fails. -/
example : testCases ([[Check.equal ⟨1, []⟩ ⟨1, []⟩, .throws (some true)], [.gt ⟨1, []⟩ ⟨1, []⟩]].map testFunction) = some (MArg.num 2, 1, 1) ∧ GoodCount 2 :=
  ⟨by decide +kernel, by decide, by decide, by decide, by decide⟩

end PreCore.UnitTestRun
