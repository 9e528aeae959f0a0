import Verif.Model.ReflReg
/-!
# Model of datas/unit_testing.hpp (the checks of the test programs)

The macros paste their arguments as text without parentheses, so an argument is modelled as the text it is: operands (identifiers,
literals, calls, parenthesised expressions, all with their values) with the binary operators between them. A text is evaluated as C++
does, by precedence and from left to right. Values are `long long`s without overflow; floats only in `Props/UnitTestRun.lean`.
-/
namespace PreCore.UnitTestRun
open Refl

/-- Binary operators. (Macro arguments pasted at unit_testing.hpp:88-138.) -/
inductive BinOp
  | mul | add | sub | lt | le | gt | ge | eq | ne | band | bor | land | lor
deriving DecidableEq, Repr

/-- Precedence in C++ (larger binds tighter); `mul` 9, `add` 8, relations 6, equality 5, `&` 4, `|` 3, `&&` 2, `||` 1.
(Macro arguments pasted at unit_testing.hpp:88-138.) -/
def BinOp.prec : BinOp → Nat
  | .mul => 9
  | .add | .sub => 8
  | .lt | .le | .gt | .ge => 6
  | .eq | .ne => 5
  | .band => 4
  | .bor => 3
  | .land => 2
  | .lor => 1

/-- Truth values as numbers. (Macro arguments pasted at unit_testing.hpp:88-138.) -/
def truth (b : Bool) : Int := if b then 1 else 0

/-- `&` and `|` of numbers that are not negative (others: `band`, `bor` of the 64 bit words).
(Macro arguments pasted at unit_testing.hpp:88-138.) -/
def bits (f : BitVec 64 → BitVec 64 → BitVec 64) (a b : Int) : Int := (f (BitVec.ofInt 64 a) (BitVec.ofInt 64 b)).toInt

/-- The value of an operator; both operands are evaluated (they have no effects). (Macro arguments pasted at unit_testing.hpp:88-138.) -/
def BinOp.apply : BinOp → Int → Int → Int
  | .mul, a, b => a * b
  | .add, a, b => a + b
  | .sub, a, b => a - b
  | .lt, a, b => truth (decide (a < b))
  | .le, a, b => truth (decide (a ≤ b))
  | .gt, a, b => truth (decide (a > b))
  | .ge, a, b => truth (decide (a ≥ b))
  | .eq, a, b => truth (decide (a = b))
  | .ne, a, b => truth (decide (a ≠ b))
  | .band, a, b => bits (· &&& ·) a b
  | .bor, a, b => bits (· ||| ·) a b
  | .land, a, b => truth (decide (a ≠ 0) && decide (b ≠ 0))
  | .lor, a, b => truth (decide (a ≠ 0) || decide (b ≠ 0))

/-- A macro argument: the first operand and the operators with the operands behind them. (Macro arguments pasted at unit_testing.hpp:88-138.) -/
structure Arg where
  head : Int
  rest : List (BinOp × Int)
deriving DecidableEq, Repr

/-- Evaluates the operators of one precedence level from left to right; `acc` is the operand to the left.
(Macro arguments pasted at unit_testing.hpp:88-138.) -/
def reduce (p : Nat) : Int → List (BinOp × Int) → Int × List (BinOp × Int)
  | acc, [] => (acc, [])
  | acc, (op, v) :: l =>
    if op.prec = p then reduce p (op.apply acc v) l
    else
      let r := reduce p v l
      (acc, (op, r.1) :: r.2)

/-- All levels up to `p`, the tightest first. (Macro arguments pasted at unit_testing.hpp:88-138.) -/
def reduceFrom : Nat → Int × List (BinOp × Int) → Int × List (BinOp × Int)
  | 0, x => x
  | p + 1, x => reduceFrom p (reduce (p + 1) x.1 x.2)

/-- The value of an expression text. (Macro arguments pasted at unit_testing.hpp:88-138.) -/
def value (a : Arg) : Int := (reduceFrom 9 (a.head, a.rest)).1

/-- `!text`: the operator binds tighter than any binary one, so it takes the first operand only.
(Macro arguments pasted at unit_testing.hpp:88-138.) -/
def notText (a : Arg) : Arg := ⟨truth (decide (a.head = 0)), a.rest⟩

/-- `text1 op text2`. (Macro arguments pasted at unit_testing.hpp:88-138.) -/
def joinText (op : BinOp) (a b : Arg) : Arg := ⟨a.head, a.rest ++ (op, b.head) :: b.rest⟩

/-- A statement of a test function. (Macro arguments pasted at unit_testing.hpp:88-138.) -/
inductive Check
  | check (a : Arg) | notCheck (a : Arg) | equal (a b : Arg) | notEqual (a b : Arg)
  | gt (a b : Arg) | lt (a b : Arg) | gtEq (a b : Arg) | leEq (a b : Arg)
  /-- `TEST_THROW`: the exception the statements end with, if any, and whether `catch (what &)` takes it. -/
  | throws (thrown : Option Bool)
deriving DecidableEq, Repr

/-- The condition of the `if` that reports a failure (unit_testing.hpp:88-138; `TEST_THROW`: 70-86). -/
def failed : Check → Bool
  | .check a => decide (value (notText a) ≠ 0)
  | .notCheck a => decide (value a ≠ 0)
  | .equal a b => decide (value (joinText .ne a b) ≠ 0)
  | .notEqual a b => decide (value (joinText .eq a b) ≠ 0)
  | .gt a b => decide (value (joinText .le a b) ≠ 0)
  | .lt a b => decide (value (joinText .ge a b) ≠ 0)
  | .gtEq a b => decide (value (joinText .lt a b) ≠ 0)
  | .leEq a b => decide (value (joinText .gt a b) ≠ 0)
  | .throws none => true
  | .throws (some caught) => !caught

/-- A test function: the first failing check returns 1, the end returns 0. (unit_testing.hpp:88-138, used at 140-147) -/
def testFunction : List Check → Int
  | [] => 0
  | c :: cs => if failed c then 1 else testFunction cs

/-- The lines printed by `TEST_FUNC` and the sum in `_tstVal` (unit_testing.hpp:140-147): number of "failed" lines and sum. -/
def runCases : Nat × Int → List Int → Nat × Int
  | s, [] => s
  | (n, t), r :: rs => runCases (if r ≠ 0 then n + 1 else n, t + r) rs

/-- `TEST_CASES(resultVar, ...)` (unit_testing.hpp:149-156) on the return values of the functions listed: the number of cases announced, the
"failed" lines and the value of `resultVar`. The list is walked by `StaticFor` and counted by `VA_NARGS` (C64); `none`: rejected by the
compiler. -/
def testCases (rs : List Int) : Option (MArg Int × Nat × Int) :=
  match vaNArgs rs, staticFor rs with
  | some n, some l => (l.mapM id).map fun l => (n, runCases (0, 0) l)
  | _, _ => none

end PreCore.UnitTestRun
