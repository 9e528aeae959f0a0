import Verif.Model.Base
/-!
# Model of datas/unit_testing.hpp

The check macros paste their arguments, without parentheses, into an expression. Expressions are trees; `toks` is the token sequence and
`WF` says that C++'s precedence and associativity (all operators here associate to the left) parse that sequence to the tree. Values are
integers; overflow and side effects are not modelled.
-/
namespace PreCore.UnitTest

/-- Binary operators of C++. (Arguments and bodies of the macros at unit_testing.hpp:88-138.) -/
inductive BinOp | mul | add | sub | lt | le | gt | ge | eq | ne | land | lor
deriving DecidableEq, Repr

/-- Binding strength (higher binds tighter), from the C++ grammar. (Arguments and bodies of the macros at unit_testing.hpp:88-138.) -/
def BinOp.prec : BinOp → Nat
  | .mul => 13 | .add => 12 | .sub => 12 | .lt => 10 | .le => 10 | .gt => 10 | .ge => 10 | .eq => 9 | .ne => 9
  | .land => 5 | .lor => 4

/-- `bool` as a number (conditions of unit_testing.hpp:88-138). -/
def boolVal (b : Bool) : Int := if b then 1 else 0

/-- The value of an operator (conditions of unit_testing.hpp:88-138). -/
def BinOp.apply : BinOp → Int → Int → Int
  | .mul, a, b => a * b
  | .add, a, b => a + b
  | .sub, a, b => a - b
  | .lt, a, b => boolVal (decide (a < b))
  | .le, a, b => boolVal (decide (a ≤ b))
  | .gt, a, b => boolVal (decide (b < a))
  | .ge, a, b => boolVal (decide (b ≤ a))
  | .eq, a, b => boolVal (decide (a = b))
  | .ne, a, b => boolVal (decide (a ≠ b))
  | .land, a, b => boolVal (decide (a ≠ 0 ∧ b ≠ 0))
  | .lor, a, b => boolVal (decide (a ≠ 0 ∨ b ≠ 0))

/-- Expressions: names and calls (`atom`, with the value they have), parentheses, `!`, binary operators. (Other operators are left out.).
(Arguments and bodies of the macros at unit_testing.hpp:88-138.) -/
inductive Ex
  | atom (v : Int)
  | paren (e : Ex)
  | not (e : Ex)
  | bin (op : BinOp) (l r : Ex)
deriving DecidableEq, Repr

/-- The value of an expression (conditions of unit_testing.hpp:88-138). -/
def Ex.eval : Ex → Int
  | .atom v => v
  | .paren e => e.eval
  | .not e => boolVal (decide (e.eval = 0))
  | .bin op l r => op.apply l.eval r.eval

/-- Tokens. (Arguments and bodies of the macros at unit_testing.hpp:88-138.) -/
inductive Tok
  | val (v : Int) | open_ | close | bang | op (o : BinOp)
deriving DecidableEq, Repr

/-- The tokens of an expression (what the macros at unit_testing.hpp:88-138 paste). -/
def Ex.toks : Ex → List Tok
  | .atom v => [.val v]
  | .paren e => .open_ :: e.toks ++ [.close]
  | .not e => .bang :: e.toks
  | .bin o l r => l.toks ++ .op o :: r.toks

/-- Strength of the outermost operator. (Arguments and bodies of the macros at unit_testing.hpp:88-138.) -/
def Ex.prec : Ex → Nat
  | .atom _ => 16
  | .paren _ => 16
  | .not _ => 15
  | .bin op _ _ => op.prec

/-- The tree is what C++ parses its tokens to. (Arguments and bodies of the macros at unit_testing.hpp:88-138.) -/
def Ex.WF : Ex → Prop
  | .atom _ => True
  | .paren e => e.WF
  | .not e => 15 ≤ e.prec ∧ e.WF
  | .bin op l r => op.prec ≤ l.prec ∧ op.prec < r.prec ∧ l.WF ∧ r.WF

/-- What `!val` is parsed to when `val` is replaced by the tokens of `e`: `!` takes the leftmost operand.
(Arguments and bodies of the macros at unit_testing.hpp:88-138.) -/
def bang : Ex → Ex
  | .bin op l r => .bin op (bang l) r
  | e => .not e

/-- The condition of `TEST_CHECK(val)` (unit_testing.hpp:88-92): `if (!val) fail`. -/
def checkFails (e : Ex) : Bool := decide ((bang e).eval ≠ 0)
/-- `TEST_NOT_CHECK(val)` (unit_testing.hpp:127-131). -/
def notCheckFails (e : Ex) : Bool := decide (e.eval ≠ 0)

/-- The comparing macros (unit_testing.hpp:94-125, 133-138): the operator that makes them fail. -/
inductive Cmp | equal | gt | lt | gtEq | leEq | notEqual
deriving DecidableEq, Repr

/-- The operator each macro tests with (unit_testing.hpp:94-125, 133-138). -/
def Cmp.failOp : Cmp → BinOp
  | .equal => .ne | .gt => .le | .lt => .ge | .gtEq => .lt | .leEq => .gt | .notEqual => .eq

/-- The condition `val1 op val2` when the arguments bind tighter than the operator (otherwise see `cmp_precedence_violated`).
(Arguments and bodies of the macros at unit_testing.hpp:88-138.) -/
def cmpFails (c : Cmp) (a b : Ex) : Bool := decide ((Ex.bin c.failOp a b).eval ≠ 0)

/-- `TEST_FUNC`, `TEST_CASES` (unit_testing.hpp:140-156): the returned numbers are summed up (`int`, `none` on overflow). -/
def sumCases : List Int → Int → Option Int
  | [], acc => some acc
  | r :: l, acc => if -2 ^ 31 ≤ acc + r ∧ acc + r < 2 ^ 31 then sumCases l (acc + r) else none

/-- The methods reported as failed. (unit_testing.hpp:140-147) -/
def reported (l : List Int) : List Nat := (List.range l.length).filter (fun i => l.getD i 0 ≠ 0)

/-- "N - sum out of N successed". (unit_testing.hpp:149-156) -/
def successed (l : List Int) : Option Int := (sumCases l 0).map (fun s => (l.length : Int) - s)

end PreCore.UnitTest
