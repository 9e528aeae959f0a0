import Verif.Model.Base
/-!
# Model of uni/python/pylist.hpp (`UniPy::List`) and uni/python/pyenum.hpp (`UniPy::Enum`)

The interpreter is modelled by its documented protocol: `for` takes what `tp_iter` returns as a reference of its own, calls
`tp_iternext` until it returns null and then drops that reference; an object whose last reference goes is deallocated.
Reference counts are exact, the items are the values `cList->At(i)` gives.
-/
namespace PreCore.Py

/-- State of one wrapper object. (pylist.hpp:30-34) -/
structure Obj where
  /-- `ob_refcnt`. -/
  refs : Nat
  /-- `iterPos` (pylist.hpp:33). -/
  pos : Nat
  /-- `Dealloc` ran (pylist.hpp:87): `cList` is null. -/
  freed : Bool
deriving DecidableEq, Repr

/-- Outcome of a piece of interpreted code; `ub`: a deallocated object is used, `terminate`: a C++ exception leaves the
extension. (Calls of pylist.hpp:87-115.) -/
inductive Out (α : Type)
  | ok (a : α)
  | ub
  | terminate
deriving DecidableEq, Repr

/-- Sequencing of outcomes (control flow of pylist.hpp:87-115). -/
def Out.bind {α β : Type} (x : Out α) (f : α → Out β) : Out β :=
  match x with
  | .ok a => f a
  | .ub => .ub
  | .terminate => .terminate

/-- `Py_DECREF`. (The interpreter; ends in `Dealloc`, pylist.hpp:87.) -/
def decref (o : Obj) : Obj := { o with refs := o.refs - 1, freed := o.freed || decide (o.refs ≤ 1) }

/-- `Iter` (pylist.hpp:103-106). -/
def iter (o : Obj) : Obj := { o with pos := 0 }

/-- `SubscriptRaw` (pylist.hpp:96-101): `At` is `storage.at`, which throws (list_vector.hpp:34, 58). -/
def subscriptRaw {α : Type} (items : List α) (o : Obj) (index : Nat) : Out α :=
  if o.freed then .ub
  else match items[index]? with
    | some a => .ok a
    | none => .terminate

/-- `Subscript` (pylist.hpp:91-94): the Python integer is converted to `Py_ssize_t` and then to `size_t`. -/
def subscript {α : Type} (items : List α) (o : Obj) (index : BitVec 64) : Out α := subscriptRaw items o index.toNat

/-- `Len` (pylist.hpp:89). -/
def len {α : Type} (items : List α) (o : Obj) : Out Nat := if o.freed then .ub else .ok items.length

/-- `IterNext` (pylist.hpp:108-115): `none` is the null pointer with `StopIteration`. -/
def iterNext {α : Type} (items : List α) (o : Obj) : Out (Option α × Obj) :=
  (len items o).bind fun n =>
    if o.pos < n then (subscriptRaw items o o.pos).bind fun a => .ok (some a, { o with pos := o.pos + 1 })
    else .ok (none, o)

/-- The interpreter's loop: body on every item until null (at most `fuel` turns); the items bound to the variable.
(The interpreter, calling pylist.hpp:108-115.) -/
def turns {α : Type} (items : List α) (body : α → Obj → Out Obj) : Nat → Obj → Out (List α × Obj)
  | 0, o => .ok ([], o)
  | f + 1, o =>
    (iterNext items o).bind fun r =>
      match r with
      | (none, o) => .ok ([], o)
      | (some a, o) => (body a o).bind fun o => (turns items body f o).bind fun t => .ok (a :: t.1, t.2)

/-- `for x in list: body`. (The interpreter, calling pylist.hpp:103-115.) -/
def forLoop {α : Type} (items : List α) (body : α → Obj → Out Obj) (o : Obj) : Out (List α × Obj) :=
  if o.freed then .ub
  else (turns items body (items.length + 1) (iter o)).bind fun t => .ok (t.1, decref t.2)

/-- `k` plain loops one after the other. (The interpreter, calling pylist.hpp:103-115.) -/
def loops {α : Type} (items : List α) : Nat → Obj → Out Obj
  | 0, o => .ok o
  | k + 1, o => (forLoop items (fun _ o => .ok o) o).bind fun t => loops items k t.2

/-! ## `UniPy::Enum` -/

/-- Outcomes of the enum accessors: a value, an `IndexError`, or null without an error being set. (pyenum.hpp:85-108) -/
inductive EnumOut (α : Type)
  | value (a : α)
  | indexError
  | nullNoError
deriving DecidableEq, Repr

/-- `Enum::SubscriptRaw` (pyenum.hpp:85-94). -/
def enumName (table : List (Nat × List Byte)) (index : Nat) : EnumOut (List Byte) :=
  match table[index]? with
  | some e => .value e.2
  | none => .indexError

/-- `Enum::GetAttribute` (pyenum.hpp:96-108). -/
def enumAttr (table : List (Nat × List Byte)) (name : List Byte) : EnumOut Nat :=
  match table.find? (fun e => e.2 == name) with
  | some e => .value e.1
  | none => .nullNoError

end PreCore.Py
