import Verif.Model.XmlError
/-!
# Registering the Python types: `PyAddType` (datas/pythonex.hpp), `InitType` (uni/python/pyskeleton.inl, pymotion.inl)

CPython is modelled by its documentation: `PyType_Ready` and `PyModule_AddObject` succeed or fail (the outcome is a parameter; failing
sets an exception); the dictionary of a module holds one reference to each of its values; `PyModule_AddObject` takes over the caller's
reference, but only if it succeeds. Type objects are static; they are told apart by a number.
-/
namespace PreCore.PyInit
open XmlError

/-- Byte string (`const char *`, pythonex.hpp:30). -/
abbrev Text := List Byte

/-- The dictionary of the module, the reference counts of the type objects, whether an exception is set. (CPython's state as far as
pythonex.hpp:26-39 touches it.) -/
structure St where
  dict : List (Text × Nat)
  refs : Nat → Nat
  error : Bool

/-- What the two calls into CPython do (pythonex.hpp:27, 30, 35, 38): `PyType_Ready` fails, `PyModule_AddObject` fails, neither. -/
inductive Outcome
  | notReady | notAdded | added
deriving DecidableEq

/-- `Py_INCREF` (pythonex.hpp:29, 37). -/
def incref (t : Nat) (s : St) : St := { s with refs := fun u => if u = t then s.refs u + 1 else s.refs u }
/-- `Py_DECREF`, called by CPython itself under pythonex.hpp:30, 38. -/
def decref (t : Nat) (s : St) : St := { s with refs := fun u => if u = t then s.refs u - 1 else s.refs u }

/-- The value of a key (CPython's dictionary under pythonex.hpp:30, 38). -/
def lookup (n : Text) : List (Text × Nat) → Option Nat
  | [] => none
  | e :: d => if e.1 = n then some e.2 else lookup n d

/-- Setting a key: the old value is replaced (CPython's dictionary under pythonex.hpp:30, 38). -/
def dictSet (n : Text) (t : Nat) : List (Text × Nat) → List (Text × Nat)
  | [] => [(n, t)]
  | e :: d => if e.1 = n then (n, t) :: d else e :: dictSet n t d

/-- `PyModule_AddObject` when it succeeds (pythonex.hpp:30, 38): the dictionary takes a reference to the new value and drops the one
to the old value, then the caller's reference is dropped. -/
def addObject (n : Text) (t : Nat) (s : St) : St :=
  let s1 := incref t { s with dict := dictSet n t s.dict }
  let s2 := match lookup n s.dict with
    | none => s1
    | some u => decref u s1
  decref t s2

/-- `PyAddType` (pythonex.hpp:26-31, 33-39): type `t` with `tp_name` `n`. -/
def addType (n : Text) (t : Nat) (r : Outcome) (s : St) : St :=
  match r with
  | .notReady => { s with error := true }
  | .notAdded => { incref t s with error := true }
  | .added => addObject n t (incref t s)

/-- Types and names of `Skeleton::InitType` (pyskeleton.inl:243-249; names: lines 38, 50, 59, 76, 180). -/
def skeletonTypes : List (Text × Nat) :=
  [(lit "uniBoneTMType", 0), (lit "uni::Bone", 1), (lit "uni::BoneList", 2), (lit "uni::Skeleton", 3), (lit "uni::SkeletonList", 4)]
/-- Types and names of `Motion::InitType` (pymotion.inl:322-329; names: lines 44, 67, 79, 90, 111, 240). -/
def motionTypes : List (Text × Nat) :=
  [(lit "uniMotionTrackType", 5), (lit "uniMotionType", 6), (lit "uni::MotionTrack", 7), (lit "uni::MotionTrackList", 8),
    (lit "uni::Motion", 9), (lit "uni::MotionList", 10)]

/-- A sequence of `PyAddType` calls, one after the other whatever the ones before did (pyskeleton.inl:243-249, pymotion.inl:322-329). -/
def addAll : List (Text × Nat × Outcome) → St → St
  | [], s => s
  | (n, t, r) :: ops, s => addAll ops (addType n t r s)

/-- `InitType` (pyskeleton.inl:243-249, pymotion.inl:322-329) with the outcomes given for each type. -/
def initType (types : List (Text × Nat)) (r : Nat → Outcome) (s : St) : St := addAll (types.map (fun e => (e.1, e.2, r e.2))) s

end PreCore.PyInit
