import Verif.Model.Base
/-!
# Model of uni/python/pymotion.inl, uni/python/pyskeleton.inl, uni/internal/motion.inl, uni/internal/skeleton.inl, uni/internal/model.inl
and uni/internal/exception.hpp

Python objects returned by `Py_BuildValue` are an abstract type; the interpreter is modelled by its protocol (a returned reference is
dropped once it is used). C++ exceptions are modelled by the class of the thrown object.
-/
namespace PreCore.Py

/-! ## Errors of the interfaces -/

/-- Classes of exceptions. (exception.hpp:23-47) -/
inductive Cls
  | exception | logicError | runtimeError | modifyError
deriving DecidableEq, Repr

/-- What is thrown: its class and its message (`what()`). (exception.hpp:23-47) -/
structure Thrown where
  cls : Cls
  what : List Byte
deriving DecidableEq, Repr

/-- Does a handler `catch (const c &)` take an exception of class `t`: the class itself or a public base. `std::logic_error` and
`std::runtime_error` derive from `std::exception`; `uni::ModifyError` derives privately (exception.hpp:36: `class ModifyError : std::runtime_error`). -/
def caughtBy : Cls → Cls → Bool
  | .exception, .exception => true
  | .logicError, .logicError => true
  | .logicError, .exception => true
  | .runtimeError, .runtimeError => true
  | .runtimeError, .exception => true
  | .modifyError, .modifyError => true
  | _, _ => false

/-- Copying an object into an `std::exception` keeps the base only: the message of `std::exception::what` (libstdc++).
(Return by value at exception.hpp:23-29.) -/
def slice (_ : Thrown) : Thrown := ⟨.exception, "std::exception".toUTF8.toList.map (·.toBitVec)⟩

/-- The bytes of a literal (exception.hpp:23-47). -/
def msg (s : String) : List Byte := s.toUTF8.toList.map (·.toBitVec)

/-- `_uni_::ThrowVoidCall(bool)` (exception.hpp:23-29): returns an `std::exception` by value. -/
def throwVoidCall (logical : Bool) : Thrown :=
  slice (if logical then ⟨.logicError, msg "Unhandled call!"⟩ else ⟨.runtimeError, msg "Unsupported call!"⟩)

/-- The forms of values: `Vector4A16`, `float`, `RTSValue`, `esMatrix44`. (pymotion.inl:181-218) -/
inductive Form
  | vector | number | rts | matrix
deriving DecidableEq, Repr

/-- The default `MotionTrack::GetValue` overloads (motion.inl:21-39) on a track whose `TrackType()` is `type` (motion.hpp:31-38). -/
def defaultGetValue (form : Form) (type : Nat) : Thrown :=
  match form with
  | .rts => throwVoidCall (type = 4)
  | .matrix => throwVoidCall (type = 3)
  | .vector => throwVoidCall (type = 0 || type = 1 || type = 2)
  | .number => throwVoidCall (type = 5)

/-- The default `Bone::GetTM` / `Skin::GetTM` overloads (skeleton.inl:21-26, model.inl:21-26); `TMTYPE_RTS = 0`, `TMTYPE_MATRIX = 1`. -/
def defaultGetTM (matrix : Bool) (type : Nat) : Thrown := throwVoidCall (if matrix then type = 1 else type = 0)

/-- `uni::ModifyError` (exception.hpp:36-47). -/
def modifyError (name : List Byte) : Thrown := ⟨.modifyError, msg "Setting " ++ name ++ msg "is forbidden for this class!"⟩

/-- The default `Motion::FrameRate(uint32)` (motion.inl:41). -/
def defaultSetFrameRate : Thrown := modifyError (msg "FrameRate")

/-! ## Motion tracks -/

/-- A track: its type and what `GetValue` writes, as the Python value it is turned into. `T` are times (`float`). (motion.hpp:31-50) -/
structure Track (T V : Type) where
  type : Nat
  value : Form → T → V

/-- What `get_values` comes to. (pymotion.inl:164-221) -/
inductive Got (V : Type)
  /-- Null with a `TypeError`. -/
  | typeError
  /-- A new list. -/
  | values (l : List V)
  /-- A new list while an exception is set (the interpreter raises `SystemError`). -/
  | valuesAndError (l : List V)
  /-- `Py_None` without a reference of its own; the new list is lost. -/
  | borrowedNone
deriving DecidableEq, Repr

/-- The conversion of the items (pymotion.inl:171-176): `PyFloat_AsDouble` gives -1 and sets an exception for an item that is no number. -/
def convertTimes {P T : Type} (asDouble : P → Option T) (minusOne : T) (items : List P) : List T × Bool :=
  (items.map (fun p => (asDouble p).getD minusOne), items.any (fun p => (asDouble p).isNone))

/-- `MotionTrack::GetValues` (pymotion.inl:164-221); `arg` is the items if the argument is one list. -/
def getValues {P T V : Type} (asDouble : P → Option T) (minusOne : T) (t : Track T V) (arg : Option (List P)) : Got V :=
  match arg with
  | none => .typeError
  | some items =>
    let times := convertTimes asDouble minusOne items
    let give := fun form => let l := times.1.map (t.value form); if times.2 then Got.valuesAndError l else .values l
    match t.type with
    | 0 => give .vector
    | 1 => give .vector
    | 2 => give .vector
    | 5 => give .number
    | 4 => give .rts
    | 3 => give .matrix
    | _ => .borrowedNone

/-- `Motion::SetFrameRate` and `Motion::FrameRate` (pymotion.inl:302-309): `long` to `uint32`, and `uint32` to `long`. The setter
reports success. -/
def setFrameRate (v : BitVec 64) : BitVec 32 := v.setWidth 32
/-- `Motion::FrameRate` getter (pymotion.inl:302-304). -/
def getFrameRate (fps : BitVec 32) : BitVec 64 := fps.setWidth 64

/-! ## Bones -/

/-- A bone: identifier, name, parent (address). (skeleton.hpp:24-45) -/
structure Bone where
  index : Nat
  name : List Byte
  parent : Option Nat
deriving DecidableEq, Repr

/-- A Python object: a wrapper of a bone (address, whether the element owns it, pyskeleton.inl:149-159) or `None`. -/
inductive Ref
  | wrapper (bone : Nat) (owns : Bool)
  | none
deriving DecidableEq, Repr

/-- What the interpreter keeps: references of `None`, blocks of memory of wrapper objects, bones that were deleted. (pyskeleton.inl:117, 149-159) -/
structure World where
  noneRefs : Nat
  blocks : Nat
  deleted : List Nat
deriving DecidableEq, Repr

/-- `Bone::GetParent` (pyskeleton.inl:149-159). -/
def getParent (bones : Nat → Bone) (w : World) (bone : Nat) : Ref × World :=
  match (bones bone).parent with
  | some p => (.wrapper p false, { w with blocks := w.blocks + 1 })
  | none => (.none, w)

/-- The interpreter drops the only reference to an object; `Bone::Dealloc` (pyskeleton.inl:117) destroys the element (which deletes the
bone if it owns it, deleter_hybrid.hpp:30-33) and does not release the object's memory. `none`: the interpreter aborts, as the last reference of `None` is gone. -/
def drop (r : Ref) (w : World) : Option World :=
  match r with
  | .wrapper b owns => some { w with deleted := if owns then w.deleted ++ [b] else w.deleted }
  | .none => if w.noneRefs ≤ 1 then Option.none else some { w with noneRefs := w.noneRefs - 1 }

/-- `bone.parent` evaluated and its result forgotten. (pyskeleton.inl:149-159) -/
def readParent (bones : Nat → Bone) (w : World) (bone : Nat) : Option World :=
  drop (getParent bones w bone).1 (getParent bones w bone).2

/-- A program that reads parents. (pyskeleton.inl:149-159) -/
def readParents (bones : Nat → Bone) : List Nat → World → Option World
  | [], w => some w
  | b :: l, w => (readParent bones w b).bind (readParents bones l)

/-- `b = b.parent` again and again: the bones visited, at most `fuel`. (pyskeleton.inl:149-159) -/
def ancestors (bones : Nat → Bone) : Nat → World → Nat → List Nat
  | 0, _, _ => []
  | f + 1, w, b =>
    match getParent bones w b with
    | (.wrapper p _, w') => p :: ancestors bones f w' p
    | (.none, _) => []

/-- `Bone::Compare` (pyskeleton.inl:161-167): 0 for equal, 1 otherwise. -/
def compareBones (bones : Nat → Bone) (a b : Nat) : Int :=
  if a = b ∨ ((bones a).index = (bones b).index ∧ (bones a).name = (bones b).name) then 0 else 1

end PreCore.Py
