import Verif.Model.ReflIO
/-!
# Model of `ReflectorIO::Load` with every access of the buffer checked (datas/reflector_io.cpp:85-210)

`Model/ReflIO.lean` follows what `Load` computes; here the buffer is the `std::string data` itself: its bytes and the terminator behind
them. A read outside of it, a write outside of its bytes, and a string behind its end are `none`. Numbers of items are read again
before every turn of a loop, as the code does, and products of 32 bits wrap. Not modelled: the memory for `classes` and `enums`
themselves (up to 2^32 entries), alignment.
-/
namespace PreCore.ReflIO

/-- The bytes behind `data.data()`: the terminator follows the contents (reflector_io.cpp:96-99). -/
def memL (buf : List Byte) : Mem := fun a => buf.getD a 0#8

/-- Reading a 32 bit number of the buffer: the terminator may be read (reflector_io.cpp:106-207). -/
def get32 (buf : List Byte) (a : Nat) : Option Nat := if a + 4 ≤ buf.length + 1 then some (rd32 (memL buf) a) else none

/-- Reading a pointer of the buffer (reflector_io.cpp:200-207). -/
def get64 (buf : List Byte) (a : Nat) : Option Nat := if a + 8 ≤ buf.length + 1 then some (rd64 (memL buf) a) else none

/-- Writing bytes: the terminator must not be written (reflector_io.cpp:106-198). -/
def put (buf : List Byte) (a : Nat) (bs : List Byte) : Option (List Byte) :=
  if a + bs.length ≤ buf.length then some (buf.take a ++ bs ++ buf.drop (a + bs.length)) else none

/-- Writing a pointer (reflector_io.cpp:106-198). -/
def put64 (buf : List Byte) (a v : Nat) : Option (List Byte) := put buf a (toLE 8 v)

/-- The loops over name and alias offsets (reflector_io.cpp:120-122, 140-145, 196-198): pointers at `tbl`, offsets at `offs`, `bound` is the
condition as read before each turn. The counter stays below 2^32, so `fuel` 2^32 is never used up. -/
def ptrLoopC (B : Nat) (nullable : Bool) (tbl offs : Nat) (bound : List Byte → Option Nat) : (fuel t : Nat) → List Byte → Option (List Byte)
  | 0, _, buf => some buf
  | fuel + 1, t, buf => do
    let n ← bound buf
    if t < n then
      let o ← get32 buf (offs + 4 * t)
      let buf ← put64 buf (tbl + 8 * t) (if nullable ∧ o = 0 then 0 else B + o)
      ptrLoopC B nullable tbl offs bound fuel (t + 1) buf
    else some buf

/-- The pointer of a description part at `p` for the offset `o` read at `q` (reflector_io.cpp:164-169). -/
def descPtrC (B p q o : Nat) (buf : List Byte) : Option (List Byte) :=
  if o ≠ 0 then put64 buf p (B + o) else (put64 buf p 0).bind (fun buf => put buf q (toLE 4 0))

/-- The loop over descriptions (reflector_io.cpp:163-172): `numItems * 2` turns, the product wraps at 2^32. -/
def descLoopC (B tbl offs : Nat) (bound : List Byte → Option Nat) : (fuel i : Nat) → List Byte → Option (List Byte)
  | 0, _, buf => some buf
  | fuel + 1, i, buf => do
    let n ← bound buf
    if i < n * 2 % 2 ^ 32 then
      let o ← get32 buf (offs + 8 * i)
      let buf ← descPtrC B (tbl + 16 * i) (offs + 8 * i) o buf
      let l ← get32 buf (offs + 8 * i + 4)
      let buf ← put64 buf (tbl + 16 * i + 8) l
      descLoopC B tbl offs bound fuel (i + 1) buf
    else some buf

/-- A table of names or aliases of the record at `a`, whose offset is at `a + src` and whose pointer goes to `a + dst`
(reflector_io.cpp:113-125, 133-148). -/
def tableC (B : Nat) (nullable : Bool) (a src dst : Nat) (buf : List Byte) : Option (List Byte) := do
  let p ← get32 buf (a + src)
  if p ≠ 0 then
    let buf ← put64 buf (a + dst) (B + p)
    let n ← get32 buf (a + 4)
    ptrLoopC B nullable p (p + 4 * n) (fun b => get32 b (a + 4)) (2 ^ 32) 0 buf
  else put64 buf (a + dst) 0

/-- The alias hashes (reflector_io.cpp:150-154): a pointer to them replaces the pointer to the aliases. -/
def hashesC (B a ah : Nat) (buf : List Byte) : Option (List Byte) :=
  if ah ≠ 0 then put64 buf (a + 32) (B + ah) else put64 buf (a + 40) 0

/-- The body of the class loop (reflector_io.cpp:107-177) for the record at `a`. -/
def expandClassC (B a : Nat) (buf : List Byte) : Option (List Byte) := do
  let ty ← get32 buf (a + 32)
  let buf ← put64 buf (a + 8) (B + ty)
  let buf ← tableC B false a 36 16 buf
  let cn ← get32 buf (a + 40)
  let buf ← put64 buf (a + 24) (if cn ≠ 0 then B + cn else 0)
  let buf ← tableC B true a 44 32 buf
  let ah ← get32 buf (a + 48)
  let buf ← hashesC B a ah buf
  let ds ← get32 buf (a + 52)
  if ds ≠ 0 then
    let buf ← put64 buf (a + 48) (B + ds)
    let n ← get32 buf (a + 4)
    descLoopC B ds (ds + 4 * (n * 4 % 2 ^ 32)) (fun b => get32 b (a + 4)) (2 ^ 32) 0 buf
  else put64 buf (a + 48) 0

/-- The class loop (reflector_io.cpp:106-178). -/
def expandAllC (B : Nat) : (k a : Nat) → List Byte → Option (List Byte)
  | 0, _, buf => some buf
  | k + 1, a, buf => (expandClassC B a buf).bind (expandAllC B k (a + 56))

/-- The loop over the enums (reflector_io.cpp:180-189). -/
def enumLoopC (buf : List Byte) : (k it : Nat) → Option (List (BitVec 32 × Nat × Nat) × Nat)
  | 0, it => some ([], it)
  | k + 1, it => do
    let h ← get32 buf it
    let n ← get32 buf (it + 4)
    let r ← enumLoopC buf k (it + 8 + 8 * n)
    some ((BitVec.ofNat 32 h, it + 8, n) :: r.1, r.2)

/-- `es::string_view(const char *)` for the pointer stored at `a` (reflector_io.cpp:202, 206): the scan stops at a zero at the latest at the
terminator of the buffer, if it begins inside. -/
def nameC (B : Nat) (buf : List Byte) (a : Nat) : Option Text := do
  let p ← get64 buf a
  if B ≤ p ∧ p ≤ B + buf.length then some (cstr (memL buf) buf.length (p - B)) else none

/-- The names of an enum, read from the table entry at `np` on (reflector_io.cpp:201-204). -/
def namesC (B : Nat) (buf : List Byte) : (n np : Nat) → Option (List Text)
  | 0, _ => some []
  | n + 1, np => do
    let t ← nameC B buf np
    let ts ← namesC B buf n (np + 8)
    some (t :: ts)

/-- The last loop (reflector_io.cpp:200-207): names and type name of every enum; the values stay where they are. -/
def enumNamesC (B : Nat) (buf : List Byte) : List (BitVec 32 × Nat × Nat) → (np : Nat) → Option (List (BitVec 32 × Nat × List Text × Text))
  | [], _ => some []
  | (h, vp, n) :: es, np => do
    let ts ← namesC B buf n np
    let t ← nameC B buf (np + 8 * n)
    let r ← enumNamesC B buf es (np + 8 * n + 8)
    some ((h, vp, ts, t) :: r)

/-- How a checked `Load` ends. (reflector_io.cpp:85-210) -/
inductive Loaded
  /-- The file ends too early: the reader throws. -/
  | short
  /-- An access outside the buffer. -/
  | stray
  /-- The code returned, the buffer and the enums as stored in the object. -/
  | done (code : Nat) (buf : List Byte) (enums : List (BitVec 32 × Nat × List Text × Text))
deriving DecidableEq, Repr

/-- The work of `Load` on the buffer with the numbers of the header (reflector_io.cpp:98-207). -/
def workC (B numClasses numEnums numStrings enumsOffset : Nat) (buf : List Byte) :
    Option (List Byte × List (BitVec 32 × Nat × List Text × Text)) := do
  let buf ← expandAllC B numClasses 0 buf
  let es ← enumLoopC buf numEnums enumsOffset
  let buf ← ptrLoopC B false es.2 (es.2 + 4 * numStrings) (fun _ => some numStrings) (2 ^ 32) 0 buf
  let ns ← enumNamesC B buf es.1 es.2
  some (buf, ns)

/-- `Load` into an empty object (reflector_io.cpp:85-210); `B`: address of the buffer. -/
def loadC (B : Nat) (file : List Byte) : Loaded :=
  if file.length < 32 then .short
  else
    let h := fun i => leNat ((file.drop (4 * i)).take 4)
    if h 0 ≠ magic then .done 1 [] []
    else if h 1 > 1000 then .done 2 [] []
    else if file.length < 32 + h 6 then .short
    else match workC B (h 2) (h 3) (h 4) (h 5) ((file.drop 32).take (h 6)) with
      | none => .stray
      | some r => .done 0 r.1 r.2

end PreCore.ReflIO
