import Verif.Model.Mem
import Verif.Model.Endian
/-!
# Model of the binary streams

datas/internal/bincore_navi.hpp, datas/binreader_ref.hpp, datas/binreader_stream.hpp, datas/binwritter_ref.hpp,
datas/binwritter_stream.hpp, datas/internal/bincore_endian.hpp.

`Stream` stands for the `std::istream` / `std::ostream` on a file: content, position, failbit and eofbit, with the
standard's behaviour of `read`, `write`, `seekg`, `tellg` on a file buffer (positions past the end allowed, writing there
fills the gap with zeros; disk errors are not modelled). `Navi` adds the data members of `BinStreamNavi` and
`BinSteamEndian`. `size_t` values are `Nat`s below `2^64` with explicit wrap-around.
-/
namespace PreCore.Stream

/-- The standard stream. (`std::iostream` behind binreader_stream.hpp:28-32, binwritter_stream.hpp:28-32.) -/
structure Stream where
  data : List Byte
  pos : Nat
  fail : Bool
  eof : Bool
deriving Repr, DecidableEq

/-- `BinStreamNavi` over `BinSteamEndian` (bincore_navi.hpp:21-23, bincore_endian.hpp:20-22). -/
structure Navi where
  s : Stream
  savePos : Nat
  localPos : Nat
  swap : Bool
deriving Repr, DecidableEq

/-- `std::ios_base::seekdir`. (Argument of binreader_stream.hpp:38-41.) -/
inductive Dir | beg | cur | end_ deriving Repr, DecidableEq

/-- 2^64, `size_t` arithmetic of bincore_navi.hpp:32-72. -/
def W64 : Nat := 2 ^ 64

/-- Conversion `size_t` to `std::streamoff`. (binreader_stream.hpp:38-41) -/
def s64 (n : Nat) : Int := if n % W64 < 2 ^ 63 then ((n % W64 : Nat) : Int) else ((n % W64 : Nat) : Int) - (2 ^ 64 : Int)

/-- `size_t + int` (wrapping). (bincore_navi.hpp:35-40) -/
def addInt (a : Nat) (i : Int) : Nat := (((a : Int) + i) % (2 ^ 64 : Int)).toNat

/-- `static_cast<size_t>(tellg())`: `-1` on a failed stream (binreader_stream.hpp:36, binwritter_stream.hpp:36). -/
def Stream.tell (s : Stream) : Nat := if s.fail then 2 ^ 64 - 1 else s.pos

/-- `seekg(off, dir)` / `seekp` (binreader_stream.hpp:38-41, binwritter_stream.hpp:38-41). -/
def Stream.seek (s : Stream) (position : Nat) (d : Dir) : Stream :=
  if s.fail then { s with eof := false }
  else
    let base : Int := match d with | .beg => 0 | .cur => s.pos | .end_ => s.data.length
    let target := base + s64 position
    if target < 0 ∨ target ≥ 2 ^ 63 then { s with eof := false, fail := true }
    else { s with eof := false, pos := target.toNat }

/-- `istream::read` (binreader_stream.hpp:50): all `n` bytes, or `none` with failbit and eofbit set. -/
def Stream.read (s : Stream) (n : Nat) : Option (List Byte) × Stream :=
  if s.fail ∨ s.eof then (none, { s with fail := true })
  else if n = 0 then (some [], s)
  else if s.pos + n ≤ s.data.length then (some ((s.data.drop s.pos).take n), { s with pos := s.pos + n })
  else (none, { s with pos := max s.pos s.data.length, fail := true, eof := true })

/-- Content after writing `bs` at `pos`. (`std::ostream::write`, binwritter_stream.hpp:57-59.) -/
def overwrite (data : List Byte) (pos : Nat) (bs : List Byte) : List Byte :=
  data.take pos ++ List.replicate (pos - data.length) 0#8 ++ bs ++ data.drop (pos + bs.length)

/-- `ostream::write` (binwritter_stream.hpp:57-59). -/
def Stream.write (s : Stream) (bs : List Byte) : Stream :=
  if s.fail ∨ bs = [] then s
  else { s with data := overwrite s.data s.pos bs, pos := s.pos + bs.length }

/-- `BinStreamInTraits::Skip(int)` (binreader_stream.hpp:43-48). -/
def Stream.skipIn (s : Stream) (length : Int) : Stream :=
  if length < 0 then s.seek (addInt s.tell length) .beg else s.seek length.toNat .cur

/-- `for (t = 0; t < numLoops; t++) Write(FILLBUFFER, 32);` (binwritter_stream.hpp:48-49). -/
def Stream.fillLoop (s : Stream) : Nat → Stream
  | 0 => s
  | n + 1 => (s.write (List.replicate 32 0#8)).fillLoop n

/-- `BinStreamOutTraits::Skip(int)` (binwritter_stream.hpp:43-55). -/
def Stream.skipOut (s : Stream) (length : Int) : Stream :=
  if length > 0 then
    (s.fillLoop (length.toNat / 32)).write (List.replicate (length.toNat % 32) 0#8)
  else s.seek (addInt s.tell length) .beg

/-- Which of the two traits classes is in use. (binreader_stream.hpp:28, binwritter_stream.hpp:28) -/
inductive Kind | reader | writer deriving Repr, DecidableEq

/-- `Skip` (bincore_navi.hpp:35). -/
def skip (k : Kind) (n : Navi) (length : Int) : Navi :=
  { n with s := match k with | .reader => n.s.skipIn length | .writer => n.s.skipOut length }

/-- `Push` (bincore_navi.hpp:32). -/
def push (n : Navi) : Navi := { n with savePos := n.s.tell }
/-- `Pop` (bincore_navi.hpp:33). -/
def pop (n : Navi) : Navi := { n with s := n.s.seek n.savePos .beg }
/-- `Tell` (bincore_navi.hpp:35). -/
def tell (n : Navi) : Nat := (n.s.tell + W64 - n.localPos) % W64
/-- `Seek` (bincore_navi.hpp:37-40). -/
def seek (n : Navi) (position : Nat) (d : Dir) : Navi :=
  { n with s := n.s.seek (if d = .beg then (position + n.localPos) % W64 else position) d }
/-- `SetRelativeOrigin` (bincore_navi.hpp:44-49). -/
def setOrigin (n : Navi) (o : Nat) (useSeek : Bool) : Navi :=
  let n := { n with localPos := o }
  if useSeek then seek n 0 .beg else n
/-- `ResetRelativeOrigin` (bincore_navi.hpp:51-53). -/
def resetOrigin (n : Navi) (useSeek : Bool) : Navi := setOrigin n 0 useSeek

/-- `ApplyPadding` (bincore_navi.hpp:55-64) for a positive `allignBytes` (`int`). -/
def applyPadding (k : Kind) (n : Navi) (align : Nat) : Navi :=
  let result := tell n &&& (align - 1)
  if result = 0 then n else skip k n ((align : Int) - (result : Int))

/-- `GetSize` (bincore_navi.hpp:66-72): the returned value and the stream afterwards. -/
def getSize (n : Navi) : Nat × Navi :=
  let savepos := tell n
  let n1 := seek n 0 .end_
  (tell n1, seek n1 savepos .beg)

/-! ## Typed access -/

/-- Scalar types by size (1, 2, 4, 8 bytes). (binreader_ref.hpp:125-132, binwritter_ref.hpp:107-116) -/
inductive Ty | u8 | u16 | u32 | u64 deriving Repr, DecidableEq

/-- `sizeof(T)` (binreader_ref.hpp:125-132). -/
def Ty.bytes : Ty → Nat | .u8 => 1 | .u16 => 2 | .u32 => 4 | .u64 => 8

/-- `if (swapEndian && size > 1) FByteswapper(value)` (binreader_ref.hpp:129-131, binwritter_ref.hpp:109-112). -/
def Ty.swap : (t : Ty) → BitVec (8 * t.bytes) → BitVec (8 * t.bytes)
  | .u8, v => v
  | .u16, v => Endian.fbswap16 v
  | .u32, v => Endian.fbswap32 v
  | .u64, v => Endian.fbswap64 v

/-- The bytes handed to `WriteBuffer` by `_WriteSingle` (binwritter_ref.hpp:107-116). -/
def scalarBytes (swap : Bool) (t : Ty) (v : BitVec (8 * t.bytes)) : List Byte :=
  toLE t.bytes (if swap then t.swap v else v).toNat

/-- `Write(const T&)` of a scalar. (binwritter_ref.hpp:107-116) -/
def writeScalar (n : Navi) (t : Ty) (v : BitVec (8 * t.bytes)) : Navi :=
  { n with s := n.s.write (scalarBytes n.swap t v) }

/-- `Read(T&)` of a scalar (binreader_ref.hpp:125-132). `none`: the bytes are not there. -/
def readScalar (n : Navi) (t : Ty) : Option (BitVec (8 * t.bytes)) × Navi :=
  match n.s.read t.bytes with
  | (some bs, s) =>
    let v := BitVec.ofNat (8 * t.bytes) (leNat bs)
    (some (if n.swap then t.swap v else v), { n with s := s })
  | (none, s) => (none, { n with s := s })

/-- `_WriteElements` for scalars (binwritter_ref.hpp:126-136): with swapping one `Write` per element, else one
`WriteBuffer` over the whole array. -/
def writeElements (n : Navi) (t : Ty) (vs : List (BitVec (8 * t.bytes))) : Navi :=
  if n.swap ∧ t.bytes > 1 then vs.foldl (fun n v => writeScalar n t v) n
  else { n with s := n.s.write (vs.flatMap (fun v => toLE t.bytes v.toNat)) }

/-- Cuts a memory block into `k` scalars. (binreader_ref.hpp:39-48, 141-151) -/
def chunks (t : Ty) : Nat → List Byte → List (BitVec (8 * t.bytes))
  | 0, _ => []
  | k + 1, bs => BitVec.ofNat (8 * t.bytes) (leNat (bs.take t.bytes)) :: chunks t k (bs.drop t.bytes)

/-- `ReadContainer(input, numitems)` / `_ReadElements` for scalars (binreader_ref.hpp:39-48, 141-151). -/
def readElements (n : Navi) (t : Ty) (count : Nat) : Option (List (BitVec (8 * t.bytes))) × Navi :=
  if count = 0 then (some [], n)
  else
    match n.s.read (t.bytes * count) with
    | (some bs, s) => (some ((chunks t count bs).map (fun v => if n.swap then t.swap v else v)), { n with s := s })
    | (none, s) => (none, { n with s := s })

/-- `WriteContainerWCount<_countType>` (binwritter_ref.hpp:49-54): the count is truncated by `static_cast`. -/
def writeCounted (n : Navi) (ct t : Ty) (vs : List (BitVec (8 * t.bytes))) : Navi :=
  writeElements (writeScalar n ct (BitVec.ofNat _ vs.length)) t vs

/-- `ReadContainer<_countType>` (binreader_ref.hpp:55-60). -/
def readCounted (n : Navi) (ct t : Ty) : Option (List (BitVec (8 * t.bytes))) × Navi :=
  match readScalar n ct with
  | (some c, n) => readElements n t c.toNat
  | (none, n) => (none, n)

/-- `WriteContainerLambda` (binwritter_ref.hpp:63-71): `func` is any function of writer and element. -/
def writeLambda {α : Type} (n : Navi) (ct : Ty) (func : Navi → α → Navi) (vs : List α) : Navi :=
  vs.foldl func (writeScalar n ct (BitVec.ofNat _ vs.length))

/-- The element loop of `ReadContainerLambda` (binreader_ref.hpp:66-78); also `_ReadElements` over classes with their
own `Read` (binreader_ref.hpp:134-139). -/
def readLambdaLoop {α : Type} (func : Navi → Option α × Navi) : Nat → Navi → Option (List α) × Navi
  | 0, n => (some [], n)
  | k + 1, n =>
    match func n with
    | (some a, n) =>
      match readLambdaLoop func k n with
      | (some as, n) => (some (a :: as), n)
      | (none, n) => (none, n)
    | (none, n) => (none, n)

/-- `ReadContainerLambda<_countType>` (binreader_ref.hpp:87-92). -/
def readLambda {α : Type} (n : Navi) (ct : Ty) (func : Navi → Option α × Navi) : Option (List α) × Navi :=
  match readScalar n ct with
  | (some c, n) => readLambdaLoop func c.toNat n
  | (none, n) => (none, n)

/-- `WriteT` (binwritter_ref.hpp:74-91), narrow for `t = u8`, wide otherwise: the characters, then a zero. -/
def writeT (n : Navi) (t : Ty) (vs : List (BitVec (8 * t.bytes))) : Navi :=
  writeScalar (writeElements n t vs) t 0

/-- `ReadString` (binreader_ref.hpp:94-101). First argument: fuel. A `Read` that hits the end of the file sets eof, so
the loop stops whatever `tmp` is. A `Read` on a stream that had failed before leaves eof clear and `tmp` indeterminate
or unchanged: the loop may not end; this and exhausted fuel give the outcome `none`. -/
def readStringLoop (t : Ty) : Nat → Navi → Option (List (BitVec (8 * t.bytes)) × Navi)
  | 0, _ => none
  | f + 1, n =>
    match readScalar n t with
    | (none, n) => if n.s.eof then some ([], n) else none
    | (some c, n) =>
      if c = 0 then some ([], n)
      else match readStringLoop t f n with
        | some (cs, n) => some (c :: cs, n)
        | none => none

/-- `ReadString` (binreader_ref.hpp:94-101). -/
def readString (n : Navi) (t : Ty) : Option (List (BitVec (8 * t.bytes)) × Navi) :=
  readStringLoop t (n.s.data.length + 1) n

end PreCore.Stream
