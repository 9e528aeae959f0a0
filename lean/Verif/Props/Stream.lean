import Verif.Lemmas.Stream
/-!
# C18 - C21: binary streams
-/
namespace PreCore.Stream

/-! ## C18, C19, C21: everything a writer writes a reader reads back

A *script* is any sequence of typed stream actions. -/

/-- One action of a writer, with its data. -/
inductive Val
  | scalar (t : Ty) (v : BitVec (8 * t.bytes))
  /-- `WriteContainer` / `ReadContainer(n)` -/
  | fixed (t : Ty) (vs : List (BitVec (8 * t.bytes)))
  /-- `WriteContainerWCount<ct>` / `ReadContainer<ct>` -/
  | counted (ct t : Ty) (vs : List (BitVec (8 * t.bytes)))
  /-- `WriteT` / `ReadString` -/
  | cstring (t : Ty) (vs : List (BitVec (8 * t.bytes)))
  /-- `ApplyPadding(2^k)` -/
  | pad (k : Nat)
  /-- `SwapEndian(b)` -/
  | swap (b : Bool)

/-- What the reader has to know about an action. -/
inductive Shape
  | scalar (t : Ty)
  | fixed (t : Ty) (count : Nat)
  | counted (ct t : Ty)
  | cstring (t : Ty)
  | pad (k : Nat)
  | swap (b : Bool)

def Val.shape : Val → Shape
  | .scalar t _ => .scalar t
  | .fixed t vs => .fixed t vs.length
  | .counted ct t _ => .counted ct t
  | .cstring t _ => .cstring t
  | .pad k => .pad k
  | .swap b => .swap b

/-- Preconditions of C19/C21: the length fits the count type, C strings are zero free, alignments are `int`s. -/
def Val.ok : Val → Prop
  | .counted ct _ vs => vs.length < 2 ^ (8 * ct.bytes)
  | .cstring _ vs => 0 ∉ vs
  | .pad k => k ≤ 30
  | _ => True

def writeVal (n : Navi) : Val → Navi
  | .scalar t v => writeScalar n t v
  | .fixed t vs => writeElements n t vs
  | .counted ct t vs => writeCounted n ct t vs
  | .cstring t vs => writeT n t vs
  | .pad k => applyPadding .writer n (2 ^ k)
  | .swap b => { n with swap := b }

def readVal (n : Navi) : Shape → Option Val × Navi
  | .scalar t => let r := readScalar n t; (r.1.map (Val.scalar t), r.2)
  | .fixed t c => let r := readElements n t c; (r.1.map (Val.fixed t), r.2)
  | .counted ct t => let r := readCounted n ct t; (r.1.map (Val.counted ct t), r.2)
  | .cstring t => match readString n t with
    | some (vs, n) => (some (.cstring t vs), n)
    | none => (none, n)
  | .pad k => (some (.pad k), applyPadding .reader n (2 ^ k))
  | .swap b => (some (.swap b), { n with swap := b })

def writeAll (n : Navi) (vs : List Val) : Navi := vs.foldl writeVal n

def readAll : Navi → List Shape → Option (List Val) × Navi
  | n, [] => (some [], n)
  | n, sh :: shs =>
    match readVal n sh with
    | (some v, n) => match readAll n shs with
      | (some vs, n) => (some (v :: vs), n)
      | (none, n) => (none, n)
    | (none, n) => (none, n)

/-- Distance to the next multiple of `2^k`. -/
def padDist (n : Navi) (k : Nat) : Nat := (2 ^ k - tell n % 2 ^ k) % 2 ^ k

theorem write_replicate (s : Stream) (m : Nat) : ∀ l, (s.fillLoop l).write (List.replicate m 0#8) =
    s.write (List.replicate (32 * l + m) 0#8) := by
  intro l
  induction l generalizing s with
  | zero => simp [Stream.fillLoop]
  | succ l ih =>
    rw [Stream.fillLoop, ih, write_write, List.replicate_append_replicate]
    congr 2; omega

theorem skipOut_eq (s : Stream) (m : Nat) (h : 0 < m) : s.skipOut (m : Int) = s.write (List.replicate m 0#8) := by
  unfold Stream.skipOut
  rw [if_pos (by omega), write_replicate]
  congr 2
  simp; omega

theorem pad_writer (n : Navi) (k : Nat) : applyPadding .writer n (2 ^ k) =
    { n with s := n.s.write (List.replicate (padDist n k) 0#8) } := by
  unfold applyPadding padDist
  have hk : 0 < 2 ^ k := Nat.two_pow_pos k
  simp only [Nat.and_two_pow_sub_one_eq_mod]
  by_cases h : tell n % 2 ^ k = 0
  · rw [if_pos h, h]; simp [Stream.write]
  · rw [if_neg h]
    have hlt := Nat.mod_lt (tell n) hk
    rw [Nat.mod_eq_of_lt (a := 2 ^ k - tell n % 2 ^ k) (by omega)]
    unfold skip
    have : ((2 ^ k : Nat) : Int) - ((tell n % 2 ^ k : Nat) : Int) = ((2 ^ k - tell n % 2 ^ k : Nat) : Int) := by
      omega
    simp only [this]
    rw [skipOut_eq _ _ (by omega)]

theorem seek_cur (s : Stream) (m : Nat) (hf : s.fail = false) (he : s.eof = false) (hm : m < 2 ^ 63)
    (h : s.pos + m < 2 ^ 63) : s.seek m .cur = adv s m := by
  unfold Stream.seek s64 W64
  simp only [hf, Bool.false_eq_true, if_false]
  rw [Nat.mod_eq_of_lt (by omega), if_pos hm, if_neg (by omega)]
  cases s
  simp_all [adv]
  omega

theorem pad_reader (n : Navi) (k : Nat) (_hk30 : k ≤ 30) (hf : n.s.fail = false) (he : n.s.eof = false)
    (h : n.s.pos + padDist n k < 2 ^ 63) : applyPadding .reader n (2 ^ k) =
    { n with s := adv n.s (padDist n k) } := by
  have hk : 0 < 2 ^ k := Nat.two_pow_pos k
  unfold applyPadding
  simp only [Nat.and_two_pow_sub_one_eq_mod]
  by_cases h0 : tell n % 2 ^ k = 0
  · rw [if_pos h0]; simp [padDist, h0, adv_zero]
  · rw [if_neg h0]
    have hlt := Nat.mod_lt (tell n) hk
    have hd : padDist n k = 2 ^ k - tell n % 2 ^ k := by unfold padDist; rw [Nat.mod_eq_of_lt (by omega)]
    have : ((2 ^ k : Nat) : Int) - ((tell n % 2 ^ k : Nat) : Int) = ((padDist n k : Nat) : Int) := by omega
    unfold skip Stream.skipIn
    simp only [this]
    rw [if_neg (by omega), Int.toNat_natCast, seek_cur _ _ hf he (by omega) h]

/-- The bytes an action puts into the file. -/
def valBytes (n : Navi) : Val → List Byte
  | .scalar t v => scalarBytes n.swap t v
  | .fixed t vs => elemBytes n.swap t vs
  | .counted ct t vs => scalarBytes n.swap ct (BitVec.ofNat _ vs.length) ++ elemBytes n.swap t vs
  | .cstring t vs => elemBytes n.swap t vs ++ scalarBytes n.swap t 0
  | .pad k => List.replicate (padDist n k) 0#8
  | .swap _ => []

def valSwap (n : Navi) : Val → Bool
  | .swap b => b
  | _ => n.swap

theorem writeVal_eq (n : Navi) (v : Val) :
    writeVal n v = { n with s := n.s.write (valBytes n v), swap := valSwap n v } := by
  cases v with
  | scalar => rfl
  | fixed t vs => exact writeElements_eq n t vs
  | counted ct t vs => simp [writeVal, writeCounted, writeElements_eq, writeScalar, write_write, valBytes, valSwap]
  | cstring t vs => simp [writeVal, writeT, writeElements_eq, writeScalar, write_write, valBytes, valSwap]
  | pad k => simp [writeVal, pad_writer, valBytes, valSwap]
  | swap b => simp [writeVal, valBytes, valSwap, Stream.write]

/-- Reader and writer agree on everything but the stream. -/
structure InStep (w r : Navi) : Prop where
  pos : r.s.pos = w.s.pos
  fail : r.s.fail = false
  wfail : w.s.fail = false
  eof : r.s.eof = false
  orig : r.localPos = w.localPos
  swap : r.swap = w.swap

theorem InStep.tell {w r : Navi} (h : InStep w r) : tell r = tell w := by
  simp [Stream.tell, PreCore.Stream.tell, Stream.Stream.tell, h.pos, h.fail, h.wfail, h.orig]

theorem readVal_has (w r : Navi) (v : Val) (hs : InStep w r) (hok : v.ok) (h : Has r.s (valBytes w v))
    (hb : w.s.pos + (valBytes w v).length < 2 ^ 63) :
    readVal r v.shape = (some v, { r with s := adv r.s (valBytes w v).length, swap := valSwap w v }) := by
  cases v with
  | scalar t v =>
    simp only [valBytes, ← hs.swap] at h ⊢
    simp [readVal, Val.shape, readScalar_has h, scalarBytes_length, valSwap, hs.swap]
  | fixed t vs =>
    simp only [valBytes, ← hs.swap] at h ⊢
    simp [readVal, Val.shape, readElements_has h, elemBytes_length, valSwap, hs.swap]
  | counted ct t vs =>
    simp only [valBytes, ← hs.swap] at h ⊢
    simp [readVal, Val.shape, readCounted_has hok h, elemBytes_length, scalarBytes_length, valSwap, hs.swap]
  | cstring t vs =>
    simp only [valBytes, ← hs.swap] at h ⊢
    have hlen : vs.length < r.s.data.length + 1 := by
      obtain ⟨_, _, rest, hr⟩ := h
      have := congrArg List.length hr
      simp only [List.length_drop, List.length_append, elemBytes_length, scalarBytes_length] at this
      have hb : 1 ≤ t.bytes := by cases t <;> decide
      have := Nat.mul_le_mul_right vs.length hb
      omega
    simp only [readVal, Val.shape, readString]
    rw [readStringLoop_has t vs r _ hlen hok h]
    simp [elemBytes_length, scalarBytes_length, valSwap, hs.swap]
  | pad k =>
    have hd : padDist r k = padDist w k := by simp only [padDist, hs.tell]
    simp only [valBytes, List.length_replicate] at hb
    simp only [readVal, Val.shape]
    rw [pad_reader r k hok hs.fail hs.eof (by rw [hd, hs.pos]; exact hb)]
    simp [valBytes, hd, valSwap, hs.swap]
  | swap b => simp [readVal, Val.shape, valBytes, adv_zero, valSwap]

/-- The bytes a whole script puts into the file. -/
def allBytes : Navi → List Val → List Byte
  | _, [] => []
  | n, v :: vs => valBytes n v ++ allBytes (writeVal n v) vs

theorem writeAll_s (vs : List Val) : ∀ n : Navi, (writeAll n vs).s = n.s.write (allBytes n vs) := by
  induction vs with
  | nil => intro n; simp [writeAll, allBytes, Stream.write]
  | cons v vs ih =>
    intro n
    rw [writeAll, List.foldl_cons, ← writeAll, ih, allBytes, ← write_write]
    rw [writeVal_eq]

theorem readAll_has : ∀ (vs : List Val) (w r : Navi), InStep w r → (∀ v ∈ vs, v.ok) → Has r.s (allBytes w vs) →
    w.s.pos + (allBytes w vs).length < 2 ^ 63 →
    ∃ r', readAll r (vs.map Val.shape) = (some vs, r') ∧ InStep (writeAll w vs) r' ∧ r'.s.data = r.s.data ∧
      r'.savePos = r.savePos := by
  intro vs
  induction vs with
  | nil => intro w r hs _ _ _; exact ⟨r, rfl, hs, rfl, rfl⟩
  | cons v vs ih =>
    intro w r hs hok h hb
    have hl := h.left
    have hr := h.right
    simp only [allBytes, List.length_append] at hb
    have h1 := readVal_has w r v hs (hok v (by simp)) hl (by omega)
    have hw := writeVal_eq w v
    have hpos := write_pos w.s (valBytes w v) hs.wfail
    have hs' : InStep (writeVal w v) { r with s := adv r.s (valBytes w v).length, swap := valSwap w v } := by
      constructor
      · simp [hw, hpos, adv, hs.pos]
      · exact hs.fail
      · rw [hw]; simp [(write_fail w.s _).1, hs.wfail]
      · exact hs.eof
      · rw [hw]; exact hs.orig
      · rw [hw]
    obtain ⟨r', e1, e2, e3, e4⟩ := ih (writeVal w v) _ hs' (fun x hx => hok x (by simp [hx])) hr
      (by simp only [hw, hpos]; rw [hw] at hb; omega)
    refine ⟨r', ?_, e2, e3, e4⟩
    simp only [List.map_cons, readAll, h1, e1]

/-- C18 (and C19, C21): any script of typed writes — scalars of every size, plain and counted containers, C strings,
padding and endian switches in any order — started anywhere in any file, is read back identically by a reader positioned
at the same place with the same swap setting and origin; the reader ends exactly where the writer ended, in the same
swap state, and never fails. -/
theorem script_roundtrip (w r : Navi) (vs : List Val) (hok : ∀ v ∈ vs, v.ok)
    (hw : w.s.fail = false) (hr : r.s = ⟨(writeAll w vs).s.data, w.s.pos, false, false⟩)
    (horig : r.localPos = w.localPos) (hswap : r.swap = w.swap) (hb : (writeAll w vs).s.pos < 2 ^ 63) :
    ∃ r', readAll r (vs.map Val.shape) = (some vs, r') ∧ r'.s.pos = (writeAll w vs).s.pos ∧
      r'.s.fail = false ∧ r'.s.data = (writeAll w vs).s.data := by
  have hs : InStep w r := ⟨by rw [hr], by rw [hr], hw, by rw [hr], horig, hswap⟩
  have hh : Has r.s (allBytes w vs) := by
    rw [hr, writeAll_s]; exact write_has w.s _ hw
  obtain ⟨r', e1, e2, e3, _⟩ := readAll_has vs w r hs hok hh (by
    rw [writeAll_s, write_pos _ _ hw] at hb; exact hb)
  exact ⟨r', e1, e2.pos, e2.fail, by rw [e3, hr]⟩

/-- C18, frame: a script changes no byte of the file before its start nor after its end. -/
theorem script_frame (w : Navi) (vs : List Val) (hw : w.s.fail = false) (i : Nat) :
    (i < w.s.pos → i < w.s.data.length → (writeAll w vs).s.data[i]? = w.s.data[i]?) ∧
    ((writeAll w vs).s.pos ≤ i → (writeAll w vs).s.data[i]? = w.s.data[i]?) := by
  rw [writeAll_s]
  have hp := write_pos w.s (allBytes w vs) hw
  generalize allBytes w vs = bs at *
  constructor
  · intro h1 h2
    unfold Stream.write
    split
    · rfl
    · rw [← List.getElem?_take_of_lt h1, overwrite_pre, List.getElem?_append_left (by simp; omega),
        List.getElem?_take_of_lt h1]
  · intro h
    rw [hp] at h
    unfold Stream.write
    split
    · rfl
    · have : i = w.s.pos + (i - w.s.pos) := by omega
      rw [this, ← List.getElem?_drop, overwrite_drop, List.getElem?_append_right (by omega), List.getElem?_drop]
      congr 1; omega

/-- The hypotheses are met by a mixed script in the middle of a file, relative origin 1. -/
example : let w : Navi := ⟨⟨[1#8, 2#8, 3#8], 2, false, false⟩, 0, 1, true⟩
    let vs := [Val.scalar .u32 0x11223344#32, .counted .u8 .u16 [1#16, 2#16], .swap false, .cstring .u8 [0x41#8], .pad 4]
    (∀ v ∈ vs, v.ok) ∧ w.s.fail = false ∧ (writeAll w vs).s.pos = 17 ∧
    (writeAll w vs).s.data = [1#8, 2#8, 0x11#8, 0x22#8, 0x33#8, 0x44#8, 2#8, 0#8, 1#8, 0#8, 2#8, 0x41#8, 0#8, 0#8, 0#8,
      0#8, 0#8] := by
  refine ⟨?_, rfl, by decide +kernel, by decide +kernel⟩
  intro v hv
  simp only [List.mem_cons, List.not_mem_nil, or_false] at hv
  rcases hv with rfl | rfl | rfl | rfl | rfl
  · trivial
  · show (2 : Nat) < 2 ^ 8; decide
  · trivial
  · show (0 : BitVec 8) ∉ [0x41#8]; decide
  · show (4 : Nat) ≤ 30; decide

/-! ## C18: the bytes on disk -/

/-- C18: with swapping off a scalar is stored least significant byte first, with swapping on most significant first. -/
theorem scalar_image (t : Ty) (v : BitVec (8 * t.bytes)) :
    scalarBytes false t v = leBytes t.bytes v ∧ scalarBytes true t v = (leBytes t.bytes v).reverse := by
  refine ⟨(leBytes_eq_toLE _ _).symm, ?_⟩
  have : scalarBytes true t v = leBytes t.bytes (t.swap v) := (leBytes_eq_toLE _ _).symm
  rw [this]
  cases t
  · simp [Ty.swap, Ty.bytes, leBytes]
  · exact Endian.fbswap_reverses .w16 v
  · exact Endian.fbswap_reverses .w32 v
  · exact Endian.fbswap_reverses .w64 v

/-! ## C19 -/

/-- C19: what the count prefix really says: the length modulo the range of the count type. A longer container is
silently written with a wrong count (so the bound in `Val.ok` is necessary). -/
theorem counted_prefix (n : Navi) (ct t : Ty) (vs : List (BitVec (8 * t.bytes))) (hf : n.s.fail = false) (r : Navi)
    (hr : r.s = ⟨(writeCounted n ct t vs).s.data, n.s.pos, false, false⟩) (hsw : r.swap = n.swap) :
    ∃ xs r', readCounted r ct t = (some xs, r') ∧ xs.length = vs.length % 2 ^ (8 * ct.bytes) ∧ xs <+: vs := by
  have hw : (writeCounted n ct t vs).s =
      n.s.write (scalarBytes n.swap ct (BitVec.ofNat _ vs.length) ++ elemBytes n.swap t vs) := by
    simp [writeCounted, writeElements_eq, writeScalar, write_write]
  have hh := write_has n.s (scalarBytes n.swap ct (BitVec.ofNat _ vs.length) ++ elemBytes n.swap t vs) hf
  rw [← hw, ← hr] at hh
  have hm : vs.length % 2 ^ (8 * ct.bytes) ≤ vs.length := Nat.mod_le _ _
  generalize hk : vs.length % 2 ^ (8 * ct.bytes) = k at *
  have hlt : k < 2 ^ (8 * ct.bytes) := hk ▸ Nat.mod_lt _ (Nat.two_pow_pos _)
  have hlen : (vs.take k).length = k := by simp; omega
  have e1 : BitVec.ofNat (8 * ct.bytes) vs.length = BitVec.ofNat _ (vs.take k).length := by
    apply BitVec.eq_of_toNat_eq
    rw [BitVec.toNat_ofNat, BitVec.toNat_ofNat, hlen, hk, Nat.mod_eq_of_lt hlt]
  have e2 : elemBytes n.swap t vs = elemBytes n.swap t (vs.take k) ++ elemBytes n.swap t (vs.drop k) := by
    unfold elemBytes
    rw [← List.flatMap_append, List.take_append_drop]
  rw [e1, e2, ← List.append_assoc, ← hsw] at hh
  refine ⟨vs.take k, _, readCounted_has (by rw [hlen]; exact hlt) hh.left, hlen, List.take_prefix _ _⟩

/-- C19 for containers of user-defined classes and for the lambda versions: if every element survives on its own,
the counted container does. `bytes a` are the bytes the element writer emits. -/
theorem lambda_roundtrip {α : Type} (ct : Ty) (wf : Navi → α → Navi) (rf : Navi → Option α × Navi)
    (bytes : Bool → α → List Byte)
    (hwf : ∀ n a, wf n a = { n with s := n.s.write (bytes n.swap a) })
    (hrf : ∀ n a, Has n.s (bytes n.swap a) → rf n = (some a, { n with s := adv n.s (bytes n.swap a).length }))
    (w r : Navi) (vs : List α) (hl : vs.length < 2 ^ (8 * ct.bytes)) (hw : w.s.fail = false)
    (hr : r.s = ⟨(writeLambda w ct wf vs).s.data, w.s.pos, false, false⟩) (hsw : r.swap = w.swap) :
    ∃ r', readLambda r ct rf = (some vs, r') ∧ r'.s.pos = (writeLambda w ct wf vs).s.pos ∧ r'.s.fail = false := by
  have fold : ∀ (vs : List α) (n : Navi),
      vs.foldl wf n = { n with s := n.s.write (vs.flatMap (bytes n.swap)) } := by
    intro vs
    induction vs with
    | nil => intro n; simp [Stream.write]
    | cons a as ih => intro n; rw [List.foldl_cons, ih, hwf]; simp [write_write]
  have rfold : ∀ (vs : List α) (n : Navi), Has n.s (vs.flatMap (bytes n.swap)) →
      readLambdaLoop rf vs.length n =
        (some vs, { n with s := adv n.s (vs.flatMap (bytes n.swap)).length }) := by
    intro vs
    induction vs with
    | nil => intro n _; simp [readLambdaLoop, adv_zero]
    | cons a as ih =>
      intro n h
      rw [List.flatMap_cons] at h
      simp only [List.length_cons, readLambdaLoop, hrf n a h.left]
      rw [ih _ h.right]
      simp [adv_adv]
  have e : (writeLambda w ct wf vs).s =
      w.s.write (scalarBytes w.swap ct (BitVec.ofNat _ vs.length) ++ vs.flatMap (bytes w.swap)) := by
    unfold writeLambda; rw [fold]; simp [writeScalar, write_write]
  have hh := write_has w.s (scalarBytes w.swap ct (BitVec.ofNat _ vs.length) ++ vs.flatMap (bytes w.swap)) hw
  rw [← e, ← hr, ← hsw] at hh
  unfold readLambda
  rw [readScalar_has hh.left]
  simp only [BitVec.toNat_ofNat, Nat.mod_eq_of_lt hl]
  have h2 := hh.right
  rw [scalarBytes_length] at h2
  rw [rfold vs { r with s := adv r.s ct.bytes } h2]
  refine ⟨_, rfl, ?_, ?_⟩
  · rw [e, write_pos _ _ hw]
    have hp : r.s.pos = w.s.pos := by rw [hr]
    simp [adv, scalarBytes_length, hsw, hp, Nat.add_assoc]
  · simp [adv, hr]

/-- The element hypotheses are met by scalars themselves. -/
example (t : Ty) : (∀ n a, writeScalar n t a = { n with s := n.s.write (scalarBytes n.swap t a) }) ∧
    (∀ n a, Has n.s (scalarBytes n.swap t a) →
      readScalar n t = (some a, { n with s := adv n.s (scalarBytes n.swap t a).length })) :=
  ⟨fun _ _ => rfl, fun n a h => by rw [scalarBytes_length]; exact readScalar_has h⟩

theorem readScalar_good (n : Navi) (t : Ty) (hf : n.s.fail = false) (he : n.s.eof = false) :
    (∃ v, readScalar n t = (some v, { n with s := adv n.s t.bytes }) ∧ n.s.pos + t.bytes ≤ n.s.data.length) ∨
    (∃ n', readScalar n t = (none, n') ∧ n'.s.eof = true) := by
  unfold readScalar Stream.read
  rw [if_neg (by simp [hf, he]), if_neg (by cases t <;> decide)]
  by_cases h : n.s.pos + t.bytes ≤ n.s.data.length
  · rw [if_pos h]; exact Or.inl ⟨_, rfl, h⟩
  · rw [if_neg h]; exact Or.inr ⟨_, rfl, rfl⟩

/-- C19: on a good stream `ReadString` always ends, whatever the file contains. -/
theorem readString_terminates (n : Navi) (t : Ty) (hf : n.s.fail = false) (he : n.s.eof = false) :
    readString n t ≠ none := by
  have hb : 1 ≤ t.bytes := by cases t <;> decide
  have gen : ∀ f n, n.s.fail = false → n.s.eof = false → n.s.data.length - n.s.pos < f →
      readStringLoop t f n ≠ none := by
    intro f
    induction f with
    | zero => intro n _ _ h; omega
    | succ f ih =>
      intro n hf he hlt
      simp only [readStringLoop]
      rcases readScalar_good n t hf he with ⟨v, h1, h2⟩ | ⟨n', h1, h2⟩
      · rw [h1]
        simp only
        split
        · simp
        · have := ih { n with s := adv n.s t.bytes } hf he (by simp [adv]; omega)
          revert this
          cases readStringLoop t f { n with s := adv n.s t.bytes } with
          | none => simp
          | some p => simp
      · rw [h1]; simp [h2]
  exact gen _ n hf he (by omega)

/-- C19 is violated on a stream that failed before (for instance after reading past the end and seeking back, which
clears eof but not the failure): `ReadString` evaluates an indeterminate value and has no reason to stop. -/
theorem readString_failed_violated (n : Navi) (t : Ty) (p : Nat) (hf : n.s.fail = true) :
    readString (seek n p .beg) t = none := by
  have h : (seek n p .beg).s.fail = true ∧ (seek n p .beg).s.eof = false := by
    simp [seek, Stream.seek, hf]
  unfold readString
  simp only [readStringLoop, readScalar, Stream.read, h.1, true_or, if_true]
  simp [h.2]

example : ((⟨[1#8], 0, false, false⟩ : Stream).read 2).2.fail = true := by decide

/-! ## C20 -/

/-- Everything a program can do with a stream except `Push`. -/
inductive Op
  | seek (p : Nat) (d : Dir) | skip (n : Int) | read (n : Nat) | write (bs : List Byte)
  | setOrigin (o : Nat) (useSeek : Bool) | resetOrigin (useSeek : Bool) | pad (a : Nat) | getSize | pop
  | setSwap (b : Bool)

def step (k : Kind) (n : Navi) : Op → Navi
  | .seek p d => seek n p d
  | .skip l => skip k n l
  | .read m => { n with s := (n.s.read m).2 }
  | .write bs => { n with s := n.s.write bs }
  | .setOrigin o u => setOrigin n o u
  | .resetOrigin u => resetOrigin n u
  | .pad a => applyPadding k n a
  | .getSize => (getSize n).2
  | .pop => pop n
  | .setSwap b => { n with swap := b }

def run (k : Kind) (n : Navi) (ops : List Op) : Navi := ops.foldl (step k) n

theorem step_save (k : Kind) (n : Navi) (op : Op) : (step k n op).savePos = n.savePos := by
  cases op with
  | seek | skip | read | write | pop | setSwap | getSize => rfl
  | setOrigin o u => cases u <;> rfl
  | resetOrigin u => cases u <;> rfl
  | pad a => simp only [step, applyPadding]; split <;> rfl

theorem run_save (k : Kind) (ops : List Op) : ∀ n, (run k n ops).savePos = n.savePos := by
  induction ops with
  | nil => intro n; rfl
  | cons op ops ih => intro n; rw [run, List.foldl_cons, ← run, ih, step_save]

theorem seek_beg (s : Stream) (p : Nat) (hf : s.fail = false) (hp : p < 2 ^ 63) :
    s.seek p .beg = { s with pos := p, eof := false } := by
  unfold Stream.seek s64 W64
  simp only [hf, Bool.false_eq_true, if_false]
  rw [Nat.mod_eq_of_lt (by omega), if_pos hp, if_neg (by omega)]
  simp

/-- C20, partial: whatever happens between `Push` and `Pop` — seeks, skips, reads, writes, origin changes, padding, size
queries, other pops — `Pop` returns the stream to the absolute position of the most recent `Push`, provided the stream
has not failed in between. Missing: histories that run into the end of the file (violated below), and nested pushes
(only one position is remembered). -/
theorem push_pop_partial (k : Kind) (n : Navi) (ops : List Op) (hf : n.s.fail = false) (hp : n.s.pos < 2 ^ 63)
    (hgood : (run k (push n) ops).s.fail = false) :
    (pop (run k (push n) ops)).s.pos = n.s.pos ∧ (pop (run k (push n) ops)).s.fail = false ∧
    (pop (run k (push n) ops)).s.data = (run k (push n) ops).s.data := by
  have hs : (run k (push n) ops).savePos = n.s.pos := by
    rw [run_save]; simp [push, Stream.tell, hf]
  unfold pop
  rw [hs, seek_beg _ _ hgood hp]
  exact ⟨rfl, hgood, rfl⟩

example : let n : Navi := ⟨⟨[1#8, 2#8, 3#8], 1, false, false⟩, 0, 0, false⟩
    (run .reader (push n) [.seek 0 .end_, .setOrigin 2 true, .read 1]).s.fail = false ∧
    (pop (run .reader (push n) [.seek 0 .end_, .setOrigin 2 true, .read 1])).s.pos = 1 := by decide

/-- C20 is violated after a read past the end: the failure is sticky, `Pop` does not bring the stream back and every later
read fails. -/
theorem pop_after_eof_violated (n : Navi) (m : Nat) (k : Nat) (hf : n.s.fail = false) (he : n.s.eof = false)
    (hm : m ≠ 0) (h : n.s.data.length < n.s.pos + m) :
    (pop (run .reader (push n) [.read m])).s.fail = true ∧ ((pop (run .reader (push n) [.read m])).s.read k).1 = none := by
  have h1 : (run .reader (push n) [.read m]).s = { n.s with pos := max n.s.pos n.s.data.length, fail := true, eof := true } := by
    simp only [run, List.foldl_cons, List.foldl_nil, step, push, Stream.read, hf, he]
    rw [if_neg (by simp), if_neg hm, if_neg (by omega)]
  have h2 : (pop (run .reader (push n) [.read m])).s.fail = true := by
    unfold pop Stream.seek; rw [h1]; simp
  exact ⟨h2, by simp [Stream.read, h2]⟩

example : (0 : Nat) < 0 + 1 := by decide

/-- C20 is violated for nested use: the inner `Push` overwrites the outer position. -/
theorem nested_push_violated (n : Navi) (p : Nat) (hf : n.s.fail = false) (hp : p + n.localPos < 2 ^ 63) 
    (hne : n.s.pos ≠ p + n.localPos) :
    (pop (pop (push (seek (push n) p .beg)))).s.pos ≠ n.s.pos := by
  have h1 : (seek (push n) p .beg).s = { n.s with pos := p + n.localPos, eof := false } := by
    simp only [seek, push, if_true]
    rw [Nat.mod_eq_of_lt (by unfold W64; omega), seek_beg _ _ hf hp]
  have h2 : (push (seek (push n) p .beg)).savePos = p + n.localPos := by
    show (seek (push n) p .beg).s.tell = _
    rw [h1]; simp [Stream.tell, hf]
  have h3 : (pop (push (seek (push n) p .beg))).s = { n.s with pos := p + n.localPos, eof := false } := by
    unfold pop
    rw [h2]
    have : (push (seek (push n) p .beg)).s = _ := h1
    rw [this, seek_beg _ _ (by simpa using hf) hp]
  have h4 : (pop (push (seek (push n) p .beg))).savePos = p + n.localPos := h2
  have h5 : (pop (pop (push (seek (push n) p .beg)))).s = { n.s with pos := p + n.localPos, eof := false } := by
    rw [pop, h4, h3, seek_beg _ _ (by simpa using hf) hp]
  rw [h5]
  exact fun h => hne h.symm

example : ((⟨⟨[1#8], 1, false, false⟩, 0, 0, false⟩ : Navi)).s.pos ≠ 0 + 0 := by decide

/-- C20: under any relative origin, `Tell` after an absolute `Seek(p)` is `p`, and the absolute position is origin + p. -/
theorem tell_seek (n : Navi) (p : Nat) (hf : n.s.fail = false) (hp : p + n.localPos < 2 ^ 63) :
    tell (seek n p .beg) = p ∧ (seek n p .beg).s.pos = n.localPos + p ∧ (seek n p .beg).s.fail = false := by
  have h1 : (seek n p .beg).s = { n.s with pos := p + n.localPos, eof := false } := by
    simp only [seek, if_true]
    rw [Nat.mod_eq_of_lt (by unfold W64; omega), seek_beg _ _ hf hp]
  have h2 : (seek n p .beg).localPos = n.localPos := rfl
  refine ⟨?_, by rw [h1]; simp; omega, by rw [h1]; exact hf⟩
  unfold tell
  rw [h1, h2]
  simp only [Stream.tell, hf, Bool.false_eq_true, if_false]
  unfold W64; omega

/-- C20: `SetRelativeOrigin` keeps the absolute position unless it is asked to seek, in which case `Tell` is 0; resetting
the origin restores absolute addressing. -/
theorem origin_laws (n : Navi) (o : Nat) (hf : n.s.fail = false) (ho : o < 2 ^ 63) (hp : n.s.pos < 2 ^ 63) :
    (setOrigin n o false).s = n.s ∧ tell (setOrigin n o true) = 0 ∧ (setOrigin n o true).s.pos = o ∧
    tell (resetOrigin n false) = n.s.pos ∧ (resetOrigin n true).s.pos = 0 ∧
    (∀ p, p < 2 ^ 63 → (seek (resetOrigin n false) p .beg).s.pos = p) := by
  have key : ∀ o, o < 2 ^ 63 → tell (setOrigin n o true) = 0 ∧ (setOrigin n o true).s.pos = o := by
    intro o ho
    have := tell_seek { n with localPos := o } 0 hf (by simpa using ho)
    exact ⟨this.1, this.2.1⟩
  refine ⟨rfl, (key o ho).1, (key o ho).2, ?_, (key 0 (by omega)).2, ?_⟩
  · simp [resetOrigin, setOrigin, tell, Stream.tell, hf, W64]; omega
  · intro p hp
    have := (tell_seek { n with localPos := 0 } p hf (by simpa using hp)).2.1
    rw [Nat.zero_add] at this
    exact this

/-- C20: relative addressing is a translation: seeking to what `Tell` reported, under the same origin, is a no-op on the
position, even if the origin lies after it. -/
theorem seek_tell (n : Navi) (hf : n.s.fail = false) (hp : n.s.pos < 2 ^ 63) (ho : n.localPos < 2 ^ 63) :
    (seek n (tell n) .beg).s.pos = n.s.pos ∧ (seek n (tell n) .beg).s.fail = false := by
  have e : (tell n + n.localPos) % W64 = n.s.pos := by
    simp only [tell, Stream.tell, hf, Bool.false_eq_true, if_false]; unfold W64; omega
  simp only [seek, if_true]
  rw [e, seek_beg _ _ hf hp]
  exact ⟨rfl, hf⟩

/-- C20: `GetSize` is the distance of the end of the file from the origin and leaves the position where it was. -/
theorem getSize_spec (n : Navi) (hf : n.s.fail = false) (hp : n.s.pos < 2 ^ 63) (ho : n.localPos ≤ n.s.data.length)
    (hd : n.s.data.length < 2 ^ 63) :
    (getSize n).1 = n.s.data.length - n.localPos ∧ (getSize n).2.s.pos = n.s.pos ∧ (getSize n).2.s.fail = false ∧
    (getSize n).2.s.data = n.s.data := by
  have h1 : (seek n 0 .end_).s = { n.s with pos := n.s.data.length, eof := false } := by
    simp only [seek, Stream.seek, hf, s64, W64]
    simp
    omega
  have e : (tell n + n.localPos) % W64 = n.s.pos := by
    simp only [tell, Stream.tell, hf, Bool.false_eq_true, if_false]; unfold W64; omega
  have h2 : (getSize n).2.s = { n.s with eof := false } := by
    show (seek (seek n 0 .end_) (tell n) .beg).s = _
    have hl : (seek n 0 .end_).localPos = n.localPos := rfl
    rw [seek, hl, if_pos rfl, e, h1, seek_beg _ _ (by exact hf) hp]
  refine ⟨?_, by rw [h2], by rw [h2]; exact hf, by rw [h2]⟩
  show tell (seek n 0 .end_) = _
  have hl : (seek n 0 .end_).localPos = n.localPos := rfl
  unfold tell
  rw [h1, hl]
  simp only [Stream.tell, hf, Bool.false_eq_true, if_false]
  unfold W64; omega

example : (getSize ⟨⟨[1#8, 2#8, 3#8], 1, false, false⟩, 0, 2, false⟩).1 = 1 := by decide

/-! ## C21 -/

/-- Specification: `m` is the least multiple of `a` that is not below `p`. -/
def NextMultiple (a p m : Nat) : Prop := a ∣ m ∧ p ≤ m ∧ ∀ q, a ∣ q → p ≤ q → m ≤ q

theorem next_multiple (k p : Nat) : NextMultiple (2 ^ k) p (p + (2 ^ k - p % 2 ^ k) % 2 ^ k) := by
  have hk : 0 < 2 ^ k := Nat.two_pow_pos k
  generalize 2 ^ k = a at *
  have hlt := Nat.mod_lt p hk
  have hdm := Nat.div_add_mod p a
  by_cases h : p % a = 0
  · rw [h, Nat.sub_zero, Nat.mod_self, Nat.add_zero]
    exact ⟨Nat.dvd_of_mod_eq_zero h, Nat.le_refl _, fun q _ hq => hq⟩
  · rw [Nat.mod_eq_of_lt (by omega)]
    have e : p + (a - p % a) = a * (p / a + 1) := by rw [Nat.mul_succ]; omega
    refine ⟨⟨_, e⟩, by omega, ?_⟩
    rintro q ⟨c, rfl⟩ hq
    rw [e]
    apply Nat.mul_le_mul_left
    by_cases hc : p / a + 1 ≤ c
    · exact hc
    · have : a * c ≤ a * (p / a) := Nat.mul_le_mul_left _ (by omega)
      omega

/-- C21: `ApplyPadding(2^k)` moves reader and writer from relative position `p` to the least multiple of `2^k` not before
`p`; the writer fills the gap with zeros and extends the file if necessary, the reader changes nothing. -/
theorem padding_lands (n : Navi) (k : Nat) (hk : k ≤ 30) (hf : n.s.fail = false) (he : n.s.eof = false)
    (ho : n.localPos ≤ n.s.pos) (hb : n.s.pos < 2 ^ 62)
    (r w : Navi) (hpr : applyPadding .reader n (2 ^ k) = r) (hpw : applyPadding .writer n (2 ^ k) = w) :
    NextMultiple (2 ^ k) (tell n) (tell r) ∧ NextMultiple (2 ^ k) (tell n) (tell w) ∧ r.s.pos = w.s.pos ∧
    r.s.fail = false ∧ w.s.fail = false ∧ r.s.data = n.s.data ∧
    (∀ i, n.s.pos ≤ i → i < w.s.pos → w.s.data[i]? = some 0#8) ∧
    (∀ i, (i < n.s.pos ∧ i < n.s.data.length) ∨ w.s.pos ≤ i → w.s.data[i]? = n.s.data[i]?) := by
  have hd : padDist n k < 2 ^ k := Nat.mod_lt _ (Nat.two_pow_pos k)
  have h30 : (2 : Nat) ^ k ≤ 2 ^ 30 := Nat.pow_le_pow_right (by omega) hk
  have hr := pad_reader n k hk hf he (by omega)
  have hw := pad_writer n k
  have ht : tell n = n.s.pos - n.localPos := by
    simp only [tell, Stream.tell, hf, Bool.false_eq_true, if_false]; unfold W64; omega
  have nm : NextMultiple (2 ^ k) (tell n) (tell n + padDist n k) := next_multiple k (tell n)
  have wp := write_pos n.s (List.replicate (padDist n k) 0#8) hf
  rw [List.length_replicate] at wp
  have wf := (write_fail n.s (List.replicate (padDist n k) 0#8)).1
  have tr : tell (applyPadding .reader n (2 ^ k)) = tell n + padDist n k := by
    rw [hr, ht]
    simp only [tell, Stream.tell, adv, hf, Bool.false_eq_true, if_false]; unfold W64; omega
  have tw : tell (applyPadding .writer n (2 ^ k)) = tell n + padDist n k := by
    rw [hw, ht]
    simp only [tell, Stream.tell, wf, hf, wp, Bool.false_eq_true, if_false]; unfold W64; omega
  have fr := script_frame n [.pad k] hf
  have e : (writeAll n [.pad k]).s = n.s.write (List.replicate (padDist n k) 0#8) := by
    rw [writeAll_s]; simp [allBytes, valBytes]
  rw [e] at fr
  rw [hpr] at tr hr
  rw [hpw] at tw hw
  have er : r.s = adv n.s (padDist n k) := by rw [hr]
  have ew : w.s = n.s.write (List.replicate (padDist n k) 0#8) := by rw [hw]
  clear hpr hpw hr hw ht
  generalize padDist n k = d at *
  refine ⟨by rw [tr]; exact nm, by rw [tw]; exact nm, ?_, by rw [er, adv_fail]; exact hf, by rw [ew, wf]; exact hf, by rw [er, adv_data],
    ?_, ?_⟩
  · rw [er, ew, wp]; rfl
  · intro i h1 h2
    have hh := write_has n.s (List.replicate d 0#8) hf
    obtain ⟨_, _, rest, h3⟩ := hh
    rw [ew] at h2 ⊢
    rw [wp] at h2
    simp only at h3
    have : i = n.s.pos + (i - n.s.pos) := by omega
    rw [this, ← List.getElem?_drop, h3, List.getElem?_append_left (by simp; omega)]
    rw [List.getElem?_replicate, if_pos (by omega)]
  · rintro i (⟨h1, h2⟩ | h)
    · rw [ew]; exact (fr i).1 h1 h2
    · rw [ew] at h ⊢; exact (fr i).2 h

example : (applyPadding .writer ⟨⟨[1#8, 2#8, 3#8], 3, false, false⟩, 0, 0, false⟩ (2 ^ 2)).s =
    ⟨[1#8, 2#8, 3#8, 0#8], 4, false, false⟩ := by
  rw [pad_writer]
  decide +kernel

end PreCore.Stream
