import Verif.Model.Zip
import Verif.Props.Stream
/-!
# C33: ZIP archives

Specification: the bytes of archives after the ZIP application note.
-/
namespace PreCore.Zip
open PreCore.Stream

/-- A member of an archive: the free header fields and the three variable parts. -/
structure Entry where
  version : Nat
  flags : Nat
  method : Nat
  time : Nat
  date : Nat
  crc : Nat
  usize : Nat
  name : List Byte
  extra : List Byte
  content : List Byte
deriving Repr, DecidableEq

/-- Local file header and data (APPNOTE 4.3.7). -/
def Entry.bytes (e : Entry) : List Byte :=
  toLE 4 0x04034b50 ++ toLE 2 e.version ++ toLE 2 e.flags ++ toLE 2 e.method ++ toLE 2 e.time ++ toLE 2 e.date ++
  toLE 4 e.crc ++ toLE 4 e.content.length ++ toLE 4 e.usize ++ toLE 2 e.name.length ++ toLE 2 e.extra.length ++
  e.name ++ e.extra ++ e.content

/-- A block of an archive. Lists named `a`, `b` are the fields nobody looks at. -/
inductive Block
  | file (e : Entry)
  /-- Central directory header (APPNOTE 4.3.12): 24 bytes of fields, three lengths, 12 bytes of fields. -/
  | central (a b name extra comment : List Byte)
  /-- End of central directory (4.3.16): 16 bytes of fields, comment. -/
  | eocd (a comment : List Byte)
  /-- ZIP64 end of central directory (4.3.14) without extensible data. -/
  | zip64 (a : List Byte)
  /-- ZIP64 locator (4.3.15). -/
  | locator (a : List Byte)
  /-- Digital signature (4.3.13). -/
  | signature (data : List Byte)
  /-- Archive extra data record (4.3.11). -/
  | extraData (data : List Byte)
deriving Repr, DecidableEq

def Block.bytes : Block → List Byte
  | .file e => e.bytes
  | .central a b name extra comment =>
    toLE 4 0x02014b50 ++ a ++ toLE 2 name.length ++ toLE 2 extra.length ++ toLE 2 comment.length ++ b ++
      name ++ extra ++ comment
  | .eocd a comment => toLE 4 0x06054b50 ++ a ++ toLE 2 comment.length ++ comment
  | .zip64 a => toLE 4 0x06064b50 ++ a
  | .locator a => toLE 4 0x07064b50 ++ a
  | .signature data => toLE 4 0x05054b50 ++ toLE 2 data.length ++ data
  | .extraData data => toLE 4 0x08064b50 ++ toLE 4 data.length ++ data

/-- The lengths fit in their fields (members below 2 GiB). -/
def Entry.fits (e : Entry) : Prop :=
  e.name.length < 2 ^ 16 ∧ e.extra.length < 2 ^ 16 ∧ e.content.length < 2 ^ 31

/-- Stored, not encrypted, named. -/
def Entry.stored (e : Entry) : Prop :=
  e.fits ∧ e.flags % 2 = 0 ∧ e.method = 0 ∧ e.usize = e.content.length ∧ e.name ≠ []

def Block.ok : Block → Prop
  | .file e => e.stored
  | .central a b name extra comment =>
    a.length = 24 ∧ b.length = 12 ∧ name.length < 2 ^ 16 ∧ extra.length < 2 ^ 16 ∧ comment.length < 2 ^ 16
  | .eocd a comment => a.length = 16 ∧ comment.length < 2 ^ 16
  | .zip64 a => a.length = 52
  | .locator a => a.length = 16
  | .signature data => data.length < 2 ^ 16
  | .extraData data => data.length < 2 ^ 31

def archive (bs : List Block) : List Byte := bs.flatMap Block.bytes

/-- Content of the first non-empty member called `name`. -/
def contentOf (name : List Byte) (bs : List Block) : Option (List Byte) :=
  bs.findSome? (fun b => match b with
    | .file e => if e.name = name ∧ e.content ≠ [] then some e.content else none
    | _ => none)

/-! ## Lemmas -/

theorem skip_adv (n : Navi) (m : Nat) (hf : n.s.fail = false) (he : n.s.eof = false) (hm : m < 2 ^ 31)
    (hp : n.s.pos + m < 2 ^ 63) : skip .reader n (toInt m) = { n with s := adv n.s m } := by
  have ht : toInt m = (m : Int) := by
    unfold toInt
    rw [BitVec.toInt_eq_toNat_of_lt (by simp [BitVec.toNat_ofNat]; omega)]
    simp [BitVec.toNat_ofNat]; omega
  unfold skip
  simp only [ht, Stream.skipIn]
  rw [if_neg (by omega)]
  unfold Stream.Stream.seek s64 W64
  simp only [hf, Bool.false_eq_true, if_false, Int.toNat_natCast]
  rw [Nat.mod_eq_of_lt (by omega), if_pos (c := m < 2 ^ 63) (by omega), if_neg (by omega)]
  simp [adv]
  exact ⟨by omega, hf, he⟩

theorem readParts_has (ks : List Nat) : ∀ (n : Navi) (h : List Byte), Has n.s h → h.length = ks.sum →
    readParts n ks = (some h, { n with s := adv n.s h.length }) := by
  induction ks with
  | nil =>
    intro n h _ hl
    have : h = [] := by simpa using hl
    subst this; rfl
  | cons k ks ih =>
    intro n h hh hl
    simp at hl
    have hs : h = h.take k ++ h.drop k := (List.take_append_drop k h).symm
    have hk : (h.take k).length = k := by simp; omega
    rw [hs] at hh
    have h1 := hh.left.read
    rw [hk] at h1
    have h2 := hh.right
    rw [hk] at h2
    unfold readParts
    rw [h1]
    simp only
    rw [ih { n with s := adv n.s k } (h.drop k) h2 (by simp; omega)]
    simp only [adv_adv, List.take_append_drop]
    have : k + (h.drop k).length = h.length := by simp; omega
    rw [this]

/-- `Push; Read(id); Pop`. -/
theorem peek_id (n : Navi) (id : Nat) (rest : List Byte) (hsw : n.swap = false) (h : Has n.s (toLE 4 id ++ rest))
    (hid : id < 2 ^ 32) (hp : n.s.pos < 2 ^ 63) :
    ∃ v, readScalar (push n) .u32 = (some v, { push n with s := adv n.s 4 }) ∧ v.toNat = id ∧
      pop { push n with s := adv n.s 4 } = push n := by
  have hf := h.1
  have he := h.2.1
  have h4 : (toLE 4 id).length = 4 := toLE_length _ _
  have hr := h.left.read
  rw [h4] at hr
  refine ⟨BitVec.ofNat (8 * Ty.u32.bytes) id, ?_, ?_, ?_⟩
  · unfold readScalar
    have : (push n).s.read Ty.u32.bytes = n.s.read 4 := rfl
    rw [this, hr]
    have h2 : (push n).swap = false := hsw
    simp only [h2, Bool.false_eq_true, if_false]
    rw [leNat_toLE, Nat.mod_eq_of_lt (by omega)]
  · simp [Ty.bytes, BitVec.toNat_ofNat]; omega
  · have hs : n.s.tell = n.s.pos := by simp [Stream.Stream.tell, hf]
    unfold pop push
    simp only [hs]
    rw [seek_beg _ _ (by exact hf) hp]
    simp [adv, ← he]

theorem leNat_field (a c : List Byte) (k v o : Nat) (ho : a.length = o) :
    leNat (((a ++ (toLE k v ++ c)).drop o).take k) = v % 256 ^ k := by
  rw [← ho, List.drop_left]
  have := toLE_length k v
  rw [List.take_append_of_le_length (by omega), List.take_of_length_le (by omega), leNat_toLE]

theorem has_pos {s : Stream} {bs : List Byte} (h : Has s bs) (hb : bs ≠ []) : s.pos + bs.length ≤ s.data.length := by
  obtain ⟨_, _, r, h3⟩ := h
  have := congrArg List.length h3
  have : 0 < bs.length := by cases bs <;> simp_all
  simp at *; omega

/-- Header of a local file. -/
def Entry.header (e : Entry) : List Byte :=
  toLE 4 0x04034b50 ++ toLE 2 e.version ++ toLE 2 e.flags ++ toLE 2 e.method ++ toLE 2 e.time ++ toLE 2 e.date ++
  toLE 4 e.crc ++ toLE 4 e.content.length ++ toLE 4 e.usize ++ toLE 2 e.name.length ++ toLE 2 e.extra.length

theorem header_length (e : Entry) : e.header.length = 30 := by simp [Entry.header, toLE_length]

theorem bytes_eq (e : Entry) : e.bytes = e.header ++ (e.name ++ (e.extra ++ e.content)) := by
  simp [Entry.bytes, Entry.header]

theorem header_fields (e : Entry) : u16 e.header 6 = e.flags % 2 ^ 16 ∧ u16 e.header 8 = e.method % 2 ^ 16 ∧
    u32 e.header 18 = e.content.length % 2 ^ 32 ∧ u32 e.header 22 = e.usize % 2 ^ 32 ∧
    u16 e.header 26 = e.name.length % 2 ^ 16 ∧ u16 e.header 28 = e.extra.length % 2 ^ 16 := by
  refine ⟨?_, ?_, ?_, ?_, ?_, ?_⟩
  · have := leNat_field (toLE 4 0x04034b50 ++ toLE 2 e.version) (toLE 2 e.method ++ toLE 2 e.time ++ toLE 2 e.date ++
      toLE 4 e.crc ++ toLE 4 e.content.length ++ toLE 4 e.usize ++ toLE 2 e.name.length ++ toLE 2 e.extra.length) 2 e.flags 6
      (by simp [toLE_length])
    simpa [u16, Entry.header] using this
  · have := leNat_field (toLE 4 0x04034b50 ++ toLE 2 e.version ++ toLE 2 e.flags) (toLE 2 e.time ++ toLE 2 e.date ++
      toLE 4 e.crc ++ toLE 4 e.content.length ++ toLE 4 e.usize ++ toLE 2 e.name.length ++ toLE 2 e.extra.length) 2 e.method 8
      (by simp [toLE_length])
    simpa [u16, Entry.header] using this
  · have := leNat_field (toLE 4 0x04034b50 ++ toLE 2 e.version ++ toLE 2 e.flags ++ toLE 2 e.method ++ toLE 2 e.time ++
      toLE 2 e.date ++ toLE 4 e.crc) (toLE 4 e.usize ++ toLE 2 e.name.length ++ toLE 2 e.extra.length) 4 e.content.length 18
      (by simp [toLE_length])
    simpa [u32, Entry.header] using this
  · have := leNat_field (toLE 4 0x04034b50 ++ toLE 2 e.version ++ toLE 2 e.flags ++ toLE 2 e.method ++ toLE 2 e.time ++
      toLE 2 e.date ++ toLE 4 e.crc ++ toLE 4 e.content.length) (toLE 2 e.name.length ++ toLE 2 e.extra.length) 4 e.usize 22
      (by simp [toLE_length])
    simpa [u32, Entry.header] using this
  · have := leNat_field (toLE 4 0x04034b50 ++ toLE 2 e.version ++ toLE 2 e.flags ++ toLE 2 e.method ++ toLE 2 e.time ++
      toLE 2 e.date ++ toLE 4 e.crc ++ toLE 4 e.content.length ++ toLE 4 e.usize) (toLE 2 e.extra.length) 2 e.name.length 26
      (by simp [toLE_length])
    simpa [u16, Entry.header] using this
  · have := leNat_field (toLE 4 0x04034b50 ++ toLE 2 e.version ++ toLE 2 e.flags ++ toLE 2 e.method ++ toLE 2 e.time ++
      toLE 2 e.date ++ toLE 4 e.crc ++ toLE 4 e.content.length ++ toLE 4 e.usize ++ toLE 2 e.name.length) [] 2 e.extra.length 28
      (by simp [toLE_length])
    simpa [u16, Entry.header] using this

/-- The reader stands at relative position `a` of a good stream. -/
structure Ready (n : Navi) : Prop where
  swap : n.swap = false
  fail : n.s.fail = false
  eof : n.s.eof = false
  size : n.s.data.length < 2 ^ 62
  orig : n.localPos ≤ n.s.pos

theorem tell_ready {n : Navi} (h : Ready n) (hp : n.s.pos ≤ n.s.data.length) : tell n = n.s.pos - n.localPos := by
  have := h.size
  have := h.orig
  simp only [tell, Stream.Stream.tell, h.fail, Bool.false_eq_true, if_false]
  unfold W64; omega

theorem readLocal_entry (n : Navi) (ix : Index) (e : Entry) (hn : Ready n) (h : Has n.s e.bytes) (he : e.stored) :
    readLocal n ix = .ok ({ n with s := adv n.s e.bytes.length },
      if e.content = [] then ix
      else emplace ix e.name (n.s.pos - n.localPos + 30 + e.name.length + e.extra.length, e.content.length)) := by
  obtain ⟨⟨f1, f2, f3⟩, f4, f5, f6, f7⟩ := he
  obtain ⟨g1, g2, g3, g4, g5, g6⟩ := header_fields e
  have hpos := has_pos h (by rw [bytes_eq]; intro hc; have := congrArg List.length hc; simp [header_length] at this)
  have hlen : e.bytes.length = 30 + e.name.length + e.extra.length + e.content.length := by
    rw [bytes_eq]; simp [header_length]; omega
  have hsz := hn.size
  rw [bytes_eq] at h
  have h1 := readParts_has [14, 16] n e.header h.left (by rw [header_length]; rfl)
  rw [header_length] at h1
  have h2 := h.right
  rw [header_length] at h2
  have h3 := h2.right
  unfold readLocal
  rw [h1]
  simp only
  rw [g1, g2, g3, g4, g5, g6, f5, f6]
  rw [Nat.mod_eq_of_lt (a := e.content.length) (by omega), Nat.mod_eq_of_lt f1, Nat.mod_eq_of_lt f2]
  by_cases hc : e.content = []
  · have hc0 : e.content.length = 0 := by simp [hc]
    rw [if_pos hc0, if_pos hc]
    rw [skip_adv _ _ (by exact hn.fail) (by exact hn.eof) (by omega) (by show n.s.pos + 30 + _ < _; omega)]
    simp only [adv_adv]
    rw [hlen]
    congr 4
    omega
  · have hcl : e.content.length ≠ 0 := by simpa using hc
    have hnl : e.name.length ≠ 0 := by simpa using f7
    rw [if_neg hcl, if_neg hc, if_neg, if_neg (by simp), if_neg hnl]
    · have := h2.left.read
      rw [this]
      simp only [adv_adv]
      have ha : skip .reader { n with s := adv n.s (30 + e.name.length) } (toInt e.extra.length) =
          { n with s := adv n.s (30 + e.name.length + e.extra.length) } := by
        rw [skip_adv _ _ (by exact hn.fail) (by exact hn.eof) (by omega) (by show n.s.pos + _ + _ < _; omega)]
        simp only [adv_adv]
      simp only [ha]
      rw [skip_adv _ _ (by exact hn.fail) (by exact hn.eof) (by omega) (by show n.s.pos + _ + _ < _; omega)]
      rw [tell_ready (n := { n with s := adv n.s (30 + e.name.length + e.extra.length) }) ⟨hn.swap, hn.fail, hn.eof, hn.size, by have := hn.orig; exact Nat.le_trans this (Nat.le_add_right _ _)⟩
        (by show n.s.pos + _ ≤ n.s.data.length; omega)]
      simp only [adv_adv]
      rw [hlen]
      have := hn.orig
      have e1 : (adv n.s (30 + e.name.length + e.extra.length)).pos - n.localPos =
        n.s.pos - n.localPos + 30 + e.name.length + e.extra.length := by
        show n.s.pos + (30 + e.name.length + e.extra.length) - n.localPos = _; omega
      rw [e1]
    · have : (e.flags % 2 ^ 16).testBit 0 = false := by
        simp [Nat.testBit_zero]; omega
      simp [this]

/-- What one block does to the index. -/
def indexStep (rel : Nat) (ix : Index) : Block → Index
  | .file e => if e.content = [] then ix
    else emplace ix e.name (rel + 30 + e.name.length + e.extra.length, e.content.length)
  | _ => ix

theorem readOther_has (n : Navi) (ix : Index) (parts : List Nat) (len : List Byte → Nat) (h tail : List Byte)
    (hn : Ready n) (hh : Has n.s (h ++ tail)) (hl : h.length = parts.sum) (hlen : len h = tail.length)
    (hb : tail.length < 2 ^ 31) (hne : h ≠ []) :
    readOther n ix parts len = .ok ({ n with s := adv n.s (h ++ tail).length }, ix) := by
  have hp := has_pos hh (by simp [hne])
  have := hn.size
  simp at hp
  unfold readOther
  rw [readParts_has parts n h hh.left hl]
  simp only
  rw [hlen, skip_adv _ _ (by exact hn.fail) (by exact hn.eof) hb (by show n.s.pos + h.length + _ < _; omega)]
  simp [adv_adv]

theorem readPlain_has (n : Navi) (ix : Index) (parts : List Nat) (h : List Byte)
    (hh : Has n.s h) (hl : h.length = parts.sum) :
    readPlain n ix parts = .ok ({ n with s := adv n.s h.length }, ix) := by
  unfold readPlain
  rw [readParts_has parts n h hh hl]

theorem block_length (b : Block) : 4 ≤ b.bytes.length := by
  cases b <;> simp [Block.bytes, Entry.bytes, toLE_length] <;> omega

theorem Ready.pushed {n : Navi} (h : Ready n) : Ready (push n) := ⟨h.swap, h.fail, h.eof, h.size, h.orig⟩

theorem push_s (n : Navi) : (push n).s = n.s := rfl

/-- One valid block: the reader ends behind it. -/
theorem readEntry_block (n : Navi) (ix : Index) (b : Block) (hn : Ready n) (h : Has n.s b.bytes) (hb : b.ok) :
    readEntry n ix = .ok ({ push n with s := adv n.s b.bytes.length }, indexStep (n.s.pos - n.localPos) ix b) := by
  have hlen := block_length b
  have hp := has_pos h (by intro hc; simp [hc] at hlen)
  have hsz := hn.size
  cases b with
  | file e =>
    have h' := h
    simp only [Block.bytes, Entry.bytes, List.append_assoc] at h'
    obtain ⟨v, e1, e2, e3⟩ := peek_id n _ _ hn.swap h' (by decide) (by omega)
    unfold readEntry
    simp only [e1, e3, e2, if_true]
    rw [readLocal_entry (push n) ix e hn.pushed (show Has (push n).s _ from h) hb]
    rfl
  | central a b name extra comment =>
    obtain ⟨l1, l2, l3, l4, l5⟩ := hb
    have h' := h
    simp only [Block.bytes, List.append_assoc] at h'
    obtain ⟨v, e1, e2, e3⟩ := peek_id n _ _ hn.swap h' (by decide) (by omega)
    unfold readEntry
    simp only [e1, e3, e2]
    rw [if_neg (by decide), if_pos trivial]
    have := readOther_has (push n) ix [38, 8] (fun h => u16 h 28 + u16 h 30 + u16 h 32)
      (toLE 4 0x02014b50 ++ a ++ toLE 2 name.length ++ toLE 2 extra.length ++ toLE 2 comment.length ++ b)
      (name ++ extra ++ comment) hn.pushed (by simpa [Block.bytes, push_s] using h) (by simp [toLE_length, l1, l2])
      ?_ (by simp; omega) ?_
    · rw [this]; simp [Block.bytes, indexStep, push]
    · have g1 := leNat_field (toLE 4 0x02014b50 ++ a) (toLE 2 extra.length ++ toLE 2 comment.length ++ b) 2 name.length 28
        (by simp [toLE_length, l1])
      have g2 := leNat_field (toLE 4 0x02014b50 ++ a ++ toLE 2 name.length) (toLE 2 comment.length ++ b) 2 extra.length 30
        (by simp [toLE_length, l1])
      have g3 := leNat_field (toLE 4 0x02014b50 ++ a ++ toLE 2 name.length ++ toLE 2 extra.length) b 2 comment.length 32
        (by simp [toLE_length, l1])
      simp only [List.append_assoc] at g1 g2 g3
      simp only [u16, List.append_assoc, g1, g2, g3, List.length_append]
      omega
    · intro hc; have := congrArg List.length hc; simp [toLE_length] at this
  | eocd a comment =>
    obtain ⟨l1, l2⟩ := hb
    have h' := h
    simp only [Block.bytes, List.append_assoc] at h'
    obtain ⟨v, e1, e2, e3⟩ := peek_id n _ _ hn.swap h' (by decide) (by omega)
    unfold readEntry
    simp only [e1, e3, e2]
    rw [if_neg (by decide), if_neg (by decide), if_pos trivial]
    have := readOther_has (push n) ix [22] (fun h => u16 h 20)
      (toLE 4 0x06054b50 ++ a ++ toLE 2 comment.length) comment hn.pushed (by simpa [Block.bytes, push_s] using h)
      (by simp [toLE_length, l1]) ?_ (by omega) ?_
    · rw [this]; simp [Block.bytes, indexStep, push]
    · have g1 := leNat_field (toLE 4 0x06054b50 ++ a) [] 2 comment.length 20 (by simp [toLE_length, l1])
      simp only [List.append_assoc, List.append_nil] at g1
      simp only [u16, List.append_assoc, g1]
      omega
    · intro hc; have := congrArg List.length hc; simp [toLE_length] at this
  | zip64 a =>
    have l1 : a.length = 52 := hb
    have h' := h
    simp only [Block.bytes] at h'
    obtain ⟨v, e1, e2, e3⟩ := peek_id n _ _ hn.swap h' (by decide) (by omega)
    unfold readEntry
    simp only [e1, e3, e2]
    rw [if_neg (by decide), if_neg (by decide), if_neg (by decide), if_pos trivial]
    rw [readPlain_has (push n) ix _ _ (show Has (push n).s _ from h) (by simp [Block.bytes, toLE_length, l1])]
    rfl
  | locator a =>
    have l1 : a.length = 16 := hb
    have h' := h
    simp only [Block.bytes] at h'
    obtain ⟨v, e1, e2, e3⟩ := peek_id n _ _ hn.swap h' (by decide) (by omega)
    unfold readEntry
    simp only [e1, e3, e2]
    rw [if_neg (by decide), if_neg (by decide), if_neg (by decide), if_neg (by decide), if_pos trivial]
    rw [readPlain_has (push n) ix _ _ (show Has (push n).s _ from h) (by simp [Block.bytes, toLE_length, l1])]
    rfl
  | signature data =>
    have l1 : data.length < 2 ^ 16 := hb
    have h' := h
    simp only [Block.bytes, List.append_assoc] at h'
    obtain ⟨v, e1, e2, e3⟩ := peek_id n _ _ hn.swap h' (by decide) (by omega)
    unfold readEntry
    simp only [e1, e3, e2]
    rw [if_neg (by decide), if_neg (by decide), if_neg (by decide), if_neg (by decide), if_neg (by decide), if_pos trivial]
    have := readOther_has (push n) ix [6] (fun h => u16 h 4) (toLE 4 0x05054b50 ++ toLE 2 data.length) data hn.pushed
      (by simpa [Block.bytes, push_s] using h) (by simp [toLE_length]) ?_ (by omega) ?_
    · rw [this]; simp [Block.bytes, indexStep, push]
    · have g1 := leNat_field (toLE 4 0x05054b50) [] 2 data.length 4 (by simp [toLE_length])
      simp only [List.append_nil] at g1
      simp only [u16, g1]
      omega
    · intro hc; have := congrArg List.length hc; simp [toLE_length] at this
  | extraData data =>
    have l1 : data.length < 2 ^ 31 := hb
    have h' := h
    simp only [Block.bytes, List.append_assoc] at h'
    obtain ⟨v, e1, e2, e3⟩ := peek_id n _ _ hn.swap h' (by decide) (by omega)
    unfold readEntry
    simp only [e1, e3, e2]
    rw [if_neg (by decide), if_neg (by decide), if_neg (by decide), if_neg (by decide), if_neg (by decide),
      if_neg (by decide), if_pos trivial]
    have := readOther_has (push n) ix [8] (fun h => u32 h 4) (toLE 4 0x08064b50 ++ toLE 4 data.length) data hn.pushed
      (by simpa [Block.bytes, push_s] using h) (by simp [toLE_length]) ?_ (by omega) ?_
    · rw [this]; simp [Block.bytes, indexStep, push]
    · have g1 := leNat_field (toLE 4 0x08064b50) [] 4 data.length 4 (by simp [toLE_length])
      simp only [List.append_nil] at g1
      simp only [u32, g1]
      omega
    · intro hc; have := congrArg List.length hc; simp [toLE_length] at this

/-- Index after a list of blocks. -/
def indexAll (rel : Nat) (ix : Index) : List Block → Index
  | [] => ix
  | b :: bs => indexAll (rel + b.bytes.length) (indexStep rel ix b) bs

theorem readLoop_succ (size f : Nat) (n : Navi) (ix : Index) : readLoop size (f + 1) n ix =
    if tell n < size then
      match readEntry n ix with
      | .ok (n, ix) => readLoop size f n ix
      | .error e => some (.error e)
    else some (.ok (n, ix)) := rfl

/-- A list of valid blocks, then whatever the rest is. -/
theorem readLoop_blocks (size : Nat) (bs : List Block) : ∀ (n : Navi) (ix : Index), Ready n →
    Has n.s (archive bs) → (∀ b ∈ bs, b.ok) → n.s.pos - n.localPos + (archive bs).length ≤ size →
    size + n.localPos = n.s.data.length →
    ∃ sp, ∀ f, readLoop size (bs.length + f) n ix =
      readLoop size f { n with s := adv n.s (archive bs).length, savePos := sp } (indexAll (n.s.pos - n.localPos) ix bs) := by
  induction bs with
  | nil =>
    intro n ix hn h _ _ _
    exact ⟨n.savePos, fun f => by simp [archive, indexAll, adv]⟩
  | cons b bs ih =>
    intro n ix hn h hok hsz hd
    have hlen := block_length b
    have h' : Has n.s (b.bytes ++ archive bs) := by simpa [archive] using h
    have hl : (archive (b :: bs)).length = b.bytes.length + (archive bs).length := by simp [archive]
    have hp := has_pos h' (by intro hc; have := congrArg List.length hc; simp at this; simp [this.1] at hlen)
    simp only [List.length_append] at hp
    have ho := hn.orig
    have hd2 := hn.size
    have e1 := readEntry_block n ix b hn h'.left (hok b (by simp))
    obtain ⟨sp, e3⟩ := ih { push n with s := adv n.s b.bytes.length } (indexStep (n.s.pos - n.localPos) ix b)
      ⟨hn.swap, hn.fail, hn.eof, hn.size, by show n.localPos ≤ n.s.pos + _; omega⟩ h'.right
      (fun x hx => hok x (by simp [hx])) (by show n.s.pos + b.bytes.length - n.localPos + _ ≤ _; omega) hd
    refine ⟨sp, fun f => ?_⟩
    have e2 : (b :: bs).length + f = (bs.length + f) + 1 := by simp; omega
    rw [e2, readLoop_succ, tell_ready hn (by omega), if_pos (by omega), e1]
    simp only
    rw [e3, adv_adv, hl]
    have e4 : ({ push n with s := adv n.s b.bytes.length } : Navi).s.pos - ({ push n with s := adv n.s b.bytes.length } : Navi).localPos
        = n.s.pos - n.localPos + b.bytes.length := by
      show n.s.pos + b.bytes.length - n.localPos = _; omega
    rw [e4]
    rfl

theorem find_emplace (ix : Index) (k name : List Byte) (v : Nat × Nat) :
    find (emplace ix k v) name = match find ix name with
      | some w => some w
      | none => if k = name then some v else none := by
  unfold emplace find
  by_cases hk : k ∈ ix.map Prod.fst
  · rw [if_pos hk]
    cases hf : ix.find? (fun e => e.1 == name) with
    | some e => rfl
    | none =>
      have : k ≠ name := by
        intro hc; subst hc
        rw [List.find?_eq_none] at hf
        simp at hk
        obtain ⟨a, b, hm⟩ := hk
        exact hf _ hm (by simp)
      simp [this]
  · rw [if_neg hk, List.find?_append]
    cases hf : ix.find? (fun e => e.1 == name) with
    | some e => simp
    | none =>
      by_cases h : k = name
      · simp [h, List.find?]
      · have : (k == name) = false := by simp [h]
        simp [h, List.find?, this]

/-- Where the first non-empty member called `name` lies. -/
def locOf (rel : Nat) (name : List Byte) : List Block → Option (Nat × Nat)
  | [] => none
  | b :: bs =>
    match b with
    | .file e => if e.name = name ∧ e.content ≠ [] then
        some (rel + 30 + e.name.length + e.extra.length, e.content.length)
      else locOf (rel + e.bytes.length) name bs
    | b => locOf (rel + b.bytes.length) name bs

theorem find_indexAll (name : List Byte) (bs : List Block) : ∀ (rel : Nat) (ix : Index),
    find (indexAll rel ix bs) name = match find ix name with
      | some w => some w
      | none => locOf rel name bs := by
  induction bs with
  | nil => intro rel ix; simp only [indexAll, locOf]; cases find ix name <;> rfl
  | cons b bs ih =>
    intro rel ix
    simp only [indexAll]
    rw [ih]
    cases b with
    | file e =>
      simp only [indexStep, locOf, Block.bytes]
      by_cases hc : e.content = []
      · rw [if_pos hc, if_neg (by simp [hc])]
      · rw [if_neg hc, find_emplace]
        cases find ix name with
        | some w => rfl
        | none => by_cases hn : e.name = name <;> simp [hn, hc]
    | _ => simp only [indexStep, locOf]

theorem locOf_content (name : List Byte) (data rest : List Byte) (o : Nat) (bs : List Block) : ∀ (rel : Nat),
    data.drop (o + rel) = archive bs ++ rest →
    contentOf name bs = (locOf rel name bs).map (fun v => (data.drop (v.1 + o)).take v.2) ∧
    ∀ v, locOf rel name bs = some v → v.1 + o + v.2 ≤ data.length ∧ v.2 ≠ 0 := by
  induction bs with
  | nil => intro rel _; exact ⟨rfl, by simp [locOf]⟩
  | cons b bs ih =>
    intro rel h
    have hd : data.drop (o + (rel + b.bytes.length)) = archive bs ++ rest := by
      rw [← Nat.add_assoc, ← List.drop_drop, h]
      simp [archive]
    have key := ih _ hd
    have hstep : ∀ c : Prop, [Decidable c] → (c → False) → contentOf name bs = contentOf name bs := fun _ _ _ => rfl
    cases b with
    | file e =>
      by_cases hc : e.name = name ∧ e.content ≠ []
      · have h1 : data.drop (rel + 30 + e.name.length + e.extra.length + o) = e.content ++ (archive bs ++ rest) := by
          have : rel + 30 + e.name.length + e.extra.length + o = o + rel + (e.header ++ (e.name ++ e.extra)).length := by
            simp [header_length]; omega
          rw [this, ← List.drop_drop, h]
          simp only [archive, List.flatMap_cons, Block.bytes, bytes_eq]
          rw [show e.header ++ (e.name ++ (e.extra ++ e.content)) ++ List.flatMap Block.bytes bs ++ rest =
            (e.header ++ (e.name ++ e.extra)) ++ (e.content ++ (List.flatMap Block.bytes bs ++ rest)) by simp, List.drop_left]
        have hne : e.content.length ≠ 0 := by simpa using hc.2
        have hl := congrArg List.length h1
        simp at hl
        constructor
        · simp only [contentOf, List.findSome?_cons, locOf]
          rw [if_pos hc, if_pos hc]
          simp only [Option.map_some, h1]
          simp
        · intro v hv
          simp only [locOf] at hv
          rw [if_pos hc] at hv
          cases hv
          simp only
          exact ⟨by omega, hne⟩
      · have e1 : contentOf name (.file e :: bs) = contentOf name bs := by
          simp only [contentOf, List.findSome?_cons]; rw [if_neg hc]
        have e2 : locOf rel name (.file e :: bs) = locOf (rel + (Block.file e).bytes.length) name bs := by
          simp only [locOf, Block.bytes]; rw [if_neg hc]
        rw [e1, e2]; exact key
    | _ =>
      simp only [contentOf, List.findSome?_cons, locOf]
      exact key

theorem getSize_ready {n : Navi} (hn : Ready n) (ho : n.localPos ≤ n.s.data.length) (hle : n.s.pos ≤ n.s.data.length) :
    getSize n = (n.s.data.length - n.localPos, n) := by
  have hsz := hn.size
  have h1 : seek n 0 .end_ = { n with s := { n.s with pos := n.s.data.length, eof := false } } := by
    simp only [seek, Stream.Stream.seek, hn.fail, s64, W64]
    simp
    omega
  have e : (tell n + n.localPos) % W64 = n.s.pos := by
    have := hn.orig
    rw [tell_ready hn hle]; unfold W64; omega
  have hs : n.s = { n.s with eof := false } := by rw [← hn.eof]
  unfold getSize
  simp only
  rw [h1]
  congr 1
  · rw [tell_ready (n := { n with s := { n.s with pos := n.s.data.length, eof := false } })
      ⟨hn.swap, hn.fail, rfl, hn.size, ho⟩ (Nat.le_refl _)]
  · simp only [seek, if_true]
    rw [e, seek_beg _ _ (by exact hn.fail) (by omega)]
    simp only
    rw [← hs]

/-- A reader that holds the file (anywhere in it). -/
def Holds (n : Navi) (data : List Byte) (origin : Nat) : Prop :=
  n.s.data = data ∧ n.localPos = origin ∧ n.s.fail = false

theorem getAt_spec (n : Navi) (v : Nat × Nat) (data : List Byte) (o : Nat) (hn : Holds n data o)
    (hd : data.length < 2 ^ 62) (hv : v.1 + o + v.2 ≤ data.length) (h0 : v.2 ≠ 0) :
    (getAt n v).1 = some ((data.drop (v.1 + o)).take v.2) ∧ Holds (getAt n v).2 data o := by
  obtain ⟨h1, h2, h3⟩ := hn
  have hs : (seek n v.1 .beg).s = { n.s with pos := v.1 + o, eof := false } := by
    simp only [seek, if_true, h2]
    rw [Nat.mod_eq_of_lt (by unfold W64; omega), seek_beg _ _ h3 (by omega)]
  unfold getAt
  simp only
  rw [if_neg h0, hs]
  unfold Stream.Stream.read
  simp only [h3, h1]
  rw [if_neg (by simp), if_neg h0, if_pos hv]
  exact ⟨rfl, rfl, h2, rfl⟩

/-- C33: opening any archive of stored members and directory records indexes it completely: whatever was done with the
reader in between, `Get(name)` returns exactly the content of the first non-empty member of that name (and throws for every other
name), and can be repeated. -/
theorem open_get (n : Navi) (bs : List Block) (hn : Ready n) (ho : n.localPos = n.s.pos)
    (hdata : n.s.data.drop n.s.pos = archive bs) (hok : ∀ b ∈ bs, b.ok) (hle : n.s.pos ≤ n.s.data.length) :
    ∃ n' ix, (∀ f, bs.length ≤ f → openZip f n = some (.ok (n', ix))) ∧ Holds n' n.s.data n.localPos ∧
      (∀ name, (find ix name).isSome = (contentOf name bs).isSome) ∧
      ∀ m name, Holds m n.s.data n.localPos →
        (get m ix name).1 = contentOf name bs ∧ Holds (get m ix name).2 n.s.data n.localPos := by
  have hsz := hn.size
  have hlen : (archive bs).length = n.s.data.length - n.s.pos := by rw [← hdata]; simp
  have hhas : Has n.s (archive bs) := ⟨hn.fail, hn.eof, [], by rw [hdata]; simp⟩
  have hrel : n.s.pos - n.localPos = 0 := by omega
  obtain ⟨sp, key⟩ := readLoop_blocks (n.s.data.length - n.localPos) bs n [] hn hhas hok (by omega) (by omega)
  rw [hrel] at key
  have tail : ∀ f, readLoop (n.s.data.length - n.localPos) f { n with s := adv n.s (archive bs).length, savePos := sp }
      (indexAll 0 [] bs) = some (.ok ({ n with s := adv n.s (archive bs).length, savePos := sp }, indexAll 0 [] bs)) := by
    intro f
    have ht : ¬ tell { n with s := adv n.s (archive bs).length, savePos := sp } < n.s.data.length - n.localPos := by
      rw [tell_ready (n := { n with s := adv n.s (archive bs).length, savePos := sp })
        ⟨hn.swap, hn.fail, hn.eof, hn.size, by show n.localPos ≤ n.s.pos + _; omega⟩
        (by show n.s.pos + _ ≤ n.s.data.length; omega)]
      show ¬ n.s.pos + (archive bs).length - n.localPos < _
      omega
    cases f with
    | zero => unfold readLoop; rw [if_neg ht]
    | succ f => rw [readLoop_succ, if_neg ht]
  have hfind : ∀ name, find (indexAll 0 [] bs) name = locOf 0 name bs := by
    intro name; rw [find_indexAll]; rfl
  have hloc : ∀ name, _ := fun name => locOf_content name n.s.data [] n.localPos bs 0 (by rw [ho, Nat.add_zero, hdata]; simp)
  refine ⟨{ n with s := adv n.s (archive bs).length, savePos := sp }, indexAll 0 [] bs, ?_, ⟨?_, rfl, ?_⟩, ?_, ?_⟩
  · intro f hf
    unfold openZip
    simp only
    rw [getSize_ready hn (by omega) hle]
    have := key (f - bs.length)
    rw [show bs.length + (f - bs.length) = f by omega, tail] at this
    exact this
  · rfl
  · exact hn.fail
  · intro name
    rw [hfind, (hloc name).1]; simp
  · intro m name hm
    unfold get
    rw [hfind]
    cases hl : locOf 0 name bs with
    | none =>
      refine ⟨?_, hm⟩
      rw [(hloc name).1, hl]; rfl
    | some v =>
      obtain ⟨q1, q2⟩ := (hloc name).2 v hl
      have := getAt_spec m v _ _ hm (by omega) q1 q2
      refine ⟨?_, this.2⟩
      rw [(hloc name).1, hl]
      exact this.1

instance exceptDec {α β : Type} [DecidableEq α] [DecidableEq β] : DecidableEq (Except α β)
  | .ok a, .ok b => if h : a = b then .isTrue (by rw [h]) else .isFalse (by intro hc; cases hc; exact h rfl)
  | .error a, .error b => if h : a = b then .isTrue (by rw [h]) else .isFalse (by intro hc; cases hc; exact h rfl)
  | .ok _, .error _ => .isFalse (by intro hc; cases hc)
  | .error _, .ok _ => .isFalse (by intro hc; cases hc)

instance : DecidableEq (Navi × Index) := instDecidableEqProd
instance : DecidableEq (Option (Except Err (Navi × Index))) := Option.instDecidableEq

/-- A small archive for the examples below: two members (one of them empty), the directory and its end record. -/
def sample : List Block :=
  [.file ⟨20, 0, 0, 1, 2, 3, 2, [97#8], [9#8], [1#8, 2#8]⟩, .file ⟨20, 0, 0, 1, 2, 3, 0, [98#8], [], []⟩,
   .central (List.replicate 24 7#8) (List.replicate 12 8#8) [97#8] [] [], .eocd (List.replicate 16 0#8) [1#8]]

example : (∀ b ∈ sample, b.ok) ∧
    openZip 4 ⟨⟨archive sample, 0, false, false⟩, 0, 0, false⟩ =
      some (.ok (⟨⟨archive sample, 135, false, false⟩, 112, 0, false⟩, [([97#8], 32, 2)])) := by
  refine ⟨?_, by decide +kernel⟩
  intro b hb
  simp [sample] at hb
  obtain h | h | h | h := hb <;> subst h <;> simp [Block.ok, Entry.stored, Entry.fits]

/-- C33: with distinct names, every non-empty member comes back verbatim. -/
theorem open_get_member (n : Navi) (bs : List Block) (hn : Ready n) (ho : n.localPos = n.s.pos)
    (hdata : n.s.data.drop n.s.pos = archive bs) (hok : ∀ b ∈ bs, b.ok) (hle : n.s.pos ≤ n.s.data.length)
    (huniq : ∀ e₁ e₂, Block.file e₁ ∈ bs → Block.file e₂ ∈ bs → e₁.name = e₂.name → e₁ = e₂) :
    ∃ n' ix, (∀ f, bs.length ≤ f → openZip f n = some (.ok (n', ix))) ∧
      ∀ e, Block.file e ∈ bs → e.content ≠ [] → (get n' ix e.name).1 = some e.content := by
  obtain ⟨n', ix, h1, h2, _, h4⟩ := open_get n bs hn ho hdata hok hle
  refine ⟨n', ix, h1, ?_⟩
  intro e he hc
  rw [(h4 n' e.name h2).1]
  clear h4 h2 h1 hdata hok
  unfold contentOf
  cases hf : bs.findSome? (fun b => match b with
    | .file e' => if e'.name = e.name ∧ e'.content ≠ [] then some e'.content else none
    | _ => none) with
  | none =>
    rw [List.findSome?_eq_none_iff] at hf
    have := hf _ he
    simp [hc] at this
  | some c =>
    obtain ⟨b, hb, hbc⟩ := List.exists_of_findSome?_eq_some hf
    cases b with
    | file e' =>
      simp only at hbc
      split at hbc
      · rename_i hh
        rw [← huniq e' e hb he hh.1]
        exact hbc.symm
      · cases hbc
    | _ => cases hbc

/-- Opening when, after some valid blocks, a block is refused. -/
theorem open_error (n : Navi) (bs : List Block) (bad rest : List Byte) (err : Nat → Err) (hn : Ready n) (ho : n.localPos = n.s.pos)
    (hdata : n.s.data.drop n.s.pos = archive bs ++ (bad ++ rest)) (hok : ∀ b ∈ bs, b.ok) (hb : 0 < bad.length)
    (h : ∀ m ix, Ready m → Has m.s (bad ++ rest) → readEntry m ix = .error (err (m.s.pos - m.localPos))) :
    ∀ f, bs.length < f → openZip f n = some (.error (err (archive bs).length)) := by
  have hlen := congrArg List.length hdata
  simp at hlen
  have hsz := hn.size
  have hhas : Has n.s (archive bs ++ (bad ++ rest)) := ⟨hn.fail, hn.eof, [], by rw [hdata]; simp⟩
  have hrel : n.s.pos - n.localPos = 0 := by omega
  obtain ⟨sp, key⟩ := readLoop_blocks (n.s.data.length - n.localPos) bs n [] hn hhas.left hok (by omega) (by omega)
  intro f hf
  obtain ⟨g, rfl⟩ : ∃ g, f = bs.length + (g + 1) := ⟨f - bs.length - 1, by omega⟩
  unfold openZip
  rw [getSize_ready hn (by omega) (by omega)]
  simp only
  rw [key]
  have hr : Ready { n with s := adv n.s (archive bs).length, savePos := sp } :=
    ⟨hn.swap, hn.fail, hn.eof, hn.size, by show n.localPos ≤ n.s.pos + _; omega⟩
  rw [readLoop_succ, tell_ready hr (by show n.s.pos + _ ≤ n.s.data.length; omega), if_pos, h _ _ hr hhas.right]
  · simp only
    congr 3
    show n.s.pos + (archive bs).length - n.localPos = _
    omega
  · show n.s.pos + (archive bs).length - n.localPos < _
    omega

/-- C33: encrypted, compressed and unnamed members with data are refused, wherever they stand and whatever follows. -/
theorem open_refuses_member (n : Navi) (bs : List Block) (e : Entry) (rest : List Byte) (hn : Ready n)
    (ho : n.localPos = n.s.pos) (hdata : n.s.data.drop n.s.pos = archive bs ++ (e.bytes ++ rest)) (hok : ∀ b ∈ bs, b.ok)
    (hc : 0 < e.content.length) (hc' : e.content.length < 2 ^ 32) (hnl : e.name.length < 2 ^ 16)
    (hml : e.method < 2 ^ 16) (hbad : e.flags % 2 = 1 ∨ e.method ≠ 0 ∨ e.name = []) (f : Nat) (hf : bs.length < f) :
    openZip f n = some (.error (if e.flags % 2 = 1 then .encrypted
      else if e.method ≠ 0 then .compressed else .noName)) := by
  refine (open_error n bs e.bytes rest (fun _ => _) hn ho hdata hok (by rw [bytes_eq]; simp [header_length]; omega) ?_ f hf)
  intro m ix hm2 hh
  have hpos := has_pos hh (by rw [bytes_eq]; intro hc; have := congrArg List.length hc; simp [header_length] at this)
  have hsz := hm2.size
  have h' := hh
  simp only [Entry.bytes, List.append_assoc] at h'
  obtain ⟨v, e1, e2, e3⟩ := peek_id m _ _ hm2.swap h' (by decide) (by omega)
  unfold readEntry
  simp only [e1, e3, e2, if_true]
  obtain ⟨g1, g2, g3, g4, g5, g6⟩ := header_fields e
  rw [bytes_eq, List.append_assoc] at hh
  have h1 := readParts_has [14, 16] (push m) e.header (show Has (push m).s _ from hh.left) (by rw [header_length]; rfl)
  unfold readLocal
  rw [h1]
  simp only
  rw [g1, g2, g3, g4, g5, g6]
  rw [Nat.mod_eq_of_lt hc', if_neg (by omega), Nat.mod_eq_of_lt hnl]
  by_cases h0 : e.flags % 2 = 1
  · rw [if_pos, if_pos h0]
    simp [Nat.testBit_zero]; omega
  · rw [if_neg, if_neg h0]
    · by_cases h2 : e.method ≠ 0
      · rw [if_pos (by rw [Nat.mod_eq_of_lt hml]; omega), if_pos h2]
      · have hnm : e.name = [] := by
          rcases hbad with h | h | h
          · exact absurd h h0
          · exact absurd h h2
          · exact h
        rw [if_neg, if_neg h2, if_pos (by simp [hnm])]
        omega
    · simp [Nat.testBit_zero]; omega

/-- C33: a block with an unknown identifier is refused, with its identifier and position in the error. -/
theorem open_refuses_unknown (n : Navi) (bs : List Block) (id : Nat) (rest : List Byte) (hn : Ready n)
    (ho : n.localPos = n.s.pos) (hdata : n.s.data.drop n.s.pos = archive bs ++ (toLE 4 id ++ rest)) (hok : ∀ b ∈ bs, b.ok)
    (hid : id < 2 ^ 32) (hbad : id ∉ [0x04034b50, 0x02014b50, 0x06054b50, 0x06064b50, 0x07064b50, 0x05054b50, 0x08064b50])
    (f : Nat) (hf : bs.length < f) : openZip f n = some (.error (.badBlock id (archive bs).length)) := by
  refine open_error n bs (toLE 4 id) rest (fun a => .badBlock id a) hn ho hdata hok (by simp [toLE_length]) ?_ f hf
  intro m ix hm2 hh
  have hpos := has_pos hh (by intro hc; have := congrArg List.length hc; simp [toLE_length] at this)
  have hsz := hm2.size
  obtain ⟨v, e1, e2, e3⟩ := peek_id m _ _ hm2.swap hh hid (by omega)
  unfold readEntry
  simp only [e1, e3, e2]
  simp at hbad
  obtain ⟨b1, b2, b3, b4, b5, b6, b7⟩ := hbad
  rw [if_neg b1, if_neg b2, if_neg b3, if_neg b4, if_neg b5, if_neg b6, if_neg b7,
    tell_ready hm2.pushed (by show m.s.pos ≤ _; rw [push_s]; omega)]
  rfl

example : ∃ (n : Navi) (e : Entry), n.s.data.drop n.s.pos = archive sample ++ (e.bytes ++ [1#8]) ∧ e.method ≠ 0 ∧
    0 < e.content.length ∧ openZip 5 n = some (.error .compressed) :=
  ⟨⟨⟨archive sample ++ ((⟨20, 0, 8, 0, 0, 0, 9, [97#8], [], [1#8]⟩ : Entry).bytes ++ [1#8]), 0, false, false⟩, 0, 0, false⟩,
    ⟨20, 0, 8, 0, 0, 0, 9, [97#8], [], [1#8]⟩, rfl, by decide, by decide, by decide +kernel⟩

example : openZip 5 ⟨⟨archive sample ++ (toLE 4 77 ++ []), 0, false, false⟩, 0, 0, false⟩ =
    some (.error (.badBlock 77 135)) := by decide +kernel

/-- C33 is violated: an empty member is not listed and cannot be read, in every archive. -/
theorem empty_member_violated (n : Navi) (bs : List Block) (hn : Ready n) (ho : n.localPos = n.s.pos)
    (hdata : n.s.data.drop n.s.pos = archive bs) (hok : ∀ b ∈ bs, b.ok) (hle : n.s.pos ≤ n.s.data.length)
    (e : Entry) (_he : Block.file e ∈ bs) (huniq : ∀ e', Block.file e' ∈ bs → e'.name = e.name → e'.content = []) :
    ∃ n' ix, (∀ f, bs.length ≤ f → openZip f n = some (.ok (n', ix))) ∧ find ix e.name = none ∧
      (get n' ix e.name).1 = none := by
  obtain ⟨n', ix, h1, h2, h3, h4⟩ := open_get n bs hn ho hdata hok hle
  have hc : contentOf e.name bs = none := by
    unfold contentOf
    rw [List.findSome?_eq_none_iff]
    intro b hb
    cases b with
    | file e' =>
      simp only
      rw [if_neg]
      intro hh
      exact hh.2 (huniq e' hb hh.1)
    | _ => rfl
  refine ⟨n', ix, h1, ?_, by rw [(h4 n' e.name h2).1, hc]⟩
  have := h3 e.name
  rw [hc] at this
  simpa using this

/-- A member written to a pipe: deflated, sizes zero in the local header (they follow the data). -/
def streamed : Entry := ⟨20, 8, 8, 0, 0, 0, 0, [97#8], [], []⟩
/-- The stored member hidden in the deflated data. -/
def hidden : Entry := ⟨20, 0, 0, 0, 0, 0, 1, [98#8], [], [7#8]⟩

/-- C33 is violated: a compressed member with the sizes in a data descriptor is not refused; its data is read as further
blocks, so a file that the archive does not contain is listed and returned. -/
theorem streamed_member_violated :
    ∃ n' ix, openZip 2 ⟨⟨streamed.bytes ++ hidden.bytes, 0, false, false⟩, 0, 0, false⟩ = some (.ok (n', ix)) ∧
      find ix streamed.name = none ∧ (get n' ix hidden.name).1 = some [7#8] :=
  ⟨⟨⟨streamed.bytes ++ hidden.bytes, 63, false, false⟩, 31, 0, false⟩, [([98#8], 62, 1)], by decide +kernel⟩

/-- A 31 byte file: sizes chosen so that the skip wraps to -30. -/
def looping : Entry := ⟨20, 0, 0, 0, 0, 0, 2 ^ 32 - 31, [97#8], [], []⟩

/-- Opening this file never returns. -/
theorem open_never_returns_violated (f : Nat) : openZip f ⟨⟨looping.bytes, 0, false, false⟩, 0, 0, false⟩ = none := by
  have h : getSize ⟨⟨looping.bytes, 0, false, false⟩, 0, 0, false⟩ = (31, ⟨⟨looping.bytes, 0, false, false⟩, 0, 0, false⟩) := by
    decide +kernel
  have h2 : readEntry ⟨⟨looping.bytes, 0, false, false⟩, 0, 0, false⟩ [] =
      .ok (⟨⟨looping.bytes, 0, false, false⟩, 0, 0, false⟩, []) := by decide +kernel
  have ht : tell ⟨⟨looping.bytes, 0, false, false⟩, 0, 0, false⟩ < 31 := by decide +kernel
  unfold openZip
  rw [h]
  simp only
  induction f with
  | zero => unfold readLoop; rw [if_pos ht]
  | succ f ih => rw [readLoop_succ, if_pos ht, h2]; exact ih

end PreCore.Zip
