import Verif.Model.XmlError
import Verif.Props.VectorTextFloat
/-! # C163: the messages of XML exceptions -/
namespace PreCore.XmlError
open PreCore.CNum PreCore.Spec

/-! ## Specification -/

/-- The name stands at the position `pos` of the document. -/
def At (doc name : List Byte) (pos : Nat) : Prop := ∃ rest, doc.drop pos = name ++ rest ∧ pos + name.length ≤ doc.length

/-- An XML name: not empty, no blanks. -/
def IsName (name : List Byte) : Prop := name ≠ [] ∧ 0x20#8 ∉ name

/-- The message says where: `XML node <name> at offset <number>: <text>`. -/
def Says (msg name : List Byte) (offset : Nat) (text : List Byte) : Prop :=
  ∃ cs ds, DigitChars 10 cs ds ∧ positional 10 ds = offset ∧
    msg = lit "XML node " ++ name ++ lit " at offset " ++ cs ++ lit ": " ++ text

/-! ## Proofs -/

theorem sep_split {s : Byte} {a b a' b' : List Byte} (ha : s ∉ a) (ha' : s ∉ a') (h : a ++ s :: b = a' ++ s :: b') : a = a' ∧ b = b' := by
  induction a generalizing a' with
  | nil =>
    cases a' with
    | nil => simpa using h
    | cons c a' => simp only [List.nil_append, List.cons_append, List.cons.injEq] at h; exact absurd (by simp [h.1]) ha'
  | cons c a ih =>
    cases a' with
    | nil => simp only [List.nil_append, List.cons_append, List.cons.injEq] at h; exact absurd (by simp [h.1]) ha
    | cons c' a' =>
      simp only [List.cons_append, List.cons.injEq] at h
      obtain ⟨h1, h2⟩ := ih (fun x => ha (by simp [x])) (fun x => ha' (by simp [x])) h.2
      exact ⟨by rw [h.1, h1], h2⟩

theorem offset_value {pos first : Nat} (h1 : first ≤ pos) (h2 : pos < 2 ^ 63) :
    (BitVec.ofNat 64 pos - BitVec.ofNat 64 first + 25#64).toNat = pos - first + 25 := by
  have := BitVec.isLt (BitVec.ofNat 64 pos - BitVec.ofNat 64 first + 25#64)
  simp only [BitVec.toNat_add, BitVec.toNat_sub, BitVec.toNat_ofNat]
  omega

theorem generate_says (text name : List Byte) {pos first : Nat} (h1 : first ≤ pos) (h2 : pos < 2 ^ 63) :
    Says (baseException text name pos first) name (pos - first + 25) text := by
  obtain ⟨ds, d1, -, d2⟩ := Refl.showNat_digits (pos - first + 25)
  refine ⟨showNat (pos - first + 25), ds, d1, d2, ?_⟩
  unfold baseException generate
  rw [offset_value h1 h2]

/-- C163: the messages name the node, say what is missing, and give the distance of the node's name from the first name plus 25. -/
theorem messages_say (name what : List Byte) {pos first : Nat} (h1 : first ≤ pos) (h2 : pos < 2 ^ 63) :
    Says (missingNode what name pos first) name (pos - first + 25) (lit "Missing child " ++ what) ∧
    Says (missingAttribute what name pos first) name (pos - first + 25) (lit "Missing attribute " ++ what) ∧
    Says (emptyData name pos first) name (pos - first + 25) (lit "Missing data") :=
  ⟨generate_says _ _ h1 h2, generate_says _ _ h1 h2, generate_says _ _ h1 h2⟩

/-- C163: the number is the position of the name in the document exactly if the first name begins at position 25. -/
theorem offset_right_iff (text name : List Byte) {pos first : Nat} (h1 : first ≤ pos) (h2 : pos < 2 ^ 63) :
    Says (baseException text name pos first) name pos text ↔ first = 25 := by
  constructor
  · rintro ⟨cs, ds, d1, d2, h⟩
    obtain ⟨cs', ds', d1', d2', h'⟩ := generate_says text name h1 h2
    rw [h'] at h
    simp only [List.append_assoc] at h
    have h := List.append_cancel_left (List.append_cancel_left (List.append_cancel_left h))
    have hc := (VectorText.digits_range d1)
    have hc' := (VectorText.digits_range d1')
    have e : (lit ": " : List Byte) = [0x3a#8, 0x20#8] := by decide +kernel
    rw [e] at h
    obtain ⟨g, -⟩ := sep_split (s := 0x3a#8) (fun hm => by have := hc' _ hm; simp at this) (fun hm => by have := hc _ hm; simp at this) h
    rw [g] at d1'
    have := VectorText.digits_det d1 d1'
    rw [← this, d2] at d2'
    omega
  · rintro rfl
    have := generate_says text name h1 h2
    rwa [show pos - 25 + 25 = pos by omega] at this

/-- C163: in one document equal messages are about the same node: names, positions and texts are the same. -/
theorem message_identifies {text text' name name' : List Byte} {pos pos' first : Nat} (hn : IsName name) (hn' : IsName name')
    (h1 : first ≤ pos) (h2 : pos < 2 ^ 63) (h1' : first ≤ pos') (h2' : pos' < 2 ^ 63)
    (h : baseException text name pos first = baseException text' name' pos' first) : name = name' ∧ pos = pos' ∧ text = text' := by
  obtain ⟨cs, ds, d1, d2, e⟩ := generate_says text name h1 h2
  obtain ⟨cs', ds', d1', d2', e'⟩ := generate_says text' name' h1' h2'
  rw [e, e'] at h
  simp only [List.append_assoc] at h
  have h := List.append_cancel_left h
  have o : (lit " at offset " : List Byte) = 0x20#8 :: (lit "at offset ") := by decide +kernel
  have c : (lit ": " : List Byte) = [0x3a#8, 0x20#8] := by decide +kernel
  rw [o, c] at h
  obtain ⟨g1, g2⟩ := sep_split (s := 0x20#8) hn.2 hn'.2 h
  have g2 := List.append_cancel_left g2
  have hc := (VectorText.digits_range d1)
  have hc' := (VectorText.digits_range d1')
  obtain ⟨g3, g4⟩ := sep_split (s := 0x3a#8) (fun hm => by have := hc _ hm; simp at this) (fun hm => by have := hc' _ hm; simp at this) g2
  rw [g3] at d1
  have := VectorText.digits_det d1 d1'
  rw [this, d2'] at d2
  exact ⟨g1, by omega, by simpa using g4⟩

/-- A document with the usual header. -/
def exDoc : List Byte := lit "<?xml version=\"1.0\"?>\n<root><a/></root>"

/-- C163 is violated for documents with the usual header: the name of the root is at 23 and that of its child at 29, but the message about the child
says 31; without a header, `<root><a/></root>`, a name at 7 is said to be at 31. -/
theorem offset_violated :
    At exDoc (lit "root") 23 ∧ At exDoc (lit "a") 29 ∧ Says (emptyData (lit "a") 29 23) (lit "a") 31 (lit "Missing data") ∧
    ¬ Says (emptyData (lit "a") 29 23) (lit "a") 29 (lit "Missing data") ∧
    At (lit "<root><a/></root>") (lit "a") 7 ∧ ¬ Says (emptyData (lit "a") 7 1) (lit "a") 7 (lit "Missing data") := by
  refine ⟨⟨exDoc.drop 27, by decide +kernel, by decide +kernel⟩, ⟨exDoc.drop 30, by decide +kernel, by decide +kernel⟩,
    generate_says _ _ (by decide) (by decide), ?_, ⟨lit "/></root>", by decide +kernel, by decide +kernel⟩, ?_⟩
  · intro h
    exact absurd ((offset_right_iff (lit "Missing data") (lit "a") (by decide) (by decide)).1 h) (by decide)
  · intro h
    exact absurd ((offset_right_iff (lit "Missing data") (lit "a") (by decide) (by decide)).1 h) (by decide)

/-- Names, and a message. -/
example : IsName (lit "root") ∧ ¬ IsName (lit "a b") ∧
    missingAttribute (lit "id") (lit "a") 29 23 = lit "XML node a at offset 31: Missing attribute id" := by
  refine ⟨⟨by decide +kernel, by decide +kernel⟩, fun h => h.2 (by decide +kernel), by decide +kernel⟩

end PreCore.XmlError
