import Verif.Model.Pugiex
/-!
# C82, C83: XML helpers and reflected enums in Python

Specification: the constants of pugixml's documentation (`pugixml.hpp`), and Python's rules for sequences and attributes.
-/
namespace PreCore.Pugiex
open PreCore.Refl PreCore.ReflXml

/-! ## C82 -/

/-- pugixml's parsing options: `parse_pi`, `parse_comments`, `parse_cdata`, `parse_ws_pcdata`, `parse_escapes`, `parse_eol`,
`parse_wconv_attribute`, `parse_wnorm_attribute`, `parse_declaration`, `parse_doctype`, `parse_ws_pcdata_single`,
`parse_trim_pcdata`, `parse_fragment`, `parse_embed_pcdata`. -/
def pugiParse : ParseFlag → BitVec 32
  | .PI => 0x0001 | .Comments => 0x0002 | .CDATA => 0x0004 | .WhiteSpacePCDATA => 0x0008 | .Escapes => 0x0010 | .EOL => 0x0020
  | .WConvAttribute => 0x0040 | .WNormAttribute => 0x0080 | .Declaration => 0x0100 | .DocType => 0x0200
  | .WhiteSpavePCDATASingle => 0x0400 | .TrimPCDATA => 0x0800 | .Fragment => 0x1000 | .EmbedPCDATA => 0x2000

/-- pugixml's formatting options: `format_indent`, `format_write_bom`, `format_raw`, `format_no_declaration`, `format_no_escapes`,
`format_save_file_text`, `format_indent_attributes`, `format_no_empty_element_tags`, `format_skip_control_chars`. -/
def pugiFormat : FormatFlag → BitVec 32
  | .Indent => 0x01 | .WriteBOM => 0x02 | .Raw => 0x04 | .NoDeclaration => 0x08 | .NoEscapes => 0x10 | .SaveFileText => 0x20
  | .IndentAttributes => 0x40 | .NoEmptyElementTaggs => 0x80 | .SkipControlChars => 0x100

theorem unpack_or {α : Type} (ix : α → Nat) (c : α → BitVec 32) (h : ∀ a, Flags.makeMask 32 (ix a) = c a) (l : List α) (v : BitVec 32) :
    Flags.unpack v (l.map ix) = l.foldl (fun acc a => acc ||| c a) v := by
  induction l generalizing v with
  | nil => rfl
  | cons a l ih => simp only [List.map_cons, Flags.unpack, List.foldl_cons, h, ih]

/-- C82: any set of options, given in any order, is handed to pugixml as the union of its constants. -/
theorem parse_options (l : List ParseFlag) : parseOptions l = l.foldl (fun acc f => acc ||| pugiParse f) 0#32 :=
  unpack_or _ _ (by intro a; cases a <;> decide) l 0#32
theorem format_options (l : List FormatFlag) : formatOptions l = l.foldl (fun acc f => acc ||| pugiFormat f) 0#32 :=
  unpack_or _ _ (by intro a; cases a <;> decide) l 0#32

/-- The defaults are pugixml's `parse_default` and `format_default`. -/
theorem defaults : defaultParse = 0x74#32 ∧ defaultFormat = 1#32 := by decide

/-- An option is on in the options handed over iff it is in the set. -/
theorem parse_option_on (l : List ParseFlag) (f : ParseFlag) : (parseOptions l &&& pugiParse f ≠ 0#32) ↔ f ∈ l := by
  have key : ∀ (l : List ParseFlag) (v : BitVec 32), (l.foldl (fun acc f => acc ||| pugiParse f) v).getLsbD f.index = (v.getLsbD f.index || decide (f ∈ l)) := by
    intro l
    induction l with
    | nil => intro v; simp
    | cons g l ih =>
      intro v
      have hg : (pugiParse g).getLsbD f.index = decide (f = g) := by cases f <;> cases g <;> decide
      simp only [List.foldl_cons]
      rw [ih, BitVec.getLsbD_or, hg]
      simp only [List.mem_cons, Bool.decide_or, Bool.or_assoc]
  have hk := key l 0#32
  rw [← parse_options] at hk
  simp only [BitVec.getLsbD_zero, Bool.false_or] at hk
  have hmask : ∀ (v : BitVec 32), (v &&& pugiParse f ≠ 0#32) ↔ v.getLsbD f.index = true := by
    intro v
    have hone : ∀ i, (pugiParse f).getLsbD i = decide (i = f.index) := by
      intro i
      have e : pugiParse f = 1#32 <<< f.index := by cases f <;> decide
      rw [e, BitVec.getLsbD_shiftLeft]
      have hlt : f.index < 32 := by cases f <;> decide
      by_cases h : i = f.index
      · subst h; simp [hlt]
      · by_cases h2 : i < f.index
        · simp [h, h2]
        · rw [BitVec.getLsbD_one]
          have h0 : i - f.index ≠ 0 := by omega
          simp [h, h0]
    constructor
    · intro hne
      cases hv : v.getLsbD f.index with
      | true => rfl
      | false =>
        exfalso; apply hne
        apply BitVec.eq_of_getLsbD_eq
        intro i hi
        rw [BitVec.getLsbD_and, hone, BitVec.getLsbD_zero]
        by_cases h : i = f.index
        · rw [h, hv]; rfl
        · simp [h]
    · intro hv hz
      have := congrArg (fun b => b.getLsbD f.index) hz
      simp only [BitVec.getLsbD_and, hone, hv, BitVec.getLsbD_zero] at this
      simp at this
  rw [hmask, hk, decide_eq_true_iff]

example : parseOptions [.Fragment, .CDATA] = 0x1004#32 := by decide

/-- pugixml's `xml_parse_status` by value. -/
def pugiStatus : List String :=
  ["status_ok", "status_file_not_found", "status_io_error", "status_out_of_memory", "status_internal_error", "status_unrecognized_tag",
   "status_bad_pi", "status_bad_comment", "status_bad_cdata", "status_bad_doctype", "status_bad_pcdata", "status_bad_start_element",
   "status_bad_attribute", "status_bad_end_element", "status_end_element_mismatch", "status_append_invalid_root",
   "status_no_document_element"]

/-- C82: loading returns a document exactly when pugixml succeeded, and every other outcome of pugixml is reported: a missing file and a
document without elements by errors of their own, the others by name. -/
theorem from_file (status : Nat) (h : status < pugiStatus.length) :
    (fromFile status = .document ↔ pugiStatus[status]? = some "status_ok") ∧
    (fromFile status = .fileNotFound ↔ pugiStatus[status]? = some "status_file_not_found") ∧
    (fromFile status = .invalidHeader ↔ pugiStatus[status]? = some "status_no_document_element") ∧
    (∀ n, fromFile status = .error n → pugiStatus[status]? = some n) ∧ fromFile status ≠ .ub := by
  have h17 : status < 17 := h
  have : ∀ s : Fin 17, (fromFile s.val = .document ↔ pugiStatus[s.val]? = some "status_ok") ∧
    (fromFile s.val = .fileNotFound ↔ pugiStatus[s.val]? = some "status_file_not_found") ∧
    (fromFile s.val = .invalidHeader ↔ pugiStatus[s.val]? = some "status_no_document_element") ∧
    (fromFile s.val = .document ∨ fromFile s.val = .fileNotFound ∨ fromFile s.val = .invalidHeader ∨ fromFile s.val = .error (pugiStatus.getD s.val "")) := by
    decide
  obtain ⟨h1, h2, h3, h4⟩ := this ⟨status, h17⟩
  simp only at h1 h2 h3 h4
  have hg : pugiStatus[status]? = some (pugiStatus.getD status "") := by
    rw [List.getD_eq_getElem?_getD, List.getElem?_eq_getElem h]; rfl
  refine ⟨h1, h2, h3, ?_, ?_⟩
  · intro n hn
    rw [hn] at h4
    simp only [reduceCtorEq, false_or, FromFile.error.injEq] at h4
    rw [hg, h4]
  · intro hu
    rw [hu] at h4
    simp at h4

/-- C82: the children collected are the children of that name (all without one), in order. -/
theorem collect_children (node : Node) (name : Text) :
    collectChildren node name = node.kids.filter (fun k => decide (name = [] ∨ k.name = name)) := by
  unfold collectChildren
  have key : ∀ (l acc : List Node), l.foldl (fun acc k => if name = [] ∨ k.name = name then acc ++ [k] else acc) acc =
      acc ++ l.filter (fun k => decide (name = [] ∨ k.name = name)) := by
    intro l
    induction l with
    | nil => intro acc; simp
    | cons k l ih =>
      intro acc
      simp only [List.foldl_cons, ih]
      by_cases h : name = [] ∨ k.name = name
      · simp only [if_pos h, List.filter_cons, decide_eq_true h, if_true, List.append_assoc, List.singleton_append]
      · simp only [if_neg h, List.filter_cons, decide_eq_false h, Bool.false_eq_true, if_false]
  rw [key]; rfl

example : (collectChildren (.elem [] [] [.elem [1] [] [], .data [1], .elem [2] [] [], .elem [1] [] [.data []]]) [1]).length = 2 := by decide

/-! ## C83 -/

/-- C83: `enum[i]` is the name of item `i`, and `enum.name` the value of the item of that name, for every item. -/
theorem py_enum_access (t : EnumTab) (hnd : (t.map (·.1)).Nodup) (i : Nat) (hi : i < t.length) (h64 : i < 2 ^ 64) :
    pySubscript t (BitVec.ofNat 64 i) = .value t[i].1 ∧ pyAttribute t t[i].1 = .value t[i].2.toNat := by
  constructor
  · unfold pySubscript
    rw [BitVec.toNat_ofNat, Nat.mod_eq_of_lt h64, List.getElem?_eq_getElem hi]
  · unfold pyAttribute
    have : t.find? (fun e => e.1 == t[i].1) = some t[i] := by
      rw [List.find?_eq_some_iff_getElem]
      refine ⟨by simp, i, hi, rfl, ?_⟩
      intro j hj
      have hne : t[j].1 ≠ t[i].1 := by
        have := (List.nodup_iff_pairwise_ne.1 hnd)
        rw [List.pairwise_iff_getElem] at this
        have := this j i (by simp; omega) (by simpa using hi) hj
        simpa using this
      simpa using hne
    rw [this]

example : pyAttribute [([1#8], 5#64), ([2#8], 7#64)] [2#8] = .value 7 ∧ pySubscript [([1#8], 5#64), ([2#8], 7#64)] 1 = .value [2#8] := by decide

/-- An index out of range, for example a negative one, is an access outside of the names instead of an `IndexError`; an unknown name
gives null without an exception; a negative enumerator comes back as a large number. -/
theorem py_enum_violated : (∀ (t : EnumTab) (i : BitVec 64), t.length ≤ i.toNat → pySubscript t i = .ub) ∧
    (∀ (t : EnumTab) (n : Text), (∀ e ∈ t, e.1 ≠ n) → pyAttribute t n = .nullNoError) ∧
    pyAttribute [([1#8], -1#64)] [1#8] = .value (2 ^ 64 - 1) := by
  refine ⟨?_, ?_, by decide⟩
  · intro t i h
    unfold pySubscript
    rw [List.getElem?_eq_none h]
  · intro t n h
    unfold pyAttribute
    have : t.find? (fun e => e.1 == n) = none := by
      rw [List.find?_eq_none]
      intro e he; simpa using h e he
    rw [this]

end PreCore.Pugiex
