import Verif.Model.EnumReg
import Verif.Props.ReflectorText
/-!
# C45: the registered enum table mirrors the declaration
-/
namespace PreCore.Refl
open CNum Spec Supercore

/-! ## Specification: C++ enumerator lists -/

/-- Integer suffix characters: `u U l L`. -/
def IsSuffix (s : Text) : Prop := ∀ c ∈ s, c = 0x75#8 ∨ c = 0x55#8 ∨ c = 0x6c#8 ∨ c = 0x4c#8

/-- An initialiser as C++ reads it: decimal (no leading 0 unless it is the digit 0), a negated decimal, or hexadecimal. -/
inductive Init : Text → Int → Prop
  | dec {cs ds suf} : DigitChars 10 cs ds → ds ≠ [] → (ds.head? = some 0 → ds = [0]) → IsSuffix suf → positional 10 ds < 2 ^ 64 →
      Init (cs ++ suf) (positional 10 ds)
  | neg {cs ds suf} : DigitChars 10 cs ds → ds ≠ [] → (ds.head? = some 0 → ds = [0]) → IsSuffix suf → positional 10 ds ≤ 2 ^ 63 →
      Init (0x2d#8 :: cs ++ suf) (- (positional 10 ds : Int))
  | hex {cs ds suf} : DigitChars 16 cs ds → ds ≠ [] → IsSuffix suf → positional 16 ds < 2 ^ 64 →
      Init (hexMark ++ cs ++ suf) (positional 16 ds)

/-- One enumerator: its name and, when it has one, the initialiser with its value. -/
structure Decl where
  name : Text
  init : Option (Text × Int)

/-- A well-formed enumerator: the name is an identifier-like text, the initialiser is a literal. -/
def Decl.WF (d : Decl) : Prop := (∀ c ∈ d.name, c ≠ 0x3d#8 ∧ c ≠ 0x20#8 ∧ c ≠ 0#8) ∧ ∀ s v, d.init = some (s, v) → Init s v

/-- How the declaration is spelled: `name`, or `name`, blanks, `=`, blanks, initialiser. -/
inductive Spelled : Decl → Text → Prop
  | bare {n} : Spelled ⟨n, none⟩ n
  | init {n s v sp1 sp2} : (∀ c ∈ sp1, c = 0x20#8) → (∀ c ∈ sp2, c = 0x20#8 ∨ c = 0x09#8) → Spelled ⟨n, some (s, v)⟩ (n ++ sp1 ++ 0x3d#8 :: sp2 ++ s)

/-- The values C++ gives to the enumerators: the initialiser, or one more than the previous one, starting at 0. -/
def cxxValues : Int → List Decl → List Int
  | _, [] => []
  | next, d :: ds => let v := match d.init with
    | none => next
    | some (_, v) => v
    v :: cxxValues (v + 1) ds

/-! ## Proof -/

theorem name_split {n rest : Text} (hn : ∀ c ∈ n, c ≠ 0x3d#8 ∧ c ≠ 0x20#8 ∧ c ≠ 0#8)
    (hr : ∀ c, rest.head? = some c → c = 0x3d#8 ∨ c = 0x20#8) :
    enumItemName (n ++ rest) = n ∧ enumItemRest (n ++ rest) = rest := by
  unfold enumItemName enumItemRest
  induction n with
  | nil =>
    cases rest with
    | nil => exact ⟨rfl, rfl⟩
    | cons c cs =>
      have : endsName c = true := by rcases hr c rfl with rfl | rfl <;> decide
      simp [this]
  | cons c cs ih =>
    obtain ⟨h1, h2, h3⟩ := hn c (by simp)
    have : endsName c = false := by simp [endsName, h1, h2, h3]
    obtain ⟨i1, i2⟩ := ih (fun c hc => hn c (by simp [hc]))
    simp [this, i1, i2]

theorem toAssign_spec {sp rest : Text} (h : ∀ c ∈ sp, c = 0x20#8) : toAssign (sp ++ 0x3d#8 :: rest) = 0x3d#8 :: rest := by
  induction sp with
  | nil => simp [toAssign]
  | cons c cs ih =>
    have : c = 0x20#8 := h c (by simp)
    subst this
    simp only [List.cons_append, toAssign]
    rw [if_pos (by decide)]
    exact ih (fun c hc => h c (by simp [hc]))

theorem suffix_stops {suf : Text} (h : IsSuffix suf) : Stops 10 suf ∧ Stops 16 suf := by
  constructor
  all_goals
    intro c hc d hd
    cases suf with
    | nil => cases hc
    | cons x xs =>
      simp only [List.head?_cons, Option.some.injEq] at hc
      subst hc
      rcases h x (by simp) with rfl | rfl | rfl | rfl <;> (unfold IsDigit at hd; simp at hd; omega)

theorem digit_head_x {cs ds suf : List _} (h : DigitChars 10 cs ds) (hn : ds ≠ []) (hz : ds.head? = some 0 → ds = [0]) (hs : IsSuffix suf) :
    (cs ++ suf).take 2 ≠ [0x30#8, 0x78#8] := by
  cases h with
  | nil => exact absurd rfl hn
  | cons h1 h2 =>
    rename_i c d cs ds
    intro ht
    cases h2 with
    | nil =>
      cases suf with
      | nil => simp at ht
      | cons x xs =>
        simp only [List.cons_append, List.nil_append, List.take_succ_cons, List.cons.injEq] at ht
        have hx := ht.2.1
        rcases hs x (by simp) with h | h | h | h <;> rw [h] at hx <;> revert hx <;> decide
    | cons h3 h4 =>
      simp only [List.cons_append, List.take_succ_cons, List.cons.injEq] at ht
      rw [ht.2.1] at h3
      unfold IsDigit at h3; simp at h3; omega

theorem suffix_append_head {cs ds suf} (h : DigitChars 10 cs ds) (hn : ds ≠ []) :
    ∀ c, (cs ++ suf).head? = some c → ∃ d, IsDigit 10 c d := by
  cases h with
  | nil => exact absurd rfl hn
  | cons h1 h2 =>
    intro c hc
    simp only [List.cons_append, List.head?_cons, Option.some.injEq] at hc
    subst hc; exact ⟨_, h1⟩

theorem skipSpace_head {t : List Byte} (h : ∀ c, t.head? = some c → ¬ White c) : skipSpace t = t := by
  cases t with
  | nil => rfl
  | cons c cs =>
    simp only [skipSpace]
    rw [if_neg]
    rw [isSpace_iff]
    exact h c rfl

theorem digits_parse {cs ds suf} (h : DigitChars 10 cs ds) (hn : ds ≠ []) (hs : IsSuffix suf) :
    parse 10 (cs ++ suf) = some (false, positional 10 ds) ∧ parse 10 (0x2d#8 :: cs ++ suf) = some (true, positional 10 ds) := by
  have hd := digits_append 10 (by omega) h (suffix_stops hs).1
  have hh := suffix_append_head (suf := suf) h hn
  obtain ⟨d, ds', rfl⟩ : ∃ d ds', ds = d :: ds' := by
    cases ds with
    | nil => exact absurd rfl hn
    | cons d ds' => exact ⟨d, ds', rfl⟩
  constructor
  · unfold parse
    rw [skipSpace_head (fun c hc => by obtain ⟨d, hd⟩ := hh c hc; exact digit_not_white hd)]
    have hsg := sign_spec Sign.none (cs ++ suf) (fun _ c hc => by obtain ⟨d, hd⟩ := hh c hc; exact digit_not_sign hd)
    rw [List.nil_append] at hsg
    rw [hsg]
    simp only [hexPrefix_dec, hd, value_zero]
  · unfold parse
    rw [skipSpace_head (by
      intro c hc
      simp only [List.cons_append, List.head?_cons, Option.some.injEq] at hc
      subst hc; simp [White])]
    have hsg := sign_spec Sign.minus (cs ++ suf) (by simp)
    simp only [List.cons_append, List.nil_append] at hsg ⊢
    rw [hsg]
    simp only [hexPrefix_dec, hd, value_zero]

theorem hex_parse {cs ds suf} (h : DigitChars 16 cs ds) (hn : ds ≠ []) (hs : IsSuffix suf) :
    parse 16 (hexMark ++ cs ++ suf) = some (false, positional 16 ds) := by
  have hd := parse_hex_digits h hn (suffix_stops hs).2
  obtain ⟨d, ds', rfl⟩ : ∃ d ds', ds = d :: ds' := by
    cases ds with
    | nil => exact absurd rfl hn
    | cons d ds' => exact ⟨d, ds', rfl⟩
  unfold parse
  have hh : ∀ c, (hexMark ++ cs ++ suf).head? = some c → c = 0x30#8 := by
    intro c hc; simp [hexMark] at hc; exact hc.symm
  rw [skipSpace_head (fun c hc => by rw [hh c hc]; simp [White])]
  have hsg := sign_spec Sign.none (hexMark ++ cs ++ suf) (fun _ c hc => by rw [hh c hc]; decide)
  rw [List.nil_append] at hsg
  rw [hsg]
  simp only [hd, value_zero]

/-- What the registration computes for a literal. -/
theorem init_value {s v} (h : Init s v) :
    s ≠ [] ∧ (∀ c, s.head? = some c → ¬ IsBlank false c) ∧
    BitVec.ofNat 64 (strtoull (if s.take 2 = [0x30#8, 0x78#8] then 16 else 10) s) = BitVec.ofInt 64 v := by
  have blank_digit : ∀ c d, IsDigit 10 c d → ¬ IsBlank false c := fun c d h => digit_not_blank h
  cases h with
  | dec h1 h2 h3 h4 h5 =>
    rename_i cs ds suf
    refine ⟨?_, ?_, ?_⟩
    · intro h0
      cases h1 with
      | nil => exact h2 rfl
      | cons _ _ => simp at h0
    · intro c hc
      obtain ⟨d, hd⟩ := suffix_append_head (suf := suf) h1 h2 c hc
      exact digit_not_blank hd
    · rw [if_neg (digit_head_x h1 h2 h3 h4)]
      unfold strtoull stoull
      rw [(digits_parse h1 h2 h4).1]
      simp only
      rw [if_neg (by omega)]
      simp
  | neg h1 h2 h3 h4 h5 =>
    rename_i cs ds suf
    refine ⟨by simp, ?_, ?_⟩
    · intro c hc
      simp only [List.cons_append, List.head?_cons, Option.some.injEq] at hc
      subst hc; simp [IsBlank]
    · have ht : (0x2d#8 :: cs ++ suf).take 2 ≠ [0x30#8, 0x78#8] := by
        intro h; simp at h
      rw [if_neg ht]
      unfold strtoull stoull
      rw [(digits_parse h1 h2 h4).2]
      simp only
      rw [if_neg (by omega)]
      simp only [if_true]
      generalize positional 10 ds = m at *
      apply BitVec.eq_of_toNat_eq
      rw [BitVec.toNat_ofNat, BitVec.toNat_ofInt]
      omega
  | hex h1 h2 h3 h4 =>
    rename_i cs ds suf
    refine ⟨by simp [hexMark], ?_, ?_⟩
    · intro c hc
      simp [hexMark] at hc
      subst hc; simp [IsBlank]
    · rw [if_pos (by simp [hexMark])]
      unfold strtoull stoull
      rw [hex_parse h1 h2 h3]
      simp only
      rw [if_neg (by omega)]
      simp

theorem step_spec {d : Decl} {t : Text} (hw : d.WF) (hs : Spelled d t) (next : Int) :
    enumItemName t = d.name ∧
    enumStep (BitVec.ofInt 64 next) t =
      let v := match d.init with
        | none => next
        | some (_, v) => v
      some (BitVec.ofInt 64 v, BitVec.ofInt 64 (v + 1)) := by
  obtain ⟨hn, hi⟩ := hw
  cases hs with
  | bare =>
    obtain ⟨e1, e2⟩ := name_split (rest := []) hn (by simp)
    rw [List.append_nil] at e1 e2
    refine ⟨e1, ?_⟩
    unfold enumStep
    simp only [e2, toAssign, true_or, if_true, BitVec.ofInt_add]
    rfl
  | init h1 h2 =>
    rename_i n s v sp1 sp2
    obtain ⟨g1, g2, g3⟩ := init_value (hi s v rfl)
    obtain ⟨e1, e2⟩ := name_split (n := n) (rest := sp1 ++ 0x3d#8 :: (sp2 ++ s)) hn (by
      intro c hc
      cases sp1 with
      | nil => left; simpa using hc.symm
      | cons x xs => right; simp at hc; rw [← hc]; exact h1 x (by simp))
    have e : n ++ sp1 ++ 0x3d#8 :: sp2 ++ s = n ++ (sp1 ++ 0x3d#8 :: (sp2 ++ s)) := by simp
    rw [e]
    refine ⟨e1, ?_⟩
    unfold enumStep
    simp only [e2, toAssign_spec h1]
    have hlen : 0 < s.length := List.length_pos_iff.2 g1
    rw [if_neg (by simp; omega)]
    have hsk : (skipStart false ((0x3d#8 :: (sp2 ++ s)).drop 1)).1 = s := by
      apply indented_skip
      refine ⟨sp2, rfl, ?_, g2⟩
      intro c hc
      rcases h2 c hc with h | h
      · exact Or.inl h
      · exact Or.inr (Or.inl h)
    rw [hsk]
    have hsub : StringView.substr s 0 2 = some (s.take 2) := by
      unfold StringView.substr
      simp only [hlen, if_true, Nat.not_lt_zero, gt_iff_lt, if_false, List.drop_zero, Nat.sub_zero, Option.some.injEq]
      split
      · rw [List.take_of_length_le (by omega), List.take_of_length_le (by omega)]
      · rfl
    rw [hsub]
    simp only
    have hcmp : (StringView.compare (s.take 2) [0x30#8, 0x78#8] = 0) ↔ s.take 2 = [0x30#8, 0x78#8] :=
      (StringView.compare_spec _ _).1
    simp only [hcmp]
    have hg : BitVec.ofNat 64 (strtoull (if s.take 2 = [0x30#8, 0x78#8] then 16 else 10) s) = BitVec.ofInt 64 v := g3
    rw [hg, BitVec.ofInt_add]
    rfl

theorem init_spec : ∀ (ds : List Decl) (ts : List Text) (next : Int), ts.length = ds.length →
    (∀ (i : Nat) d t, ds[i]? = some d → ts[i]? = some t → d.WF ∧ Spelled d t) →
    enumInit (BitVec.ofInt 64 next) ts = some ((cxxValues next ds).map (BitVec.ofInt 64)) ∧ ts.map enumItemName = ds.map (·.name) := by
  intro ds
  induction ds with
  | nil =>
    intro ts next hl _
    rw [List.eq_nil_of_length_eq_zero hl]
    exact ⟨rfl, rfl⟩
  | cons d ds ih =>
    intro ts next hl h
    cases ts with
    | nil => simp at hl
    | cons t ts =>
      obtain ⟨hw, hs⟩ := h 0 d t rfl rfl
      obtain ⟨e1, e2⟩ := step_spec hw hs next
      have hrec := fun nx => ih ts nx (by simpa using hl) (fun i d t h1 h2 => h (i + 1) d t (by simpa using h1) (by simpa using h2))
      refine ⟨?_, ?_⟩
      · simp only [enumInit, e2]
        rw [(hrec _).1]
        rfl
      · simp only [List.map_cons, e1, (hrec 0).2]

/-- C45: for every list of enumerators with decimal, negative or hexadecimal literal initialisers (or none), the
registered table holds the declared names, in order, with the 64-bit images of the values C++ assigns.
Missing for the full statement: other constant expressions, see `enum_init_violated`. -/
theorem enum_registration_partial (ds : List Decl) (ts : List Text) (hl : ts.length = ds.length)
    (h : ∀ (i : Nat) d t, ds[i]? = some d → ts[i]? = some t → d.WF ∧ Spelled d t) :
    enumTable ts = some ((ds.map (·.name)).zip ((cxxValues 0 ds).map (BitVec.ofInt 64))) := by
  obtain ⟨h1, h2⟩ := init_spec ds ts 0 hl h
  unfold enumTable
  rw [show (0#64) = BitVec.ofInt 64 0 by rfl, h1, Option.map_some, h2]

def str (s : String) : Text := s.toList.map (fun c => BitVec.ofNat 8 c.toNat)

/-- C45 is violated for initialisers that are not plain literals: a reference to another enumerator, a shift, an octal,
a negative hexadecimal and a binary literal get values different from C++'s (5, 8, 8, -5, 5). -/
theorem enum_init_violated :
    enumTable [str "A = 5", str "B = A"] = some [(str "A", 5), (str "B", 0)] ∧
    enumTable [str "A = 1 << 3"] = some [(str "A", 1)] ∧
    enumTable [str "A = 010"] = some [(str "A", 10)] ∧
    enumTable [str "A = -0x5"] = some [(str "A", 0)] ∧
    enumTable [str "A = 0b101"] = some [(str "A", 0)] := by decide +kernel

/-- Non-vacuity: `A, B = 0x10, C, D = -2, E, F, G`. -/
example : enumTable [str "A", str "B = 0x10", str "C", str "D=-2", str "E", str "F", str "G = 7u"] =
    some [(str "A", 0), (str "B", 16), (str "C", 17), (str "D", -2), (str "E", -1), (str "F", 0), (str "G", 7)] := by decide +kernel

example : Init (str "0x10") 16 ∧ Init (str "-2") (-2) ∧ Init (str "7u") 7 ∧
    Spelled ⟨str "B", some (str "0x10", 16)⟩ (str "B = 0x10") := by
  refine ⟨?_, ?_, ?_, ?_⟩
  · exact Init.hex (cs := str "10") (ds := [1, 0]) (suf := [])
      (.cons (by unfold IsDigit; decide) (.cons (by unfold IsDigit; decide) .nil)) (by simp) (by simp [IsSuffix]) (by decide)
  · exact Init.neg (cs := str "2") (ds := [2]) (suf := []) (.cons (by unfold IsDigit; decide) .nil) (by simp) (by simp) (by simp [IsSuffix]) (by decide)
  · exact Init.dec (cs := str "7") (ds := [7]) (suf := str "u") (.cons (by unfold IsDigit; decide) .nil) (by simp) (by simp) (by simp [IsSuffix, str]) (by decide)
  · exact Spelled.init (n := str "B") (sp1 := [0x20#8]) (sp2 := [0x20#8]) (by simp) (by simp)

end PreCore.Refl
