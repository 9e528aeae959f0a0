import Verif.Props.ReflXmlLeaf
/-!
# C61: lists, strings and bit-field members read back from their text; the round trip theorem
-/
namespace PreCore.ReflXml
open Refl ReflBin CNum Spec Supercore

/-! ## Lists -/

/-- Assigning item `i` to element `i` of the list at `b + offset`, in order. -/
def assignAt (env : Env) (r : RType) (b : Nat) : List Text → Nat → Obj → Obj
  | [], _, o => o
  | s :: ss, i, o => assignAt env r b ss (i + 1) (setMember env (elemType r) s (b + r.offset.toNat + r.subSize.toNat * i) o).2

theorem assignAt_moved (env : Env) (r : RType) (b : Nat) (o : Obj) : ∀ (items : List Text) (i : Nat) (p q : Obj), Moved b o p q →
    Moved b o (assignAt env r b items i p) (assignEach env r items i q) := by
  intro items
  induction items with
  | nil => intro i p q h; exact h
  | cons s ss ih =>
    intro i p q h
    unfold assignAt assignEach
    refine ih _ _ _ ?_
    unfold setValueSub setMember
    rw [Nat.add_assoc]
    exact (Moved.member env _ _ s _ p q h).2

theorem list_set (env : Env) (r : RType) (b : Nat) (items : List Text) (o : Obj) (hl : IsList r.type)
    (hitems : ∀ s ∈ items, Item s ∧ NonBlank s) (hne : items ≠ []) (hlen : items.length = r.numItems.toNat)
    (hT : ((brackets r.type).1 :: joinComma items ++ [(brackets r.type).2]).length < 2 ^ 64) :
    (setMember env r ((brackets r.type).1 :: joinComma items ++ [(brackets r.type).2]) (b + r.offset.toNat) o).2 =
      assignAt env r b items 0 o := by
  have hb : r.type ≠ .BitFieldMember := by rcases hl with h | h | h <;> rw [h] <;> simp
  have h1 := one_set env r b o ((brackets r.type).1 :: joinComma items ++ [(brackets r.type).2]) hb
  have h2 := list_assign_partial env (one r) r.valueNameHash r [] [] items (o.shift b)
    (by unfold typeOf; rw [one_lookup]; rfl) hl (by intro x hx; cases hx) (by intro x hx; cases hx) hitems hne hT
  simp only [List.nil_append] at h2
  rw [h2, ← hlen, List.take_length] at h1
  exact moved_unique h1 (assignAt_moved env r b o items 0 o _ (Moved.start b o))

theorem set_space (env : Env) (r : RType) (t : Text) (a : Nat) (o : Obj) : setMember env r (0x20#8 :: t) a o = setMember env r t a o := by
  unfold setMember
  rw [← member_skip env _ r (0x20#8 :: t)]
  have : (skipStart false (0x20#8 :: t)).1 = (skipStart false t).1 := by
    rw [skipStart, if_pos (by decide)]
  rw [this, member_skip]
  exact member_fuel env _ _ r t a o (by simp only [List.length_cons]; omega) (by simp)

theorem assignAt_restores (env : Env) (r : RType) (b : Nat) (o : Obj) (txt : Nat → Text) (S : Nat → Loc → Prop) (N : Nat)
    (h : ∀ i < N, Restores (fun o0 => some (setMember env (elemType r) (txt i) (b + r.offset.toNat + r.subSize.toNat * i) o0).2) o (S i)) :
    ∀ (items : List Text) (i : Nat), i + items.length ≤ N → (∀ j s, items[j]? = some s → s = txt (i + j) ∨ s = 0x20#8 :: txt (i + j)) →
      Restores (fun o0 => some (assignAt env r b items i o0)) o (fun l => ∃ j, i ≤ j ∧ j < i + items.length ∧ S j l) := by
  intro items
  induction items with
  | nil =>
    intro i _ _
    refine (Restores.nothing o).congr (fun l => ⟨False.elim, ?_⟩)
    rintro ⟨j, h1, h2, _⟩
    simp at h2
    omega
  | cons s ss ih =>
    intro i hi hit
    have hs : (fun o0 => some (setMember env (elemType r) s (b + r.offset.toNat + r.subSize.toNat * i) o0).2) =
        (fun o0 => some (setMember env (elemType r) (txt i) (b + r.offset.toNat + r.subSize.toNat * i) o0).2) := by
      funext o0
      rcases hit 0 s rfl with h | h
      · rw [h]; rfl
      · rw [h, set_space]; rfl
    simp only [List.length_cons] at hi ⊢
    have r1 := h i (by omega)
    rw [← hs] at r1
    have r2 := ih (i + 1) (by omega) (fun j s' hj => by
      have := hit (j + 1) s' (by simpa using hj)
      rwa [show i + (j + 1) = i + 1 + j by omega] at this)
    refine (r1.union r2).congr (fun l => ?_)
    constructor
    · rintro (h | ⟨j, h1, h2, h3⟩)
      · exact ⟨i, by omega, by omega, h⟩
      · exact ⟨j, by omega, by omega, h3⟩
    · rintro ⟨j, h1, h2, h3⟩
      by_cases hj : j = i
      · left; rw [← hj]; exact h3
      · right; exact ⟨j, by omega, by omega, h3⟩

theorem joinComma_chars (P : Byte → Prop) (hc : P 0x2c#8) : ∀ (items : List Text), (∀ s ∈ items, ∀ c ∈ s, P c) →
    ∀ c ∈ joinComma items, P c := by
  intro items
  induction items with
  | nil => intro _ c hc; cases hc
  | cons s ss ih =>
    intro h
    cases ss with
    | nil => simpa [joinComma] using h s (by simp)
    | cons a l =>
      intro c hc'
      rw [joinComma] at hc'
      · rcases List.mem_append.1 hc' with h1 | h1
        · exact h s (by simp) c h1
        · rcases List.mem_cons.1 h1 with rfl | h1
          · exact hc
          · exact ih (fun x hx => h x (by simp [hx])) c h1
      · simp

theorem spaced_mem (txt : Nat → Text) : ∀ k i, ∀ s ∈ spaced txt k i, ∃ j, i ≤ j ∧ j < i + k ∧ s = 0x20#8 :: txt j := by
  intro k
  induction k with
  | zero => intro i s hs; cases hs
  | succ k ih =>
    intro i s hs
    rcases List.mem_cons.1 hs with rfl | hs
    · exact ⟨i, by omega, by omega, rfl⟩
    · obtain ⟨j, h1, h2, h3⟩ := ih _ _ hs
      exact ⟨j, by omega, by omega, h3⟩

/-- The text of an element: an item, starting with a visible character, with characters in `P`. -/
structure ElemText (P : Byte → Prop) (m : Nat) (t : Text) : Prop where
  item : Item t
  spaced : Item (0x20#8 :: t)
  head : ∃ c, t.head? = some c ∧ 0x20 < c.toNat
  chars : ∀ c ∈ t, P c
  len : t.length ≤ m

theorem list_ok (env : Env) (o : Obj) (f : Nat) (r : RType) (b : Nat) (P : Byte → Prop) (m : Nat) (txt : Nat → Text) (S : Nat → Loc → Prop)
    (hl : IsList r.type) (hN : 0 < r.numItems.toNat) (hm : m < 2 ^ 40) (hP : P 0x20#8 ∧ P 0x2c#8)
    (h : ∀ i < r.numItems.toNat, print env f (elemType r) (b + r.offset.toNat + r.subSize.toNat * i) o = some (txt i) ∧ ElemText P m (txt i) ∧
      Restores (fun o0 => some (setMember env (elemType r) (txt i) (b + r.offset.toNat + r.subSize.toNat * i) o0).2) o (S i)) :
    ∃ body, print env (f + 1) r (b + r.offset.toNat) o = some ((brackets r.type).1 :: body ++ [(brackets r.type).2]) ∧
      (∀ c ∈ body, P c) ∧ body ≠ [] ∧ body.length ≤ r.numItems.toNat * (m + 2) ∧
      Restores (fun o0 => some (setMember env r ((brackets r.type).1 :: body ++ [(brackets r.type).2]) (b + r.offset.toNat) o0).2) o
        (fun l => ∃ i < r.numItems.toNat, S i l) := by
  obtain ⟨k, hk⟩ : ∃ k, r.numItems.toNat = k + 1 := ⟨r.numItems.toNat - 1, by omega⟩
  have hpi := printItems_join (fun i => print env f (elemType r) (b + r.offset.toNat + r.subSize.toNat * i) o) txt k 0
    (fun j _ hj => (h j (by omega)).1)
  have hget : ∀ j s, (txt 0 :: spaced txt k 1)[j]? = some s → s = txt (0 + j) ∨ s = 0x20#8 :: txt (0 + j) := by
    intro j s hs
    rw [Nat.zero_add]
    cases j with
    | zero => left; simpa using hs.symm
    | succ j =>
      right
      rw [List.getElem?_cons_succ] at hs
      have hj : j < k := by
        have := (List.getElem?_eq_some_iff.1 hs).1
        rwa [spaced_len] at this
      rw [spaced_get _ _ _ _ hj] at hs
      rw [← Option.some.inj hs, show 1 + j = j + 1 by omega]
  have hlen : (txt 0 :: spaced txt k 1).length = r.numItems.toNat := by simp [spaced_len, hk]
  have hmem : ∀ s ∈ txt 0 :: spaced txt k 1, ∃ j, j < r.numItems.toNat ∧ (s = txt j ∨ s = 0x20#8 :: txt j) := by
    intro s hs
    rcases List.mem_cons.1 hs with rfl | hs
    · exact ⟨0, by omega, .inl rfl⟩
    · obtain ⟨j, h1, h2, h3⟩ := spaced_mem _ _ _ _ hs
      exact ⟨j, by omega, .inr h3⟩
  have hvis : ∀ (t : Text), (∃ c, t.head? = some c ∧ 0x20 < c.toNat) → ∃ c ∈ t, ¬ IsBlank false c := by
    rintro t ⟨c, h1, h2⟩
    refine ⟨c, List.mem_of_mem_head? h1, ?_⟩
    rintro (rfl | rfl | ⟨h, _⟩)
    · simp at h2
    · simp at h2
    · cases h
  have hitems : ∀ s ∈ txt 0 :: spaced txt k 1, Item s ∧ NonBlank s := by
    intro s hs
    obtain ⟨j, hj, hjs⟩ := hmem s hs
    obtain ⟨_, he, _⟩ := h j hj
    obtain ⟨c, hc1, hc2⟩ := hvis _ he.head
    rcases hjs with rfl | rfl
    · exact ⟨he.item, c, hc1, hc2⟩
    · exact ⟨he.spaced, c, by simp [hc1], hc2⟩
  have hslen : ∀ s ∈ txt 0 :: spaced txt k 1, s.length ≤ m + 1 := by
    intro s hs
    obtain ⟨j, hj, hjs⟩ := hmem s hs
    have := (h j hj).2.1.len
    rcases hjs with rfl | rfl
    · omega
    · simp; exact this
  have hbl := joinComma_len _ _ hslen
  rw [hlen, show m + 1 + 1 = m + 2 from rfl] at hbl
  have hchars := joinComma_chars P hP.2 (txt 0 :: spaced txt k 1) (by
    intro s hs c hc
    obtain ⟨j, hj, hjs⟩ := hmem s hs
    rcases hjs with rfl | rfl
    · exact (h j hj).2.1.chars c hc
    · rcases List.mem_cons.1 hc with rfl | hc
      · exact hP.1
      · exact (h j hj).2.1.chars c hc)
  refine ⟨joinComma (txt 0 :: spaced txt k 1), ?_, hchars, joinComma_ne (fun x hx => (hitems x hx).1), hbl, ?_⟩
  · have hpa : ∀ op cl, printArray (fun i => print env f (elemType r) (b + r.offset.toNat + r.subSize.toNat * i) o) op cl r.numItems.toNat =
        some (op :: joinComma (txt 0 :: spaced txt k 1) ++ [cl]) := by
      intro op cl
      unfold printArray
      rw [hk, if_neg (by omega), hpi]
      simp only [Option.map_some, Option.some.injEq, tSep]
      generalize joinComma _ = J
      rw [show op :: (J ++ [0x2c#8, 0x20#8]) = ((op :: J) ++ [0x2c#8]) ++ [0x20#8] by simp, List.dropLast_concat, List.dropLast_concat]
    rw [print]
    rcases hl with h | h | h <;> simp only [h, brackets] <;> exact hpa _ _
  · have hsz : r.numItems.toNat * (m + 2) ≤ 2 ^ 16 * (2 ^ 40 + 2) :=
      Nat.mul_le_mul (by have := r.numItems.isLt; omega) (by omega)
    have hT : ((brackets r.type).1 :: joinComma (txt 0 :: spaced txt k 1) ++ [(brackets r.type).2]).length < 2 ^ 64 := by
      simp only [List.length_append, List.length_cons, List.length_nil]
      omega
    have hset : (fun o0 => some (setMember env r ((brackets r.type).1 :: joinComma (txt 0 :: spaced txt k 1) ++ [(brackets r.type).2])
        (b + r.offset.toNat) o0).2) = (fun o0 => some (assignAt env r b (txt 0 :: spaced txt k 1) 0 o0)) := by
      funext o0
      rw [list_set env r b _ o0 hl hitems (by simp) hlen hT]
    rw [hset]
    refine (assignAt_restores env r b o txt S r.numItems.toNat (fun i hi => (h i hi).2.2) _ 0 (by rw [hlen]; omega) hget).congr (fun l => ?_)
    rw [hlen]
    constructor
    · rintro ⟨j, _, h2, h3⟩; exact ⟨j, by omega, h3⟩
    · rintro ⟨j, h2, h3⟩; exact ⟨j, by omega, by omega, h3⟩

theorem print_scalar_fuel (env : Env) (f : Nat) (r : RType) (a : Nat) (o : Obj) (hs : IsScalar r.type) :
    print env (f + 1) r a o = printMember env r a o := by
  unfold printMember
  rw [print, print]
  cases h : r.type <;> (rw [h] at hs) <;> first | rfl | exact hs.elim

/-- The characters of `Clean` texts, and of lists of them. -/
def ListChar (c : Byte) : Prop := closes c = false ∧ c ≠ 0x3c#8 ∧ c ≠ 0x26#8 ∧ c ≠ 0x0d#8 ∧ c ≠ 0#8
/-- The characters of lists of lists. -/
def DocChar (c : Byte) : Prop := c ≠ 0x3c#8 ∧ c ≠ 0x26#8 ∧ c ≠ 0x0d#8 ∧ c ≠ 0#8

theorem clean_elem {t : Text} (h : Clean t) : ElemText ListChar (2 ^ 20) t := by
  have hne : t ≠ [] := by
    obtain ⟨_, ⟨c, h1, _⟩, _⟩ := h
    intro h; rw [h] at h1; cases h1
  refine ⟨.plain hne (fun c hc => ?_), .plain (by simp) (fun c hc => ?_), h.2.1, fun c hc => ?_, by have := h.2.2; omega⟩
  · obtain ⟨h1, h2, _⟩ := h.1 c hc; exact ⟨h1, h2⟩
  · rcases List.mem_cons.1 hc with rfl | hc
    · decide
    · obtain ⟨h1, h2, _⟩ := h.1 c hc; exact ⟨h1, h2⟩
  · obtain ⟨_, _, h3, h4, h5, h6, h7⟩ := h.1 c hc; exact ⟨h3, h4, h5, h6, h7⟩

theorem bracket_facts (t : RT) : IsOpen (brackets t).1 ∧ IsClose (brackets t).2 ∧ 0x20 < (brackets t).1.toNat ∧
    DocChar (brackets t).1 ∧ DocChar (brackets t).2 := by
  cases t <;> simp [brackets, IsOpen, IsClose, DocChar]

theorem list_elem (t : RT) {body : Text} (h : ∀ c ∈ body, ListChar c) (hl : body.length ≤ 2 ^ 38) :
    ElemText DocChar (2 ^ 39) ((brackets t).1 :: body ++ [(brackets t).2]) := by
  obtain ⟨h1, h2, h3, h4, h5⟩ := bracket_facts t
  refine ⟨?_, ?_, ⟨_, rfl, h3⟩, ?_, ?_⟩
  · exact Item.bracketed (pre := []) (post := []) (by intro c hc; cases hc) h1 (fun c hc => (h c hc).1) h2 (by intro c hc; cases hc)
  · exact Item.bracketed (pre := [0x20#8]) (post := []) (by intro c hc; simp at hc; rw [hc]; decide) h1 (fun c hc => (h c hc).1) h2 (by intro c hc; cases hc)
  · intro c hc
    simp only [List.cons_append, List.mem_cons, List.mem_append, List.not_mem_nil, or_false] at hc
    rcases hc with rfl | hc | rfl
    · exact h4
    · exact (h c hc).2
    · exact h5
  · simp only [List.length_append, List.length_cons, List.length_nil]; omega

theorem bytes_split (a n N : Nat) (l : Loc) : (∃ i < N, bytes (a + n * i) n l) ↔ bytes a (n * N) l := by
  cases l with
  | str x => constructor; (rintro ⟨_, _, h⟩; exact h); exact False.elim
  | bit k =>
    constructor
    · rintro ⟨i, hi, h1, h2⟩
      have : n * i + n ≤ n * N := by rw [← Nat.mul_succ]; exact Nat.mul_le_mul_left _ hi
      exact ⟨by omega, by omega⟩
    · rintro ⟨h1, h2⟩
      have hn : 0 < n := by
        rcases Nat.eq_zero_or_pos n with h | h
        · subst h; simp at h2; omega
        · exact h
      refine ⟨(k / 8 - a) / n, ?_, ?_⟩
      · rw [Nat.div_lt_iff_lt_mul hn, Nat.mul_comm]; omega
      · have e := Nat.div_add_mod (k / 8 - a) n
        have e2 := Nat.mod_lt (k / 8 - a) hn
        exact ⟨by omega, by omega⟩

/-- A list of scalars that can each be read back. -/
theorem scalar_list_ok (env : Env) (o : Obj) (f : Nat) (r : RType) (b : Nat) (hl : IsList r.type) (hN : 0 < r.numItems.toNat)
    (hs : IsScalar (elemType r).type) (hsz : size (elemType r) = r.subSize.toNat)
    (h : ∀ i < r.numItems.toNat, ScalarOk env o (elemType r) (b + r.offset.toNat + r.subSize.toNat * i)) :
    ∃ body, print env (f + 2) r (b + r.offset.toNat) o = some ((brackets r.type).1 :: body ++ [(brackets r.type).2]) ∧
      (∀ c ∈ body, ListChar c) ∧ body ≠ [] ∧ body.length ≤ 2 ^ 38 ∧
      Restores (fun o0 => some (setMember env r ((brackets r.type).1 :: body ++ [(brackets r.type).2]) (b + r.offset.toNat) o0).2) o
        (bytes (b + r.offset.toNat) (r.subSize.toNat * r.numItems.toNat)) := by
  let txt : Nat → Text := fun i => (printMember env (elemType r) (b + r.offset.toNat + r.subSize.toNat * i) o).getD []
  obtain ⟨body, h1, h2, h3, h4, h5⟩ := list_ok env o (f + 1) r b ListChar (2 ^ 20) txt
    (fun i => bytes (b + r.offset.toNat + r.subSize.toNat * i) r.subSize.toNat) hl hN (by omega) (by simp [ListChar, closes]) (by
      intro i hi
      obtain ⟨t, e1, e2, e3⟩ := h i hi
      have et : txt i = t := by show Option.getD _ _ = _; rw [e1]; rfl
      rw [et, print_scalar_fuel env f _ _ _ hs]
      rw [hsz] at e3
      exact ⟨e1, clean_elem e2, e3⟩)
  refine ⟨body, h1, h2, h3, ?_, h5.congr (fun l => bytes_split _ _ _ l)⟩
  have : r.numItems.toNat * (2 ^ 20 + 2) ≤ 2 ^ 16 * (2 ^ 20 + 2) := Nat.mul_le_mul_right _ (by have := r.numItems.isLt; omega)
  omega

theorem plain_of_chars {t : Text} (h : ∀ c ∈ t, DocChar c) (hh : ∃ c, t.head? = some c ∧ 0x20 < c.toNat) : PlainText t := by
  refine ⟨h, ?_⟩
  obtain ⟨c, h1, h2⟩ := hh
  refine ⟨c, List.mem_of_mem_head? h1, ?_, ?_, ?_⟩ <;> (rintro rfl; simp at h2)

/-! ## Strings and bit-field members -/

/-- The location of one string. -/
def oneStr (a : Nat) : Loc → Prop
  | .bit _ => False
  | .str x => x = a

theorem leaf_string {r : RType} (ht : r.type = .String) (a : Nat) (l : Loc) : oneStr a l ↔ leaf r a l := by
  cases l <;> simp [leaf, oneStr, ht]

/-- A text that does not start with a blank is stored in a string as it is. -/
theorem string_set (env : Env) (o : Obj) (r : RType) (a : Nat) (ht : r.type = .String)
    (h : ∀ c, (o.strs a).head? = some c → ¬ IsBlank false c) :
    Restores (fun o0 => some (setMember env r (o.strs a) a o0).2) o (oneStr a) := by
  have hsk : (skipStart false (o.strs a)).1 = o.strs a := indented_skip (indented_self h)
  intro o0
  refine ⟨o0.writeStr a (o.strs a), ?_, ?_, ?_⟩
  · simp only [setMember, member, ht, hsk]
  · intro l hl
    cases l with
    | bit k => exact hl.elim
    | str x =>
      have hl : x = a := hl
      subst hl
      simp [content, Obj.writeStr]
  · intro l hl
    cases l with
    | bit k => rfl
    | str x =>
      have hl : ¬ x = a := hl
      simp [content, Obj.writeStr, hl]

theorem string_ok (X : Ctx) (hX : Parses X.frag) (o : Obj) (r : RType) (a : Nat) (ht : r.type = .String)
    (h : o.strs a = [] ∨ (PlainText (o.strs a) ∧ ∀ c, (o.strs a).head? = some c → ¬ IsBlank false c)) : TextOk X o r a := by
  refine ⟨o.strs a, by unfold printMember print; simp only [ht], ?_, ?_⟩
  · rcases h with h | ⟨h, _⟩
    · rw [h, hX.1]; rfl
    · rw [hX.2 _ h]; rfl
  · refine (string_set X.env o r a ht ?_).congr (fun l => leaf_string ht a l)
    rcases h with h | ⟨_, h⟩
    · rw [h]; intro c hc; cases hc
    · exact h

/-- A list of strings without commas, brackets and markup. -/
theorem string_list_ok (env : Env) (o : Obj) (f : Nat) (r : RType) (b : Nat) (hl : IsList r.type) (hN : 0 < r.numItems.toNat)
    (hs : r.subType = .String) (h : ∀ i < r.numItems.toNat, Clean (o.strs (b + r.offset.toNat + r.subSize.toNat * i))) :
    ∃ body, print env (f + 2) r (b + r.offset.toNat) o = some ((brackets r.type).1 :: body ++ [(brackets r.type).2]) ∧
      (∀ c ∈ body, ListChar c) ∧ body ≠ [] ∧
      Restores (fun o0 => some (setMember env r ((brackets r.type).1 :: body ++ [(brackets r.type).2]) (b + r.offset.toNat) o0).2) o
        (leaf r (b + r.offset.toNat)) := by
  have he : elemType r = { r with type := .String } := by unfold elemType; rw [if_neg (by rw [hs]; simp), hs]
  obtain ⟨body, h1, h2, h3, _, h5⟩ := list_ok env o (f + 1) r b ListChar (2 ^ 20)
    (fun i => o.strs (b + r.offset.toNat + r.subSize.toNat * i))
    (fun i => oneStr (b + r.offset.toNat + r.subSize.toNat * i)) hl hN (by omega) (by simp [ListChar, closes]) (by
      intro i hi
      refine ⟨by rw [he, print], clean_elem (h i hi), ?_⟩
      exact string_set env o _ _ (by rw [he]) (h i hi).head)
  refine ⟨body, h1, h2, h3, h5.congr (fun l => ?_)⟩
  cases l with
  | bit k =>
    have : ¬ leaf r (b + r.offset.toNat) (.bit k) := by
      rcases hl with h | h | h <;> simp [leaf, h, hs]
    simp [this, oneStr]
  | str x => rcases hl with h | h | h <;> simp [leaf, h, hs, oneStr]

theorem mem_testBit (o : Obj) (a n k : Nat) (h1 : 8 * a ≤ k) (h2 : k < 8 * (a + n)) :
    (o.mem (k / 8)).getLsbD (k % 8) = (o.nat a n).testBit (k - 8 * a) := by
  obtain ⟨j, hj⟩ : ∃ j, k / 8 = a + j := ⟨k / 8 - a, by omega⟩
  have hr := read_getElem? o a n j (by omega)
  have e := toLE_leNat (o.read a n)
  rw [read_length] at e
  have e2 := toLE_getElem? n (leNat (o.read a n)) j (by omega)
  rw [e, hr] at e2
  rw [hj, Option.some.inj e2]
  unfold Obj.nat
  rw [BitVec.getLsbD, BitVec.toNat_ofNat, show (2 : Nat) ^ 8 = 2 ^ 8 from rfl, Nat.testBit_mod_two_pow,
    show (256 : Nat) ^ j = 2 ^ (8 * j) from pow_256_8 j, Nat.testBit_div_two_pow]
  rw [decide_eq_true (Nat.mod_lt _ (by omega)), Bool.true_and]
  congr 1
  omega

theorem bits_ok (X : Ctx) (hX : Parses X.frag) (o : Obj) (r : RType) (a : Nat) (ht : r.type = .BitFieldMember)
    (hs0 : 0 < r.subSize.toNat) (hs : r.subSize.toNat ≤ 30) (h64 : r.offset.toNat + r.subSize.toNat ≤ 64)
    (hv : r.subType = .UnsignedInteger ∨ (o.shift a).bits r.offset.toNat r.subSize.toNat < 2 ^ (r.subSize.toNat - 1)) : TextOk X o r a := by
  have hpr := bitmember_print X.env r 0 (o.shift a) _ _ ht rfl rfl hs0 hs h64 rfl
  have hp : (2 : Nat) ^ r.subSize.toNat ≤ 2 ^ 30 := Nat.pow_le_pow_right (by omega) hs
  have hp0 : (0 : Nat) < 2 ^ r.subSize.toNat := Nat.two_pow_pos _
  have hlt : (o.shift a).bits r.offset.toNat r.subSize.toNat < 2 ^ r.subSize.toNat := Nat.mod_lt _ hp0
  have hpr' : printMember X.env r a o = some (showNat ((o.shift a).bits r.offset.toNat r.subSize.toNat)) := by
    have := printMember_shift X.env r a 0 o
    rw [Nat.add_zero] at this
    rw [this, hpr]
    rcases hv with hv | hv
    · rw [if_pos hv]
    · split
      · rfl
      · congr 1
        rw [BitVec.toInt_eq_toNat_cond, BitVec.toNat_ofNat, Nat.mod_eq_of_lt hlt, if_pos]
        · unfold showInt
          rw [if_neg (by omega)]; rfl
        · have : 2 ^ r.subSize.toNat = 2 * 2 ^ (r.subSize.toNat - 1) := by
            rw [← Nat.pow_succ']; congr 1; omega
          omega
  generalize hm : (o.shift a).bits r.offset.toNat r.subSize.toNat = m at *
  have hcl := showNat_clean m (by omega)
  refine ⟨showNat m, hpr', by rw [hX.2 _ hcl.plain]; rfl, ?_⟩
  have hset : ∀ o0 : Obj, Moved a o0 (setMember X.env r (showNat m) a o0).2 (setByName X.env (one r) r.valueNameHash (showNat m) (o0.shift a)).2 := by
    intro o0
    obtain ⟨_, h2, h3⟩ := setMember_shift X.env r (showNat m) a 0 o0
    have : setByName X.env (one r) r.valueNameHash (showNat m) (o0.shift a) = setMember X.env r (showNat m) 0 (o0.shift a) := by
      unfold setByName typeOf
      rw [one_lookup]
      simp only [Option.bind_some, typeAt, one, List.getElem?_cons_zero, setValue, ht, if_true]
    rw [this]
    exact ⟨h2, h3⟩
  intro o0
  obtain ⟨b1, _, b3, b4, b5⟩ := bitmember_partial X.env (one r) r.valueNameHash r (showNat m) (showNat m) (o0.shift a) _ _
    (by unfold typeOf; rw [one_lookup]; rfl) ht rfl rfl hs h64 (indented_self (showNat_head m))
  have hb := ((b1 m (showNat_literal m)).1 hlt).2
  obtain ⟨g1, g2⟩ := hset o0
  generalize hq : (setByName X.env (one r) r.valueNameHash (showNat m) (o0.shift a)).2 = q at *
  generalize hpp : (setMember X.env r (showNat m) a o0).2 = p at *
  have hn : ∀ x : Obj, x.nat a 8 = (x.shift a).nat 0 8 := by intro x; rw [shift_nat, Nat.add_zero]
  refine ⟨p, by show some _ = some p; rw [hpp], ?_, ?_⟩
  · intro l hl
    cases l with
    | str x => simp [leaf, ht] at hl
    | bit k =>
      simp only [leaf, ht] at hl
      show ((p.mem (k / 8)).getLsbD (k % 8), ([] : Text)) = ((o.mem (k / 8)).getLsbD (k % 8), [])
      rw [mem_testBit p a 8 k (by omega) (by omega), mem_testBit o a 8 k (by omega) (by omega), hn p, hn o, g1]
      have e : ∀ x : Obj, x.bits r.offset.toNat r.subSize.toNat = m → (x.nat 0 8).testBit (k - 8 * a) = m.testBit (k - 8 * a - r.offset.toNat) := by
        intro x hx
        rw [← hx]
        unfold Obj.bits
        rw [Nat.testBit_mod_two_pow, Nat.testBit_div_two_pow, decide_eq_true (by omega), Bool.true_and]
        congr 1; omega
      rw [e q hb, e _ hm]
  · intro l hl
    cases l with
    | str x =>
      show (false, p.strs x) = (false, o0.strs x)
      by_cases hx : x < a
      · rw [(g2 x hx).2]
      · have : (p.shift a).strs (x - a) = (o0.shift a).strs (x - a) := by rw [g1, b5]
        simp only [Obj.shift, show a + (x - a) = x by omega] at this
        rw [this]
    | bit k =>
      simp only [leaf, ht] at hl
      show ((p.mem (k / 8)).getLsbD (k % 8), ([] : Text)) = ((o0.mem (k / 8)).getLsbD (k % 8), [])
      by_cases hk : k / 8 < a
      · rw [(g2 _ hk).1]
      · by_cases hk2 : k / 8 < a + 8
        · rw [mem_testBit p a 8 k (by omega) (by omega), mem_testBit o0 a 8 k (by omega) (by omega), hn p, hn o0, g1]
          rw [b3 _ (by omega)]
        · have : (p.shift a).mem (k / 8 - a) = (o0.shift a).mem (k / 8 - a) := by rw [g1, b4 _ (by omega)]
          simp only [Obj.shift, show a + (k / 8 - a) = k / 8 by omega] at this
          rw [this]

end PreCore.ReflXml
