import Verif.Props.ReflectorFrame
/-!
# C27: assigning a list
-/
namespace PreCore.Refl
open CNum Spec Supercore

/-! ## The nesting bound is irrelevant -/

theorem skipStart_len (nl : Bool) (s : Text) : (skipStart nl s).1.length ≤ s.length := by
  induction s with
  | nil => simp [skipStart]
  | cons c cs ih => simp only [skipStart]; split <;> simp <;> omega

theorem skipStart_idem (nl : Bool) (s : Text) : (skipStart nl (skipStart nl s).1).1 = (skipStart nl s).1 := by
  induction s with
  | nil => rfl
  | cons c cs ih =>
    simp only [skipStart]
    by_cases h : blank nl c = true
    · rw [if_pos h]; exact ih
    · rw [if_neg h]; simp only [skipStart, if_neg h]

theorem cutItems_len : ∀ (t cur : Text) (sc : Bool), ∀ s ∈ cutItems t cur sc, s.length ≤ t.length + cur.length := by
  intro t
  induction t with
  | nil => intro cur sc s hs; simp [cutItems] at hs
  | cons c cs ih =>
    intro cur sc s hs
    unfold cutItems at hs
    generalize (if (closes c && sc) = true then false else sc) = sc' at hs
    simp only at hs
    split at hs
    · have := ih _ _ s hs; simp at this ⊢; omega
    · split at hs
      · simp only [List.mem_singleton] at hs; subst hs; simp; omega
      · split at hs
        · rcases List.mem_cons.1 hs with h | h
          · subst h; simp
          · have := ih _ _ s h; simp at this ⊢; omega
        · have := ih _ _ s hs; simp at this ⊢; omega

theorem setItems_congr (f g : Text → Nat → Obj → Err × Obj) (n sz base : Nat) (items : List Text)
    (h : ∀ s ∈ items, f (skipStart false s).1 = g (skipStart false s).1) :
    ∀ i o, setItems f n sz base items i o = setItems g n sz base items i o := by
  induction items with
  | nil => intro i o; rfl
  | cons t ts ih =>
    intro i o
    unfold setItems
    simp only [h t (by simp)]
    split
    · rfl
    · split
      · rfl
      · exact ih (fun s hs => h s (by simp [hs])) _ _

theorem setArray_congr (f g : Text → Nat → Obj → Err × Obj) (op cl : Byte) (t : Text) (r : RType) (a : Nat) (o : Obj)
    (h : ∀ s : Text, s.length < t.length → f s = g s) : setArray f op cl t r a o = setArray g op cl t r a o := by
  unfold setArray
  split
  · split
    · rfl
    · simp only
      split
      · rfl
      · apply setItems_congr
        intro s hs
        apply h
        have h1 := cutItems_len _ _ _ s hs
        have h2 := skipStart_len false s
        rename_i hne
        have : ((t.take _).drop _).length ≠ 0 := fun h0 => hne (List.eq_nil_of_length_eq_zero h0)
        simp only [List.length_drop, List.length_take, List.length_nil] at h1 this
        omega
  · rfl

/-- Any two bounds above the text length give the same result. -/
theorem member_fuel (env : Env) : ∀ (f g : Nat) (r : RType) (t : Text) (a : Nat) (o : Obj), t.length < f → t.length < g →
    member env f r t a o = member env g r t a o := by
  intro f
  induction f with
  | zero => intro g r t a o h; omega
  | succ f ih =>
    intro g r t a o hf hg
    cases g with
    | zero => omega
    | succ g =>
      have hlen := skipStart_len false t
      have hc : ∀ s : Text, s.length < (skipStart false t).1.length →
          (fun a' o' => member env f (elemType r) s a' o') = (fun a' o' => member env g (elemType r) s a' o') := by
        intro s hs
        funext a' o'
        exact ih g _ s a' o' (by omega) (by omega)
      unfold member
      cases r.type <;> first | rfl | exact setArray_congr _ _ _ _ _ _ _ _ hc

/-! ## Cutting -/

/-- No comma and no opening bracket or quote. -/
def Plain (s : Text) : Prop := ∀ c ∈ s, c ≠ 0x2c#8 ∧ opens c = false

/-- An opening / closing bracket (not a quote). -/
def IsOpen (c : Byte) : Prop := c = 0x5b#8 ∨ c = 0x28#8 ∨ c = 0x7b#8
def IsClose (c : Byte) : Prop := c = 0x5d#8 ∨ c = 0x29#8 ∨ c = 0x7d#8

/-- What may stand between the commas of a list: text without commas and brackets, or one bracketed list inside. -/
inductive Item : Text → Prop
  | plain {s} : s ≠ [] → Plain s → Item s
  | bracketed {pre op body cl post} : Plain pre → IsOpen op → (∀ c ∈ body, closes c = false) → IsClose cl → Plain post →
      Item (pre ++ op :: body ++ cl :: post)

theorem Item.ne {s} (h : Item s) : s ≠ [] := by
  cases h with
  | plain h _ => exact h
  | bracketed => simp

/-- Items separated by commas. -/
def joinComma : List Text → Text
  | [] => []
  | [s] => s
  | s :: ss => s ++ 0x2c#8 :: joinComma ss

theorem joinComma_ne {s ss} (h : ∀ x ∈ s :: ss, Item x) : joinComma (s :: ss) ≠ [] := by
  cases ss with
  | nil => exact (h s (by simp)).ne
  | cons a b => simp [joinComma]

theorem cut_plain {s : Text} (h : Plain s) : ∀ (x cur : Text), x ≠ [] → cutItems (s ++ x) cur false = cutItems x (s.reverse ++ cur) false := by
  induction s with
  | nil => intro x cur _; rfl
  | cons c cs ih =>
    intro x cur hx
    obtain ⟨h1, h2⟩ := h c (by simp)
    rw [List.cons_append, cutItems]
    simp only [h2, Bool.and_false, Bool.false_eq_true, if_false, Bool.or_self]
    rw [if_neg (by simp [hx]), if_neg h1, ih (fun c hc => h c (by simp [hc])) x _ hx]
    simp

theorem cut_plain_end {s : Text} (h : Plain s) (hs : s ≠ []) : ∀ cur : Text, cutItems s cur false = [cur.reverse ++ s] := by
  induction s with
  | nil => exact absurd rfl hs
  | cons c cs ih =>
    intro cur
    obtain ⟨h1, h2⟩ := h c (by simp)
    rw [cutItems]
    simp only [h2, Bool.and_false, Bool.false_eq_true, if_false, Bool.or_self]
    by_cases hc : cs = []
    · subst hc; simp
    · rw [if_neg hc, if_neg h1, ih (fun c hc => h c (by simp [hc])) hc]
      simp

theorem cut_comma (x cur : Text) (hx : x ≠ []) : cutItems (0x2c#8 :: x) cur false = cur.reverse :: cutItems x [] false := by
  rw [cutItems]
  simp [hx, opens]

theorem cut_open {op : Byte} (h : IsOpen op) (x cur : Text) : cutItems (op :: x) cur false = cutItems x (op :: cur) true := by
  rw [cutItems]
  have : opens op = true := by rcases h with rfl | rfl | rfl <;> decide
  simp [this]

theorem cut_body {s : Text} (h : ∀ c ∈ s, closes c = false) : ∀ x cur : Text, cutItems (s ++ x) cur true = cutItems x (s.reverse ++ cur) true := by
  induction s with
  | nil => intro x cur; rfl
  | cons c cs ih =>
    intro x cur
    rw [List.cons_append, cutItems]
    simp only [h c (by simp), Bool.false_and, Bool.false_eq_true, if_false, Bool.true_or, if_true]
    rw [ih (fun c hc => h c (by simp [hc]))]
    simp

theorem close_facts {cl : Byte} (h : IsClose cl) : closes cl = true ∧ opens cl = false ∧ cl ≠ 0x2c#8 := by
  rcases h with rfl | rfl | rfl <;> decide

theorem cut_close {cl : Byte} (h : IsClose cl) (x cur : Text) (hx : x ≠ []) : cutItems (cl :: x) cur true = cutItems x (cl :: cur) false := by
  obtain ⟨h1, h2, h3⟩ := close_facts h
  rw [cutItems]
  simp [h1, h2, h3, hx]

theorem cut_close_end {cl : Byte} (h : IsClose cl) (cur : Text) : cutItems [cl] cur true = [cur.reverse ++ [cl]] := by
  obtain ⟨h1, h2, h3⟩ := close_facts h
  rw [cutItems]
  simp [h1, h2]

theorem cut_item {s : Text} (h : Item s) (x : Text) (hx : x ≠ []) : cutItems (s ++ 0x2c#8 :: x) [] false = s :: cutItems x [] false := by
  cases h with
  | plain h1 h2 => rw [cut_plain h2 _ _ (by simp), cut_comma _ _ hx]; simp
  | bracketed h1 h2 h3 h4 h5 =>
    simp only [List.append_assoc, List.cons_append]
    rw [cut_plain h1 _ _ (by simp), cut_open h2, cut_body h3, cut_close h4 _ _ (by simp), cut_plain h5 _ _ (by simp), cut_comma _ _ hx]
    simp

theorem cut_item_end {s : Text} (h : Item s) : cutItems s [] false = [s] := by
  cases h with
  | plain h1 h2 => rw [cut_plain_end h2 h1]; simp
  | bracketed h1 h2 h3 h4 h5 =>
    rename_i pre op body cl post
    simp only [List.append_assoc, List.cons_append]
    rw [cut_plain h1 _ _ (by simp), cut_open h2, cut_body h3]
    by_cases hp : post = []
    · subst hp; rw [cut_close_end h4]; simp
    · rw [cut_close h4 _ _ hp, cut_plain_end h5 hp]; simp

theorem cut_join (items : List Text) (h : ∀ s ∈ items, Item s) : cutItems (joinComma items) [] false = items := by
  induction items with
  | nil => rfl
  | cons s ss ih =>
    cases ss with
    | nil => exact cut_item_end (h s (by simp))
    | cons a b =>
      rw [joinComma, cut_item (h s (by simp)) _ (joinComma_ne (fun x hx => h x (by simp [hx]))), ih (fun x hx => h x (by simp [hx]))]
      simp

/-! ## Assigning the items -/

/-- The brackets of each kind of list. -/
def brackets : RT → Byte × Byte
  | .Vector => (0x5b#8, 0x5d#8)
  | .ArrayClass => (0x28#8, 0x29#8)
  | _ => (0x7b#8, 0x7d#8)

/-- Assigning item `i` to element `first + i`, in order, with the single element setter. -/
def assignEach (env : Env) (r : RType) : List Text → Nat → Obj → Obj
  | [], _, o => o
  | s :: ss, i, o => assignEach env r ss (i + 1) (setValueSub env r s i o).2

/-- Not only blanks. -/
def NonBlank (s : Text) : Prop := ∃ c ∈ s, ¬ IsBlank false c

theorem nonblank_skip {s : Text} (h : NonBlank s) : (skipStart false s).1 ≠ [] := by
  obtain ⟨pre, h1, h2, _⟩ := skipStart_spec false s
  obtain ⟨c, hc, hb⟩ := h
  intro h0
  rw [h0, List.append_nil] at h1
  rw [h1] at hc
  exact hb (h2 c hc)

theorem member_skip (env : Env) (f : Nat) (r : RType) (t : Text) (a : Nat) (o : Obj) :
    member env f r (skipStart false t).1 a o = member env f r t a o := by
  cases f with
  | zero => rfl
  | succ f => unfold member; simp only [skipStart_idem]

theorem setItems_each (env : Env) (r : RType) (f : Nat) (items : List Text) (hnb : ∀ s ∈ items, NonBlank s)
    (hf : ∀ s ∈ items, s.length < f) : ∀ i o, i ≤ r.numItems.toNat →
    setItems (fun t' a' o' => member env f (elemType r) t' a' o') r.numItems.toNat r.subSize.toNat r.offset.toNat items i o =
      (if i + items.length ≤ r.numItems.toNat then .None else .OutOfRange, assignEach env r (items.take (r.numItems.toNat - i)) i o) := by
  induction items with
  | nil => intro i o hi; simp [setItems, assignEach, hi]
  | cons s ss ih =>
    intro i o hi
    unfold setItems
    have hs := nonblank_skip (hnb s (by simp))
    simp only [hs, false_and, if_false, ne_eq, not_false_eq_true, true_and]
    by_cases hge : i ≥ r.numItems.toNat
    · rw [if_pos hge, if_neg (by simp; omega), show r.numItems.toNat - i = 0 by omega]
      rfl
    · rw [if_neg hge, ih (fun s hs => hnb s (by simp [hs])) (fun s hs => hf s (by simp [hs])) _ _ (by omega)]
      rw [show r.numItems.toNat - i = (r.numItems.toNat - (i + 1)) + 1 by omega, List.take_succ_cons, assignEach]
      have e : (member env f (elemType r) (skipStart false s).1 (r.offset.toNat + r.subSize.toNat * i) o) = setValueSub env r s i o := by
        rw [member_skip]
        exact member_fuel env f _ _ s _ o (hf s (by simp)) (by omega)
      rw [e]
      simp only [List.length_cons, show i + 1 + ss.length = i + (ss.length + 1) by omega]

theorem find_first {op : Byte} {pre rest : Text} (h : ∀ c ∈ pre, c ≠ op) (hr : rest ≠ []) :
    StringView.find (pre ++ op :: rest) [op] 0 = .at pre.length := by
  have hlen : 0 < rest.length := List.length_pos_iff.2 hr
  have hat : (pre ++ op :: rest)[pre.length]? = some op := by simp
  have key := StringView.find_char_partial (pre ++ op :: rest) op 0
  rcases key with ⟨i, h1, h2, h3, h4, h5⟩ | ⟨h1, h2⟩
  · rw [h1]
    congr 1
    rcases Nat.lt_trichotomy i pre.length with hlt | heq | hgt
    · rw [List.getElem?_append_left hlt, List.getElem?_eq_getElem hlt, Option.some.injEq] at h4
      exact absurd h4 (h _ (List.getElem_mem hlt))
    · exact heq
    · exact absurd hat (h5 pre.length (by omega) hgt)
  · exact absurd hat (h2 pre.length (by omega) (by simp; omega))

theorem find_last {cl : Byte} {pre post : Text} (h : ∀ c ∈ post, c ≠ cl) (hl : (pre ++ cl :: post).length < 2 ^ 64) :
    StringView.findLastOf (pre ++ cl :: post) [cl] StringView.npos = .at pre.length := by
  have hat : (pre ++ cl :: post)[pre.length]? = some cl := by simp
  have key := StringView.find_last_of_correct (pre ++ cl :: post) [cl] StringView.npos (by simp) hl
  have hin : ∀ i, StringView.InSet (pre ++ cl :: post) [cl] i ↔ (pre ++ cl :: post)[i]? = some cl := by
    intro i; simp [StringView.InSet]
  have hmin : ∀ N : Nat, (pre ++ cl :: post).length - 1 ≤ N → min ((pre ++ cl :: post).length - 1) N = pre.length + post.length := by
    intro N hN
    rw [Nat.min_eq_left hN]
    simp
  have hm := hmin StringView.npos (by unfold StringView.npos; omega)
  rw [hm] at key
  simp only [StringView.IsLast, hin] at key
  rcases key with ⟨i, h1, h2, h3, h4⟩ | ⟨h1, h2⟩
  · suffices hi : i = pre.length by rw [h1, hi]
    rcases Nat.lt_trichotomy i pre.length with hlt | heq | hgt
    · exact absurd hat (h4 pre.length hlt (by omega))
    · exact heq
    · rw [List.getElem?_append_right (by omega), show i - pre.length = (i - pre.length - 1) + 1 by omega, List.getElem?_cons_succ] at h3
      exact absurd rfl (h cl (List.mem_of_getElem? h3))
  · exact absurd hat (h2 pre.length (by omega))

/-- C27: assigning `{s0,s1,...}` (`[..]` for vectors, `(..)` for class arrays) where the items are non-blank and contain at
most one bracketed list each, is the same as assigning item `i` to element `i` with the single element setter, in order,
for all items the list has room for; out-of-range is reported exactly when there are more items than elements.
Missing for the full statement: quoted items (`quoted_items_violated`), too few items go unreported
(`short_list_violated`), blank items (`array_overrun_violated`). -/
theorem list_assign_partial (env : Env) (c : ClassTab) (h : BitVec 32) (r : RType) (lead trail : Text) (items : List Text) (o : Obj)
    (hr : typeOf c h = some r) (hl : IsList r.type)
    (hlead : ∀ x ∈ lead, x ≠ (brackets r.type).1) (htrail : ∀ x ∈ trail, x ≠ (brackets r.type).2)
    (hitems : ∀ s ∈ items, Item s ∧ NonBlank s) (hne : items ≠ [])
    (hlen : (lead ++ (brackets r.type).1 :: joinComma items ++ (brackets r.type).2 :: trail).length < 2 ^ 64) :
    setByName env c h (lead ++ (brackets r.type).1 :: joinComma items ++ (brackets r.type).2 :: trail) o =
      (if items.length ≤ r.numItems.toNat then .None else .OutOfRange,
       assignEach env r (items.take r.numItems.toNat) 0 o) := by
  have hj : joinComma items ≠ [] := by
    cases items with
    | nil => exact absurd rfl hne
    | cons s ss => exact joinComma_ne (fun x hx => (hitems x hx).1)
  have hcut := cut_join items (fun s hs => (hitems s hs).1)
  have hlens : ∀ s ∈ items, s.length ≤ (joinComma items).length := by
    intro s hs
    have := cutItems_len (joinComma items) [] false s (by rw [hcut]; exact hs)
    simpa using this
  generalize joinComma items = inner at *
  have key : ∀ op cl : Byte, ¬ IsBlank false op → (∀ x ∈ lead, x ≠ op) → (∀ x ∈ trail, x ≠ cl) →
      (lead ++ op :: inner ++ cl :: trail).length < 2 ^ 64 →
      setArray (fun t' a' o' => member env (lead ++ op :: inner ++ cl :: trail).length (elemType r) t' a' o') op cl
        (skipStart false (lead ++ op :: inner ++ cl :: trail)).1 r r.offset.toNat o =
      (if items.length ≤ r.numItems.toNat then .None else .OutOfRange,
       assignEach env r (items.take r.numItems.toNat) 0 o) := by
    intro op cl hb h1 h2 h3
    -- skipping leading blanks shortens `lead`
    have hskip : ∃ lead', (∀ x ∈ lead', x ≠ op) ∧ lead'.length ≤ lead.length ∧
        (skipStart false (lead ++ op :: inner ++ cl :: trail)).1 = lead' ++ op :: inner ++ cl :: trail := by
      clear h3 hlen hlead
      induction lead with
      | nil =>
        refine ⟨[], by simp, by simp, ?_⟩
        simp only [List.nil_append, List.cons_append, skipStart]
        rw [if_neg (by rw [blank_iff]; exact hb)]
      | cons x xs ih =>
        simp only [List.cons_append, skipStart]
        by_cases hx : blank false x = true
        · rw [if_pos hx]
          obtain ⟨l', a, b, d⟩ := ih (fun y hy => h1 y (by simp [hy]))
          refine ⟨l', a, by simp; omega, ?_⟩
          simpa using d
        · rw [if_neg hx]
          exact ⟨x :: xs, h1, by simp, by simp⟩
    obtain ⟨l', a1, a2, a3⟩ := hskip
    rw [a3]
    unfold setArray
    have f1 : StringView.find (l' ++ op :: inner ++ cl :: trail) [op] 0 = .at l'.length := by
      rw [List.append_assoc, List.cons_append]
      exact find_first a1 (by simp)
    have f2 : StringView.findLastOf (l' ++ op :: inner ++ cl :: trail) [cl] StringView.npos = .at (l' ++ op :: inner).length := by
      apply find_last h2
      simp only [List.length_append, List.length_cons] at h3 ⊢
      omega
    rw [f1, f2]
    simp only
    have e : ((l' ++ op :: inner ++ cl :: trail).take (l' ++ op :: inner).length).drop (l'.length + 1) = inner := by
      rw [List.take_left' rfl, ← List.drop_drop, List.drop_left]
      rfl
    rw [if_neg (by simp), e, if_neg hj, hcut]
    have := setItems_each env r (lead ++ op :: inner ++ cl :: trail).length items (fun s hs => (hitems s hs).2)
      (fun s hs => by have := hlens s hs; simp; omega) 0 o (by omega)
    simpa using this
  unfold setByName
  rw [hr]
  simp only [setValue]
  unfold setMember member
  rcases hl with ht | ht | ht <;> simp only [ht, brackets] at hlead htrail hlen ⊢
  · exact key _ _ (by simp [IsBlank]) hlead htrail hlen
  · exact key _ _ (by simp [IsBlank]) hlead htrail hlen
  · exact key _ _ (by simp [IsBlank]) hlead htrail hlen

/-! ## Integer lists -/

theorem assignEach_frame (env : Env) (r : RType) (n : Nat) (hn : r.subSize.toNat = n) (hs : IsScalar r.subType)
    (hsz : size (elemType r) ≤ n) (items : List Text) : ∀ i o,
    SameOutside (r.offset.toNat + n * i) (r.offset.toNat + n * (i + items.length)) o (assignEach env r items i o) := by
  induction items with
  | nil => intro i o; exact .refl _ _ _
  | cons s ss ih =>
    intro i o
    simp only [assignEach, List.length_cons]
    have h1 : SameOutside (r.offset.toNat + n * i) (r.offset.toNat + n * i + size (elemType r)) o (setValueSub env r s i o).2 := by
      have := scalar_frame env (s.length + 1) (elemType r) s (r.offset.toNat + r.subSize.toNat * i) o (by rw [elemType_scalar hs]; exact hs)
      rw [hn] at this
      unfold setValueSub setMember
      rw [hn]
      exact this
    have h2 := ih (i + 1) (setValueSub env r s i o).2
    have m1 : n * (i + 1) = n * i + n := Nat.mul_succ _ _
    have m2 : n * i + n ≤ n * (i + (ss.length + 1)) := by
      rw [← m1]; exact Nat.mul_le_mul_left _ (by omega)
    refine (h1.mono (by omega) ?_).trans (h2.mono ?_ ?_)
    · omega
    · omega
    · rw [show i + 1 + ss.length = i + (ss.length + 1) by omega]; omega

theorem same_int {a b : Nat} {o o' : Obj} (h : SameOutside a b o o') (x n : Nat) (hx : x + n ≤ a ∨ b ≤ x) :
    o'.nat x n = o.nat x n ∧ o'.int x n = o.int x n := by
  have : o'.read x n = o.read x n := by
    apply read_congr
    intro y h1 h2
    exact (h y (by omega)).1
  simp only [Obj.nat, Obj.int, this, and_self]

/-- The description of an integer list field with elements of `n` bytes. -/
def IntList (r : RType) (ty : RT) (n : Nat) : Prop :=
  IsList r.type ∧ r.subType = ty ∧ r.subSize.toNat = n ∧ IsWidth n

theorem assignEach_elem (env : Env) (r : RType) (n : Nat) (hn : r.subSize.toNat = n) (hs : IsScalar r.subType)
    (hsz : size (elemType r) ≤ n) (items : List Text) (P : Nat → Obj → Prop)
    (hstep : ∀ i s o, items[i]? = some s → P i (setValueSub env r s i o).2)
    (hframe : ∀ i o o', SameOutside (r.offset.toNat + n * (i + 1)) (r.offset.toNat + n * items.length) o o' → P i o → P i o') :
    ∀ o i, i < items.length → P i (assignEach env r items 0 o) := by
  have gen : ∀ (suf : List Text) (j : Nat), items.drop j = suf → ∀ o i, j ≤ i → i < items.length → P i (assignEach env r suf j o) := by
    intro suf
    induction suf with
    | nil =>
      intro j hd o i h1 h2
      have := congrArg List.length hd
      simp at this; omega
    | cons s ss ih =>
      intro j hd o i h1 h2
      have hget : items[j]? = some s := by
        have := congrArg (fun l : List Text => l[0]?) hd
        simpa using this
      have htail : items.drop (j + 1) = ss := by
        rw [← List.drop_drop, hd]; rfl
      simp only [assignEach]
      by_cases hi : i = j
      · subst hi
        refine hframe i _ _ ?_ (hstep i s o hget)
        have hf := assignEach_frame env r n hn hs hsz ss (i + 1) (setValueSub env r s i o).2
        have hl : ss.length = items.length - (i + 1) := by rw [← htail]; simp
        rw [hl, show i + 1 + (items.length - (i + 1)) = items.length by omega] at hf
        exact hf
      · exact ih (j + 1) htail _ i (by omega) h2
  intro o i hi
  exact gen items 0 rfl o i (by omega) hi

/-- A text reading as the integer `z`. -/
def Reads (s : Text) (z : Int) : Prop := ∃ s' neg m, Indented s s' ∧ Literal s' neg m ∧ signedVal neg m = z

theorem elem_int {r : RType} {ty : RT} (h : r.subType = ty) (ht : ty = .Integer ∨ ty = .UnsignedInteger) :
    (elemType r).type = ty ∧ (elemType r).subSize = r.subSize ∧ IsScalar r.subType := by
  have hs : IsScalar r.subType := by rw [h]; rcases ht with rfl | rfl <;> trivial
  refine ⟨by rw [elemType_scalar hs, h], ?_, hs⟩
  unfold elemType
  rw [if_neg (by rw [h]; rcases ht with rfl | rfl <;> simp)]

theorem set_elem_signed (env : Env) (r : RType) (n : Nat) (s : Text) (z : Int) (i : Nat) (o : Obj) (hr : IntList r .Integer n)
    (hz : Reads s z) (h1 : -2 ^ (8 * n - 1) ≤ z) (h2 : z ≤ 2 ^ (8 * n - 1) - 1) :
    (setValueSub env r s i o).2.int (r.offset.toNat + n * i) n = z := by
  obtain ⟨_, hty, hn, hw⟩ := hr
  obtain ⟨e1, e2, _⟩ := elem_int hty (Or.inl rfl)
  obtain ⟨s', neg, m, g1, g2, rfl⟩ := hz
  have hn1 : 1 ≤ 8 * n := by rcases hw with rfl | rfl | rfl | rfl <;> decide
  have hn2 : 8 * n ≤ 64 := by rcases hw with rfl | rfl | rfl | rfl <;> decide
  unfold setValueSub
  rw [setSigned_member env (elemType r) n s s' _ o g1 e1 (by rw [e2, hn]) hw, hn,
    ((setSigned_spec (8 * n) hn1 hn2 s').1 neg m g2).1 h1 h2, store_int, ofInt_toInt_fit _ hn1 _ h1 h2]

theorem set_elem_unsigned (env : Env) (r : RType) (n : Nat) (s : Text) (m : Nat) (i : Nat) (o : Obj) (hr : IntList r .UnsignedInteger n)
    (s' : Text) (hi : Indented s s') (hl : Literal s' false m) (h1 : m < 2 ^ (8 * n)) :
    (setValueSub env r s i o).2.nat (r.offset.toNat + n * i) n = m := by
  obtain ⟨_, hty, hn, hw⟩ := hr
  obtain ⟨e1, e2, _⟩ := elem_int hty (Or.inr rfl)
  have hn1 : 1 ≤ 8 * n := by rcases hw with rfl | rfl | rfl | rfl <;> decide
  have hn2 : 8 * n ≤ 64 := by rcases hw with rfl | rfl | rfl | rfl <;> decide
  unfold setValueSub
  rw [setUnsigned_member env (elemType r) n s s' _ o hi e1 (by rw [e2, hn]) hw, hn,
    ((setUnsigned_spec (8 * n) hn1 hn2 s').1 m hl).1 (by omega), store_nat, BitVec.toNat_ofNat]
  exact Nat.mod_eq_of_lt h1

theorem size_elem_int {r : RType} {ty : RT} {n : Nat} (hr : IntList r ty n) (ht : ty = .Integer ∨ ty = .UnsignedInteger) :
    size (elemType r) ≤ n := by
  obtain ⟨_, hty, hn, hw⟩ := hr
  obtain ⟨e1, e2, _⟩ := elem_int hty ht
  unfold size
  rw [e1, e2, hn]
  rcases ht with rfl | rfl <;> exact Nat.le_refl _

theorem mul_succ_le {n i j : Nat} (h : i < j) : n * i + n ≤ n * j := by
  rw [← Nat.mul_succ]; exact Nat.mul_le_mul_left _ h

/-- C27 for signed integer lists: `{z0, z1, ...}` with no more numbers than elements stores `zi` in element `i`, leaves the
other elements and the rest of the object alone, and reports success. -/
theorem int_list_assign (env : Env) (c : ClassTab) (h : BitVec 32) (r : RType) (n : Nat) (lead trail : Text) (items : List Text)
    (zs : List Int) (o : Obj) (hr : typeOf c h = some r) (hl : IntList r .Integer n)
    (hlead : ∀ x ∈ lead, x ≠ (brackets r.type).1) (htrail : ∀ x ∈ trail, x ≠ (brackets r.type).2)
    (hitems : ∀ s ∈ items, Item s ∧ NonBlank s) (hne : items ≠ [])
    (hlen : (lead ++ (brackets r.type).1 :: joinComma items ++ (brackets r.type).2 :: trail).length < 2 ^ 64)
    (hk : items.length = zs.length) (hfit : zs.length ≤ r.numItems.toNat)
    (hz : ∀ (i : Nat) s z, items[i]? = some s → zs[i]? = some z → Reads s z ∧ -2 ^ (8 * n - 1) ≤ z ∧ z ≤ 2 ^ (8 * n - 1) - 1) :
    let res := setByName env c h (lead ++ (brackets r.type).1 :: joinComma items ++ (brackets r.type).2 :: trail) o
    res.1 = .None ∧ (∀ (i : Nat) z, zs[i]? = some z → res.2.int (r.offset.toNat + n * i) n = z) ∧
    SameOutside r.offset.toNat (r.offset.toNat + n * zs.length) o res.2 := by
  intro res
  have e := list_assign_partial env c h r lead trail items o hr hl.1 hlead htrail hitems hne hlen
  rw [if_pos (by omega), List.take_of_length_le (by omega)] at e
  have hsc := (elem_int hl.2.1 (Or.inl rfl)).2.2
  have hsz := size_elem_int hl (Or.inl rfl)
  refine ⟨congrArg Prod.fst e, ?_, ?_⟩
  · intro i z hi
    rw [show res.2 = assignEach env r items 0 o from congrArg Prod.snd e]
    have hil : i < items.length := by
      rw [hk]; exact (List.getElem?_eq_some_iff.1 hi).1
    refine assignEach_elem env r n hl.2.2.1 hsc hsz items (fun i o => ∀ z, zs[i]? = some z → o.int (r.offset.toNat + n * i) n = z)
      ?_ ?_ o i hil z hi
    · intro i s o his z hiz
      obtain ⟨q1, q2, q3⟩ := hz i s z his hiz
      exact set_elem_signed env r n s z i o hl q1 q2 q3
    · intro i o o' hs hP z hiz
      rw [(same_int hs _ n (Or.inl (by have : n * (i + 1) = n * i + n := Nat.mul_succ n i; omega))).2]
      exact hP z hiz
  · rw [show res.2 = assignEach env r items 0 o from congrArg Prod.snd e, ← hk]
    have := assignEach_frame env r n hl.2.2.1 hsc hsz items 0 o
    simpa using this

/-! ## Printing and reading back -/

theorem showNat_len : ∀ (k n : Nat), n < 10 ^ (k + 1) → (showNat n).length ≤ k + 1 := by
  intro k
  induction k with
  | zero => intro n h; unfold showNat; rw [dif_pos (by omega)]; simp
  | succ k ih =>
    intro n h
    unfold showNat
    split
    · simp
    · rw [List.length_append]
      have := ih (n / 10) (by rw [Nat.pow_succ] at h; omega)
      simp; omega

theorem showInt_len (z : Int) (h : z.natAbs < 2 ^ 64) : (showInt z).length ≤ 21 := by
  have := showNat_len 19 z.natAbs (by omega)
  unfold showInt
  split
  · simp; omega
  · omega

theorem showNat_plain (n : Nat) : Plain (showNat n) := by
  obtain ⟨ds, h, -, -⟩ := showNat_digits n
  generalize showNat n = cs at h
  induction h with
  | nil => intro c hc; cases hc
  | cons h _ ih =>
    intro c hc
    rcases List.mem_cons.1 hc with rfl | hc
    · have : ∀ c : BitVec 8, (c = 0x2c#8 ∨ opens c = true) → digitVal 10 c = none := by decide +kernel
      have hd := (digitVal_iff 10 (by omega) _ _).2 h
      constructor
      · intro h0; rw [this _ (Or.inl h0)] at hd; cases hd
      · cases ho : opens c with
        | false => rfl
        | true => rw [this _ (Or.inr ho)] at hd; cases hd
    · exact ih c hc

theorem showInt_plain (z : Int) : Plain (showInt z) := by
  unfold showInt
  split
  · intro c hc
    rcases List.mem_cons.1 hc with rfl | hc
    · decide
    · exact showNat_plain _ c hc
  · exact showNat_plain _

theorem showNat_ne (n : Nat) : showNat n ≠ [] := by
  unfold showNat; split <;> simp

theorem showInt_ne (z : Int) : showInt z ≠ [] := by
  unfold showInt; split
  · simp
  · exact showNat_ne _

/-- The items printed for the elements `i, i+1, ...` after a comma. -/
def spaced (txt : Nat → Text) : Nat → Nat → List Text
  | 0, _ => []
  | k + 1, i => (0x20#8 :: txt i) :: spaced txt k (i + 1)

theorem spaced_len (txt : Nat → Text) : ∀ k i, (spaced txt k i).length = k := by
  intro k
  induction k with
  | zero => intro i; rfl
  | succ k ih => intro i; simp [spaced, ih]

theorem spaced_get (txt : Nat → Text) : ∀ k i j, j < k → (spaced txt k i)[j]? = some (0x20#8 :: txt (i + j)) := by
  intro k
  induction k with
  | zero => intro i j h; omega
  | succ k ih =>
    intro i j h
    cases j with
    | zero => simp [spaced]
    | succ j => simp only [spaced, List.getElem?_cons_succ]; rw [ih _ _ (by omega), show i + 1 + j = i + (j + 1) by omega]

theorem printItems_join (pr : Nat → Option Text) (txt : Nat → Text) : ∀ k i, (∀ j, i ≤ j → j < i + (k + 1) → pr j = some (txt j)) →
    printItems pr (k + 1) i = some (joinComma (txt i :: spaced txt k (i + 1)) ++ tSep) := by
  intro k
  induction k with
  | zero =>
    intro i h
    simp [printItems, h i (by omega) (by omega), joinComma, spaced]
  | succ k ih =>
    intro i h
    rw [printItems, h i (by omega) (by omega)]
    simp only
    rw [ih (i + 1) (fun j h1 h2 => h j (by omega) (by omega))]
    simp only [Option.map_some, Option.some.injEq]
    simp only [spaced, joinComma]
    cases spaced txt k (i + 1 + 1) with
    | nil => simp [joinComma, tSep]
    | cons a b => simp [joinComma, tSep]

theorem joinComma_len (items : List Text) (m : Nat) (h : ∀ s ∈ items, s.length ≤ m) : (joinComma items).length ≤ items.length * (m + 1) := by
  induction items with
  | nil => simp [joinComma]
  | cons s ss ih =>
    have h1 := h s (by simp)
    have h2 := ih (fun x hx => h x (by simp [hx]))
    cases ss with
    | nil => simp [joinComma]; omega
    | cons a b =>
      rw [joinComma, List.length_append, List.length_cons, List.length_cons, Nat.add_mul]
      · omega
      · simp

theorem nat_of_int {o o' : Obj} {a b n : Nat} (h : o'.int a n = o.int b n) : o'.nat a n = o.nat b n := by
  unfold Obj.int at h
  have := congrArg BitVec.toNat (BitVec.eq_of_toInt_eq h)
  rwa [BitVec.toNat_ofNat, BitVec.toNat_ofNat, Nat.mod_eq_of_lt (nat_lt _ _ _), Nat.mod_eq_of_lt (nat_lt _ _ _)] at this

/-- The number of element `i` of an integer list, as printed. -/
def elemText (ty : RT) (o : Obj) (a n : Nat) : Text := if ty = .Integer then showInt (o.int a n) else showNat (o.nat a n)

theorem print_list (env : Env) (r : RType) (ty : RT) (n : Nat) (o : Obj) (hl : IntList r ty n) (ht : ty = .Integer ∨ ty = .UnsignedInteger)
    (k : Nat) (hk : r.numItems.toNat = k + 1) :
    printMember env r r.offset.toNat o = some ((brackets r.type).1 ::
      joinComma (elemText ty o (r.offset.toNat + n * 0) n :: spaced (fun i => elemText ty o (r.offset.toNat + n * i) n) k 1) ++
      [(brackets r.type).2]) := by
  obtain ⟨h1, hty, hn, hw⟩ := hl
  have hw' : n = 1 ∨ n = 2 ∨ n = 4 ∨ n = 8 := hw
  obtain ⟨e1, e2, _⟩ := elem_int hty ht
  have hpr : ∀ j, print env 2 (elemType r) (r.offset.toNat + r.subSize.toNat * j) o = some (elemText ty o (r.offset.toNat + n * j) n) := by
    intro j
    subst hn
    unfold print elemText
    rw [← e2] at hw' ⊢
    simp only [e1]
    rcases ht with rfl | rfl
    · simp only [if_pos hw', if_true]; rfl
    · simp only [if_pos hw']
      rw [if_neg (by simp)]; rfl
  have hpi := printItems_join (fun i => print env 2 (elemType r) (r.offset.toNat + r.subSize.toNat * i) o)
    (fun i => elemText ty o (r.offset.toNat + n * i) n) k 0 (fun j _ _ => hpr j)
  have hpa : ∀ op cl, printArray (fun i => print env 2 (elemType r) (r.offset.toNat + r.subSize.toNat * i) o) op cl r.numItems.toNat =
      some (op :: joinComma (elemText ty o (r.offset.toNat + n * 0) n :: spaced (fun i => elemText ty o (r.offset.toNat + n * i) n) k 1) ++ [cl]) := by
    intro op cl
    unfold printArray
    rw [hk, if_neg (by omega), hpi]
    simp only [Option.map_some, Option.some.injEq, tSep]
    generalize joinComma _ = J
    rw [show op :: (J ++ [0x2c#8, 0x20#8]) = ((op :: J) ++ [0x2c#8]) ++ [0x20#8] by simp, List.dropLast_concat, List.dropLast_concat]
  unfold printMember print
  rcases h1 with h | h | h <;> simp only [h, brackets] <;> exact hpa _ _

/-- C27, round trip: the text printed for a list of integers (any width, signed or unsigned, one or more elements), assigned
to the same field of any object, reports success and restores every element. -/
theorem int_list_roundtrip (env : Env) (c : ClassTab) (h : BitVec 32) (i : Nat) (r : RType) (ty : RT) (n : Nat) (o o' : Obj)
    (hlk : lookup c h = some i) (hr : c.types[i]? = some r) (hl : IntList r ty n) (ht : ty = .Integer ∨ ty = .UnsignedInteger)
    (hpos : 0 < r.numItems.toNat) :
    ∃ t, getByName env c h o = some t ∧ (setByName env c h t o').1 = .None ∧
      ∀ j, j < r.numItems.toNat →
        (setByName env c h t o').2.nat (r.offset.toNat + n * j) n = o.nat (r.offset.toNat + n * j) n := by
  obtain ⟨k, hk⟩ : ∃ k, r.numItems.toNat = k + 1 := ⟨r.numItems.toNat - 1, by omega⟩
  have hto : typeOf c h = some r := by unfold typeOf; rw [hlk]; exact hr
  have hnb : r.type ≠ .BitFieldMember := by rcases hl.1 with h | h | h <;> rw [h] <;> simp
  have hget : getByName env c h o = printMember env r r.offset.toNat o := by
    unfold getByName getByID typeAt
    rw [hlk]; simp only; rw [hr]
    simp only [if_neg hnb]
  rw [hget, print_list env r ty n o hl ht k hk]
  generalize htx : (fun i => elemText ty o (r.offset.toNat + n * i) n) = txt
  have htx' : ∀ i, elemText ty o (r.offset.toNat + n * i) n = txt i := fun i => by rw [← htx]
  rw [htx']
  generalize hit : txt 0 :: spaced txt k 1 = items
  have hilen : items.length = k + 1 := by rw [← hit]; simp [spaced_len]
  have higet : ∀ j s, items[j]? = some s → s = txt j ∨ s = 0x20#8 :: txt j := by
    intro j s hs
    rw [← hit] at hs
    cases j with
    | zero => left; simpa using hs.symm
    | succ j =>
      right
      rw [List.getElem?_cons_succ] at hs
      have hj : j < k := by
        have := (List.getElem?_eq_some_iff.1 hs).1
        rwa [spaced_len] at this
      rw [spaced_get _ _ _ _ hj] at hs
      rw [← Option.some.inj hs, show 1 + j = j + 1 by omega]
  have hw8 : 8 * n ≤ 64 := by rcases hl.2.2.2 with rfl | rfl | rfl | rfl <;> decide
  have hpw : (2 : Nat) ^ (8 * n) ≤ 2 ^ 64 := Nat.pow_le_pow_right (by omega) hw8
  -- the text of an element
  have hplain : ∀ j, Plain (txt j) ∧ txt j ≠ [] ∧ (∀ c, (txt j).head? = some c → ¬ IsBlank false c) ∧ (txt j).length ≤ 21 := by
    intro j
    rw [← htx' j]
    unfold elemText
    split
    · refine ⟨showInt_plain _, showInt_ne _, ?_, showInt_len _ ?_⟩
      · obtain ⟨pre, e, hp, hh⟩ := showInt_indented (o.int (r.offset.toNat + n * j) n)
        exact hh
      · have := int_range o (r.offset.toNat + n * j) n
        have e : (2 : Int) ^ (8 * n - 1) ≤ 2 ^ 63 := by
          have : (2 : Nat) ^ (8 * n - 1) ≤ 2 ^ 63 := Nat.pow_le_pow_right (by omega) (by omega)
          exact_mod_cast this
        omega
    · refine ⟨showNat_plain _, showNat_ne _, showNat_head _, ?_⟩
      have := nat_lt o (r.offset.toNat + n * j) n
      have := showNat_len 19 (o.nat (r.offset.toNat + n * j) n) (by omega)
      omega
  have hitems : ∀ s ∈ items, Item s ∧ NonBlank s ∧ s.length ≤ 22 := by
    intro s hs
    obtain ⟨j, hj⟩ := List.getElem?_of_mem hs
    obtain ⟨p1, p2, p3, p4⟩ := hplain j
    have hnbk : ∀ x : Text, (∀ c ∈ txt j, c ∈ x) → NonBlank x := by
      intro x hx
      cases ht : txt j with
      | nil => exact absurd ht p2
      | cons a b => exact ⟨a, hx a (by rw [ht]; simp), p3 a (by rw [ht]; rfl)⟩
    rcases higet j s hj with rfl | rfl
    · exact ⟨.plain p2 p1, hnbk _ (fun _ h => h), by omega⟩
    · refine ⟨.plain (by simp) ?_, hnbk _ (fun _ h => by simp [h]), by simp; omega⟩
      intro c hc
      rcases List.mem_cons.1 hc with rfl | hc
      · decide
      · exact p1 c hc
  have hjl := joinComma_len items 22 (fun s hs => (hitems s hs).2.2)
  have hnum := r.numItems.isLt
  have hla := list_assign_partial env c h r [] [] items o' hto hl.1 (by simp) (by simp)
    (fun s hs => ⟨(hitems s hs).1, (hitems s hs).2.1⟩) (by intro h0; rw [h0] at hilen; simp at hilen)
    (by simp only [List.nil_append, List.length_cons, List.length_append, List.length_nil]; omega)
  simp only [List.nil_append] at hla
  rw [if_pos (by omega), List.take_of_length_le (by omega)] at hla
  refine ⟨_, rfl, congrArg Prod.fst hla, ?_⟩
  intro j hj
  rw [show (setByName env c h ((brackets r.type).1 :: joinComma items ++ [(brackets r.type).2]) o').2 = assignEach env r items 0 o'
    from congrArg Prod.snd hla]
  refine assignEach_elem env r n hl.2.2.1 (elem_int hl.2.1 ht).2.2 (size_elem_int hl ht) items
    (fun j o' => o'.nat (r.offset.toNat + n * j) n = o.nat (r.offset.toNat + n * j) n) ?_ ?_ o' j (by omega)
  · intro j s oo hs
    have hind : Indented s (txt j) := by
      rcases higet j s hs with rfl | rfl
      · exact indented_self (hplain j).2.2.1
      · exact ⟨[0x20#8], rfl, by simp [IsBlank], (hplain j).2.2.1⟩
    rcases ht with rfl | rfl
    · have hreads : Reads s (o.int (r.offset.toNat + n * j) n) := by
        refine ⟨txt j, _, _, hind, ?_, signedVal_showInt _⟩
        rw [← htx' j]; exact showInt_literal _
      obtain ⟨l1, l2⟩ := int_range o (r.offset.toNat + n * j) n
      exact nat_of_int (set_elem_signed env r n s _ j oo hl hreads l1 l2)
    · refine set_elem_unsigned env r n s _ j oo hl (txt j) hind ?_ (nat_lt _ _ _)
      rw [← htx' j]; exact showNat_literal _
  · intro j o1 o2 hs hP
    rw [(same_int hs _ n (Or.inl (by have : n * (j + 1) = n * j + n := Nat.mul_succ n j; omega))).1]
    exact hP

/-! ## Witnesses -/

/-- Quoted items are never cut out: `{"a","b"}` on a string[2] assigns nothing and reports success. -/
theorem quoted_items_violated :
    let c : ClassTab := ⟨[⟨.Array, .String, 32, 0, 2, 0, 1, 0⟩], none⟩
    let t : Text := [0x7b#8, 0x22#8, 0x61#8, 0x22#8, 0x2c#8, 0x22#8, 0x62#8, 0x22#8, 0x7d#8]
    (setByName exEnv c 1 t exObj).1 = .None ∧ (setByName exEnv c 1 t exObj).2.strs 0 = [] ∧
      (setByName exEnv c 1 t exObj).2.strs 32 = [] := by decide +kernel

/-- Too few items are not reported: `{1}` on the int16[2] field. -/
theorem short_list_violated : (setByName exEnv exArr 2 [0x7b#8, 0x31#8, 0x7d#8] exObj).1 = .None := by decide +kernel

/-- Non-vacuity: ` {[1, 2], [3, 4]}` on the array of two vectors; `{1, 2}` as an integer list. -/
example : typeOf exArr 3 = some ⟨.Array, .Vector, 2, 2, 2, 8, 3, 0x00020101⟩ ∧
    Item [0x5b#8, 0x31#8, 0x2c#8, 0x20#8, 0x32#8, 0x5d#8] ∧ NonBlank [0x5b#8, 0x31#8, 0x2c#8, 0x20#8, 0x32#8, 0x5d#8] ∧
    (setByName exEnv exArr 3 ([0x7b#8] ++ [0x5b#8, 0x31#8, 0x2c#8, 0x20#8, 0x32#8, 0x5d#8] ++ [0x2c#8] ++
      [0x20#8, 0x5b#8, 0x33#8, 0x2c#8, 0x34#8, 0x5d#8] ++ [0x7d#8]) exObj).2.read 8 4 = [1#8, 2#8, 3#8, 4#8] := by
  refine ⟨rfl, ?_, ⟨0x5b#8, by simp, by simp [IsBlank]⟩, by decide +kernel⟩
  exact Item.bracketed (pre := []) (op := 0x5b#8) (body := [0x31#8, 0x2c#8, 0x20#8, 0x32#8]) (cl := 0x5d#8) (post := [])
    (by simp [Plain]) (Or.inl rfl) (by decide) (Or.inl rfl) (by simp [Plain])

example : IntList ⟨.Array, .Integer, 2, 1, 2, 2, 2, 0⟩ .Integer 2 ∧ lookup exArr 2 = some 1 ∧
    getByName exEnv exArr 2 exObj = some ("{-21846, -21846}".toList.map (fun c => BitVec.ofNat 8 c.toNat)) := by
  refine ⟨⟨Or.inl rfl, rfl, rfl, Or.inr (Or.inl rfl)⟩, rfl, by decide +kernel⟩

end PreCore.Refl
