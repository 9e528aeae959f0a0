import Verif.Props.ReflectorFrame
/-!
# C24 (continued): lists of any scalar, including bools, flags and strings

The frame theorem of `ReflectorFrame` leaves out lists whose elements are assigned even from a blank item. Here: how far such an
assignment can reach at most, for every text, and that it stays inside the list whenever the text has fewer commas than the list
has elements.
-/
namespace PreCore.Refl
open CNum Spec Supercore

/-- Number of commas in a text. -/
def commas (t : Text) : Nat := t.count 0x2c#8

theorem cutItems_length : ∀ t cur scope, (cutItems t cur scope).length ≤ commas t + 1 := by
  intro t
  induction t with
  | nil => intro cur scope; simp [cutItems]
  | cons c cs ih =>
    intro cur scope
    unfold cutItems
    have hc : commas (c :: cs) = commas cs + if c = 0x2c#8 then 1 else 0 := by
      simp [commas, List.count_cons]
    rw [hc]
    simp only
    generalize (if (closes c && scope) = true then false else scope) = sc
    split
    · exact Nat.le_trans (ih _ _) (by omega)
    · split
      · simp
      · split
        · rename_i h
          simp only [List.length_cons]
          have := ih [] sc
          omega
        · exact Nat.le_trans (ih _ _) (by omega)

theorem commas_reverse (t : Text) : commas t.reverse = commas t := by simp [commas]

theorem cutItems_commas : ∀ t cur scope, ∀ x ∈ cutItems t cur scope, commas x ≤ commas cur + commas t := by
  intro t
  induction t with
  | nil => intro cur scope x hx; simp [cutItems] at hx
  | cons c cs ih =>
    intro cur scope x hx
    unfold cutItems at hx
    have hc : ∀ l, commas (c :: l) = commas l + if c = 0x2c#8 then 1 else 0 := by
      intro l; simp [commas, List.count_cons]
    have h0 : commas [] = 0 := rfl
    simp only at hx
    generalize (if (closes c && scope) = true then false else scope) = sc at hx
    split at hx
    · have := ih _ _ x hx
      rw [hc] at this ⊢; omega
    · split at hx
      · simp only [List.mem_singleton] at hx
        subst hx
        rename_i hcs
        subst hcs
        rw [commas_reverse, hc, hc]; omega
      · split at hx
        · rcases List.mem_cons.mp hx with h | h
          · rw [h, commas_reverse]; omega
          · have := ih _ _ x h
            rw [hc]; omega
        · have := ih _ _ x hx
          rw [hc] at this ⊢; omega

/-- Assigning items `i, i+1, …` reaches at most to the last of them. -/
theorem setItems_reach (assign : Text → Nat → Obj → Err × Obj) (numItems subSize base esz : Nat) (P : Text → Prop)
    (hf : ∀ t a o, P t → SameOutside a (a + esz) o (assign t a o).2) (items : List Text) :
    ∀ i o n, (∀ t ∈ items, P (skipStart false t).1) → i + items.length ≤ n + 1 →
      SameOutside base (base + subSize * n + esz) o (setItems assign numItems subSize base items i o).2 := by
  induction items with
  | nil => intro i o n _ _; exact .refl _ _ _
  | cons t ts ih =>
    intro i o n hP hn
    have hPt := hP t (by simp)
    have hPs := fun x hx => hP x (List.mem_cons_of_mem _ hx)
    simp only [List.length_cons] at hn
    unfold setItems
    generalize (skipStart false t).1 = s at hPt
    simp only
    split
    · exact .refl _ _ _
    · split
      · exact .refl _ _ _
      · refine SameOutside.trans ?_ (ih (i + 1) _ n hPs (by omega))
        refine (hf s _ o hPt).mono (by omega) ?_
        have : subSize * i ≤ subSize * n := Nat.mul_le_mul_left _ (by omega)
        omega

theorem commas_sub {s t : Text} (h : s.Sublist t) : commas s ≤ commas t := h.count_le _

theorem skipStart_sub (b : Bool) (t : Text) : (skipStart b t).1.Sublist t := by
  induction t with
  | nil => simp [skipStart]
  | cons c cs ih =>
    unfold skipStart
    split
    · exact ih.trans (List.sublist_cons_self _ _)
    · exact .refl _

theorem setArray_reach (assign : Text → Nat → Obj → Err × Obj) (op cl t) (r : RType) (a : Nat) (o : Obj) (esz : Nat)
    (hf : ∀ s a o, commas s ≤ commas t → SameOutside a (a + esz) o (assign s a o).2) :
    SameOutside a (a + r.subSize.toNat * commas t + esz) o (setArray assign op cl t r a o).2 := by
  unfold setArray
  split
  · split
    · exact .refl _ _ _
    · simp only
      split
      · exact .refl _ _ _
      · rename_i b e _ _ _ _
        have hsub : commas ((t.take e).drop (b + 1)) ≤ commas t :=
          commas_sub ((List.drop_sublist _ _).trans (List.take_sublist _ _))
        refine setItems_reach assign _ _ a esz (fun s => commas s ≤ commas t) hf _ 0 o (commas t) ?_ ?_
        · intro x hx
          have h1 := cutItems_commas _ _ _ x hx
          have h2 := commas_sub (skipStart_sub false x)
          have : commas [] = 0 := rfl
          omega
        · have := cutItems_length ((t.take e).drop (b + 1)) [] false
          omega
  · exact .refl _ _ _

theorem member_list_reach (env : Env) (f : Nat) (r : RType) (t : Text) (a : Nat) (o : Obj) (hl : IsList r.type) (esz : Nat)
    (hf : ∀ s a o, commas s ≤ commas t → SameOutside a (a + esz) o (member env f (elemType r) s a o).2) :
    SameOutside a (a + r.subSize.toNat * commas t + esz) o (member env (f + 1) r t a o).2 := by
  have hs := commas_sub (skipStart_sub false t)
  have key : ∀ op cl, SameOutside a (a + r.subSize.toNat * commas t + esz) o
      (setArray (fun t' a' o' => member env f (elemType r) t' a' o') op cl (skipStart false t).1 r a o).2 := by
    intro op cl
    refine (setArray_reach _ op cl _ r a o esz (fun s a o h => hf s a o (by omega))).mono (Nat.le_refl _) ?_
    have := Nat.mul_le_mul_left r.subSize.toNat hs
    omega
  unfold member
  rcases hl with h | h | h <;> rw [h] <;> exact key _ _

/-- A list of scalars of any kind whose elements fit the element stride. -/
def AnyList (r : RType) : Prop := IsList r.type ∧ IsScalar r.subType ∧ size (elemType r) ≤ r.subSize.toNat

/-- **C24, every list of scalars.** Whatever the text, assigning it reaches at most one element per comma behind the first: nothing
before the field changes, nor anything from `max (elements) (commas + 1)` elements on. -/
theorem list_reach (env : Env) (f : Nat) (r : RType) (t : Text) (a : Nat) (o : Obj) (h : AnyList r) :
    SameOutside a (a + r.subSize.toNat * (commas t + 1)) o (member env f r t a o).2 := by
  obtain ⟨h1, h2, h3⟩ := h
  cases f with
  | zero => exact .refl _ _ _
  | succ f =>
    refine (member_list_reach env f r t a o h1 r.subSize.toNat (fun s a o _ => ?_)).mono (Nat.le_refl _) (by rw [Nat.mul_add]; omega)
    refine (scalar_frame env f (elemType r) s a o ?_).mono (Nat.le_refl _) (by omega)
    rw [elemType_scalar h2]; exact h2

/-- A field to which the text can be assigned without leaving the field: one covered by `frame_partial`, or any list of scalars —
bools, flags and strings included — with more elements than the text has commas, or a list of vectors of such. -/
def Safe (r : RType) (t : Text) : Prop :=
  WF r ∨ (AnyList r ∧ commas t < r.numItems.toNat) ∨
  (IsList r.type ∧ r.subType = .Vector ∧ AnyList (elemType r) ∧ size (elemType r) ≤ r.subSize.toNat ∧
    commas t < (elemType r).numItems.toNat)

theorem anyList_frame (env : Env) (f : Nat) (r : RType) (t : Text) (a : Nat) (o : Obj) (h : AnyList r) (hc : commas t < r.numItems.toNat) :
    SameOutside a (a + size r) o (member env f r t a o).2 := by
  refine (list_reach env f r t a o h).mono (Nat.le_refl _) ?_
  have hs : size r = r.subSize.toNat * r.numItems.toNat := by
    unfold size; rcases h.1 with h | h | h <;> rw [h]
  rw [hs]
  have := Nat.mul_le_mul_left r.subSize.toNat (show commas t + 1 ≤ r.numItems.toNat by omega)
  omega

theorem list_frame' (env : Env) (f : Nat) (r : RType) (t : Text) (a : Nat) (o : Obj) (h1 : IsList r.type) (h2 : r.subType = .Vector)
    (h3 : AnyList (elemType r)) (h4 : size (elemType r) ≤ r.subSize.toNat) (h5 : commas t < (elemType r).numItems.toNat) :
    SameOutside a (a + size r) o (member env (f + 1) r t a o).2 := by
  have hv : (elemType r).type = .Vector := by unfold elemType; rw [if_pos h2]
  have aux : ∀ (items : List Text), (∀ x ∈ items, commas (skipStart false x).1 ≤ commas t) → ∀ i o,
      SameOutside a (a + r.subSize.toNat * r.numItems.toNat) o
        (setItems (fun t' a' o' => member env f (elemType r) t' a' o') r.numItems.toNat r.subSize.toNat a items i o).2 := by
    intro items
    induction items with
    | nil => intro _ i o; exact .refl _ _ _
    | cons x xs ih =>
      intro hx i o
      have hx0 := hx x (by simp)
      unfold setItems
      generalize (skipStart false x).1 = s at hx0
      simp only
      split
      · exact .refl _ _ _
      · split
        · exact .refl _ _ _
        · rename_i h2'
          refine SameOutside.trans ?_ (ih (fun y hy => hx y (List.mem_cons_of_mem _ hy)) _ _)
          by_cases hs : s = []
          · rw [hs, quiet_empty env f _ _ _ (by rw [hv]; trivial)]; exact .refl _ _ _
          · have hi : i < r.numItems.toNat := by
              apply Nat.lt_of_not_le; intro h; exact h2' ⟨hs, h⟩
            refine (anyList_frame env f _ s _ o h3 (by omega)).mono (by omega) ?_
            have : r.subSize.toNat * (i + 1) ≤ r.subSize.toNat * r.numItems.toNat := Nat.mul_le_mul_left _ (by omega)
            rw [Nat.mul_add, Nat.mul_one] at this
            omega
  have hs0 := commas_sub (skipStart_sub false t)
  have key : ∀ op cl, SameOutside a (a + r.subSize.toNat * r.numItems.toNat) o
      (setArray (fun t' a' o' => member env f (elemType r) t' a' o') op cl (skipStart false t).1 r a o).2 := by
    intro op cl
    unfold setArray
    split
    · split
      · exact .refl _ _ _
      · simp only
        split
        · exact .refl _ _ _
        · rename_i b e _ _ _ _
          refine aux _ (fun x hx => ?_) 0 o
          have h1 := cutItems_commas _ _ _ x hx
          have h2 := commas_sub (skipStart_sub false x)
          have h3 : commas [] = 0 := rfl
          have h4 := commas_sub ((List.drop_sublist (b + 1) _).trans (List.take_sublist e (skipStart false t).1))
          omega
    · exact .refl _ _ _
  unfold member size
  rcases h1 with h | h | h <;> rw [h] <;> exact key _ _

theorem safe_frame (env : Env) (f : Nat) (r : RType) (t : Text) (a : Nat) (o : Obj) (h : Safe r t) :
    SameOutside a (a + size r) o (member env f r t a o).2 := by
  rcases h with h | ⟨h, hc⟩ | ⟨h1, h2, h3, h4, h5⟩
  · exact member_frame env f r t a o h
  · exact anyList_frame env f r t a o h hc
  · cases f with
    | zero => exact .refl _ _ _
    | succ f => exact list_frame' env f r t a o h1 h2 h3 h4 h5

theorem safe_not_bits {r : RType} {t : Text} (h : Safe r t) : r.type ≠ .BitFieldMember := by
  intro hb
  have hl : ¬ IsList r.type := by rw [hb]; rintro (h | h | h) <;> cases h
  rcases h with (h | h | h) | h | h
  · rw [hb] at h; exact h
  · exact hl h.1
  · exact hl h.1
  · exact hl h.1.1
  · exact hl h.1

/-- **C24 for lists of bools, flags and strings.** Assigning a text with fewer commas than the list has elements, by name or by
index, changes nothing outside the list; and no text at all reaches further than one element per comma.
Missing for the full statement: texts with as many commas as elements (`array_overrun_violated`). -/
theorem frame_lists_partial (env : Env) (c : ClassTab) (t : Text) (o : Obj) :
    (∀ h r, typeOf c h = some r → Safe r t →
      SameOutside r.offset.toNat (r.offset.toNat + size r) o (setByName env c h t o).2) ∧
    (∀ id r, typeAt c id = some r → Safe r t →
      SameOutside r.offset.toNat (r.offset.toNat + size r) o (setByID env c id t o).2) ∧
    (∀ h r, typeOf c h = some r → AnyList r →
      SameOutside r.offset.toNat (r.offset.toNat + r.subSize.toNat * (commas t + 1)) o (setByName env c h t o).2) ∧
    (∀ id r, typeAt c id = some r → AnyList r →
      SameOutside r.offset.toNat (r.offset.toNat + r.subSize.toNat * (commas t + 1)) o (setByID env c id t o).2) := by
  have hnb : ∀ r : RType, AnyList r → r.type ≠ .BitFieldMember := by
    intro r h hb
    have := h.1; rw [hb] at this; rcases this with h | h | h <;> cases h
  refine ⟨?_, ?_, ?_, ?_⟩
  · intro h r hr hw
    unfold setByName setValue setMember
    rw [hr]
    simp only [if_neg (safe_not_bits hw)]
    exact safe_frame _ _ _ _ _ _ hw
  · intro id r hr hw
    unfold setByID setValue setMember
    rw [hr]
    simp only [if_neg (safe_not_bits hw)]
    exact safe_frame _ _ _ _ _ _ hw
  · intro h r hr hw
    unfold setByName setValue setMember
    rw [hr]
    simp only [if_neg (hnb r hw)]
    exact list_reach _ _ _ _ _ _ hw
  · intro id r hr hw
    unfold setByID setValue setMember
    rw [hr]
    simp only [if_neg (hnb r hw)]
    exact list_reach _ _ _ _ _ _ hw

/-- The bool[1] field of `exArr` and the text "{true}". -/
example : Safe ⟨.Array, .Bool, 1, 0, 1, 0, 1, 0⟩ ([0x7b#8] ++ tTrue ++ [0x7d#8]) ∧
    typeOf exArr 1 = some ⟨.Array, .Bool, 1, 0, 1, 0, 1, 0⟩ ∧
    (setByName exEnv exArr 1 ([0x7b#8] ++ tTrue ++ [0x7d#8]) exObj).2.mem 0 = 1#8 :=
  ⟨.inr (.inl ⟨⟨.inl rfl, trivial, by decide⟩, by decide⟩), rfl, by decide +kernel⟩

/-- A list of two strings (stride 32) and the text "{a,b}". -/
example : Safe ⟨.Array, .String, 32, 0, 2, 0, 1, 0⟩ [0x7b#8, 0x61#8, 0x2c#8, 0x62#8, 0x7d#8] :=
  .inr (.inl ⟨⟨.inl rfl, trivial, by decide⟩, by decide⟩)

end PreCore.Refl
