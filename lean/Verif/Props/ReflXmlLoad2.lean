import Verif.Props.ReflXmlLoad
import Verif.Props.ReflectorFrame2
/-!
# C62 (continued): documents for classes with lists of bools, flags or strings
-/
namespace PreCore.ReflXml
open Refl ReflBin CNum Spec Supercore

/-- Assigning items to a list of strings changes nothing but the strings of its elements. -/
theorem setItems_str (env : Env) (f : Nat) (e : RType) (he : e.type = .String) (numItems subSize base : Nat) (items : List Text) :
    ∀ i o, i + items.length ≤ numItems →
      (setItems (fun t' a' o' => member env f e t' a' o') numItems subSize base items i o).2.mem = o.mem ∧
      ∀ x, (∀ j < numItems, x ≠ base + subSize * j) →
        (setItems (fun t' a' o' => member env f e t' a' o') numItems subSize base items i o).2.strs x = o.strs x := by
  have one : ∀ t a o, (member env f e t a o).2.mem = o.mem ∧ ∀ x, x ≠ a → (member env f e t a o).2.strs x = o.strs x := by
    intro t a o
    cases f with
    | zero => exact ⟨rfl, fun _ _ => rfl⟩
    | succ f =>
      unfold member
      rw [he]
      refine ⟨rfl, fun x hx => ?_⟩
      simp only [Obj.writeStr, if_neg hx]
  induction items with
  | nil => intro i o _; exact ⟨rfl, fun _ _ => rfl⟩
  | cons t ts ih =>
    intro i o hn
    simp only [List.length_cons] at hn
    unfold setItems
    generalize (skipStart false t).1 = s
    simp only
    split
    · exact ⟨rfl, fun _ _ => rfl⟩
    · split
      · exact ⟨rfl, fun _ _ => rfl⟩
      · obtain ⟨h1, h2⟩ := ih (i + 1) (member env f e s (base + subSize * i) o).2 (by omega)
        obtain ⟨g1, g2⟩ := one s (base + subSize * i) o
        exact ⟨h1.trans g1, fun x hx => (h2 x hx).trans (g2 x (hx i (by omega)))⟩

theorem strList_touch (env : Env) (f : Nat) (r : RType) (t : Text) (a : Nat) (o : Obj) (hl : IsList r.type) (hs : r.subType = .String)
    (hc : commas t < r.numItems.toNat) :
    (member env (f + 1) r t a o).2.mem = o.mem ∧
    ∀ x, (∀ j < r.numItems.toNat, x ≠ a + r.subSize.toNat * j) → (member env (f + 1) r t a o).2.strs x = o.strs x := by
  have he : (elemType r).type = .String := by
    have : IsScalar r.subType := by rw [hs]; trivial
    rw [elemType_scalar this, hs]
  have hs0 := commas_sub (skipStart_sub false t)
  have key : ∀ op cl,
      (setArray (fun t' a' o' => member env f (elemType r) t' a' o') op cl (skipStart false t).1 r a o).2.mem = o.mem ∧
      ∀ x, (∀ j < r.numItems.toNat, x ≠ a + r.subSize.toNat * j) →
      (setArray (fun t' a' o' => member env f (elemType r) t' a' o') op cl (skipStart false t).1 r a o).2.strs x = o.strs x := by
    intro op cl
    unfold setArray
    split
    · split
      · exact ⟨rfl, fun _ _ => rfl⟩
      · simp only
        split
        · exact ⟨rfl, fun _ _ => rfl⟩
        · rename_i b e _ _ _ _
          refine setItems_str env f _ he _ _ a _ 0 o ?_
          have h1 := cutItems_length (((skipStart false t).1.take e).drop (b + 1)) [] false
          have h4 := commas_sub ((List.drop_sublist (b + 1) _).trans (List.take_sublist e (skipStart false t).1))
          omega
    · exact ⟨rfl, fun _ _ => rfl⟩
  unfold member
  rcases hl with h | h | h <;> rw [h] <;> exact key _ _

/-- A member to which this text can be assigned without leaving the member: one that takes any text, or a list of scalars of any
kind with more elements than the text has commas. -/
def SoundFor (r : RType) (t : Text) : Prop := Sound r ∨ (AnyList r ∧ commas t < r.numItems.toNat)

theorem leaf_touch_list (X : Ctx) (a : Nat) (r : RType) (t : Text) (o : Obj) (ha : AnyList r) (hc : commas t < r.numItems.toNat) (l : Loc)
    (hl : ¬ leaf r a l) : content (setMember X.env r t a o).2 l = content o l := by
  unfold setMember
  have hleaf : ∀ l, leaf r a l ↔ match l with
      | .bit k => r.subType ≠ .String ∧ 8 * a ≤ k ∧ k < 8 * (a + r.subSize.toNat * r.numItems.toNat)
      | .str x => r.subType = .String ∧ ∃ i < r.numItems.toNat, x = a + r.subSize.toNat * i := by
    intro l
    unfold leaf
    cases l <;> rcases ha.1 with h | h | h <;> rw [h]
  rw [hleaf] at hl
  by_cases hs : r.subType = .String
  · obtain ⟨h1, h2⟩ := strList_touch X.env t.length r t a o ha.1 hs hc
    cases l with
    | bit k =>
      show ((_ : Byte).getLsbD _, _) = ((_ : Byte).getLsbD _, _)
      rw [h1]
    | str x =>
      show (false, _) = (false, _)
      rw [h2 x (fun j hj hx => hl ⟨hs, j, hj, hx⟩)]
  · have hstrs : (member X.env (t.length + 1) r t a o).2.strs = o.strs := by
      have ht := elemType_scalar ha.2.1
      exact list_strs X.env _ r t a o ha.1 (fun t a o => member_strs X.env _ _ t a o (by rw [ht]; exact ha.2.1) (by rw [ht]; exact hs))
    have hf := anyList_frame X.env (t.length + 1) r t a o ha hc
    have hsz : size r = r.subSize.toNat * r.numItems.toNat := by
      unfold size; rcases ha.1 with h | h | h <;> rw [h]
    rw [hsz] at hf
    cases l with
    | str x => show (false, _) = (false, _); rw [hstrs]
    | bit k =>
      show ((_ : Byte).getLsbD _, _) = ((_ : Byte).getLsbD _, _)
      have hk : ¬ (8 * a ≤ k ∧ k < 8 * (a + r.subSize.toNat * r.numItems.toNat)) := fun h => hl ⟨hs, h⟩
      rw [(hf (k / 8) (by omega)).1]

theorem leaf_touch_for (X : Ctx) (inst : Inst) (r : RType) (t : Text) (o : Obj) (h : SoundFor r t) (l : Loc)
    (hl : ¬ leaf r (addr inst r) l) : content (setMember X.env r t (addr inst r) o).2 l = content o l := by
  rcases h with h | ⟨ha, hc⟩
  · exact leaf_touch X inst r t o h l hl
  · exact leaf_touch_list X _ r t o ha hc l hl

/-- `n` is a node of the document, at any depth. -/
inductive Occurs : List Node → Node → Prop
  | here {l : List Node} {n : Node} (h : n ∈ l) : Occurs l n
  | deeper {l : List Node} {m n : Node} (h : m ∈ l) (hn : Occurs m.kids n) : Occurs l n

/-- Every node of the document that is named like a plain member of the class has a text that fits the member. -/
def FitsClass (doc : List Node) (c : ClassDef) : Prop :=
  ∀ n, Occurs doc n → ∀ i r, lookup c.tab (nodeHash n.name) = some i → c.tab.types[i]? = some r → isSub r = false → SoundFor r n.text

/-- Lists of classes are not empty. -/
def FullClass (c : ClassDef) : Prop := ∀ r ∈ c.tab.types, isArray r = true → isSub r = true → 0 < r.numItems.toNat

theorem foldKids_touch_mem {α : Type} (g : α → Obj → Option Obj) (S : Loc → Prop) : ∀ (as : List α), (∀ a ∈ as, Touches (g a) S) →
    Touches (foldKids g as) S := by
  intro as
  induction as with
  | nil => intro _ o0 o1 he l _; cases he; rfl
  | cons a as ih =>
    intro h o0 o1 he l hl
    rw [foldKids_cons] at he
    cases ha : g a o0 with
    | none => rw [ha] at he; cases he
    | some o2 =>
      rw [ha] at he
      rw [ih (fun x hx => h x (List.mem_cons_of_mem _ hx)) o2 o1 he l hl, h a (by simp) o0 o2 ha l hl]

theorem kids_touch_for (X : Ctx) (hreg : ∀ h c, X.reg h = some c → FullClass c) : ∀ (f : Nat) (inst : Inst), FullClass inst.cls →
    ∀ kids, FitsClass kids inst.cls → (∀ h c, X.reg h = some c → FitsClass kids c) →
      Touches (loadKids X f inst kids) (Within X.reg inst) := by
  intro f
  induction f with
  | zero => intro inst _ kids _ _ o0 o1 he; cases he
  | succ f ih =>
    intro inst hc kids hfit hfits
    refine foldKids_touch_mem _ _ kids (fun a ha => ?_)
    intro o0 o1 he l hl
    unfold loadKid at he
    split at he
    · cases he; rfl
    · rename_i i hi
      split at he
      · cases he; rfl
      · rename_i r hr
        have harr := hc r (List.mem_of_getElem? hr)
        have into : ∀ s ks, (∀ n, Occurs ks n → Occurs kids n) → (isArray r = false → s = 0) → isSub r = true →
            Touches (intoSub (loadKids X f) (subClass X.reg inst i s) ks) (Within X.reg inst) := by
          intro s ks hocc hs hsub
          refine intoSub_touch _ _ _ _ (fun sub hsb => ?_)
          obtain ⟨h1, h2⟩ := subClass_count hr hsb (fun h => harr h hsub) hs
          intro p0 p1 hp l hl
          refine ih sub (hreg _ _ h2) ks ?_ ?_ p0 p1 hp l (fun hw => hl (.sub hr hsub h1 hsb hw))
          · exact fun n hn => hfits _ _ h2 n (hocc n hn)
          · exact fun h c hh n hn => hfits h c hh n (hocc n hn)
        split at he
        · rename_i hsub
          split at he
          · rename_i hia
            refine foldKids_touch_mem _ (Within X.reg inst) _ (fun sc hsc => ?_) o0 o1 he l hl
            intro p0 p1 hp
            split at hp
            · cases hp
            · exact into _ _ (fun n hn => .deeper ha (.deeper hsc hn)) (fun h => by rw [hia] at h; cases h) hsub p0 p1 hp
          · exact into _ _ (fun n hn => .deeper ha hn) (fun _ => rfl) hsub o0 o1 he l hl
        · rename_i hsub
          cases he
          have hsub : isSub r = false := by simpa using hsub
          exact leaf_touch_for X inst r _ o0 (hfit a (.here ha) i r hi hr hsub) l (fun h => hl (.leaf hr hsub h))

/-- **C62 (frame), classes with lists of any kind.** Loading a document in which no text for a list of bools, flags or strings has
as many commas as the list has elements changes only members of the instance and of the instances in it.
Missing for the full statement: longer texts for such lists (`Refl.array_overrun_violated`). -/
theorem xml_load_frame_lists_partial (X : Ctx) (hreg : ∀ h c, X.reg h = some c → FullClass c) (f : Nat) (inst : Inst)
    (hc : FullClass inst.cls) (lookup : Bool) (doc : List Node) (hfit : FitsClass doc inst.cls)
    (hfits : ∀ h c, X.reg h = some c → FitsClass doc c) : Touches (load X f inst lookup doc) (Within X.reg inst) := by
  unfold load
  cases lookup with
  | false => exact kids_touch_for X hreg f inst hc doc hfit hfits
  | true =>
    simp only [if_true]
    cases hfd : doc.find? (fun n => nodeHash n.name == inst.cls.hash) with
    | none => intro o0 o1 he l _; cases he; rfl
    | some n =>
      have hm := List.mem_of_find?_eq_some hfd
      exact kids_touch_for X hreg f inst hc n.kids (fun k hk => hfit k (.deeper hm hk))
        (fun h c hh k hk => hfits h c hh k (.deeper hm hk))

/-- The whole outer class of the examples, its list of two strings included, with a document giving the strings "a" and "b". -/
example : FullClass exOuter ∧ (∀ h c, exCtx.reg h = some c → FullClass c) ∧
    FitsClass [.elem (hexName 9#32) [] [.data [0x7b#8, 0x61#8, 0x2c#8, 0x62#8, 0x7d#8]]] exOuter ∧
    (∀ h c, exCtx.reg h = some c → FitsClass [.elem (hexName 9#32) [] [.data [0x7b#8, 0x61#8, 0x2c#8, 0x62#8, 0x7d#8]]] c) := by
  have hin : ∀ h c, exCtx.reg h = some c → c = exInner := by
    intro h c hc
    simp only [exCtx] at hc
    split at hc
    · cases hc; rfl
    · cases hc
  have hocc : ∀ n, Occurs [Node.elem (hexName 9#32) [] [.data [0x7b#8, 0x61#8, 0x2c#8, 0x62#8, 0x7d#8]]] n →
      n = .elem (hexName 9#32) [] [.data [0x7b#8, 0x61#8, 0x2c#8, 0x62#8, 0x7d#8]] ∨ n = .data [0x7b#8, 0x61#8, 0x2c#8, 0x62#8, 0x7d#8] := by
    intro n hn
    cases hn with
    | here h => simp only [List.mem_singleton] at h; exact .inl h
    | deeper h hn =>
      simp only [List.mem_singleton] at h
      subst h
      cases hn with
      | here h => simp only [Node.kids, List.mem_singleton] at h; exact .inr h
      | deeper h hn =>
        simp only [Node.kids, List.mem_singleton] at h
        subst h
        cases hn with
        | here h => cases h
        | deeper h _ => cases h
  have hname : nodeHash (Node.data [0x7b#8, 0x61#8, 0x2c#8, 0x62#8, 0x7d#8]).name = nodeHash [] := rfl
  refine ⟨?_, ?_, ?_, ?_⟩
  · intro r hr
    simp only [exOuter, List.mem_cons, List.not_mem_nil, or_false] at hr
    rcases hr with rfl | rfl | rfl | rfl | rfl <;> intro h1 h2 <;> decide
  · intro h c hc
    rw [hin h c hc]
    intro r hr
    simp only [exInner, List.mem_cons, List.not_mem_nil, or_false] at hr
    rcases hr with rfl | rfl <;> intro h1 h2 <;> cases h1
  · intro n hn i r hi hr hs
    rcases hocc n hn with rfl | rfl
    · have hl : lookup exOuter.tab (nodeHash (hexName 9#32)) = some 4 := by rw [nodeHash_hex]; rfl
      simp only [Node.name] at hi
      rw [hl] at hi
      cases hi
      cases hr
      exact .inr ⟨⟨.inl rfl, trivial, by decide⟩, by decide⟩
    · have hl : lookup exOuter.tab (nodeHash []) = none := by decide +kernel
      rw [hname, hl] at hi
      cases hi
  · intro h c hc n hn i r hi hr hs
    rw [hin h c hc] at hi hr
    rcases hocc n hn with rfl | rfl
    · have hl : lookup exInner.tab (nodeHash (hexName 9#32)) = none := by rw [nodeHash_hex]; rfl
      simp only [Node.name] at hi
      rw [hl] at hi
      cases hi
    · have hl : lookup exInner.tab (nodeHash []) = none := by decide +kernel
      rw [hname, hl] at hi
      cases hi

end PreCore.ReflXml
