import Verif.Spec.ReflXml
import Verif.Lemmas.Shift
import Verif.Props.ReflectorArray
import Verif.Props.ReflectorFlags
import Verif.Props.ReflectorSub
/-!
# C61, C62: saving an object as XML and loading it
-/
namespace PreCore.ReflXml
open Refl ReflBin CNum Spec

/-! ## Names -/

theorem showHex_digits (n : Nat) : ∃ ds, DigitChars 16 (showHex n) ds ∧ ds ≠ [] ∧ positional 16 ds = n := by
  induction n using Nat.strongRecOn with
  | _ n ih =>
    have hd : ∀ k < 16, IsDigit 16 (BitVec.ofNat 8 (if k < 10 then 48 + k else 55 + k)) k := by
      intro k hk
      refine ⟨hk, ?_⟩
      by_cases h : k < 10
      · left; rw [if_pos h]; refine ⟨h, ?_⟩; rw [BitVec.toNat_ofNat]; omega
      · right; rw [if_neg h]; refine ⟨by omega, by omega, ?_⟩; rw [BitVec.toNat_ofNat]; omega
    unfold showHex
    by_cases h : n < 16
    · simp only [h, dite_true]
      exact ⟨[n], .cons (hd n h) .nil, by simp, by simp [positional]⟩
    · simp only [h, dite_false]
      obtain ⟨ds, h1, h2, h3⟩ := ih (n / 16) (by omega)
      refine ⟨ds ++ [n % 16], digitChars_append h1 (.cons (hd _ (by omega)) .nil), by simp, ?_⟩
      rw [positional_append, h3]
      simp only [positional, List.length_cons, List.length_nil]
      omega

theorem strtoull_hex (n : Nat) (hn : n < 2 ^ 64) : strtoull 16 (showHex n) = n := by
  obtain ⟨ds, h1, h2, h3⟩ := showHex_digits n
  have hp : parse 16 (showHex n) = some (false, n) := by
    unfold parse
    obtain ⟨c, cs, d, ds', hcs, rfl, hd⟩ : ∃ c cs d ds', showHex n = c :: cs ∧ ds = d :: ds' ∧ IsDigit 16 c d := by
      generalize showHex n = x at h1
      cases h1 with
      | nil => exact absurd rfl h2
      | cons hd _ => exact ⟨_, _, _, _, rfl, rfl, hd⟩
    have hsp : skipSpace (showHex n) = showHex n := by
      rw [hcs]
      unfold skipSpace
      rw [if_neg]
      rw [isSpace_iff]; exact digit_not_white hd
    have hsg : sign (showHex n) = (false, showHex n) := by
      rw [hcs]
      unfold sign
      simp only [if_neg (digit_not_sign hd).1, if_neg (digit_not_sign hd).2]
    rw [hsp, hsg]
    simp only
    have hx : hexPrefix 16 (showHex n) = showHex n := by
      generalize showHex n = x at h1
      unfold hexPrefix
      split
      · rename_i c0 c1 c2 cs'
        rw [if_neg]
        rintro ⟨_, _, hc, _⟩
        cases h1 with
        | cons _ h1 => cases h1 with
          | cons hd _ =>
            obtain ⟨hlt, hd⟩ := hd
            rcases hc with rfl | rfl <;> simp at hd <;> omega
      · rfl
    rw [hx]
    have := digits_append 16 (by omega) (rest := []) h1 (by intro c hc; cases hc)
    rw [List.append_nil] at this
    rw [this]
    simp only [value_zero, h3]
  unfold strtoull stoull
  rw [hp]
  simp only
  rw [if_neg (by omega)]
  simp

theorem nodeHash_hex (h : BitVec 32) : nodeHash (hexName h) = h := by
  unfold nodeHash hexName
  rw [if_pos (by simp)]
  simp only [List.drop_succ_cons, List.drop_zero]
  rw [strtoull_hex _ (by have := h.isLt; omega)]
  simp

/-- Names that start with `h:` are hash values in hexadecimal, with `0x` or `0X` in front of the digits or without; anything behind the
digits is ignored, and values of more than 64 bits count as the largest one. Every other name is hashed. -/
theorem hash_names (x : Byte) (hx : x = 0x78#8 ∨ x = 0x58#8) {cs ds rest} (hd : DigitChars 16 cs ds) (hn : ds ≠ []) (hr : Stops 16 rest) :
    nodeHash ([0x68#8, 0x3a#8] ++ [0x30#8, x] ++ cs ++ rest) = BitVec.ofNat 32 (min (positional 16 ds) (2 ^ 64 - 1)) ∧
    nodeHash ([0x68#8, 0x3a#8] ++ cs) = BitVec.ofNat 32 (min (positional 16 ds) (2 ^ 64 - 1)) ∧
    (∀ name : Text, (∀ t, name ≠ [0x68#8, 0x3a#8] ++ t) → nodeHash name = Jenkins.jenHash name) := by
  have fin : ∀ t, parse 16 t = some (false, positional 16 ds) → strtoull 16 t = min (positional 16 ds) (2 ^ 64 - 1) := by
    intro t h
    unfold strtoull stoull
    rw [h]
    simp only
    split
    · rename_i h1
      split at h1
      · cases h1
      · injection h1 with h1
        simp only [Bool.false_eq_true, if_false] at h1
        omega
    · rename_i h1
      split at h1 <;> cases h1
    · rename_i h1
      split at h1
      · omega
      · cases h1
  obtain ⟨c, cs', d, ds', hcs, hds, hdig⟩ : ∃ c cs' d ds', cs = c :: cs' ∧ ds = d :: ds' ∧ IsDigit 16 c d := by
    cases hd with
    | nil => exact absurd rfl hn
    | cons hd _ => exact ⟨_, _, _, _, rfl, rfl, hd⟩
  refine ⟨?_, ?_, ?_⟩
  · unfold nodeHash
    rw [if_pos (by simp)]
    congr 1
    apply fin
    unfold parse
    have e : ([0x68#8, 0x3a#8] ++ [0x30#8, x] ++ cs ++ rest).drop 2 = 0x30#8 :: x :: c :: (cs' ++ rest) := by simp [hcs]
    rw [e, show skipSpace (0x30#8 :: x :: c :: (cs' ++ rest)) = 0x30#8 :: x :: c :: (cs' ++ rest) from by simp [skipSpace, isSpace],
      show sign (0x30#8 :: x :: c :: (cs' ++ rest)) = (false, 0x30#8 :: x :: c :: (cs' ++ rest)) from by simp [sign]]
    simp only
    have hp : hexPrefix 16 (0x30#8 :: x :: c :: (cs' ++ rest)) = cs ++ rest := by
      unfold hexPrefix
      simp only
      rw [if_pos ⟨trivial, trivial, hx, by rw [(digitVal_iff 16 (by omega) c d).2 hdig]; rfl⟩, hcs]
      rfl
    rw [hp, digits_append 16 (by omega) hd hr, hds]
    simp only [value_zero]
  · unfold nodeHash
    rw [if_pos (by simp)]
    congr 1
    apply fin
    unfold parse
    have e : ([0x68#8, 0x3a#8] ++ cs).drop 2 = cs := by simp
    have hsp : skipSpace cs = cs := by
      rw [hcs]
      unfold skipSpace
      rw [if_neg]
      rw [isSpace_iff]; exact digit_not_white hdig
    have hsg : sign cs = (false, cs) := by
      rw [hcs]
      unfold sign
      simp only [if_neg (digit_not_sign hdig).1, if_neg (digit_not_sign hdig).2]
    rw [e, hsp, hsg]
    simp only
    have hp : hexPrefix 16 cs = cs := by
      unfold hexPrefix
      split
      · rename_i c0 c1 c2 cs'
        rw [if_neg]
        rintro ⟨_, _, hc, _⟩
        cases hd with
        | cons _ h1 => cases h1 with
          | cons hd _ =>
            obtain ⟨hlt, hd⟩ := hd
            rcases hc with rfl | rfl <;> simp at hd <;> omega
      · rfl
    have := digits_append 16 (by omega) (rest := []) hd (by intro c hc; cases hc)
    rw [List.append_nil] at this
    rw [hp, this, hds]
    simp only [value_zero]
  · intro name h
    unfold nodeHash
    rw [if_neg]
    intro h2
    exact h (name.drop 2) (by rw [← h2, List.take_append_drop])

example : nodeHash [0x68#8, 0x3a#8, 0x30#8, 0x58#8, 0x31#8, 0x66#8, 0x21#8] = 0x1f#32 := by
  simp [nodeHash, strtoull, stoull, parse, skipSpace, sign, hexPrefix, isSpace, digits, digitVal, value]

theorem findHash_first : ∀ (l : List RType) (k i : Nat) (r : RType), (l.map (·.valueNameHash)).Nodup → l[i]? = some r →
    findHash r.valueNameHash (l.map (·.valueNameHash)) k = some (k + i) := by
  intro l
  induction l with
  | nil => intro k i r _ h; simp at h
  | cons x xs ih =>
    intro k i r hn h
    rw [List.map_cons, List.nodup_cons] at hn
    rw [List.map_cons]
    unfold findHash
    cases i with
    | zero =>
      simp only [List.getElem?_cons_zero, Option.some.injEq] at h
      rw [if_pos (by rw [h])]; simp
    | succ i =>
      simp only [List.getElem?_cons_succ] at h
      rw [if_neg, ih (k + 1) i r hn.2 h]
      · congr 1; omega
      · intro he
        exact hn.1 (he ▸ List.mem_map_of_mem (List.mem_of_getElem? h))

/-- The name written for a member leads back to it. -/
theorem named_lookup (nm : Names) (c : ClassDef) (h : Named nm c) (i : Nat) (r : RType) (hr : c.tab.types[i]? = some r) :
    lookup c.tab (nodeHash (memberName nm c i r)) = some i := by
  have hh : nodeHash (memberName nm c i r) = r.valueNameHash := by
    unfold memberName
    cases hc : nm c.hash with
    | none => exact nodeHash_hex _
    | some p =>
      obtain ⟨cn, ns⟩ := p
      obtain ⟨h1, h2⟩ := h.2 cn ns hc
      have hi : i < ns.length := by rw [h1]; exact (List.getElem?_eq_some_iff.mp hr).1
      obtain ⟨g1, g2⟩ := h2 i r ns[i] hr (List.getElem?_eq_getElem hi)
      simp only
      rw [List.getD_eq_getElem?_getD, List.getElem?_eq_getElem hi, Option.getD_some]
      unfold nodeHash
      rw [if_neg g2, g1]
  rw [hh]
  unfold lookup
  rw [findHash_first _ 0 i r h.1 hr]
  simp

theorem atoll_show (n : Nat) (hn : n < 2 ^ 63) : atoll (showNat n) = n := by
  unfold atoll
  have hl := literal_parse (showNat_literal n)
  have hb : numBase (showNat n) = 10 := by
    obtain ⟨ds, h1, _, _⟩ := showNat_digits n
    exact numBase_dec (not_hex_digits h1)
  rw [hb] at hl
  rw [hl]
  simp only [Bool.false_eq_true, if_false]
  omega

theorem item_index (s : Nat) (hs : s < 2 ^ 63) : toSize (atoll ((itemName s).drop 2)) = s := by
  unfold itemName
  simp only [List.drop_succ_cons, List.drop_zero]
  rw [atoll_show s hs]
  unfold toSize
  omega

/-! ## The round trip, for members whose text can be read back -/

/-- The text printed for this member can be read back: it survives the XML parser, and assigning it restores the member and
nothing else. -/
def TextOk (X : Ctx) (o : Obj) (r : RType) (a : Nat) : Prop :=
  ∃ t, printMember X.env r a o = some t ∧ firstData (X.frag t) = t ∧
    Restores (fun o0 => some (setMember X.env r t a o0).2) o (leaf r a)

/-- A class whose members are named, whose texts can be read back, and whose member classes (nested less than `f` deep) are
registered and of the same kind. -/
def Readable (X : Ctx) (o : Obj) : Nat → Inst → Prop
  | 0, _ => False
  | f + 1, inst => Named X.nm inst.cls ∧ ∀ (i : Nat) (r : RType), inst.cls.tab.types[i]? = some r →
      if isSub r then ∀ s < count r, ∃ sub, subClass X.reg inst i s = some sub ∧ Readable X o f sub
      else TextOk X o r (addr inst r)

theorem Restores.union {s1 s2 : Obj → Option Obj} {o : Obj} {S T : Loc → Prop} (h1 : Restores s1 o S) (h2 : Restores s2 o T) :
    Restores (fun o0 => (s1 o0).bind s2) o (fun l => S l ∨ T l) := by
  intro o0
  obtain ⟨o1, e1, a1, b1⟩ := h1 o0
  obtain ⟨o2, e2, a2, b2⟩ := h2 o1
  refine ⟨o2, by show (s1 o0).bind s2 = _; rw [e1]; exact e2, ?_, ?_⟩
  · intro l hl
    by_cases ht : T l
    · exact a2 l ht
    · rw [b2 l ht]; exact a1 l (hl.resolve_right ht)
  · intro l hl
    rw [b2 l (fun h => hl (.inr h)), b1 l (fun h => hl (.inl h))]

theorem Restores.congr {s : Obj → Option Obj} {o : Obj} {S T : Loc → Prop} (h : Restores s o S) (he : ∀ l, S l ↔ T l) :
    Restores s o T := by
  intro o0
  obtain ⟨o1, e1, a1, b1⟩ := h o0
  exact ⟨o1, e1, fun l hl => a1 l ((he l).mpr hl), fun l hl => b1 l (fun h => hl ((he l).mp h))⟩

theorem Restores.nothing (o : Obj) : Restores some o (fun _ => False) :=
  fun o0 => ⟨o0, rfl, fun _ h => h.elim, fun _ _ => rfl⟩

theorem foldKids_cons {α : Type} (g : α → Obj → Option Obj) (a : α) (as : List α) (o : Obj) :
    foldKids g (a :: as) o = (g a o).bind (foldKids g as) := by
  show (match g a o with | none => none | some o => foldKids g as o) = _
  cases g a o <;> rfl

/-- Collected nodes that each restore a part restore the whole. -/
theorem collect_rt {α : Type} (g : Nat → Option α) (ld : α → Obj → Option Obj) (o : Obj) (S : Nat → Loc → Prop) :
    ∀ k i, (∀ j, i ≤ j → j < i + k → ∃ n, g j = some n ∧ Restores (ld n) o (S j)) →
      ∃ ns, collect g k i = some ns ∧ Restores (foldKids ld ns) o (fun l => ∃ j, i ≤ j ∧ j < i + k ∧ S j l) := by
  intro k
  induction k with
  | zero =>
    intro i _
    exact ⟨[], rfl, (Restores.nothing o).congr (fun l => by constructor; exact False.elim; rintro ⟨j, h1, h2, _⟩; omega)⟩
  | succ k ih =>
    intro i h
    obtain ⟨n, hn, hr⟩ := h i (by omega) (by omega)
    obtain ⟨ns, hns, hrs⟩ := ih (i + 1) (fun j h1 h2 => h j (by omega) (by omega))
    refine ⟨n :: ns, by unfold collect; rw [hn, hns]; rfl, ?_⟩
    have := (hr.union hrs).congr (T := fun l => ∃ j, i ≤ j ∧ j < i + (k + 1) ∧ S j l) (fun l => by
      constructor
      · rintro (h | ⟨j, h1, h2, h3⟩)
        · exact ⟨i, by omega, by omega, h⟩
        · exact ⟨j, by omega, by omega, h3⟩
      · rintro ⟨j, h1, h2, h3⟩
        by_cases hj : j = i
        · left; rw [← hj]; exact h3
        · right; exact ⟨j, by omega, by omega, h3⟩)
    have he : foldKids ld (n :: ns) = fun o0 => (ld n o0).bind (foldKids ld ns) := by
      funext o0; exact foldKids_cons ld n ns o0
    rw [he]; exact this

theorem collectT_rt {α : Type} (g : Nat → RType → Option α) (ld : α → Obj → Option Obj) (o : Obj) (S : Nat → RType → Loc → Prop) :
    ∀ (ts : List RType) (k : Nat), (∀ i r, ts[i]? = some r → ∃ n, g (k + i) r = some n ∧ Restores (ld n) o (S (k + i) r)) →
      ∃ ns, collectT g ts k = some ns ∧ Restores (foldKids ld ns) o (fun l => ∃ i r, ts[i]? = some r ∧ S (k + i) r l) := by
  intro ts
  induction ts with
  | nil =>
    intro k _
    exact ⟨[], rfl, (Restores.nothing o).congr (fun l => by constructor; exact False.elim; rintro ⟨i, r, h, _⟩; simp at h)⟩
  | cons t ts ih =>
    intro k h
    obtain ⟨n, hn, hr⟩ := h 0 t rfl
    obtain ⟨ns, hns, hrs⟩ := ih (k + 1) (fun i r hi => by
      have := h (i + 1) r (by simpa using hi)
      rwa [show k + (i + 1) = k + 1 + i by omega] at this)
    refine ⟨n :: ns, by unfold collectT; rw [Nat.add_zero] at hn; rw [hn, hns]; rfl, ?_⟩
    have he : foldKids ld (n :: ns) = fun o0 => (ld n o0).bind (foldKids ld ns) := by
      funext o0; exact foldKids_cons ld n ns o0
    rw [he]
    refine (hr.union hrs).congr (fun l => ?_)
    constructor
    · rintro (h | ⟨i, r, h1, h2⟩)
      · exact ⟨0, t, rfl, h⟩
      · exact ⟨i + 1, r, by simpa using h1, by rwa [show k + (i + 1) = k + 1 + i by omega]⟩
    · rintro ⟨i, r, h1, h2⟩
      cases i with
      | zero => left; simp only [List.getElem?_cons_zero, Option.some.injEq] at h1; rw [← h1] at h2; exact h2
      | succ i => right; exact ⟨i, r, by simpa using h1, by rwa [show k + 1 + i = k + (i + 1) by omega]⟩

theorem kids_rt (X : Ctx) (o : Obj) : ∀ (f : Nat) (inst : Inst), Readable X o f inst →
    ∃ ks, saveKids X o f inst = some ks ∧ Restores (loadKids X f inst ks) o (Within X.reg inst) := by
  intro f
  induction f with
  | zero => intro inst h; exact h.elim
  | succ f ih =>
    intro inst ⟨hnm, hm⟩
    let S : Nat → RType → Loc → Prop := fun i r l =>
      (isSub r = false ∧ leaf r (addr inst r) l) ∨
      (isSub r = true ∧ ∃ s < count r, ∃ sub, subClass X.reg inst i s = some sub ∧ Within X.reg sub l)
    have key := collectT_rt (saveMember X (saveKids X o f) o inst) (loadKid X (loadKids X f) inst) o S inst.cls.tab.types 0 (by
      intro i r hr
      rw [Nat.zero_add]
      have hlk := named_lookup X.nm inst.cls hnm i r hr
      have hmm := hm i r hr
      cases hs : isSub r with
      | false =>
        rw [hs] at hmm
        simp only [Bool.false_eq_true, if_false] at hmm
        obtain ⟨t, h1, h2, h3⟩ := hmm
        refine ⟨.elem (memberName X.nm inst.cls i r) [] (X.frag t), ?_, ?_⟩
        · unfold saveMember; simp only [hs, h1]; rfl
        · have he : loadKid X (loadKids X f) inst (.elem (memberName X.nm inst.cls i r) [] (X.frag t)) =
              fun o0 => some (setMember X.env r t (addr inst r) o0).2 := by
            funext o0
            unfold loadKid
            simp only [Node.name, hlk, hr, hs, Node.text, h2]
            rfl
          rw [he]
          exact h3.congr (fun l => ⟨fun h => .inl ⟨hs, h⟩, fun h => by
            rcases h with ⟨_, h⟩ | ⟨h, _⟩
            · exact h
            · rw [hs] at h; cases h⟩)
      | true =>
        rw [hs] at hmm
        simp only [if_true] at hmm
        have hS : ∀ l, S i r l ↔ ∃ s < count r, ∃ sub, subClass X.reg inst i s = some sub ∧ Within X.reg sub l := by
          intro l
          constructor
          · rintro (⟨h, _⟩ | ⟨_, h⟩)
            · rw [hs] at h; cases h
            · exact h
          · intro h; exact .inr ⟨hs, h⟩
        cases ha : isArray r with
        | false =>
          have hc : count r = 1 := by unfold count; rw [ha]; rfl
          obtain ⟨sub, h1, h2⟩ := hmm 0 (by omega)
          obtain ⟨ks, h3, h4⟩ := ih sub h2
          refine ⟨.elem (memberName X.nm inst.cls i r) [] ks, ?_, ?_⟩
          · unfold saveMember; simp only [hs, ha, h1, Option.bind_some, h3]; rfl
          · have he : loadKid X (loadKids X f) inst (.elem (memberName X.nm inst.cls i r) [] ks) = loadKids X f sub ks := by
              funext o0
              unfold loadKid
              simp only [Node.name, hlk, hr, hs, ha, h1, intoSub, Node.kids]
              rfl
            rw [he]
            refine h4.congr (fun l => ?_)
            rw [hS l]
            constructor
            · intro h; exact ⟨0, by omega, sub, h1, h⟩
            · rintro ⟨s, hs0, sub', h5, h6⟩
              have : s = 0 := by omega
              subst this
              rw [h1] at h5; cases h5; exact h6
        | true =>
          have hc : count r = r.numItems.toNat := by unfold count; rw [ha]; rfl
          have key2 := collect_rt
            (fun s => ((subClass X.reg inst i s).bind (saveKids X o f)).map (Node.elem (itemName s) []))
            (fun sc o => if sc.name.length < 2 then none else
              intoSub (loadKids X f) (subClass X.reg inst i (toSize (atoll (sc.name.drop 2)))) sc.kids o) o
            (fun s l => ∃ sub, subClass X.reg inst i s = some sub ∧ Within X.reg sub l) r.numItems.toNat 0 (by
              intro s _ hs2
              obtain ⟨sub, h1, h2⟩ := hmm s (by omega)
              obtain ⟨ks, h3, h4⟩ := ih sub h2
              refine ⟨.elem (itemName s) [] ks, by simp only [h1, Option.bind_some, h3]; rfl, ?_⟩
              have he : (fun o0 => if (Node.elem (itemName s) [] ks).name.length < 2 then none else
                  intoSub (loadKids X f) (subClass X.reg inst i (toSize (atoll ((Node.elem (itemName s) [] ks).name.drop 2))))
                    (Node.elem (itemName s) [] ks).kids o0) = loadKids X f sub ks := by
                funext o0
                show (if (itemName s).length < 2 then none else
                  intoSub (loadKids X f) (subClass X.reg inst i (toSize (atoll ((itemName s).drop 2)))) ks o0) = _
                rw [if_neg (by unfold itemName; simp), item_index s (by have := r.numItems.isLt; omega), h1]
                rfl
              rw [he]
              refine h4.congr (fun l => ?_)
              constructor
              · intro h; exact ⟨sub, h1, h⟩
              · rintro ⟨sub', h5, h6⟩; rw [h1] at h5; cases h5; exact h6)
          obtain ⟨ns, h1, h2⟩ := key2
          refine ⟨.elem (memberName X.nm inst.cls i r) [] ns, ?_, ?_⟩
          · unfold saveMember; simp only [hs, ha, h1]; rfl
          · have he : loadKid X (loadKids X f) inst (.elem (memberName X.nm inst.cls i r) [] ns) =
                foldKids (fun sc o => if sc.name.length < 2 then none else
                  intoSub (loadKids X f) (subClass X.reg inst i (toSize (atoll (sc.name.drop 2)))) sc.kids o) ns := by
              funext o0
              unfold loadKid
              simp only [Node.name, hlk, hr, hs, ha, Node.kids]
              rfl
            rw [he]
            refine h2.congr (fun l => ?_)
            rw [hS l]
            constructor
            · rintro ⟨j, _, h4, h5⟩; exact ⟨j, by omega, h5⟩
            · rintro ⟨s, h4, h5⟩; exact ⟨s, by omega, by omega, h5⟩)
    obtain ⟨ks, h1, h2⟩ := key
    refine ⟨ks, h1, h2.congr (fun l => ?_)⟩
    constructor
    · rintro ⟨i, r, hr, h | ⟨hs, s, hc, sub, h3, h4⟩⟩
      · exact .leaf hr h.1 h.2
      · rw [Nat.zero_add] at h3
        exact .sub hr hs hc h3 h4
    · intro h
      cases h with
      | leaf hr hs hl => exact ⟨_, _, hr, .inl ⟨hs, hl⟩⟩
      | sub hr hs hc hi hl => exact ⟨_, _, hr, .inr ⟨hs, _, hc, _, by rw [Nat.zero_add]; exact hi, hl⟩⟩

end PreCore.ReflXml
