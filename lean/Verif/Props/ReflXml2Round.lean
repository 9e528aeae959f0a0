import Verif.Props.ReflXml2
/-!
# C63: an object saved with `SaveV2` is loaded back by `LoadV2`
-/
namespace PreCore.ReflXml
open Refl ReflBin CNum Spec Supercore

theorem bits_text {X : Ctx} {o : Obj} {r : RType} {a : Nat} {t : Text} (ht : r.type = .BitFieldMember) (h : printMember X.env r a o = some t)
    (hs0 : 0 < r.subSize.toNat) (hs : r.subSize.toNat ≤ 30) (h64 : r.offset.toNat + r.subSize.toNat ≤ 64) : 0#8 ∉ t := by
  have := printMember_shift X.env r a 0 o
  rw [Nat.add_zero] at this
  rw [this, bitmember_print X.env r 0 (o.shift a) _ _ ht rfl rfl hs0 hs h64 rfl] at h
  have hlt : (o.shift a).bits r.offset.toNat r.subSize.toNat < 2 ^ r.subSize.toNat := Nat.mod_lt _ (Nat.two_pow_pos _)
  have hp : (2 : Nat) ^ r.subSize.toNat ≤ 2 ^ 30 := Nat.pow_le_pow_right (by omega) hs
  rw [← Option.some.inj h]
  intro hm
  split at hm
  · exact ((showNat_clean _ (by omega)).1 _ hm).2.2.2.2.2.2 rfl
  · refine ((showInt_clean _ ?_).1 _ hm).2.2.2.2.2.2 rfl
    have h1 := @BitVec.toInt_lt r.subSize.toNat (BitVec.ofNat r.subSize.toNat ((o.shift a).bits r.offset.toNat r.subSize.toNat))
    have h2 := @BitVec.le_toInt r.subSize.toNat (BitVec.ofNat r.subSize.toNat ((o.shift a).bits r.offset.toNat r.subSize.toNat))
    have hp2 : (2 : Nat) ^ (r.subSize.toNat - 1) ≤ 2 ^ 30 := Nat.pow_le_pow_right (by omega) (by omega)
    have hp3 : ((2 : Int) ^ (r.subSize.toNat - 1)) = (((2 : Nat) ^ (r.subSize.toNat - 1) : Nat) : Int) := by simp
    rw [hp3] at h1 h2
    omega

/-- A member saved as the text of a child. -/
theorem part_text (X : Ctx) (strAttr : Bool) (o : Obj) (inst : Inst) (i : Nat) (r : RType) (hn : Named2 X.nm inst.cls)
    (hr : inst.cls.tab.types[i]? = some r) (hsub : isSub r = false) (h : TextOk X o r (addr inst r))
    (hsave : ∀ sv, saveMember2 X strAttr sv o inst i r = (printMember X.env r (addr inst r) o).map
      (fun t => ([], [Node.elem (memberName X.nm inst.cls i r) [] (X.frag t)]))) : Part2Ok X strAttr o inst i r := by
  obtain ⟨t, h1, h2, h3⟩ := h
  refine ⟨[], [.elem (memberName X.nm inst.cls i r) [] (X.frag t)], fun sv => ?_, fun _ => False, leaf r (addr inst r), .nil (fun _ h => h),
    fun ld => .one ?_, fun l => ⟨.inr, fun h => h.resolve_left id⟩⟩
  · rw [hsave, h1]; rfl
  · have he : loadKid2 X ld inst (.elem (memberName X.nm inst.cls i r) [] (X.frag t)) =
        fun o0 => some (setMember X.env r t (addr inst r) o0).2 := by
      funext o0
      unfold loadKid2
      simp only [Node.name, named2_member hn hr, lookup_hash hn.1 hr, hr, hsub, Node.attrs, Node.text, h2]
      rfl
    rw [he]
    exact h3

theorem part_strings (X : Ctx) (hX : Parses X.frag) (strAttr : Bool) (o : Obj) (inst : Inst) (i : Nat) (r : RType) (hn : Named2 X.nm inst.cls)
    (hr : inst.cls.tab.types[i]? = some r) (ha : isArray r = true) (hN : 0 < r.numItems.toNat) (hs : r.subType = .String)
    (h : ∀ i < r.numItems.toNat, Clean (o.strs (inst.base + r.offset.toNat + r.subSize.toNat * i))) : Part2Ok X strAttr o inst i r := by
  have hty : r.type = .Array ∨ r.type = .ArrayClass := by unfold isArray at ha; simpa using ha
  have hsub : isSub r = false := by unfold isSub; rcases hty with h | h <;> rw [h, hs] <;> simp
  refine part_text X strAttr o inst i r hn hr hsub (faithful_ok X hX o inst r ?_) (fun sv => ?_)
  · unfold Faithful
    rcases hty with h' | h' <;> simp only [h', hs] <;> exact ⟨hN, h⟩
  · unfold saveMember2
    rcases hty with h' | h' <;> simp only [h', hs, isAttr, isAttrItem, hsub, ha, Bool.false_eq_true, if_false, if_true]

theorem leaf2 (X : Ctx) (hX : Parses X.frag) (strAttr : Bool) (o : Obj) (inst : Inst) (i : Nat) (r : RType) (hn : Named2 X.nm inst.cls)
    (hr : inst.cls.tab.types[i]? = some r) (h : Faithful2 X.env strAttr o r inst.base) : Part2Ok X strAttr o inst i r := by
  have list : (r.type = .Array ∨ r.type = .ArrayClass) → ListFaithful2 X.env o r inst.base → Part2Ok X strAttr o inst i r := by
    intro hty ⟨h1, h2, h3, h4, h5, h7, h6⟩
    have ha : isArray r = true := by unfold isArray; rcases hty with h | h <;> rw [h] <;> rfl
    by_cases hv : r.subType = .Vector
    · obtain ⟨g1, g2, g3, g4, g5, g6, g7⟩ := h4 hv
      exact part_vectors X strAttr o inst i r hn hr g1 hv h3 g2 g3 g4 g5 g6 g7
    · by_cases hf : r.subType = .EnumFlags
      · obtain ⟨g1, tab, g2, g3⟩ := h5 hf
        exact part_flagsList X strAttr o inst i r hn hr g1 hf h2 h3 h1 tab g2 g3
      · by_cases hstr : r.subType = .String
        · exact part_strings X hX strAttr o inst i r hn hr ha h1 hstr (h7 hstr)
        · exact part_items X strAttr o inst i r hn hr ha h2 h3 hf (h6 hv hf hstr)
  unfold Faithful2 at h
  cases ht : r.type <;> simp only [ht] at h
  case Bool => exact part_scalar X strAttr o inst i r hn hr (by rw [ht]; rfl) (by rw [ht]; simp) h
  case Integer => exact part_scalar X strAttr o inst i r hn hr (by rw [ht]; rfl) (by rw [ht]; simp) h
  case UnsignedInteger => exact part_scalar X strAttr o inst i r hn hr (by rw [ht]; rfl) (by rw [ht]; simp) h
  case FloatingPoint => exact part_scalar X strAttr o inst i r hn hr (by rw [ht]; rfl) (by rw [ht]; simp) h
  case Enum => exact part_scalar X strAttr o inst i r hn hr (by rw [ht]; rfl) (by rw [ht]; simp) h
  case BitFieldMember =>
    obtain ⟨t, h1, _, h3⟩ := faithful_ok X hX o inst r h
    unfold Faithful at h
    simp only [ht] at h
    exact part_attr X strAttr o inst i r hn hr (by rw [ht]; rfl) t h1 (bits_text ht h1 h.1 h.2.1 h.2.2.1) h3
  case EnumFlags =>
    obtain ⟨tab, h1, h2⟩ := h
    exact part_flags X strAttr o inst i r hn hr ht tab h1 h2
  case Vector => exact part_vector X strAttr o inst i r hn hr ht h.2.2.2.1 h.2.2.2.2 h.2.1 h.2.2.1 h.1
  case Array => exact list (.inl ht) h
  case ArrayClass => exact list (.inr ht) h
  case None => exfalso; revert h; unfold ScalarFaithful; simp [ht]
  case Class => exfalso; revert h; unfold ScalarFaithful; simp [ht]
  case CString => exfalso; revert h; unfold ScalarFaithful; simp [ht]
  case BitFieldClass => exfalso; revert h; unfold ScalarFaithful; simp [ht]
  case String =>
    cases hsa : strAttr with
    | true =>
      rw [if_pos hsa] at h
      have hA : addr inst r = inst.base + r.offset.toNat := by unfold addr; rw [if_neg]; rw [ht]; simp
      refine part_attr X true o inst i r hn hr (by rw [ht]; rfl) (o.strs (inst.base + r.offset.toNat)) ?_ h.1 ?_
      · rw [hA]; unfold printMember print; simp only [ht]
      · rw [hA]
        exact (string_set X.env o r _ ht h.2).congr (fun l => leaf_string ht _ l)
    | false =>
      rw [hsa] at h
      simp only [Bool.false_eq_true, if_false] at h
      have hsub : isSub r = false := by unfold isSub isArray; rw [ht]; simp
      have ha : isArray r = false := by unfold isArray; rw [ht]; simp
      refine part_text X false o inst i r hn hr hsub (faithful_ok X hX o inst r h) (fun sv => ?_)
      unfold saveMember2
      simp only [ht, isAttr, Bool.false_eq_true, if_false, hsub, ha]

/-! ## Nested classes -/

/-- Every member of the instance, and of the instances in it, has such a value; member classes are registered and nested
finitely deep. -/
inductive Savable2 (X : Ctx) (strAttr : Bool) (o : Obj) : Inst → Prop
  | mk {inst : Inst} (hn : Named2 X.nm inst.cls)
      (hl : ∀ (i : Nat) (r : RType), inst.cls.tab.types[i]? = some r → isSub r = false → Faithful2 X.env strAttr o r inst.base)
      (hd : ∀ (i : Nat) (r : RType) (s : Nat), inst.cls.tab.types[i]? = some r → isSub r = true → s < count r →
        ∃ sub, subClass X.reg inst i s = some sub)
      (hs : ∀ (i : Nat) (r : RType) (s : Nat) (sub : Inst), inst.cls.tab.types[i]? = some r → isSub r = true → s < count r →
        subClass X.reg inst i s = some sub → Savable2 X strAttr o sub) : Savable2 X strAttr o inst

/-- What saving an instance writes restores it, at recursion bound `f` and all larger ones. -/
def Parts2Ok (X : Ctx) (strAttr : Bool) (o : Obj) (f : Nat) (inst : Inst) : Prop :=
  ∀ g ≥ f, ∃ p, saveParts X strAttr o g inst = some p ∧ ∀ name, Restores (loadNode2 X g inst (.elem name p.1 p.2)) o (Within X.reg inst)

theorem collectT_cover {α β : Type} (get : Nat → RType → Option (List α × List β)) (g : α → Obj → Option Obj) (g' : β → Obj → Option Obj) (o : Obj)
    (S : Nat → RType → Loc → Prop) : ∀ (ts : List RType) (k : Nat),
    (∀ i r, ts[i]? = some r → ∃ as bs, get (k + i) r = some (as, bs) ∧ ∃ S1 S2, Cover g o as S1 ∧ Cover g' o bs S2 ∧ ∀ l, S (k + i) r l ↔ (S1 l ∨ S2 l)) →
      ∃ ps S1 S2, collectT get ts k = some ps ∧ Cover g o (ps.map (·.1)).flatten S1 ∧ Cover g' o (ps.map (·.2)).flatten S2 ∧
        ∀ l, (S1 l ∨ S2 l) ↔ ∃ i r, ts[i]? = some r ∧ S (k + i) r l := by
  intro ts
  induction ts with
  | nil =>
    intro k _
    refine ⟨[], fun _ => False, fun _ => False, rfl, .nil (fun _ h => h), .nil (fun _ h => h), fun l => ?_⟩
    constructor
    · rintro (h | h) <;> exact h.elim
    · rintro ⟨i, r, h, _⟩; simp at h
  | cons t ts ih =>
    intro k h
    obtain ⟨as, bs, h1, S1, S2, h2, h3, h4⟩ := h 0 t rfl
    obtain ⟨ps, T1, T2, g1, g2, g3, g4⟩ := ih (k + 1) (fun i r hi => by
      have := h (i + 1) r (by simpa using hi)
      rwa [show k + (i + 1) = k + 1 + i by omega] at this)
    rw [Nat.add_zero] at h1 h4
    refine ⟨(as, bs) :: ps, _, _, by unfold collectT; rw [h1, g1]; rfl, by simpa using h2.append g2, by simpa using h3.append g3, fun l => ?_⟩
    constructor
    · rintro ((h | h) | (h | h))
      · exact ⟨0, t, rfl, (h4 l).2 (.inl h)⟩
      · obtain ⟨i, r, e1, e2⟩ := (g4 l).1 (.inl h)
        exact ⟨i + 1, r, by simpa using e1, by rwa [show k + (i + 1) = k + 1 + i by omega]⟩
      · exact ⟨0, t, rfl, (h4 l).2 (.inr h)⟩
      · obtain ⟨i, r, e1, e2⟩ := (g4 l).1 (.inr h)
        exact ⟨i + 1, r, by simpa using e1, by rwa [show k + (i + 1) = k + 1 + i by omega]⟩
    · rintro ⟨i, r, e1, e2⟩
      cases i with
      | zero =>
        simp only [List.getElem?_cons_zero, Option.some.injEq] at e1
        rw [← e1] at e2
        rcases (h4 l).1 e2 with h | h
        · exact .inl (.inl h)
        · exact .inr (.inl h)
      | succ i =>
        rcases (g4 l).2 ⟨i, r, by simpa using e1, by rwa [show k + 1 + i = k + (i + 1) by omega]⟩ with h | h
        · exact .inl (.inr h)
        · exact .inr (.inr h)

/-- One class level. -/
theorem parts_step (X : Ctx) (hX : Parses X.frag) (strAttr : Bool) (o : Obj) (f : Nat) (inst : Inst) (hn : Named2 X.nm inst.cls)
    (hl : ∀ (i : Nat) (r : RType), inst.cls.tab.types[i]? = some r → isSub r = false → Faithful2 X.env strAttr o r inst.base)
    (hs : ∀ (i : Nat) (r : RType) (s : Nat), inst.cls.tab.types[i]? = some r → isSub r = true → s < count r →
      ∃ sub, subClass X.reg inst i s = some sub ∧ ∃ p, saveParts X strAttr o f sub = some p ∧
        ∀ name, Restores (loadNode2 X f sub (.elem name p.1 p.2)) o (Within X.reg sub)) :
    ∃ p, saveParts X strAttr o (f + 1) inst = some p ∧ ∀ name, Restores (loadNode2 X (f + 1) inst (.elem name p.1 p.2)) o (Within X.reg inst) := by
  let S : Nat → RType → Loc → Prop := fun i r l =>
    (isSub r = false ∧ leaf r (addr inst r) l) ∨
    (isSub r = true ∧ ∃ s < count r, ∃ sub, subClass X.reg inst i s = some sub ∧ Within X.reg sub l)
  obtain ⟨ps, S1, S2, h1, h2, h3, h4⟩ := collectT_cover (saveMember2 X strAttr (saveParts X strAttr o f) o inst) (la X inst)
    (loadKid2 X (loadNode2 X f) inst) o S inst.cls.tab.types 0 (by
      intro i r hr
      rw [Nat.zero_add]
      cases hsub : isSub r with
      | false =>
        obtain ⟨as, ks, g1, S1, S2, g2, g3, g4⟩ := leaf2 X hX strAttr o inst i r hn hr (hl i r hr hsub)
        refine ⟨as, ks, g1 _, S1, S2, g2, g3 _, fun l => ?_⟩
        rw [← g4 l]
        constructor
        · rintro (⟨_, h⟩ | ⟨h, _⟩)
          · exact h
          · rw [hsub] at h; cases h
        · intro h; exact .inl ⟨hsub, h⟩
      | true =>
        have hS : ∀ l, S i r l ↔ ∃ s < count r, ∃ sub, subClass X.reg inst i s = some sub ∧ Within X.reg sub l := by
          intro l
          constructor
          · rintro (⟨h, _⟩ | ⟨_, h⟩)
            · rw [hsub] at h; cases h
            · exact h
          · intro h; exact .inr ⟨hsub, h⟩
        have hty : isAttr strAttr r.type = false ∧ (isArray r = false → r.type = .Class ∨ r.type = .BitFieldClass) ∧
            (isArray r = true → r.type = .Array ∨ r.type = .ArrayClass) := by
          unfold isSub isArray at hsub
          unfold isArray
          cases ht : r.type <;> rw [ht] at hsub <;> simp [isAttr] at hsub ⊢
        have hnan : ∀ s, s < r.numItems.toNat → ¬ s = nan := by intro s h; have := r.numItems.isLt; unfold nan; omega
        cases ha : isArray r with
        | false =>
          have hc : count r = 1 := by unfold count; rw [ha]; rfl
          obtain ⟨sub, g1, p, g2, g3⟩ := hs i r 0 hr hsub (by omega)
          refine ⟨[], [.elem (memberName X.nm inst.cls i r) p.1 p.2], ?_, fun _ => False, Within X.reg sub, .nil (fun _ h => h), .one ?_, fun l => ?_⟩
          · unfold saveMember2
            rcases hty.2.1 ha with h | h <;>
              simp only [h, isAttr, Bool.false_eq_true, if_false, hsub, if_true, ha, g1, Option.bind_some, g2, Option.map_some]
          · have he : loadKid2 X (loadNode2 X f) inst (.elem (memberName X.nm inst.cls i r) p.1 p.2) =
                loadNode2 X f sub (.elem (memberName X.nm inst.cls i r) p.1 p.2) := by
              funext o0
              unfold loadKid2
              simp only [Node.name, named2_member hn hr, lookup_hash hn.1 hr, hr, hsub, if_true, g1]
            rw [he]
            exact g3 _
          · rw [hS l]
            constructor
            · rintro ⟨s, h1, sub', h2, h3⟩
              have : s = 0 := by omega
              subst this
              rw [g1] at h2; cases h2
              exact .inr h3
            · rintro (h | h)
              · exact h.elim
              · exact ⟨0, by omega, sub, g1, h⟩
        | true =>
          have hc : count r = r.numItems.toNat := by unfold count; rw [ha]; rfl
          obtain ⟨ks, c1, c2, _⟩ := collect_cover
            (fun s => ((subClass X.reg inst i s).bind (saveParts X strAttr o f)).map
              (fun p => Node.elem (nodeName X.nm inst.cls (memberName X.nm inst.cls i r) s) p.1 p.2))
            (loadKid2 X (loadNode2 X f) inst) o (fun s l => ∃ sub, subClass X.reg inst i s = some sub ∧ Within X.reg sub l) r.numItems.toNat 0 (by
              intro s _ hs2
              have hs2 : s < r.numItems.toNat := by omega
              obtain ⟨sub, g1, p, g2, g3⟩ := hs i r s hr hsub (by omega)
              refine ⟨_, by simp only [g1, Option.bind_some, g2]; rfl, ?_⟩
              have he : loadKid2 X (loadNode2 X f) inst (.elem (nodeName X.nm inst.cls (memberName X.nm inst.cls i r) s) p.1 p.2) =
                  loadNode2 X f sub (.elem (nodeName X.nm inst.cls (memberName X.nm inst.cls i r) s) p.1 p.2) := by
                funext o0
                unfold loadKid2
                simp only [Node.name, named2_item hn hr ha s hs2, lookup_hash hn.1 hr, hr, hsub, if_true, if_neg (hnan s hs2), g1]
              rw [he]
              refine (g3 _).congr (fun l => ?_)
              constructor
              · intro h; exact ⟨sub, g1, h⟩
              · rintro ⟨sub', h5, h6⟩; rw [g1] at h5; cases h5; exact h6)
          refine ⟨[], ks, ?_, fun _ => False, _, .nil (fun _ h => h), c2, fun l => ?_⟩
          · unfold saveMember2
            rcases hty.2.2 ha with h | h <;>
              simp only [h, isAttr, Bool.false_eq_true, if_false, hsub, if_true, ha, c1, Option.map_some]
          · rw [hS l]
            constructor
            · rintro ⟨s, h1, h2⟩; exact .inr ⟨s, by omega, by omega, h2⟩
            · rintro (h | ⟨s, _, h1, h2⟩)
              · exact h.elim
              · exact ⟨s, by omega, h2⟩)
  refine ⟨((ps.map (·.1)).flatten, (ps.map (·.2)).flatten), by unfold saveParts; rw [h1]; rfl, fun name => ?_⟩
  have he : loadNode2 X (f + 1) inst (.elem name (ps.map (·.1)).flatten (ps.map (·.2)).flatten) =
      fun o0 => (foldKids (la X inst) (ps.map (·.1)).flatten o0).bind (foldKids (loadKid2 X (loadNode2 X f) inst) (ps.map (·.2)).flatten) := by
    funext o0
    show foldKids _ _ (List.foldl _ o0 _) = _
    unfold la
    rw [foldKids_total]
    rfl
  rw [he]
  refine (h2.restores.union h3.restores).congr (fun l => ?_)
  rw [h4 l]
  constructor
  · rintro ⟨i, r, hr, h | ⟨hs, s, hc, sub, h3, h4⟩⟩
    · exact .leaf hr h.1 h.2
    · rw [Nat.zero_add] at h3
      exact .sub hr hs hc h3 h4
  · intro h
    cases h with
    | leaf hr hs hl => exact ⟨_, _, hr, .inl ⟨hs, hl⟩⟩
    | sub hr hs hc hi hl => exact ⟨_, _, hr, .inr ⟨hs, _, hc, _, by rw [Nat.zero_add]; exact hi, hl⟩⟩

theorem savable2_ok (X : Ctx) (hX : Parses X.frag) (strAttr : Bool) (o : Obj) (inst : Inst) (h : Savable2 X strAttr o inst) :
    ∃ f, Parts2Ok X strAttr o f inst := by
  induction h with
  | @mk inst hn hl hd hs ih =>
    have mono : ∀ n m sub, n ≤ m → Parts2Ok X strAttr o n sub → Parts2Ok X strAttr o m sub := fun n m sub h hp g hg => hp g (by omega)
    obtain ⟨n, hn'⟩ := bounded_max (fun n i => ∀ (r : RType), inst.cls.tab.types[i]? = some r → isSub r = true → ∀ s < count r, ∀ sub,
      subClass X.reg inst i s = some sub → Parts2Ok X strAttr o n sub) (by
        intro n m i hnm h r hr hsub s hc sub he
        exact mono n m sub hnm (h r hr hsub s hc sub he)) inst.cls.tab.types.length (by
        intro i hi
        obtain ⟨r, hr⟩ : ∃ r, inst.cls.tab.types[i]? = some r := ⟨_, List.getElem?_eq_getElem hi⟩
        cases hsub : isSub r with
        | false =>
          refine ⟨0, fun r' hr' hs' => ?_⟩
          rw [hr] at hr'; cases hr'
          rw [hsub] at hs'; cases hs'
        | true =>
          obtain ⟨n, hn'⟩ := bounded_max (fun n s => ∀ sub, subClass X.reg inst i s = some sub → Parts2Ok X strAttr o n sub) (by
            intro n m s hnm h sub he
            exact mono n m sub hnm (h sub he)) (count r) (by
            intro s hc
            obtain ⟨sub, he⟩ := hd i r s hr hsub hc
            obtain ⟨f, hf⟩ := ih i r s sub hr hsub hc he
            exact ⟨f, fun sub' he' => by rw [he] at he'; cases he'; exact hf⟩)
          refine ⟨n, fun r' hr' _ => ?_⟩
          rw [hr] at hr'; cases hr'
          exact hn')
    refine ⟨n + 1, fun g hg => ?_⟩
    obtain ⟨f, rfl⟩ : ∃ f, g = f + 1 := ⟨g - 1, by omega⟩
    refine parts_step X hX strAttr o f inst hn hl (fun i r s hr hsub hc => ?_)
    obtain ⟨sub, he⟩ := hd i r s hr hsub hc
    exact ⟨sub, he, hn' i (List.getElem?_eq_some_iff.1 hr).1 r hr hsub s hc sub he f (by omega)⟩

/-- **C63.** An object saved with `SaveV2` (with strings as attributes or not) behind any nodes that are not nodes of its
class, and loaded with `LoadV2` into any object, gives every member (also of nested classes and lists of classes) the value
saved and changes nothing else; nodes that were there stay there. -/
theorem xml2_roundtrip_partial (X : Ctx) (hX : Parses X.frag) (strAttr : Bool) (o : Obj) (inst : Inst) (h : Savable2 X strAttr o inst)
    (hc : ClassNamed X.nm inst.cls) (kids : List Node) (hk : ∀ n ∈ kids, nodeHash n.name ≠ inst.cls.hash) :
    ∃ f0, ∀ f ≥ f0, ∃ node, saveV2 X strAttr f inst o kids = some (kids ++ [node]) ∧ node.name = className X.nm inst.cls ∧
      Restores (loadV2 X f inst (kids ++ [node])) o (Within X.reg inst) := by
  obtain ⟨f0, h0⟩ := savable2_ok X hX strAttr o inst h
  refine ⟨f0, fun f hf => ?_⟩
  obtain ⟨p, h1, h2⟩ := h0 f hf
  refine ⟨Node.elem (className X.nm inst.cls) p.1 p.2, by unfold saveV2; rw [h1]; rfl, rfl, ?_⟩
  have hf : (kids ++ [Node.elem (className X.nm inst.cls) p.1 p.2]).find? (fun n => nodeHash n.name == inst.cls.hash) =
      some (Node.elem (className X.nm inst.cls) p.1 p.2) := by
    rw [List.find?_append, List.find?_eq_none.2 (fun n hn => by simpa using hk n hn)]
    simp [Node.name, classNamed_hash hc]
  have he : loadV2 X f inst (kids ++ [Node.elem (className X.nm inst.cls) p.1 p.2]) = loadNode2 X f inst (Node.elem (className X.nm inst.cls) p.1 p.2) := by
    funext o0
    unfold loadV2
    simp only [hf]
  rw [he]
  exact h2 _

end PreCore.ReflXml
