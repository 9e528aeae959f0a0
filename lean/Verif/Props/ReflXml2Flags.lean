import Verif.Props.ReflXmlLoad
/-!
# C63: flags as XML attributes (`SaveV2`, `LoadV2`)
-/
namespace PreCore.ReflXml
open Refl ReflBin CNum Spec Supercore

/-- Names joined with `|`. -/
def pipe : List Text → Text
  | [] => []
  | [p] => p
  | p :: q :: ps => p ++ 0x7c#8 :: pipe (q :: ps)

theorem pipe_drop : ∀ (ps : List Text), ps ≠ [] → ((ps.map (fun p => p ++ [0x7c#8])).flatten) = pipe ps ++ [0x7c#8] := by
  intro ps
  induction ps with
  | nil => intro h; exact absurd rfl h
  | cons p ps ih =>
    intro _
    cases ps with
    | nil => simp [pipe]
    | cons q qs =>
      rw [List.map_cons, List.flatten_cons, ih (by simp)]
      simp [pipe]

theorem pipe_loop (env : Env) (h : BitVec 32) (tab : EnumTab) (henv : env.enums h = some tab) (hg : GoodTab tab) :
    ∀ (es : List (Text × BitVec 64)), (∀ e ∈ es, e ∈ tab ∧ e.2.toNat < 64) → es ≠ [] → ∀ acc : BitVec 64, ∃ acc' : BitVec 64,
      flagsLoop env h (pipe (es.map (·.1))) [] .None acc = some (.None, acc') ∧
      ∀ j, acc'.getLsbD j = true ↔ (acc.getLsbD j = true ∨ ∃ e ∈ es, e.2.toNat = j) := by
  intro es
  induction es with
  | nil => intro _ h; exact absurd rfl h
  | cons e es ih =>
    intro hes _ acc
    obtain ⟨he, h64⟩ := hes e (by simp)
    have hn := hg.1 e he
    have hf : flagFromEnum env e.1 h acc = (.None, acc ||| (1#64 <<< e.2.toNat)) := by
      unfold flagFromEnum
      simp only [(trim_piece (Or.inr hn)).1, if_neg hn.1, enumValue, henv, find_name tab hg e he]
    have hbit : ∀ j, (acc ||| (1#64 <<< e.2.toNat)).getLsbD j = true ↔ (acc.getLsbD j = true ∨ e.2.toNat = j) := by
      intro j
      rw [BitVec.getLsbD_or, Bool.or_eq_true, shl_one_bit _ h64, decide_eq_true_eq, eq_comm (a := j)]
    cases es with
    | nil =>
      refine ⟨_, ?_, fun j => (hbit j).trans ?_⟩
      · have := flagsLoop_piece env h e.1 (piece_nobar (Or.inr hn)) [] [] .None acc
        simp only [List.append_nil] at this
        show flagsLoop env h e.1 [] .None acc = _
        rw [this]
        unfold flagsLoop
        rw [if_neg (by simp [hn.1]), List.reverse_reverse, hf]
        rfl
      · simp
    | cons e2 es2 =>
      obtain ⟨acc', h1, h2⟩ := ih (fun x hx => hes x (by simp [hx])) (by simp) (acc ||| (1#64 <<< e.2.toNat))
      refine ⟨acc', ?_, fun j => (h2 j).trans ?_⟩
      · show flagsLoop env h (e.1 ++ 0x7c#8 :: pipe ((e2 :: es2).map (·.1))) [] .None acc = _
        rw [flagsLoop_piece env h e.1 (piece_nobar (Or.inr hn))]
        unfold flagsLoop
        rw [if_pos rfl, List.append_nil, List.reverse_reverse, hf]
        simpa using h1
      · rw [hbit j]
        constructor
        · rintro ((h | h) | ⟨x, hx, hj⟩)
          · exact .inl h
          · exact .inr ⟨e, by simp, h⟩
          · exact .inr ⟨x, List.mem_cons_of_mem _ hx, hj⟩
        · rintro (h | ⟨x, hx, hj⟩)
          · exact .inl (.inl h)
          · rcases List.mem_cons.1 hx with rfl | hx
            · exact .inl (.inr hj)
            · exact .inr ⟨x, hx, hj⟩

/-- A flags word with registered flags below 31, of an enumeration whose names are plain. -/
structure FlagsFaithful (env : Env) (o : Obj) (r : RType) (a : Nat) (tab : EnumTab) : Prop where
  size : r.subSize.toNat ≤ 8
  env : env.enums r.typeHash = some tab
  good : GoodTab tab
  null : tNULL ∉ tab.map (·.1)
  low : ∀ e ∈ tab, e.2.toNat < 31
  clean : ∀ e ∈ tab, 0#8 ∉ e.1
  reg : ∀ j, (o.nat a r.subSize.toNat).testBit j = true → Registered tab j

/-- The enumerators whose flag is set. -/
def chosen (v : Nat) (tab : EnumTab) : EnumTab := tab.filter (fun e => v.testBit e.2.toNat)

/-- The attributes written for the flags. -/
def flagTexts (v : Nat) (tab : EnumTab) : List (Text × Text) := tab.map (fun e => (e.1, if v.testBit e.2.toNat then tTrue else tFalse))

theorem flagAttrs_eq (v : Nat) (get : Nat → Option Text) : ∀ (tab : EnumTab),
    (∀ e ∈ tab, get e.2.toNat = some (if v.testBit e.2.toNat then tTrue else tFalse) ∨ (get e.2.toNat = some [] ∧ v.testBit e.2.toNat = false)) →
    ∃ as, flagAttrs get tab = some as ∧ flagsText as = flagsText (flagTexts v tab) ∧ (tab ≠ [] → as ≠ []) := by
  have key : ∀ (tab : EnumTab),
    (∀ e ∈ tab, get e.2.toNat = some (if v.testBit e.2.toNat then tTrue else tFalse) ∨ (get e.2.toNat = some [] ∧ v.testBit e.2.toNat = false)) →
    ∃ as, flagAttrs get tab = some as ∧ as.map (fun t => if asBool t.2 then t.1 ++ [0x7c#8] else []) =
      (flagTexts v tab).map (fun t => if asBool t.2 then t.1 ++ [0x7c#8] else []) ∧ (tab ≠ [] → as ≠ []) := by
    intro tab
    induction tab with
    | nil => intro _; exact ⟨[], rfl, rfl, fun h => absurd rfl h⟩
    | cons e es ih =>
      intro h
      obtain ⟨as, h1, h2, _⟩ := ih (fun x hx => h x (by simp [hx]))
      rcases h e (by simp) with he | ⟨he, hb⟩
      · refine ⟨(e.1, cstr (if v.testBit e.2.toNat then tTrue else tFalse)) :: as, by unfold flagAttrs; rw [he, h1]; rfl, ?_, by simp⟩
        show _ :: List.map _ as = _ :: List.map _ (flagTexts v es)
        rw [h2]
        have hb : asBool (cstr (if v.testBit e.2.toNat = true then tTrue else tFalse)) = asBool (if v.testBit e.2.toNat then tTrue else tFalse) := by
          cases v.testBit e.2.toNat <;> rfl
        simp only [hb]
      · refine ⟨(e.1, cstr []) :: as, by unfold flagAttrs; rw [he, h1]; rfl, ?_, by simp⟩
        show _ :: List.map _ as = _ :: List.map _ (flagTexts v es)
        rw [h2]
        simp only [hb]
        rfl
  intro tab h
  obtain ⟨as, h1, h2, h3⟩ := key tab h
  refine ⟨as, h1, ?_, h3⟩
  unfold flagsText
  simp only [h2]

theorem flagsText_chosen (v : Nat) (tab : EnumTab) :
    flagsText (flagTexts v tab) = if chosen v tab = [] then tNULL else pipe ((chosen v tab).map (·.1)) := by
  have e : ((flagTexts v tab).map (fun t => if asBool t.2 then t.1 ++ [0x7c#8] else [])).flatten =
      (((chosen v tab).map (·.1)).map (fun p => p ++ [0x7c#8])).flatten := by
    induction tab with
    | nil => rfl
    | cons x xs ih =>
      unfold flagTexts chosen at ih ⊢
      rw [List.map_cons, List.map_cons, List.flatten_cons, ih, List.filter_cons]
      cases hb : v.testBit x.2.toNat with
      | true =>
        simp only [if_true, List.map_cons, List.flatten_cons]
        rfl
      | false => rfl
  unfold flagsText
  simp only [e]
  by_cases hc : chosen v tab = []
  · rw [hc]; simp
  · rw [if_neg hc, pipe_drop _ (by simpa using hc), if_neg (by simp), List.dropLast_concat]

/-- Assigning the text put together from the attributes restores the flags. -/
theorem flags_set (env : Env) (o : Obj) (r : RType) (a : Nat) (tab : EnumTab) (ht : r.type = .EnumFlags) (h : FlagsFaithful env o r a tab) :
    Restores (fun o0 => some (setMember env r (flagsText (flagTexts (o.nat a r.subSize.toNat) tab)) a o0).2) o (bytes a r.subSize.toNat) := by
  have hn := h.size
  generalize hv : o.nat a r.subSize.toNat = v
  have hlt : v < 2 ^ (8 * r.subSize.toNat) := by rw [← hv]; exact nat_lt o a _
  have hs : IsScalar r.type := by rw [ht]; trivial
  have hstr : r.type ≠ .String := by rw [ht]; simp
  have hsz : size r = r.subSize.toNat := by unfold size; rw [ht]
  have hreg : ∀ j, v.testBit j = true → Registered tab j := by rw [← hv]; exact h.reg
  have hch : ∀ j, (∃ e ∈ chosen v tab, e.2.toNat = j) ↔ v.testBit j = true := by
    intro j
    constructor
    · rintro ⟨e, he, rfl⟩
      exact (List.mem_filter.1 he).2
    · intro hj
      obtain ⟨e, he, hej⟩ := hreg j hj
      exact ⟨e, List.mem_filter.2 ⟨he, by rw [hej]; exact hj⟩, hej⟩
  have key : ∃ acc : BitVec 64, flagsLoop env r.typeHash (flagsText (flagTexts v tab)) [] .None 0#64 = some (.None, acc) ∧ acc.toNat = v ∧
      (skipStart false (flagsText (flagTexts v tab))).1 = flagsText (flagTexts v tab) := by
    rw [flagsText_chosen]
    have hvnat : ∀ acc : BitVec 64, (∀ j, acc.getLsbD j = true ↔ ∃ e ∈ chosen v tab, e.2.toNat = j) → acc.toNat = v := by
      intro acc hacc
      apply Nat.eq_of_testBit_eq
      intro j
      rw [Bool.eq_iff_iff, ← hch j, ← hacc j, BitVec.getLsbD]
    by_cases hc : chosen v tab = []
    · rw [if_pos hc]
      refine ⟨0#64, null_flags env _ tab h.env h.null _, hvnat _ (fun j => ?_), by decide⟩
      rw [hc]
      simp
    · rw [if_neg hc]
      obtain ⟨acc', h1, h2⟩ := pipe_loop env r.typeHash tab h.env h.good (chosen v tab) (fun e he => by
        have := (List.mem_filter.1 he).1
        exact ⟨this, by have := h.low e this; omega⟩) hc 0#64
      refine ⟨acc', h1, hvnat _ (fun j => (h2 j).trans (by simp)), ?_⟩
      apply indented_skip
      apply indented_self
      obtain ⟨e, es, hce⟩ : ∃ e es, chosen v tab = e :: es := by
        cases hcc : chosen v tab with
        | nil => exact absurd hcc hc
        | cons e es => exact ⟨e, es, rfl⟩
      have hen : IsName e.1 := h.good.1 e (List.mem_filter.1 (show e ∈ chosen v tab by rw [hce]; simp)).1
      rw [hce]
      intro c hcc
      have : (pipe ((e :: es).map (·.1))).head? = e.1.head? := by
        obtain ⟨x, xs, hx⟩ : ∃ x xs, e.1 = x :: xs := by
          cases hx : e.1 with
          | nil => exact absurd hx hen.1
          | cons x xs => exact ⟨x, xs, rfl⟩
        cases es <;> simp [pipe, hx]
      rw [this] at hcc
      exact (hen.2 c (List.mem_of_mem_head? hcc)).1
  obtain ⟨acc, k1, k2, k3⟩ := key
  have hset : ∀ o0 : Obj, (setMember env r (flagsText (flagTexts v tab)) a o0).2 = o0.write a (toLE r.subSize.toNat v) := by
    intro o0
    unfold setMember member
    simp only [ht, k3, setEnumFlags, k1, storeBytes, u64Bytes, k2]
  refine restores_bytes (fun o0 => ?_) (fun o0 => ?_) (fun o0 => ?_)
  · rw [hset, hv]
    unfold Obj.nat
    rw [read_write_toLE, leNat_toLE, Nat.mod_eq_of_lt]
    rwa [show (256 : Nat) ^ r.subSize.toNat = 2 ^ (8 * r.subSize.toNat) from pow_256_8 _]
  · have := scalar_frame env ((flagsText (flagTexts v tab)).length + 1) r (flagsText (flagTexts v tab)) a o0 hs
    rwa [hsz] at this
  · exact member_strs env _ r _ a o0 hs hstr

end PreCore.ReflXml
