import Verif.Props.ReflXml2Round
/-!
# C63: a concrete case, and what `LoadV2`/`SaveV2` get wrong
-/
namespace PreCore.ReflXml
open Refl ReflBin CNum Spec Supercore

section Example

/-- `a`: 16-bit number, `b`: `bool`. -/
def exIn2 : ClassDef := ⟨Jenkins.jenHash [0x49#8], ⟨[
  { type := .UnsignedInteger, subType := .None, subSize := 2, ID := 0, numItems := 1, offset := 0, valueNameHash := Jenkins.jenHash [0x61#8], typeHash := 0 },
  { type := .Bool, subType := .None, subSize := 1, ID := 1, numItems := 1, offset := 2, valueNameHash := Jenkins.jenHash [0x62#8], typeHash := 0 }], none⟩⟩

/-- `i`: `int`, `c`: two `exIn2`, `v`: three vectors of two 16-bit numbers, `s`: string, `w`: vector of four bytes,
`l`: list of three bytes, `f`: flags of one byte, `t`: two strings. -/
def exOut2 : ClassDef := ⟨Jenkins.jenHash [0x4f#8], ⟨[
  { type := .Integer, subType := .None, subSize := 4, ID := 0, numItems := 1, offset := 0, valueNameHash := Jenkins.jenHash [0x69#8], typeHash := 0 },
  { type := .Array, subType := .Class, subSize := 4, ID := 1, numItems := 2, offset := 4, valueNameHash := Jenkins.jenHash [0x63#8], typeHash := Jenkins.jenHash [0x49#8] },
  { type := .Array, subType := .Vector, subSize := 4, ID := 2, numItems := 3, offset := 12, valueNameHash := Jenkins.jenHash [0x76#8], typeHash := 0x00020202 },
  { type := .String, subType := .None, subSize := 32, ID := 3, numItems := 1, offset := 24, valueNameHash := Jenkins.jenHash [0x73#8], typeHash := 0 },
  { type := .Vector, subType := .UnsignedInteger, subSize := 1, ID := 4, numItems := 4, offset := 56, valueNameHash := Jenkins.jenHash [0x77#8], typeHash := 0x00040102 },
  { type := .Array, subType := .UnsignedInteger, subSize := 1, ID := 5, numItems := 3, offset := 60, valueNameHash := Jenkins.jenHash [0x6c#8], typeHash := 0 },
  { type := .EnumFlags, subType := .None, subSize := 1, ID := 6, numItems := 1, offset := 63, valueNameHash := Jenkins.jenHash [0x66#8], typeHash := 7 },
  { type := .Array, subType := .String, subSize := 32, ID := 7, numItems := 2, offset := 64, valueNameHash := Jenkins.jenHash [0x74#8], typeHash := 0 }], none⟩⟩

/-- Flags `A` = 0 and `B` = 3. -/
def exTab2 : EnumTab := [([0x41#8], 0), ([0x42#8], 3)]

def exCtx2 : Ctx where
  env := ⟨fun h => if h = 7#32 then some exTab2 else none, fun _ => (.None, none), fun _ => (.None, none), fun _ => [], fun _ => []⟩
  reg := fun h => if h = Jenkins.jenHash [0x49#8] then some exIn2 else none
  nm := fun h => if h = Jenkins.jenHash [0x49#8] then some ([0x49#8], [[0x61#8], [0x62#8]])
    else if h = Jenkins.jenHash [0x4f#8] then some ([0x4f#8], [[0x69#8], [0x63#8], [0x76#8], [0x73#8], [0x77#8], [0x6c#8], [0x66#8], [0x74#8]]) else none
  frag := fun t => if t = [] then [] else [.data t]

/-- Flags `A` and `B` set, the string `a b`. -/
def exObj2 : Obj := ⟨fun a => if a = 6 ∨ a = 10 then 1#8 else if a = 63 then 9#8 else BitVec.ofNat 8 a, fun _ => [0x61#8, 0x20#8, 0x62#8]⟩

theorem exIn2_named : Named2 exCtx2.nm exIn2 := by
  have hm : exCtx2.nm exIn2.hash = some ([0x49#8], [[0x61#8], [0x62#8]]) := by simp [exCtx2, exIn2]
  refine ⟨⟨by decide +kernel, ?_⟩, ?_, ?_⟩
  · intro cn ns h
    rw [hm] at h; cases h
    refine ⟨rfl, fun i r n hr hn => ?_⟩
    match i with
    | 0 => cases hr; cases hn; exact ⟨rfl, by decide⟩
    | 1 => cases hr; cases hn; exact ⟨rfl, by decide⟩
    | i + 2 => cases hr
  · intro cn ns h
    rw [hm] at h; cases h
    decide
  · intro h; rw [hm] at h; cases h

theorem exOut2_named : Named2 exCtx2.nm exOut2 := by
  have hm : exCtx2.nm exOut2.hash = some ([0x4f#8], [[0x69#8], [0x63#8], [0x76#8], [0x73#8], [0x77#8], [0x6c#8], [0x66#8], [0x74#8]]) := by
    decide +kernel
  refine ⟨⟨by decide +kernel, ?_⟩, ?_, ?_⟩
  · intro cn ns h
    rw [hm] at h; cases h
    refine ⟨rfl, fun i r n hr hn => ?_⟩
    match i with
    | 0 => cases hr; cases hn; exact ⟨rfl, by decide⟩
    | 1 => cases hr; cases hn; exact ⟨rfl, by decide⟩
    | 2 => cases hr; cases hn; exact ⟨rfl, by decide⟩
    | 3 => cases hr; cases hn; exact ⟨rfl, by decide⟩
    | 4 => cases hr; cases hn; exact ⟨rfl, by decide⟩
    | 5 => cases hr; cases hn; exact ⟨rfl, by decide⟩
    | 6 => cases hr; cases hn; exact ⟨rfl, by decide⟩
    | 7 => cases hr; cases hn; exact ⟨rfl, by decide⟩
    | i + 8 => cases hr
  · intro cn ns h
    rw [hm] at h; cases h
    decide
  · intro h; rw [hm] at h; cases h

theorem exIn2_savable (sa : Bool) (b : Nat) (h : exObj2.mem (b + 2) = 0#8 ∨ exObj2.mem (b + 2) = 1#8) : Savable2 exCtx2 sa exObj2 ⟨exIn2, b⟩ := by
  refine .mk exIn2_named ?_ ?_ ?_
  · intro i r hr _
    match i with
    | 0 => cases hr; exact .inr (.inl rfl)
    | 1 => cases hr; exact h
    | i + 2 => cases hr
  · intro i r s hr hs
    match i with
    | 0 => cases hr; cases hs
    | 1 => cases hr; cases hs
    | i + 2 => cases hr
  · intro i r s sub hr hs
    match i with
    | 0 => cases hr; cases hs
    | 1 => cases hr; cases hs
    | i + 2 => cases hr

theorem exTab2_faithful (r : RType) (hs : r.subSize = 1#8) (hh : r.typeHash = 7#32) : FlagsFaithful exCtx2.env exObj2 r 63 exTab2 := by
  have hv : exObj2.nat 63 r.subSize.toNat = 9 := by rw [hs]; decide +kernel
  refine ⟨by rw [hs]; decide, by rw [hh]; rfl, ?_, by decide +kernel, by decide +kernel, by decide +kernel, ?_⟩
  · refine ⟨?_, by decide⟩
    intro e he
    simp [exTab2] at he
    rcases he with rfl | rfl <;> simp [IsName, IsBlank]
  rw [hv]
  intro j hj
  match j with
  | 0 => exact ⟨_, List.mem_cons_self .., rfl⟩
  | 1 => exact absurd hj (by decide)
  | 2 => exact absurd hj (by decide)
  | 3 => exact ⟨([0x42#8], 3), by simp [exTab2], rfl⟩
  | j + 4 =>
    have : Nat.testBit 9 (j + 4) = false := Nat.testBit_lt_two_pow (by have := Nat.pow_le_pow_right (n := 2) (by omega) (show 4 ≤ j + 4 by omega); omega)
    rw [this] at hj; cases hj

theorem exOut2_savable (sa : Bool) : Savable2 exCtx2 sa exObj2 ⟨exOut2, 0⟩ := by
  have sub : ∀ s < 2, subClass exCtx2.reg ⟨exOut2, 0⟩ 1 s = some ⟨exIn2, 4 + s * 4⟩ := by
    intro s hs
    match s with
    | 0 => simp [subClass, exOut2, exCtx2]
    | 1 => simp [subClass, exOut2, exCtx2]
    | s + 2 => omega
  refine .mk exOut2_named ?_ ?_ ?_
  · intro i r hr hs
    match i with
    | 0 => cases hr; exact .inr (.inr (.inl rfl))
    | 1 => cases hr; cases hs
    | 2 =>
      cases hr
      refine ⟨by decide, by decide, by unfold InMem; decide, fun _ => ⟨rfl, by decide, by decide, by decide, by decide, by decide, ?_⟩,
        fun h => ?_, fun h => ?_, fun h => absurd rfl h⟩
      · exact fun i hi j hj => .inr (.inl rfl)
      · cases h
      · cases h
    | 3 =>
      cases hr
      have hb : ∀ c, (exObj2.strs 24).head? = some c → ¬ IsBlank false c := by
        intro c hc
        simp [exObj2] at hc
        subst hc
        simp [IsBlank]
      cases sa with
      | true => exact ⟨by simp [exObj2], hb⟩
      | false =>
        refine .inr ⟨⟨?_, 0x61#8, by simp [exObj2], by decide⟩, hb⟩
        intro c hc
        simp [exObj2] at hc
        rcases hc with rfl | rfl | rfl <;> decide
    | 4 =>
      cases hr
      exact ⟨⟨by decide, by decide, fun i hi => .inl rfl⟩, by decide, by decide, by decide, by unfold InMem; decide⟩
    | 5 =>
      cases hr
      refine ⟨by decide, by decide, by unfold InMem; decide, fun h => ?_, fun h => ?_, fun h => ?_, fun _ _ _ => ⟨by decide, by decide, fun i hi => .inl rfl⟩⟩
      · cases h
      · cases h
      · cases h
    | 6 => cases hr; exact ⟨exTab2, by simp [exTab2], exTab2_faithful _ rfl rfl⟩
    | 7 =>
      cases hr
      refine ⟨by decide, by decide, by unfold InMem; decide, fun h => ?_, fun h => ?_, fun _ i hi => ⟨?_, ⟨0x61#8, rfl, by decide⟩, by simp [exObj2]⟩,
        fun _ _ h => absurd rfl h⟩
      · cases h
      · cases h
      · intro c hc
        simp [exObj2] at hc
        rcases hc with rfl | rfl | rfl <;> decide
    | i + 8 => cases hr
  · intro i r s hr hs hc
    match i with
    | 0 => cases hr; cases hs
    | 1 => cases hr; exact ⟨_, sub s hc⟩
    | 2 => cases hr; cases hs
    | 3 => cases hr; cases hs
    | 4 => cases hr; cases hs
    | 5 => cases hr; cases hs
    | 6 => cases hr; cases hs
    | 7 => cases hr; cases hs
    | i + 8 => cases hr
  · intro i r s sub' hr hs hc he
    match i with
    | 0 => cases hr; cases hs
    | 1 =>
      cases hr
      rw [sub s hc] at he
      cases he
      have hc : s < 2 := hc
      refine exIn2_savable _ _ (.inr ?_)
      match s with
      | 0 => rfl
      | 1 => rfl
      | s + 2 => omega
    | 2 => cases hr; cases hs
    | 3 => cases hr; cases hs
    | 4 => cases hr; cases hs
    | 5 => cases hr; cases hs
    | 6 => cases hr; cases hs
    | 7 => cases hr; cases hs
    | i + 8 => cases hr

theorem exCtx2_parses : Parses exCtx2.frag := by
  refine ⟨rfl, fun t ht => ?_⟩
  obtain ⟨_, c, hc, _⟩ := ht
  have : t ≠ [] := by rintro rfl; cases hc
  simp [exCtx2, this]

/-- The theorem applies to it. -/
example (sa : Bool) : ∃ f0, ∀ f ≥ f0, ∃ n, saveV2 exCtx2 sa f ⟨exOut2, 0⟩ exObj2 [.data []] = some [.data [], n] ∧ n.name = [0x4f#8] ∧
    Restores (loadV2 exCtx2 f ⟨exOut2, 0⟩ [.data [], n]) exObj2 (Within exCtx2.reg ⟨exOut2, 0⟩) := by
  refine xml2_roundtrip_partial exCtx2 exCtx2_parses sa exObj2 _ (exOut2_savable sa) ?_ _ ?_
  · intro cn ns h
    rw [show exCtx2.nm exOut2.hash = some ([0x4f#8], [[0x69#8], [0x63#8], [0x76#8], [0x73#8], [0x77#8], [0x6c#8], [0x66#8], [0x74#8]]) by decide +kernel] at h
    cases h
    exact ⟨rfl, by decide⟩
  · intro n hn
    simp at hn
    subst hn
    decide +kernel

end Example

/-! ## Violations -/

/-- A child with an attribute and a name that is no member: a null pointer is dereferenced. -/
theorem xml2_unknown_child_violated (f : Nat) (o : Obj) :
    loadV2 exCtx2 f ⟨exIn2, 0⟩ [.elem [0x49#8] [] [.elem [0x7a#8] [([0x78#8], [0x31#8])] []]] o = none := by
  have hc : nodeHash [0x49#8] == exIn2.hash := by decide +kernel
  unfold loadV2
  simp only [List.find?_cons, Node.name, hc]
  cases f with
  | zero => rfl
  | succ f =>
    have hl : lookup exIn2.tab (splitName [0x7a#8]).1 = none := by decide +kernel
    simp only [loadNode2, Node.kids, Node.attrs, List.foldl_nil, foldKids, loadKid2, Node.name, hl]
    rfl

/-- `l-9` in a list of three bytes at 60: the byte at 69, behind the list, is overwritten. -/
theorem xml2_index_violated : 
    (loadAttr exCtx2 ⟨exOut2, 0⟩ ([0x6c#8, 0x2d#8, 0x39#8], [0x31#8]) exObj2).mem 69 = 1#8 ∧ exObj2.mem 69 = 69#8 := by
  decide +kernel

/-- Attribute `q` of a vector of four bytes at 56: the byte at 55, before the vector, is overwritten. -/
theorem xml2_axis_violated :
    (doVector exCtx2 ⟨exOut2, 0⟩ exOut2.tab.types[4] nan [([0x71#8], [0x31#8])] exObj2).mem 55 = 1#8 ∧ exObj2.mem 55 = 55#8 := by
  decide +kernel

/-- Two vectors of two bytes. -/
def exBytes2 : ClassDef := ⟨Jenkins.jenHash [0x4f#8], ⟨[
  { type := .Array, subType := .Vector, subSize := 2, ID := 0, numItems := 2, offset := 0, valueNameHash := Jenkins.jenHash [0x69#8], typeHash := 0x00020102 }], none⟩⟩

/-- A list of vectors of two bytes saved and loaded into zeros: the second components stay zero. -/
theorem xml2_byte_vectors_violated :
    ((saveV2 exCtx2 true 1 ⟨exBytes2, 0⟩ ⟨fun _ => 5#8, fun _ => []⟩ []).bind
      (fun doc => loadV2 exCtx2 1 ⟨exBytes2, 0⟩ doc ⟨fun _ => 0#8, fun _ => []⟩)).map
        (fun o => [o.mem 0, o.mem 1, o.mem 2, o.mem 3]) = some [5#8, 0#8, 5#8, 0#8] := by
  decide +kernel

/-- Without names. -/
def exCtx2n : Ctx := { exCtx2 with nm := fun _ => none }

/-- A list of three bytes. -/
def exList2 : ClassDef := ⟨1#32, ⟨[
  { type := .Array, subType := .UnsignedInteger, subSize := 1, ID := 0, numItems := 3, offset := 0, valueNameHash := 2, typeHash := 0 }], none⟩⟩

/-- The list saved without names and loaded into zeros: nothing is loaded. -/
theorem xml2_nameless_list_violated :
    ((saveV2 exCtx2n true 1 ⟨exList2, 0⟩ ⟨fun _ => 5#8, fun _ => []⟩ []).bind
      (fun doc => loadV2 exCtx2n 1 ⟨exList2, 0⟩ doc ⟨fun _ => 0#8, fun _ => []⟩)).map
        (fun o => [o.mem 0, o.mem 1, o.mem 2]) = some [0#8, 0#8, 0#8] := by
  decide +kernel

end PreCore.ReflXml
