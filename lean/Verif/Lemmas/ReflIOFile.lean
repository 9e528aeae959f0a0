import Verif.Lemmas.ReflIOLoad
import Verif.Spec.ReflIO
/-!
# Lemmas about `Model/ReflIO`: where everything is in the file
-/
namespace PreCore.ReflIO
open PreCore

/-! ## Reading the rendered body -/

/-- The memory `Load` starts from. -/
def memOf (es : List Ev) : Mem := fun a => (render (fun q => destsOf q 0 es) 0 es).getD a 0#8

theorem rd_getD (X Y Z : List Byte) : rd (fun a => (X ++ Y ++ Z).getD a 0#8) X.length Y.length = Y := by
  apply List.ext_getElem
  · simp [rd]
  · intro i h1 h2
    simp only [rd, List.getElem_map, List.getElem_range]
    rw [List.getD_eq_getElem?_getD, List.append_assoc, List.getElem?_append_right (by omega), Nat.add_sub_cancel_left,
      List.getElem?_append_left h2, List.getElem?_eq_getElem h2]
    rfl

theorem render_len0 (D : Q → List Nat) (es : List Ev) : (render D 0 es).length = fin 0 es := by
  have := render_length D 0 es; omega

/-- What stands at the position of a part of the statements. -/
theorem rd_memOf (es pre mid : List Ev) (h : pre ++ mid <+: es) :
    rd (memOf es) (fin 0 pre) (fin (fin 0 pre) mid - fin 0 pre) =
      render (dropD (fun q => destsOf q 0 es) pre) (fin 0 pre) mid := by
  obtain ⟨post, h⟩ := h
  have e1 : render (fun q => destsOf q 0 es) 0 es = render (fun q => destsOf q 0 es) 0 pre ++
      render (dropD (fun q => destsOf q 0 es) pre) (fin 0 pre) mid ++
      render (dropD (fun q => destsOf q 0 es) (pre ++ mid)) (fin 0 (pre ++ mid)) post := by
    conv => lhs; rw [← h]
    rw [render_append, render_append, h]
  unfold memOf
  rw [e1]
  have l1 := render_len0 (fun q => destsOf q 0 es) pre
  have l2 := render_length (dropD (fun q => destsOf q 0 es) pre) (fin 0 pre) mid
  have := rd_getD (render (fun q => destsOf q 0 es) 0 pre) (render (dropD (fun q => destsOf q 0 es) pre) (fin 0 pre) mid)
    (render (dropD (fun q => destsOf q 0 es) (pre ++ mid)) (fin 0 (pre ++ mid)) post)
  rw [l1] at this
  rw [show fin (fin 0 pre) mid - fin 0 pre = (render (dropD (fun q => destsOf q 0 es) pre) (fin 0 pre) mid).length by omega]
  exact this

theorem bytes_at (es pre : List Ev) (bs : List Byte) (h : pre ++ [.bytes bs] <+: es) :
    rd (memOf es) (fin 0 pre) bs.length = bs := by
  have := rd_memOf es pre _ h
  simpa [fin, evLen, render, evRaw] using this

theorem slot_at (es pre pre' : List Ev) (q : Q) (hq : q ≠ .ahash) (h : pre ++ [.slot q] <+: es) (h' : pre' ++ [.dest q] <+: es)
    (hc : cntS q pre = cntD q pre') (hl : fin 0 pre' < 2 ^ 32) : rd32 (memOf es) (fin 0 pre) = fin 0 pre' := by
  have := rd_memOf es pre _ h
  simp only [fin, evLen, render, if_neg hq, List.append_nil, dropD] at this
  unfold rd32
  rw [Nat.add_sub_cancel_left] at this
  rw [this, leNat_toLE]
  obtain ⟨post, hp⟩ := h'
  have hd := dest_at q es pre' post (by rw [← hp]; simp)
  rw [← hc, List.getD_eq_getElem?_getD] at hd
  rw [List.headD_eq_head?_getD, List.head?_drop, hd]
  exact Nat.mod_eq_of_lt hl

theorem ahash_at (es pre : List Ev) (h : pre ++ [.slot .ahash] <+: es) : rd32 (memOf es) (fin 0 pre) = 0 := by
  have := rd_memOf es pre _ h
  simp only [fin, evLen, render, if_true, List.append_nil] at this
  unfold rd32
  rw [Nat.add_sub_cancel_left] at this
  rw [this]; decide

theorem slotIf_at (es pre pre' : List Ev) (b : Bool) (q : Q) (hq : q ≠ .ahash) (h : pre ++ [slotIf b q] <+: es)
    (h' : b = true → pre' ++ [.dest q] <+: es) (hc : b = true → cntS q pre = cntD q pre') (hl : fin 0 pre' < 2 ^ 32) :
    rd32 (memOf es) (fin 0 pre) = if b then fin 0 pre' else 0 := by
  cases b with
  | true => simpa using slot_at es pre pre' q hq h (h' rfl) (hc rfl) hl
  | false =>
    have := bytes_at es pre (zeros 4) h
    unfold rd32
    rw [zeros_length] at this
    rw [this, if_neg (by decide)]; decide

theorem slotIf_ahash_at (es pre : List Ev) (b : Bool) (h : pre ++ [slotIf b .ahash] <+: es) : rd32 (memOf es) (fin 0 pre) = 0 := by
  cases b with
  | true => exact ahash_at es pre h
  | false =>
    have := bytes_at es pre (zeros 4) h
    unfold rd32
    rw [zeros_length] at this
    rw [this]; decide

theorem fin_mono {a b : List Ev} (h : a <+: b) : fin 0 a ≤ fin 0 b := by
  obtain ⟨c, rfl⟩ := h
  rw [fin_append]; exact fin_le _ _

theorem flatMap_split {α β : Type} (f : α → List β) (l : List α) (i : Nat) (hi : i < l.length) :
    l.flatMap f = (l.take i).flatMap f ++ (f l[i] ++ (l.drop (i + 1)).flatMap f) := by
  conv => lhs; rw [← List.take_append_drop i l, List.drop_eq_getElem_cons hi]
  rw [List.flatMap_append, List.flatMap_cons]

/-- A part of one element's statements, as a prefix of everything. -/
theorem sec_prefix {α : Type} (U V : List Ev) (f : α → List Ev) (l : List α) (i : Nat) (hi : i < l.length) (inner : List Ev)
    (h : inner <+: f l[i]) : U ++ (l.take i).flatMap f ++ inner <+: U ++ l.flatMap f ++ V := by
  rw [flatMap_split f l i hi]
  obtain ⟨r, hr⟩ := h
  refine ⟨r ++ ((l.drop (i + 1)).flatMap f ++ V), ?_⟩
  rw [← hr]; simp

/-! ## Counting -/

def sumOf {α : Type} (f : α → Nat) (l : List α) : Nat := (l.map f).sum

@[simp] theorem sumOf_zero {α : Type} (l : List α) : sumOf (fun _ => 0) l = 0 := by
  induction l with
  | nil => rfl
  | cons a l ih => simpa [sumOf] using ih

theorem sumOf_one {α : Type} (l : List α) : sumOf (fun _ => 1) l = l.length := by
  induction l with
  | nil => rfl
  | cons a l ih => simp only [sumOf, List.map_cons, List.sum_cons, List.length_cons] at ih ⊢; omega

@[simp] theorem cntS_fm {α : Type} (q : Q) (f : α → List Ev) (l : List α) : cntS q (l.flatMap f) = sumOf (fun a => cntS q (f a)) l :=
  cntS_flatMap q f l
@[simp] theorem cntD_fm {α : Type} (q : Q) (f : α → List Ev) (l : List α) : cntD q (l.flatMap f) = sumOf (fun a => cntD q (f a)) l :=
  cntD_flatMap q f l
@[simp] theorem cntS_app (q : Q) (a b : List Ev) : cntS q (a ++ b) = cntS q a + cntS q b := cntS_append q a b
@[simp] theorem cntD_app (q : Q) (a b : List Ev) : cntD q (a ++ b) = cntD q a + cntD q b := cntD_append q a b

theorem cntS_map {α : Type} (q : Q) (f : α → Ev) (l : List α) : cntS q (l.map f) = sumOf (fun a => cntS q [f a]) l := by
  rw [← List.flatMap_singleton' (l.map f), List.flatMap_map, cntS_fm]
theorem cntD_map {α : Type} (q : Q) (f : α → Ev) (l : List α) : cntD q (l.map f) = sumOf (fun a => cntD q [f a]) l := by
  rw [← List.flatMap_singleton' (l.map f), List.flatMap_map, cntD_fm]

def bn (b : Bool) : Nat := if b then 1 else 0

theorem cntS_slotIf (q r : Q) (b : Bool) (es : List Ev) : cntS q (slotIf b r :: es) = (if r = q then bn b else 0) + cntS q es := by
  cases b <;> simp [slotIf, cntS, bn]
theorem cntD_slotIf (q r : Q) (b : Bool) (es : List Ev) : cntD q (slotIf b r :: es) = cntD q es := by
  cases b <;> simp [slotIf, cntD]

/-- The parts of the descriptions in order. -/
def parts (ds : List (Text × Text)) : List Text := ds.flatMap (fun d => [d.1, d.2])

theorem parts_length (ds : List (Text × Text)) : (parts ds).length = 2 * ds.length := by
  induction ds with
  | nil => rfl
  | cons d ds ih => simp only [parts, List.flatMap_cons, List.length_append, List.length_cons, List.length_nil] at ih ⊢; omega

theorem parts_flatMap {β : Type} (g : Text → List β) (ds : List (Text × Text)) :
    ds.flatMap (fun d => g d.1 ++ g d.2) = (parts ds).flatMap g := by
  induction ds with
  | nil => rfl
  | cons d ds ih => simp [parts] at ih ⊢; simp [ih]

theorem descEv_eq (c : Cls) : descEv c = match c.descs with
    | none => []
    | some ds => .dest .desc :: .bytes (zeros (16 * ds.length)) :: (parts ds).flatMap partEv := by
  unfold descEv
  cases c.descs with
  | none => rfl
  | some ds => simp only [parts_flatMap]

theorem descStrs_eq (c : Cls) : descStrs c = (parts (c.descs.getD [])).flatMap partStr := by
  rw [descStrs, parts_flatMap]

def nSome (l : List (Option Text)) : Nat := sumOf (fun a => bn a.isSome) l
def nFull (l : List Text) : Nat := sumOf (fun t => bn (!t.isEmpty)) l

@[simp] theorem cntS_rec (q : Q) (c : Cls) : cntS q (recEv c) =
    match q with
    | .item => 1 | .strs => bn c.names.isSome | .cls => bn c.className.isSome | .alias => bn c.aliases.isSome
    | .ahash => bn c.aliasHashes.isSome | .desc => bn c.descs.isSome := by
  cases q <;> simp [recEv, cntS, cntS_slotIf]
@[simp] theorem cntD_rec (q : Q) (c : Cls) : cntD q (recEv c) = 0 := by
  simp [recEv, cntD, cntD_slotIf]
@[simp] theorem cntS_types (q : Q) (c : Cls) : cntS q (typesEv c) = 0 := by simp [typesEv, cntS]
@[simp] theorem cntD_types (q : Q) (c : Cls) : cntD q (typesEv c) = if q = .item then 1 else 0 := by
  cases q <;> simp [typesEv, cntD]
@[simp] theorem cntS_ahash (q : Q) (c : Cls) : cntS q (ahashEv c) = 0 := by
  unfold ahashEv; cases c.aliasHashes <;> simp [cntS]
@[simp] theorem cntD_ahash (q : Q) (hq : q ≠ .ahash) (c : Cls) : cntD q (ahashEv c) = 0 := by
  unfold ahashEv; cases c.aliasHashes
  · simp [cntD]
  · cases q <;> simp [cntD] at hq ⊢
theorem cntS_slots (q r : Q) {α : Type} (l : List α) : cntS q (l.map (fun _ => Ev.slot r)) = if q = r then l.length else 0 := by
  rw [cntS_map]
  by_cases h : q = r
  · subst h; simp [cntS, sumOf_one]
  · have h' : ¬ r = q := fun e => h e.symm
    simp [cntS, h, h']
@[simp] theorem cntS_names (q : Q) (c : Cls) : cntS q (namesEv c) = if q = .strs then (c.names.getD []).length else 0 := by
  unfold namesEv
  cases c.names with
  | none => simp [cntS]
  | some ns => simp [cntS, cntS_slots]
@[simp] theorem cntD_names (q : Q) (c : Cls) : cntD q (namesEv c) = if q = .strs then bn c.names.isSome else 0 := by
  unfold namesEv
  cases c.names with
  | none => simp [cntD, bn]
  | some ns => cases q <;> simp [cntD, cntD_map, bn]
theorem cntS_aliases (q : Q) (as : List (Option Text)) :
    cntS q (as.map (fun a => slotIf a.isSome .alias)) = if q = .alias then nSome as else 0 := by
  rw [cntS_map]
  cases q <;> simp [cntS_slotIf, cntS, nSome]
theorem cntD_aliases (q : Q) (as : List (Option Text)) : cntD q (as.map (fun a => slotIf a.isSome .alias)) = 0 := by
  rw [cntD_map]; simp [cntD_slotIf, cntD]
@[simp] theorem cntS_alias (q : Q) (c : Cls) : cntS q (aliasEv c) = if q = .alias then nSome (c.aliases.getD []) else 0 := by
  unfold aliasEv
  cases c.aliases with
  | none => simp [cntS, nSome, sumOf]
  | some as => simp [cntS, cntS_aliases]
@[simp] theorem cntD_alias (q : Q) (c : Cls) : cntD q (aliasEv c) = if q = .alias then bn c.aliases.isSome else 0 := by
  unfold aliasEv
  cases c.aliases with
  | none => simp [cntD, bn]
  | some as => cases q <;> simp [cntD, cntD_aliases, bn]
theorem cntS_parts (q : Q) (ps : List Text) : cntS q (ps.flatMap partEv) = if q = .desc then nFull ps else 0 := by
  cases q <;> simp [partEv, cntS_slotIf, cntS, nFull]
theorem cntD_parts (q : Q) (ps : List Text) : cntD q (ps.flatMap partEv) = 0 := by
  simp [partEv, cntD_slotIf, cntD]
@[simp] theorem cntS_desc (q : Q) (c : Cls) : cntS q (descEv c) = if q = .desc then nFull (parts (c.descs.getD [])) else 0 := by
  rw [descEv_eq]
  cases c.descs with
  | none => simp [cntS, nFull, sumOf, parts]
  | some ds => simp only [cntS, cntS_parts, Option.getD_some]
@[simp] theorem cntD_desc (q : Q) (c : Cls) : cntD q (descEv c) = if q = .desc then bn c.descs.isSome else 0 := by
  rw [descEv_eq]
  cases c.descs with
  | none => simp [cntD, bn]
  | some ds => cases q <;> simp only [cntD, cntD_parts] <;> simp [bn]
theorem cntS_strEv (q r : Q) (t : Text) : cntS q (strEv r t) = 0 := by simp [strEv, cntS]
theorem cntD_strEv (q r : Q) (t : Text) : cntD q (strEv r t) = if q = r then 1 else 0 := by
  simp only [strEv, cntD, Nat.add_zero, eq_comm]
theorem cntS_strs (q r : Q) (l : List Text) : cntS q (l.flatMap (strEv r)) = 0 := by simp [cntS_strEv]
theorem cntD_strs (q r : Q) (l : List Text) : cntD q (l.flatMap (strEv r)) = if q = r then l.length else 0 := by
  simp only [cntD_fm, cntD_strEv]; split
  · exact sumOf_one l
  · exact sumOf_zero l
theorem cntS_aliasStrs (q : Q) (l : List (Option Text)) : cntS q (l.flatMap aliasStr) = 0 := by
  have : ∀ a : Option Text, cntS q (aliasStr a) = 0 := by intro a; cases a <;> simp [aliasStr, cntS, cntS_strEv]
  simp [this]
theorem cntD_aliasStrs (q : Q) (l : List (Option Text)) : cntD q (l.flatMap aliasStr) = if q = .alias then nSome l else 0 := by
  have : ∀ a : Option Text, cntD q (aliasStr a) = if q = .alias then bn a.isSome else 0 := by
    intro a; cases a <;> simp [aliasStr, cntD, cntD_strEv, bn]
  simp only [cntD_fm, this]; split
  · rfl
  · exact sumOf_zero l
theorem cntS_partStrs (q : Q) (l : List Text) : cntS q (l.flatMap partStr) = 0 := by
  have : ∀ a : Text, cntS q (partStr a) = 0 := by intro a; unfold partStr; split <;> simp [cntS, cntS_strEv]
  simp [this]
theorem cntD_partStrs (q : Q) (l : List Text) : cntD q (l.flatMap partStr) = if q = .desc then nFull l else 0 := by
  have : ∀ a : Text, cntD q (partStr a) = if q = .desc then bn (!a.isEmpty) else 0 := by
    intro a; cases a <;> simp [partStr, cntD, cntD_strEv, bn]
  simp only [cntD_fm, this]; split
  · rfl
  · exact sumOf_zero l
theorem cntS_classStr (q : Q) (c : Cls) : cntS q (classStr c) = 0 := by
  unfold classStr; cases c.className <;> simp [cntS, cntS_strEv]
theorem cntD_classStr (q : Q) (c : Cls) : cntD q (classStr c) = if q = .cls then bn c.className.isSome else 0 := by
  unfold classStr; cases c.className <;> simp [cntD, cntD_strEv, bn]
@[simp] theorem cntS_strings (q : Q) (c : Cls) : cntS q (stringsEv c) = 0 := by
  simp only [stringsEv, cntS_app, nameStrs, aliasStrs, descStrs_eq, cntS_strs, cntS_aliasStrs, cntS_partStrs, cntS_classStr]
@[simp] theorem cntD_strings (q : Q) (c : Cls) : cntD q (stringsEv c) =
    match q with
    | .item => 0 | .strs => (c.names.getD []).length | .alias => nSome (c.aliases.getD [])
    | .desc => nFull (parts (c.descs.getD [])) | .cls => bn c.className.isSome | .ahash => 0 := by
  simp only [stringsEv, cntD_app, nameStrs, aliasStrs, descStrs_eq, cntD_strs, cntD_aliasStrs, cntD_partStrs, cntD_classStr]
  cases q <;> simp

end PreCore.ReflIO
