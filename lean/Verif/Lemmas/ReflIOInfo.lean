import Verif.Lemmas.ReflIOFile
/-!
# Lemmas about `Model/ReflIO`: the classes of a saved file
-/
namespace PreCore.ReflIO
open PreCore

def U2 (cs : List Cls) : List Ev := cs.flatMap recEv
def U3 (cs : List Cls) : List Ev := U2 cs ++ cs.flatMap typesEv
def U4 (cs : List Cls) : List Ev := U3 cs ++ cs.flatMap ahashEv
def U5 (cs : List Cls) : List Ev := U4 cs ++ cs.flatMap namesEv
def U6 (cs : List Cls) : List Ev := U5 cs ++ cs.flatMap aliasEv
def U7 (cs : List Cls) : List Ev := U6 cs ++ cs.flatMap descEv
def U8 (cs : List Cls) : List Ev := U7 cs ++ cs.flatMap stringsEv

theorem classesEv_eq (cs : List Cls) : classesEv cs = U8 cs ++ [.pad] := rfl

def padIf {α : Type} (o : Option α) : List Ev := if o.isSome then [.pad] else []

/-- Statements before the strings of class `i`. -/
def S7 (cs : List Cls) (i : Nat) : List Ev := U7 cs ++ (cs.take i).flatMap stringsEv

def nameAt (cs : List Cls) (i : Nat) (c : Cls) (t : Nat) : List Ev := S7 cs i ++ ((c.names.getD []).take t).flatMap (strEv .strs)
def aliasAt (cs : List Cls) (i : Nat) (c : Cls) (t : Nat) : List Ev :=
  S7 cs i ++ (nameStrs c ++ ((c.aliases.getD []).take t).flatMap aliasStr)
def partAt (cs : List Cls) (i : Nat) (c : Cls) (t : Nat) : List Ev :=
  S7 cs i ++ (nameStrs c ++ aliasStrs c ++ ((parts (c.descs.getD [])).take t).flatMap partStr)
def clsAt (cs : List Cls) (i : Nat) (c : Cls) : List Ev := S7 cs i ++ (nameStrs c ++ aliasStrs c ++ descStrs c)

def infoOf (cs : List Cls) (i : Nat) (c : Cls) : Info where
  c := c
  a := fin 0 ((cs.take i).flatMap recEv)
  T := fin 0 (U2 cs ++ (cs.take i).flatMap typesEv)
  N := fin 0 (U4 cs ++ (cs.take i).flatMap namesEv ++ padIf c.names)
  C := fin 0 (clsAt cs i c)
  A := fin 0 (U5 cs ++ (cs.take i).flatMap aliasEv ++ padIf c.aliases)
  P := fin 0 (U6 cs ++ (cs.take i).flatMap descEv)
  sN := fun t => fin 0 (nameAt cs i c t)
  sA := fun t => if ((c.aliases.getD []).getD t none).isSome then fin 0 (aliasAt cs i c t) else 0
  sD := fun t => if !((parts (c.descs.getD [])).getD t []).isEmpty then fin 0 (partAt cs i c t) else 0
  lD := fun t => ((parts (c.descs.getD [])).getD t []).length

/-! ## Prefixes -/

section
variable (cs : List Cls) (es : List Enm) (i : Nat) (hi : i < cs.length) (inner : List Ev)

theorem pre_rec (h : inner <+: recEv cs[i]) : (cs.take i).flatMap recEv ++ inner <+: classesEv cs ++ enumsEv es := by
  have := sec_prefix [] (cs.flatMap typesEv ++ cs.flatMap ahashEv ++ cs.flatMap namesEv ++ cs.flatMap aliasEv ++ cs.flatMap descEv ++
    cs.flatMap stringsEv ++ [.pad] ++ enumsEv es) recEv cs i hi inner h
  simpa [classesEv, List.append_assoc] using this
theorem pre_types (h : inner <+: typesEv cs[i]) : U2 cs ++ (cs.take i).flatMap typesEv ++ inner <+: classesEv cs ++ enumsEv es := by
  have := sec_prefix (U2 cs) (cs.flatMap ahashEv ++ cs.flatMap namesEv ++ cs.flatMap aliasEv ++ cs.flatMap descEv ++
    cs.flatMap stringsEv ++ [.pad] ++ enumsEv es) typesEv cs i hi inner h
  simpa [classesEv, U2, List.append_assoc] using this
theorem pre_names (h : inner <+: namesEv cs[i]) : U4 cs ++ (cs.take i).flatMap namesEv ++ inner <+: classesEv cs ++ enumsEv es := by
  have := sec_prefix (U4 cs) (cs.flatMap aliasEv ++ cs.flatMap descEv ++
    cs.flatMap stringsEv ++ [.pad] ++ enumsEv es) namesEv cs i hi inner h
  simpa [classesEv, U2, U3, U4, List.append_assoc] using this
theorem pre_alias (h : inner <+: aliasEv cs[i]) : U5 cs ++ (cs.take i).flatMap aliasEv ++ inner <+: classesEv cs ++ enumsEv es := by
  have := sec_prefix (U5 cs) (cs.flatMap descEv ++
    cs.flatMap stringsEv ++ [.pad] ++ enumsEv es) aliasEv cs i hi inner h
  simpa [classesEv, U2, U3, U4, U5, List.append_assoc] using this
theorem pre_desc (h : inner <+: descEv cs[i]) : U6 cs ++ (cs.take i).flatMap descEv ++ inner <+: classesEv cs ++ enumsEv es := by
  have := sec_prefix (U6 cs) (cs.flatMap stringsEv ++ [.pad] ++ enumsEv es) descEv cs i hi inner h
  simpa [classesEv, U2, U3, U4, U5, U6, List.append_assoc] using this
theorem pre_strs (h : inner <+: stringsEv cs[i]) : S7 cs i ++ inner <+: classesEv cs ++ enumsEv es := by
  have := sec_prefix (U7 cs) ([.pad] ++ enumsEv es) stringsEv cs i hi inner h
  simpa [S7, classesEv, U2, U3, U4, U5, U6, U7, List.append_assoc] using this
end

theorem flat_prefix {α : Type} (f : α → List Ev) (l : List α) (t : Nat) (ht : t < l.length) (inner : List Ev) (h : inner <+: f l[t]) :
    (l.take t).flatMap f ++ inner <+: l.flatMap f := by
  simpa using sec_prefix [] [] f l t ht inner h

theorem evLen_slotIf (p : Nat) (b : Bool) (q : Q) : evLen p (slotIf b q) = 4 := by cases b <;> simp [slotIf, evLen]

theorem map_split {α β : Type} (f : α → β) (l : List α) (t : Nat) (ht : t < l.length) :
    l.map f = (l.take t).map f ++ f l[t] :: (l.drop (t + 1)).map f := by
  conv => lhs; rw [← List.take_append_drop t l, List.drop_eq_getElem_cons ht]
  rw [List.map_append, List.map_cons]

theorem evLen_bytes (p : Nat) (bs : List Byte) : evLen p (.bytes bs) = bs.length := rfl
theorem evLen_slot (p : Nat) (q : Q) : evLen p (.slot q) = 4 := rfl

theorem fin_four (p : Nat) (l : List Ev) (h : ∀ e ∈ l, ∀ p, evLen p e = 4) : fin p l = p + 4 * l.length := by
  induction l generalizing p with
  | nil => rfl
  | cons e l ih =>
    simp only [fin, h e (by simp), List.length_cons]
    rw [ih _ (fun e he => h e (by simp [he]))]; omega

theorem padCheck_length : padCheck.length = 24 := by simp [padCheck, toLE_length]

theorem cntS_recTake (c : Cls) : cntS .item ((recEv c).take 1) = 0 ∧ cntS .strs ((recEv c).take 2) = 0 ∧
    cntS .cls ((recEv c).take 3) = 0 ∧ cntS .alias ((recEv c).take 4) = 0 ∧ cntS .desc ((recEv c).take 6) = 0 := by
  simp [recEv, cntS, cntS_slotIf]

theorem fin_recTake (p : Nat) (c : Cls) (k : Nat) (h1 : 1 ≤ k) (h2 : k ≤ 7) : fin p ((recEv c).take k) = p + 28 + 4 * k := by
  have : k = 1 ∨ k = 2 ∨ k = 3 ∨ k = 4 ∨ k = 5 ∨ k = 6 ∨ k = 7 := by omega
  rcases this with h | h | h | h | h | h | h <;> subst h <;>
    simp only [recEv, List.take, fin, evLen_slotIf, evLen_bytes, evLen_slot, List.length_append, toLE_length, padCheck_length] <;> omega

theorem fin_rec (p : Nat) (c : Cls) : fin p (recEv c) = p + 56 := by
  have := fin_recTake p c 7 (by omega) (by omega)
  rwa [List.take_of_length_le (by simp [recEv])] at this

theorem fin_recs (p : Nat) (l : List Cls) : fin p (l.flatMap recEv) = p + 56 * l.length := by
  induction l generalizing p with
  | nil => rfl
  | cons c l ih => rw [List.flatMap_cons, fin_append, fin_rec, ih, List.length_cons]; omega

theorem info_a (cs : List Cls) (i : Nat) (c : Cls) (hi : i ≤ cs.length) : (infoOf cs i c).a = 56 * i := by
  simp only [infoOf, fin_recs, List.length_take]; omega

theorem rd_sub (m : Mem) (a n k j : Nat) (h : k + j ≤ n) : rd m (a + k) j = ((rd m a n).drop k).take j := by
  rw [show n = k + (j + (n - k - j)) by omega, rd_add, rd_add]
  have h1 : ((rd m a k) ++ (rd m (a + k) j ++ rd m (a + k + j) (n - k - j))).drop k = rd m (a + k) j ++ rd m (a + k + j) (n - k - j) := by
    rw [List.drop_append_of_le_length (by rw [rd_length]; omega), List.drop_of_length_le (by rw [rd_length]; omega)]; simp
  rw [h1, List.take_append_of_le_length (by rw [rd_length]; omega), List.take_of_length_le (by rw [rd_length]; omega)]

/-! ## A class in the file -/

theorem before_of (cs : List Cls) (es : List Enm) (i : Nat) (hi : i < cs.length) (wf : WFClass cs[i])
    (hl : fin 0 (classesEv cs ++ enumsEv es) < 2 ^ 31) : Before (memOf (classesEv cs ++ enumsEv es)) (infoOf cs i cs[i]) := by
  generalize hc : cs[i] = c at wf ⊢
  have lt : ∀ {p : List Ev}, p <+: classesEv cs ++ enumsEv es → fin 0 p < 2 ^ 32 := by
    intro p hp; have := fin_mono hp; omega
  have pr : ∀ inner, inner <+: recEv c → (cs.take i).flatMap recEv ++ inner <+: classesEv cs ++ enumsEv es := by
    intro inner h; exact pre_rec cs es i hi inner (hc ▸ h)
  have pt : ∀ inner, inner <+: typesEv c → U2 cs ++ (cs.take i).flatMap typesEv ++ inner <+: classesEv cs ++ enumsEv es := by
    intro inner h; exact pre_types cs es i hi inner (hc ▸ h)
  have pn : ∀ inner, inner <+: namesEv c → U4 cs ++ (cs.take i).flatMap namesEv ++ inner <+: classesEv cs ++ enumsEv es := by
    intro inner h; exact pre_names cs es i hi inner (hc ▸ h)
  have pa : ∀ inner, inner <+: aliasEv c → U5 cs ++ (cs.take i).flatMap aliasEv ++ inner <+: classesEv cs ++ enumsEv es := by
    intro inner h; exact pre_alias cs es i hi inner (hc ▸ h)
  have pd : ∀ inner, inner <+: descEv c → U6 cs ++ (cs.take i).flatMap descEv ++ inner <+: classesEv cs ++ enumsEv es := by
    intro inner h; exact pre_desc cs es i hi inner (hc ▸ h)
  have ps : ∀ inner, inner <+: stringsEv c → S7 cs i ++ inner <+: classesEv cs ++ enumsEv es := by
    intro inner h; exact pre_strs cs es i hi inner (hc ▸ h)
  have fr : ∀ k, 1 ≤ k → k ≤ 7 → fin 0 ((cs.take i).flatMap recEv ++ (recEv c).take k) = (infoOf cs i c).a + 28 + 4 * k := by
    intro k h1 h2; rw [fin_append, fin_recTake _ _ _ h1 h2]; rfl
  have hn : c.types.length < 2 ^ 32 := by
    have h1 := pt (typesEv c) (List.prefix_refl _)
    have h2 := fin_mono h1
    rw [fin_append] at h2
    simp only [typesEv, fin, evLen, Nat.add_zero] at h2
    have h3 : c.types.flatten.length = 16 * c.types.length := by
      rw [List.length_flatten]
      have : ∀ l : List (List Byte), (∀ t ∈ l, t.length = 16) → (l.map List.length).sum = 16 * l.length := by
        intro l
        induction l with
        | nil => intro _; rfl
        | cons x l ih => intro h; simp only [List.map_cons, List.sum_cons, List.length_cons, h x (by simp), ih (fun t ht => h t (by simp [ht]))]; omega
      exact this _ wf.types
    omega
  -- the fixed part of the record
  have hrec := bytes_at _ ((cs.take i).flatMap recEv) (toLE 4 c.hash.toNat ++ toLE 4 c.types.length ++ padCheck) (pr _ ⟨(recEv c).drop 1, rfl⟩)
  simp only [List.length_append, toLE_length, padCheck_length] at hrec
  have h4 := rd_sub (memOf (classesEv cs ++ enumsEv es)) (fin 0 ((cs.take i).flatMap recEv)) 32 0 4 (by omega)
  have h8 := rd_sub (memOf (classesEv cs ++ enumsEv es)) (fin 0 ((cs.take i).flatMap recEv)) 32 4 4 (by omega)
  rw [hrec] at h4 h8
  have len4 : (toLE 4 c.hash.toNat).length = 4 := toLE_length _ _
  have len4' : (toLE 4 c.types.length).length = 4 := toLE_length _ _
  refine ⟨?_, ?_, ?_, ?_, ?_, ?_, ?_, ?_, ?_, ?_, ?_⟩
  · have : (toLE 4 c.hash.toNat ++ toLE 4 c.types.length ++ padCheck).take 4 = toLE 4 c.hash.toNat := by
      rw [List.append_assoc, List.take_append_of_le_length (by omega), List.take_of_length_le (by omega)]
    rw [List.drop_zero, this, Nat.add_zero] at h4
    show leNat (rd _ _ 4) = _
    rw [show (infoOf cs i c).a = fin 0 ((cs.take i).flatMap recEv) from rfl, h4, leNat_toLE]
    exact Nat.mod_eq_of_lt c.hash.isLt
  · have : ((toLE 4 c.hash.toNat ++ toLE 4 c.types.length ++ padCheck).drop 4).take 4 = toLE 4 c.types.length := by
      rw [List.append_assoc, List.drop_append_of_le_length (by omega), List.drop_of_length_le (by omega), List.nil_append,
        List.take_append_of_le_length (by omega), List.take_of_length_le (by omega)]
    rw [this] at h8
    show leNat (rd _ _ 4) = _
    rw [show (infoOf cs i c).a = fin 0 ((cs.take i).flatMap recEv) from rfl, h8, leNat_toLE]
    exact Nat.mod_eq_of_lt hn
  · have := slot_at _ ((cs.take i).flatMap recEv ++ (recEv c).take 1) (U2 cs ++ (cs.take i).flatMap typesEv) .item (by decide)
      (by rw [List.append_assoc]; exact pr _ ⟨(recEv c).drop 2, rfl⟩) (pt _ ⟨_, rfl⟩)
      (by simp [(cntS_recTake c).1, (cntS_recTake c).2.1, (cntS_recTake c).2.2.1, (cntS_recTake c).2.2.2.1, (cntS_recTake c).2.2.2.2, cntS, U2, sumOf_one]) (lt ((List.prefix_append _ _).trans (pt _ (List.prefix_refl _))))
    rw [fr 1 (by omega) (by omega)] at this
    exact this
  · have := slotIf_at _ ((cs.take i).flatMap recEv ++ (recEv c).take 2) (U4 cs ++ (cs.take i).flatMap namesEv ++ padIf c.names)
      c.names.isSome .strs (by decide)
      (by rw [List.append_assoc]; exact pr _ ⟨(recEv c).drop 3, rfl⟩)
      (by
        intro hs; rw [List.append_assoc]; apply pn
        obtain ⟨ns, hns⟩ := Option.isSome_iff_exists.mp hs
        simp only [namesEv, hns, padIf, Option.isSome_some, if_true]
        exact ⟨_, rfl⟩)
      (by
        intro hs
        simp [(cntS_recTake c).1, (cntS_recTake c).2.1, (cntS_recTake c).2.2.1, (cntS_recTake c).2.2.2.1, (cntS_recTake c).2.2.2.2, cntS, cntD, U2, U3, U4, padIf, hs])
      (by
        apply lt; apply pn
        unfold padIf namesEv
        cases c.names <;> simp)
    rw [fr 2 (by omega) (by omega)] at this
    exact this
  · have := slotIf_at _ ((cs.take i).flatMap recEv ++ (recEv c).take 3) (clsAt cs i c)
      c.className.isSome .cls (by decide)
      (by rw [List.append_assoc]; exact pr _ ⟨(recEv c).drop 4, rfl⟩)
      (by
        intro hs
        unfold clsAt
        rw [List.append_assoc]; apply ps
        obtain ⟨ns, hns⟩ := Option.isSome_iff_exists.mp hs
        unfold stringsEv
        rw [List.prefix_append_right_inj]
        simp only [classStr, hns, strEv]
        exact ⟨_, rfl⟩)
      (by
        intro hs
        simp [(cntS_recTake c).1, (cntS_recTake c).2.1, (cntS_recTake c).2.2.1, (cntS_recTake c).2.2.2.1, (cntS_recTake c).2.2.2.2, cntS, cntD, cntS_slotIf, U2, U3, U4, U5, U6, U7, S7, clsAt, nameStrs, aliasStrs, descStrs_eq,
          cntD_strs, cntD_aliasStrs, cntD_partStrs, -cntD_fm]
        simp)
      (by
        apply lt; apply ps
        exact List.prefix_append _ _)
    rw [fr 3 (by omega) (by omega)] at this
    exact this
  · have := slotIf_at _ ((cs.take i).flatMap recEv ++ (recEv c).take 4) (U5 cs ++ (cs.take i).flatMap aliasEv ++ padIf c.aliases)
      c.aliases.isSome .alias (by decide)
      (by rw [List.append_assoc]; exact pr _ ⟨(recEv c).drop 5, rfl⟩)
      (by
        intro hs; rw [List.append_assoc]; apply pa
        obtain ⟨ns, hns⟩ := Option.isSome_iff_exists.mp hs
        simp only [aliasEv, hns, padIf, Option.isSome_some, if_true]
        exact ⟨_, rfl⟩)
      (by
        intro hs
        simp [(cntS_recTake c).1, (cntS_recTake c).2.1, (cntS_recTake c).2.2.1, (cntS_recTake c).2.2.2.1, (cntS_recTake c).2.2.2.2, cntS, cntD, cntS_slotIf, U2, U3, U4, U5, padIf, hs])
      (by
        apply lt; apply pa
        unfold padIf aliasEv
        cases c.aliases <;> simp)
    rw [fr 4 (by omega) (by omega)] at this
    exact this
  · have := slotIf_ahash_at _ ((cs.take i).flatMap recEv ++ (recEv c).take 5) c.aliasHashes.isSome
      (by rw [List.append_assoc]; exact pr _ ⟨(recEv c).drop 6, rfl⟩)
    rw [fr 5 (by omega) (by omega)] at this
    exact this
  · have := slotIf_at _ ((cs.take i).flatMap recEv ++ (recEv c).take 6) (U6 cs ++ (cs.take i).flatMap descEv)
      c.descs.isSome .desc (by decide)
      (by rw [List.append_assoc]; exact pr _ ⟨(recEv c).drop 7, rfl⟩)
      (by
        intro hs; apply pd
        obtain ⟨ns, hns⟩ := Option.isSome_iff_exists.mp hs
        simp only [descEv, hns]
        exact ⟨_, rfl⟩)
      (by
        intro hs
        simp [(cntS_recTake c).1, (cntS_recTake c).2.1, (cntS_recTake c).2.2.1, (cntS_recTake c).2.2.2.1, (cntS_recTake c).2.2.2.2, cntS, cntS_slotIf, U2, U3, U4, U5, U6])
      (by
        apply lt
        exact (List.prefix_append _ _).trans (pd _ (List.prefix_refl _)))
    rw [fr 6 (by omega) (by omega)] at this
    exact this
  · intro hs t ht
    change c.names.isSome = true at hs
    change t < c.types.length at ht
    obtain ⟨ns, hns⟩ := Option.isSome_iff_exists.mp hs
    obtain ⟨w1, w2⟩ := wf.names ns hns
    have ht' : t < ns.length := by rw [w1]; exact ht
    have hpre : (([.pad, .dest .strs, .bytes (zeros (4 * ns.length))] ++ (ns.take t).map (fun _ => Ev.slot .strs)) ++ [.slot .strs]) <+: namesEv c := by
      simp only [namesEv, hns]
      rw [map_split _ ns t ht']
      exact ⟨(ns.drop (t + 1)).map (fun _ => Ev.slot .strs), by simp only [List.map_append, List.map_cons, List.cons_append, List.nil_append, List.append_assoc]⟩
    have hstr : (ns.take t).flatMap (strEv .strs) ++ [.dest .strs] <+: stringsEv c := by
      have := flat_prefix (strEv .strs) ns t ht' [.dest .strs] ⟨_, rfl⟩
      refine this.trans ?_
      simp only [stringsEv, nameStrs, hns, Option.getD_some, List.append_assoc]
      exact List.prefix_append _ _
    have := slot_at _ (U4 cs ++ (cs.take i).flatMap namesEv ++ ([.pad, .dest .strs, .bytes (zeros (4 * ns.length))] ++
        (ns.take t).map (fun _ => Ev.slot .strs))) (nameAt cs i c t) .strs (by decide)
      (by rw [List.append_assoc]; exact pn _ hpre)
      (by
        simp only [nameAt, hns, Option.getD_some]
        rw [List.append_assoc]; exact ps _ hstr)
      (by
        simp [cntS, cntD, cntS_slots, U2, U3, U4, U5, U6, U7, S7, nameAt, hns, cntD_strs, -cntD_fm, -List.map_take]
        simp)
      (by
        apply lt
        simp only [nameAt, hns, Option.getD_some]
        exact ps _ ((List.prefix_append _ _).trans hstr))
    have hfin : fin 0 (U4 cs ++ (cs.take i).flatMap namesEv ++ ([.pad, .dest .strs, .bytes (zeros (4 * ns.length))] ++
        (ns.take t).map (fun _ => Ev.slot .strs))) = (infoOf cs i c).N + 4 * c.types.length + 4 * t := by
      rw [fin_append, fin_append (fin 0 _), fin_four _ ((ns.take t).map _) (by
        intro e he p
        obtain ⟨_, _, rfl⟩ := List.mem_map.mp he
        rfl)]
      simp only [infoOf, hns, padIf, Option.isSome_some, if_true, fin_append, fin, evLen, zeros_length, List.length_map,
        List.length_take, w1]
      omega
    rw [hfin] at this
    exact this
  · intro hs t ht
    change c.aliases.isSome = true at hs
    change t < c.types.length at ht
    obtain ⟨ns, hns⟩ := Option.isSome_iff_exists.mp hs
    obtain ⟨w1, w2⟩ := wf.aliases ns hns
    have ht' : t < ns.length := by rw [w1]; exact ht
    have hpre : (([.pad, .dest .alias, .bytes (zeros (4 * ns.length))] ++ (ns.take t).map (fun a => slotIf a.isSome .alias)) ++
        [slotIf ns[t].isSome .alias]) <+: aliasEv c := by
      simp only [aliasEv, hns]
      rw [map_split _ ns t ht']
      exact ⟨(ns.drop (t + 1)).map (fun a => slotIf a.isSome .alias), by simp only [List.map_append, List.map_cons, List.cons_append, List.nil_append, List.append_assoc]⟩
    have hpart : nameStrs c ++ (ns.take t).flatMap aliasStr <+: stringsEv c := by
      have := (List.prefix_append _ _).trans (flat_prefix aliasStr ns t ht' [] (List.nil_prefix))
      simp only [stringsEv, aliasStrs, hns, Option.getD_some, List.append_assoc]
      rw [List.prefix_append_right_inj]
      exact this.trans (List.prefix_append _ _)
    have := slotIf_at _ (U5 cs ++ (cs.take i).flatMap aliasEv ++ ([.pad, .dest .alias, .bytes (zeros (4 * ns.length))] ++
        (ns.take t).map (fun a => slotIf a.isSome .alias))) (aliasAt cs i c t) ns[t].isSome .alias (by decide)
      (by rw [List.append_assoc]; exact pa _ hpre)
      (by
        intro hst
        obtain ⟨x, hx⟩ := Option.isSome_iff_exists.mp hst
        simp only [aliasAt, hns, Option.getD_some]
        rw [List.append_assoc]; apply ps
        have := flat_prefix aliasStr ns t ht' [.dest .alias] (by rw [hx]; exact ⟨_, rfl⟩)
        simp only [stringsEv, aliasStrs, hns, Option.getD_some, List.append_assoc]
        rw [List.prefix_append_right_inj]
        exact this.trans (List.prefix_append _ _))
      (by
        intro _
        simp [cntS, cntD, cntS_aliases, U2, U3, U4, U5, U6, U7, S7, aliasAt, nameStrs, hns, cntD_strs, cntD_aliasStrs, -cntD_fm, -List.map_take]
        simp)
      (by
        apply lt
        simp only [aliasAt, hns, Option.getD_some]
        exact ps _ hpart)
    have hfin : fin 0 (U5 cs ++ (cs.take i).flatMap aliasEv ++ ([.pad, .dest .alias, .bytes (zeros (4 * ns.length))] ++
        (ns.take t).map (fun a => slotIf a.isSome .alias))) = (infoOf cs i c).A + 4 * c.types.length + 4 * t := by
      rw [fin_append, fin_append (fin 0 _), fin_four _ ((ns.take t).map _) (by
        intro e he p
        obtain ⟨a, _, rfl⟩ := List.mem_map.mp he
        exact evLen_slotIf _ _ _)]
      simp only [infoOf, hns, padIf, Option.isSome_some, if_true, fin_append, fin, evLen, zeros_length, List.length_map,
        List.length_take, w1]
      omega
    rw [hfin] at this
    refine this.trans ?_
    simp only [infoOf, hns, Option.getD_some, List.getD_eq_getElem?_getD, List.getElem?_eq_getElem ht']
  · intro hs t ht
    change c.descs.isSome = true at hs
    change t < 2 * c.types.length at ht
    obtain ⟨ds, hds⟩ := Option.isSome_iff_exists.mp hs
    have w1 := wf.descs ds hds
    have ht' : t < (parts ds).length := by rw [parts_length, w1]; exact ht
    have hpre : ∀ x, x <+: partEv (parts ds)[t] → ([.dest .desc, .bytes (zeros (16 * ds.length))] ++ ((parts ds).take t).flatMap partEv) ++ x <+: descEv c := by
      intro x hx
      rw [descEv_eq]
      simp only [hds]
      have := flat_prefix partEv (parts ds) t ht' x hx
      simp only [List.cons_append, List.nil_append, List.append_assoc]
      exact (List.prefix_append_right_inj [Ev.dest .desc, .bytes (zeros (16 * ds.length))]).mpr this
    have hpart : ∀ x, x <+: partStr (parts ds)[t] → nameStrs c ++ aliasStrs c ++ (((parts ds).take t).flatMap partStr ++ x) <+: stringsEv c := by
      intro x hx
      have := flat_prefix partStr (parts ds) t ht' x hx
      simp only [stringsEv, descStrs_eq, hds, Option.getD_some]
      rw [List.append_assoc (nameStrs c ++ aliasStrs c), List.prefix_append_right_inj]
      exact this.trans (List.prefix_append _ _)
    have hP : ∀ l : List Text, ∀ p, fin p (l.flatMap partEv) = p + 8 * l.length := by
      intro l
      induction l with
      | nil => intro p; rfl
      | cons x l ih =>
        intro p
        rw [List.flatMap_cons, fin_append, ih]
        simp only [partEv, fin, evLen_slotIf, evLen_bytes, toLE_length, List.length_cons]; omega
    have hfin : fin 0 (U6 cs ++ (cs.take i).flatMap descEv ++ ([.dest .desc, .bytes (zeros (16 * ds.length))] ++
        ((parts ds).take t).flatMap partEv)) = (infoOf cs i c).P + 16 * c.types.length + 8 * t := by
      rw [fin_append, fin_append (fin 0 _), hP]
      simp only [infoOf, fin_append, fin, evLen, zeros_length, List.length_take, w1, parts_length]
      omega
    constructor
    · have := slotIf_at _ (U6 cs ++ (cs.take i).flatMap descEv ++ ([.dest .desc, .bytes (zeros (16 * ds.length))] ++
        ((parts ds).take t).flatMap partEv)) (partAt cs i c t) (!(parts ds)[t].isEmpty) .desc (by decide)
        (by rw [List.append_assoc]; exact pd _ (hpre _ ⟨_, rfl⟩))
        (by
          intro hst
          have hst' : (parts ds)[t].isEmpty = false := by simpa using hst
          simp only [partAt, hds, Option.getD_some]
          rw [List.append_assoc]; apply ps
          rw [List.append_assoc]
          apply hpart
          simp only [partStr, hst', Bool.false_eq_true, if_false]
          exact ⟨_, rfl⟩)
        (by
          intro _
          simp [cntS, cntD, cntS_parts, U2, U3, U4, U5, U6, U7, S7, partAt, nameStrs, aliasStrs, hds, cntD_strs, cntD_aliasStrs,
            cntD_partStrs, -cntD_fm, -cntS_fm]
          simp)
        (by
          apply lt
          simp only [partAt, hds, Option.getD_some]
          have := hpart [] List.nil_prefix
          rw [List.append_nil] at this
          exact ps _ this)
      rw [hfin] at this
      refine this.trans ?_
      simp only [infoOf, hds, Option.getD_some, List.getD_eq_getElem?_getD, List.getElem?_eq_getElem ht']
    · have := bytes_at _ (U6 cs ++ (cs.take i).flatMap descEv ++ ([.dest .desc, .bytes (zeros (16 * ds.length))] ++
        ((parts ds).take t).flatMap partEv) ++ [slotIf (!(parts ds)[t].isEmpty) .desc]) (toLE 4 (parts ds)[t].length)
        (by
          rw [List.append_assoc, List.append_assoc]
          exact pd _ (hpre _ (List.prefix_refl _)))
      rw [fin_append, hfin] at this
      simp only [fin, evLen_slotIf, toLE_length] at this
      unfold rd32
      refine (congrArg leNat this).trans ?_
      rw [leNat_toLE]
      simp only [infoOf, hds, Option.getD_some, List.getD_eq_getElem?_getD, List.getElem?_eq_getElem ht']
      apply Nat.mod_eq_of_lt
      by_cases he : (parts ds)[t].isEmpty
      · have : (parts ds)[t] = [] := by simpa using he
        rw [this]; simp
      · have h1 := fin_mono (ps _ (hpart (partStr (parts ds)[t]) (List.prefix_refl _)))
        rw [fin_append, fin_append, fin_append] at h1
        simp only [partStr, he, Bool.false_eq_true, if_false, strEv, fin, evLen, List.length_append] at h1
        have h2 := fin_le (fin (fin 0 (S7 cs i)) (nameStrs c ++ aliasStrs c)) (((parts ds).take t).flatMap partStr)
        omega

end PreCore.ReflIO
