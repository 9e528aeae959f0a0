import Verif.Lemmas.ReflIORound
/-!
# Lemmas about `Model/ReflIO`: the enums of a saved file, and the whole
-/
namespace PreCore.ReflIO
open PreCore

/-- What `enumLoop` finds. -/
def descr : Nat → List Enm → List (BitVec 32 × Nat × Nat)
  | _, [] => []
  | it, e :: es => (e.hash, it + 8, e.items.length) :: descr (it + 8 + 8 * e.items.length) es

theorem values_length (l : List (Text × BitVec 64)) : (l.flatMap (fun i => toLE 8 i.2.toNat)).length = 8 * l.length := by
  induction l with
  | nil => rfl
  | cons x l ih => rw [List.flatMap_cons, List.length_append, ih, toLE_length, List.length_cons]; omega

theorem enumBytes_length (e : Enm) : (enumBytes e).length = 8 + 8 * e.items.length := by
  simp only [enumBytes, List.length_append, toLE_length, values_length]

theorem values_read (m : Mem) (l : List (Text × BitVec 64)) (a : Nat)
    (h : rd m a (l.flatMap (fun i => toLE 8 i.2.toNat)).length = l.flatMap (fun i => toLE 8 i.2.toNat)) (t : Nat) (ht : t < l.length) :
    rd64 m (a + 8 * t) = l[t].2.toNat := by
  induction l generalizing a t with
  | nil => simp at ht
  | cons x l ih =>
    rw [List.flatMap_cons] at h
    have h1 := rd_prefix m a _ _ h
    have h2 := rd_suffix m a _ _ h
    rw [toLE_length] at h1 h2
    cases t with
    | zero =>
      simp only [Nat.mul_zero, Nat.add_zero, List.getElem_cons_zero, rd64, h1, leNat_toLE]
      exact Nat.mod_eq_of_lt x.2.isLt
    | succ t =>
      have := ih (a + 8) h2 t (by simpa using ht)
      rw [show a + 8 * (t + 1) = a + 8 + 8 * t by omega]
      simpa using this

theorem enum_parts (m : Mem) (it : Nat) (e : Enm) (hn : e.items.length < 2 ^ 32) (h : rd m it (enumBytes e).length = enumBytes e) :
    rd32 m it = e.hash.toNat ∧ rd32 m (it + 4) = e.items.length ∧
    ∀ t (ht : t < e.items.length), rd64 m (it + 8 + 8 * t) = e.items[t].2.toNat := by
  unfold enumBytes at h
  have h1 := rd_prefix m it _ _ h
  have h2 := rd_suffix m it _ _ h
  have h3 := rd_prefix m it _ _ h1
  have h4 := rd_suffix m it _ _ h1
  simp only [List.length_append, toLE_length] at h2 h3 h4
  refine ⟨?_, ?_, ?_⟩
  · simp only [rd32, h3, leNat_toLE]; exact Nat.mod_eq_of_lt e.hash.isLt
  · simp only [rd32, h4, leNat_toLE]; exact Nat.mod_eq_of_lt hn
  · intro t ht
    exact values_read m e.items (it + 8) h2 t ht

theorem enumLoop_spec (m : Mem) (es : List Enm) (it : Nat) (hn : ∀ e ∈ es, e.items.length < 2 ^ 32)
    (h : rd m it (es.flatMap enumBytes).length = es.flatMap enumBytes) :
    enumLoop m es.length it = (descr it es, it + (es.flatMap enumBytes).length) := by
  induction es generalizing it with
  | nil => rfl
  | cons e es ih =>
    rw [List.flatMap_cons] at h
    have h1 := rd_prefix m it _ _ h
    have h2 := rd_suffix m it _ _ h
    obtain ⟨p1, p2, _⟩ := enum_parts m it e (hn e (by simp)) h1
    simp only [List.length_cons, enumLoop, p1, p2]
    rw [enumBytes_length] at h2
    rw [show it + 8 + 8 * e.items.length = it + (8 + 8 * e.items.length) by omega,
      ih _ (fun e he => hn e (by simp [he])) h2]
    simp only [descr, List.flatMap_cons, List.length_append, enumBytes_length, BitVec.ofNat_toNat, BitVec.setWidth_eq,
      Prod.mk.injEq, List.cons.injEq, true_and]
    exact ⟨by rw [Nat.add_assoc], by omega⟩

theorem viewEnums_spec (B f : Nat) (m : Mem) (es : List Enm) (it np : Nat) (hn : ∀ e ∈ es, e.items.length < 2 ^ 32)
    (h : rd m it (es.flatMap enumBytes).length = es.flatMap enumBytes)
    (hs : ∀ t (ht : t < (es.flatMap enumStrings).length), cstr m f (rd64 m (np + 8 * t) - B) = (es.flatMap enumStrings)[t]) :
    viewEnums B f m (descr it es) np = es := by
  induction es generalizing it np with
  | nil => rfl
  | cons e es ih =>
    rw [List.flatMap_cons] at h
    have h1 := rd_prefix m it _ _ h
    have h2 := rd_suffix m it _ _ h
    obtain ⟨_, _, p3⟩ := enum_parts m it e (hn e (by simp)) h1
    rw [enumBytes_length] at h2
    have hlen : (enumStrings e).length = e.items.length + 1 := by simp [enumStrings]
    have hse : ∀ t (ht : t < (enumStrings e).length), cstr m f (rd64 m (np + 8 * t) - B) = (enumStrings e)[t] := by
      intro t ht
      have := hs t (by rw [List.flatMap_cons, List.length_append]; omega)
      rw [this]
      simp only [List.flatMap_cons]
      rw [List.getElem_append_left ht]
    simp only [descr, viewEnums]
    have i1 : (List.range e.items.length).map (fun t => (cstr m f (rd64 m (np + 8 * t) - B), BitVec.ofNat 64 (rd64 m (it + 8 + 8 * t)))) = e.items := by
      apply range_map_eq _ _ _ rfl
      intro t ht
      rw [p3 t ht, hse t (by omega)]
      simp [enumStrings, ht]
    have i2 : cstr m f (rd64 m (np + 8 * e.items.length) - B) = e.name := by
      rw [hse _ (by omega)]
      simp [enumStrings]
    rw [i1, i2]
    have i3 := ih (it + 8 + 8 * e.items.length) (np + 8 * e.items.length + 8) (fun e he => hn e (by simp [he]))
      (by rw [Nat.add_assoc it]; exact h2)
      (by
        intro t ht
        have := hs (e.items.length + 1 + t) (by rw [List.flatMap_cons, List.length_append, hlen]; omega)
        rw [show np + 8 * e.items.length + 8 + 8 * t = np + 8 * (e.items.length + 1 + t) by omega, this]
        simp only [List.flatMap_cons]
        rw [List.getElem_append_right (by omega)]
        congr 1
        omega)
    rw [i3]

/-! ## Positions -/

def allStrings (es : List Enm) : List Text := es.flatMap enumStrings

theorem totalStrings_eq (es : List Enm) : totalStrings es = (allStrings es).length := by
  induction es with
  | nil => rfl
  | cons e es ih =>
    simp only [totalStrings, allStrings, List.flatMap_cons, List.length_append] at ih ⊢
    simp [ih, enumStrings]

/-- Statements before the string table. -/
def V1 (cs : List Cls) (es : List Enm) : List Ev := classesEv cs ++ es.map (fun e => .bytes (enumBytes e))
/-- Statements before the strings of the enums. -/
def V2 (cs : List Cls) (es : List Enm) : List Ev :=
  V1 cs es ++ (.bytes (zeros (4 * totalStrings es)) :: List.replicate (totalStrings es) (.slot .strs))

theorem all_eq (cs : List Cls) (es : List Enm) : classesEv cs ++ enumsEv es = V2 cs es ++ (allStrings es).flatMap (strEv .strs) := by
  simp [V2, V1, enumsEv, allStrings, List.flatMap_assoc]

theorem render_bytes (D : Q → List Nat) (p : Nat) (l : List (List Byte)) : render D p (l.map Ev.bytes) = l.flatten := by
  induction l generalizing p with
  | nil => rfl
  | cons x l ih => simp [render, evRaw, ih]

theorem fin_bytes (p : Nat) (l : List (List Byte)) : fin p (l.map Ev.bytes) = p + l.flatten.length := by
  have := render_length (fun _ => []) p (l.map Ev.bytes)
  rw [render_bytes] at this
  exact this.symm

theorem enums_map (es : List Enm) : es.map (fun e => Ev.bytes (enumBytes e)) = (es.map enumBytes).map Ev.bytes := by
  rw [List.map_map]; rfl

theorem fin_V1 (cs : List Cls) (es : List Enm) : fin 0 (V1 cs es) = fin 0 (classesEv cs) + (es.flatMap enumBytes).length := by
  rw [V1, fin_append, enums_map, fin_bytes]; rfl

theorem V1_prefix (cs : List Cls) (es : List Enm) : V1 cs es <+: classesEv cs ++ enumsEv es := by
  rw [all_eq, V2, List.append_assoc]; exact List.prefix_append _ _

theorem enums_at (cs : List Cls) (es : List Enm) :
    rd (memOf (classesEv cs ++ enumsEv es)) (fin 0 (classesEv cs)) (es.flatMap enumBytes).length = es.flatMap enumBytes := by
  have := rd_memOf _ (classesEv cs) (es.map (fun e => .bytes (enumBytes e))) (V1_prefix cs es)
  rw [enums_map, render_bytes, fin_bytes, Nat.add_sub_cancel_left] at this
  exact this

theorem fin_V2 (cs : List Cls) (es : List Enm) : fin 0 (V2 cs es) = fin 0 (V1 cs es) + 8 * (allStrings es).length := by
  rw [V2, fin_append]
  simp only [fin, evLen, zeros_length]
  rw [fin_four _ _ (by intro e he p; rw [List.eq_of_mem_replicate he]; rfl), List.length_replicate, totalStrings_eq]
  omega

theorem cntS_replicate (n : Nat) : cntS .strs (List.replicate n (.slot .strs)) = n := by
  induction n with
  | zero => rfl
  | succ n ih => simp [List.replicate_succ, cntS, ih]; omega

theorem cntD_replicate (n : Nat) : cntD .strs (List.replicate n (.slot .strs)) = 0 := by
  induction n with
  | zero => rfl
  | succ n ih => simp [List.replicate_succ, cntD, ih]

theorem enumStr_at (cs : List Cls) (es : List Enm) (hl : fin 0 (classesEv cs ++ enumsEv es) < 2 ^ 31) (t : Nat)
    (ht : t < (allStrings es).length) :
    rd32 (memOf (classesEv cs ++ enumsEv es)) (fin 0 (V1 cs es) + 4 * (allStrings es).length + 4 * t) =
      fin 0 (V2 cs es ++ ((allStrings es).take t).flatMap (strEv .strs)) := by
  have hp2 : V2 cs es ++ ((allStrings es).take t).flatMap (strEv .strs) ++ [.dest .strs] <+: classesEv cs ++ enumsEv es := by
    rw [all_eq, List.append_assoc, List.prefix_append_right_inj]
    exact flat_prefix (strEv .strs) (allStrings es) t ht [.dest .strs] ⟨_, rfl⟩
  have := slot_at _ (V1 cs es ++ (.bytes (zeros (4 * totalStrings es)) :: List.replicate t (.slot .strs)))
    (V2 cs es ++ ((allStrings es).take t).flatMap (strEv .strs)) .strs (by decide)
    (by
      rw [all_eq, V2]
      refine List.IsPrefix.trans ?_ (List.prefix_append _ _)
      rw [List.append_assoc, List.prefix_append_right_inj]
      refine ⟨List.replicate (totalStrings es - t - 1) (.slot .strs), ?_⟩
      rw [totalStrings_eq, List.cons_append, List.cons_append]
      congr 1
      rw [List.append_assoc, show [Ev.slot Q.strs] = List.replicate 1 (.slot .strs) from rfl, List.replicate_append_replicate,
        List.replicate_append_replicate]
      congr 1
      omega)
    hp2
    (by
      simp only [V2, V1, classesEv, cntS_app, cntD_app, cntS_map, cntD_map, cntS, cntD, cntS_replicate, cntD_replicate, cntD_strs,
        List.length_take]
      simp
      omega)
    (by
      have := fin_mono ((List.prefix_append _ _).trans hp2)
      omega)
  rw [← this]
  congr 1
  rw [fin_append]
  simp only [fin, evLen, zeros_length]
  rw [fin_four _ (List.replicate t (.slot .strs)) (by intro e he p; rw [List.eq_of_mem_replicate he]; rfl), List.length_replicate, totalStrings_eq]

/-! ## Everything -/

theorem small (cs : List Cls) (es : List Enm) (i : Nat) (hi : i < cs.length) (wf : WFClass cs[i]) (B : Nat)
    (hb : B + fin 0 (classesEv cs ++ enumsEv es) < 2 ^ 64) : Small B (infoOf cs i cs[i]) := by
  have hx := extents cs i hi wf
  have u := U_mono cs
  have lt : ∀ {p : List Ev}, p <+: classesEv cs ++ enumsEv es → B + fin 0 p < 2 ^ 64 := by
    intro p hp; have := fin_mono hp; omega
  have u8 : fin 0 (U8 cs) ≤ fin 0 (classesEv cs ++ enumsEv es) := by
    apply fin_mono; rw [classesEv_eq, List.append_assoc]; exact List.prefix_append _ _
  have psS : ∀ inner, fin 0 (U7 cs) ≤ fin 0 (S7 cs i ++ inner) := fun inner =>
    Nat.le_trans (sec_start (U7 cs) stringsEv cs i) (fin_mono (List.prefix_append _ _))
  have ps : ∀ inner, inner <+: stringsEv cs[i] → B + fin 0 (S7 cs i ++ inner) < 2 ^ 64 := by
    intro inner h; exact lt (pre_strs cs es i hi inner h)
  have := hx.a'; have := hx.n; have := hx.n'; have := hx.al; have := hx.al'; have := hx.p; have := hx.p'; have := hx.t; have := hx.t'
  have hC : fin 0 (U7 cs) ≤ (infoOf cs i cs[i]).C := psS _
  refine ⟨by omega, by omega, by omega, by omega, by omega, by omega, ?_, by omega, by omega, ?_, ?_, ?_⟩
  · exact ps _ (List.prefix_append _ _)
  · intro t _
    simp only [infoOf, nameAt]
    apply ps
    have h1 := flatMap_prefix (strEv .strs) (List.take_prefix t (cs[i].names.getD []))
    simp only [stringsEv, nameStrs, List.append_assoc]
    exact h1.trans (List.prefix_append _ _)
  · intro t _
    simp only [infoOf, aliasAt]
    split
    · apply ps
      have h1 := flatMap_prefix aliasStr (List.take_prefix t (cs[i].aliases.getD []))
      simp only [stringsEv, aliasStrs, List.append_assoc]
      rw [List.prefix_append_right_inj]
      exact h1.trans (List.prefix_append _ _)
    · omega
  · intro t _
    simp only [infoOf, partAt]
    split
    · apply ps
      have h1 := flatMap_prefix partStr (List.take_prefix t (parts (cs[i].descs.getD [])))
      simp only [stringsEv, descStrs_eq]
      rw [List.append_assoc (nameStrs cs[i] ++ aliasStrs cs[i]), List.prefix_append_right_inj]
      exact h1.trans (List.prefix_append _ _)
    · omega

theorem load_body (db : DB) (wf : WF db) (B : Nat) (hB : 0 < B) (hl : (body db).length < 2 ^ 31) (hb : B + (body db).length < 2 ^ 64)
    (f : Nat) (hf : (body db).length ≤ f) :
    let m := expandAll B db.classes.length 0 (fun a => (body db).getD a 0#8)
    let e := enumLoop m db.enums.length (run (classesEv db.classes)).buf.length
    let m' := ptrLoop B false e.2 (totalStrings db.enums) (totalStrings db.enums) 0 m
    (List.range db.classes.length).map (fun c => viewClass B f m' (56 * c)) = db.classes.map forget ∧
    viewEnums B f m' e.1 e.2 = db.enums := by
  have hbody : body db = render (fun q => destsOf q 0 (classesEv db.classes ++ enumsEv db.enums)) 0 (classesEv db.classes ++ enumsEv db.enums) :=
    fixAll_run _
  have hlen : (body db).length = fin 0 (classesEv db.classes ++ enumsEv db.enums) := by rw [hbody, render_len0]
  have hmem : (fun a => (body db).getD a 0#8) = memOf (classesEv db.classes ++ enumsEv db.enums) := by unfold memOf; rw [hbody]
  have hrun : (run (classesEv db.classes)).buf.length = fin 0 (classesEv db.classes) := by
    rw [run_eq]; have := raw_length 0 (classesEv db.classes); simp only; omega
  rw [hlen] at hl hb hf
  rw [hmem, hrun]
  obtain ⟨wc, we⟩ := wf
  generalize db.classes = cs at *
  generalize db.enums = es at *
  clear hbody hlen hmem hrun
  intro m e m'
  have wi : ∀ i (hi : i < cs.length), WFClass cs[i] := fun i hi => wc _ (List.getElem_mem hi)
  -- classes
  let I : Nat → Info := fun i => if h : i < cs.length then infoOf cs i cs[i] else ⟨⟨0, [], none, none, none, none, none⟩, 0, 0, 0, 0, 0, 0, fun _ => 0, fun _ => 0, fun _ => 0, fun _ => 0⟩
  have hI : ∀ i (h : i < cs.length), I i = infoOf cs i cs[i] := fun i h => by simp only [I, dif_pos h]
  have ex := expandAll_spec B I cs.length
    (fun i h => by rw [hI i h]; exact info_a cs i _ (by omega))
    (fun i h => by rw [hI i h]; exact sep cs i _ (extents cs i h (wi i h)))
    (fun i h => by rw [hI i h]; exact small cs es i h (wi i h) B hb)
    (fun i j x hi hj hij h1 h2 => by
      rw [hI i hi] at h1; rw [hI j hj] at h2
      rcases Nat.lt_or_gt_of_ne hij with h | h
      · exact disjoint cs i j x hi hj h (wi i hi) (wi j hj) h1 h2
      · exact disjoint cs j i x hj hi h (wi j hj) (wi i hi) h2 h1)
    cs.length 0 (memOf (classesEv cs ++ enumsEv es)) (by omega)
    (fun j _ h => by rw [hI j h]; exact before_of cs es j h (wi j h) (by omega))
    (fun j h => by omega)
  have hm : expandAll B cs.length (56 * 0) (memOf (classesEv cs ++ enumsEv es)) = m := rfl
  rw [hm] at ex
  obtain ⟨exA, exF⟩ := ex
  have u := U_mono cs
  have fr : ∀ x, (fin 0 (U2 cs) ≤ x ∧ x < fin 0 (U4 cs)) ∨ fin 0 (U7 cs) ≤ x → m x = memOf (classesEv cs ++ enumsEv es) x := by
    intro x hx
    apply exF
    intro j hj ha
    rw [hI j hj] at ha
    have := area_in cs j _ (extents cs j hj (wi j hj)) x ha
    omega
  have u8 : fin 0 (U8 cs) ≤ fin 0 (classesEv cs) := by rw [classesEv_eq]; exact fin_mono (List.prefix_append _ _)
  -- enums
  have hitems : ∀ e ∈ es, e.items.length < 2 ^ 32 := by
    intro e he
    have h1 := fin_mono (V1_prefix cs es)
    rw [fin_V1] at h1
    obtain ⟨a, b, hab⟩ := List.append_of_mem he
    have : (enumBytes e).length ≤ (es.flatMap enumBytes).length := by
      rw [hab]; simp only [List.flatMap_append, List.flatMap_cons, List.length_append]; omega
    rw [enumBytes_length] at this
    omega
  have henum : rd m (fin 0 (classesEv cs)) (es.flatMap enumBytes).length = es.flatMap enumBytes := by
    refine Eq.trans (rd_congr ?_) (enums_at cs es)
    intro x hx _
    exact fr x (Or.inr (by omega))
  have he : e = (descr (fin 0 (classesEv cs)) es, fin 0 (V1 cs es)) := by
    rw [fin_V1]; exact enumLoop_spec m es _ hitems henum
  have hV := fin_V1 cs es
  have hV2 := fin_V2 cs es
  have hstrlt : ∀ t, t < (allStrings es).length → fin 0 (V2 cs es ++ ((allStrings es).take t).flatMap (strEv .strs)) ≤ fin 0 (classesEv cs ++ enumsEv es) := by
    intro t _
    apply fin_mono
    rw [all_eq, List.prefix_append_right_inj]
    exact flatMap_prefix _ (List.take_prefix _ _)
  have pl := ptrLoop_spec B false (fin 0 (V1 cs es)) (allStrings es).length
    (fun t => fin 0 (V2 cs es ++ ((allStrings es).take t).flatMap (strEv .strs)))
    (fun t ht => by have := hstrlt t ht; omega) (allStrings es).length 0 m (by omega)
    (by
      intro t _ ht
      rw [← enumStr_at cs es hl t ht]
      exact rd32_congr (fun x _ _ => fr x (Or.inr (by omega))))
  have hm' : ptrLoop B false (fin 0 (V1 cs es)) (allStrings es).length (allStrings es).length 0 m = m' := by
    simp only [m', he, totalStrings_eq]
  rw [hm'] at pl
  obtain ⟨plV, plF⟩ := pl
  have fr' : ∀ x, (fin 0 (U2 cs) ≤ x ∧ x < fin 0 (U4 cs)) ∨ (fin 0 (U7 cs) ≤ x ∧ x < fin 0 (V1 cs es)) ∨ fin 0 (V2 cs es) ≤ x →
      m' x = memOf (classesEv cs ++ enumsEv es) x := by
    intro x hx
    rw [plF x (by omega)]
    exact fr x (by omega)
  constructor
  · apply List.ext_getElem
    · simp
    · intro i h1 h2
      have hi : i < cs.length := by simpa using h1
      simp only [List.getElem_map, List.getElem_range]
      have ei := extents cs i hi (wi i hi)
      refine view_class cs es i hi (wi i hi) B f hB m' hf ?_ ?_ ?_
      · have := exA i hi
        rw [hI i hi] at this
        refine this.congr ?_
        intro x hx
        apply plF
        have := area_in cs i _ ei x hx
        omega
      · intro x h1 h2; exact fr' x (Or.inl ⟨h1, by omega⟩)
      · intro x h1 h2; exact fr' x (Or.inr (Or.inl ⟨h1, by omega⟩))
  · rw [he]
    apply viewEnums_spec
    · exact hitems
    · refine Eq.trans (rd_congr ?_) henum
      intro x h1 h2
      apply plF
      omega
    · intro t ht
      have ht' : t < (allStrings es).length := ht
      have := plV t (by omega) ht'
      simp only [ptrVal, Bool.false_eq_true, false_and, if_false] at this
      rw [this, Nat.add_sub_cancel_left]
      have hp : V2 cs es ++ ((allStrings es).take t).flatMap (strEv .strs) ++ strEv .strs (allStrings es)[t] <+: classesEv cs ++ enumsEv es := by
        rw [all_eq, List.append_assoc, List.prefix_append_right_inj]
        exact flat_prefix (strEv .strs) (allStrings es) t ht' _ (List.prefix_refl _)
      have hr := str_read _ _ .strs _ hp m' (fin 0 (V2 cs es)) (fin 0 (classesEv cs ++ enumsEv es)) (fin_mono (List.prefix_append _ _))
        (fin_mono hp) (fun x h1 _ => fr' x (Or.inr (Or.inr h1)))
      have hlen : (allStrings es)[t].length ≤ f := by
        have h3 := fin_mono hp
        rw [fin_append] at h3
        simp only [strEv, fin, evLen, List.length_append] at h3
        omega
      have hnn : NoNul (allStrings es)[t] := by
        have hmem : (allStrings es)[t] ∈ allStrings es := List.getElem_mem _
        obtain ⟨e, he, hin⟩ := List.mem_flatMap.mp hmem
        have w := we e he
        rcases List.mem_append.mp hin with h | h
        · obtain ⟨x, hx, hxe⟩ := List.mem_map.mp h
          rw [← hxe]; exact w.items x hx
        · rw [List.mem_singleton.mp h]; exact w.name
      exact cstr_of m' _ f _ hr hnn hlen

end PreCore.ReflIO
