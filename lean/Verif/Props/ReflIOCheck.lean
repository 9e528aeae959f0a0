import Verif.Lemmas.ReflIOCheck
import Verif.Props.ReflIO
/-!
# C156: Loading a description database stays inside its buffer
-/
namespace PreCore.ReflIO

theorem namesC_eq (B : Nat) (buf : List Byte) : ∀ (n np : Nat), (∀ t, t < n → np + 8 * t + 8 ≤ buf.length ∧ B ≤ rd64 (memL buf) (np + 8 * t) ∧
      rd64 (memL buf) (np + 8 * t) ≤ B + buf.length) →
    namesC B buf n np = some ((List.range n).map (fun t => cstr (memL buf) buf.length (rd64 (memL buf) (np + 8 * t) - B))) := by
  intro n
  induction n with
  | zero => intro np _; rfl
  | succ n ih =>
    intro np h
    have h0 := h 0 (by omega)
    simp only [Nat.mul_zero, Nat.add_zero] at h0
    simp only [namesC, nameC, Option.bind_eq_bind]
    rw [get64_ok (by omega)]
    simp only [Option.bind_some]
    rw [if_pos ⟨h0.2.1, h0.2.2⟩]
    simp only [Option.bind_some]
    rw [ih (np + 8) (fun t ht => by
      have := h (t + 1) (by omega)
      rw [show np + 8 * (t + 1) = np + 8 + 8 * t from by omega] at this
      exact this)]
    simp only [Option.bind_some, List.range_succ_eq_map, List.map_cons, List.map_map, Nat.mul_zero, Nat.add_zero]
    have e : (List.range n).map ((fun t => cstr (memL buf) buf.length (rd64 (memL buf) (np + 8 * t) - B)) ∘ Nat.succ) =
        (List.range n).map (fun t => cstr (memL buf) buf.length (rd64 (memL buf) (np + 8 + 8 * t) - B)) := by
      apply List.map_congr_left
      intro t _
      simp only [Function.comp]
      rw [show np + 8 * t.succ = np + 8 + 8 * t from by omega]
    rw [e]

/-- The number of strings the last loop reads. -/
def stringsOf (ds : List (BitVec 32 × Nat × Nat)) : Nat := (ds.map (fun d => d.2.2 + 1)).sum

theorem enumNamesC_eq (B : Nat) (buf : List Byte) : ∀ (ds : List (BitVec 32 × Nat × Nat)) (np : Nat),
    (∀ t, t < stringsOf ds → np + 8 * t + 8 ≤ buf.length ∧ B ≤ rd64 (memL buf) (np + 8 * t) ∧ rd64 (memL buf) (np + 8 * t) ≤ B + buf.length) →
    ∃ r, enumNamesC B buf ds np = some r ∧
      r.map (fun e => (e.1, e.2.2.1, e.2.2.2)) = (viewEnums B buf.length (memL buf) ds np).map (fun e => (e.hash, e.items.map Prod.fst, e.name)) ∧
      r.map (fun e => e.2.1) = ds.map (fun d => d.2.1) := by
  intro ds
  induction ds with
  | nil => intro np _; exact ⟨[], rfl, rfl, rfl⟩
  | cons d ds ih =>
    obtain ⟨h, vp, n⟩ := d
    intro np hh
    simp only [stringsOf, List.map_cons, List.sum_cons] at hh
    obtain ⟨r, r1, r2, r3⟩ := ih (np + 8 * n + 8) (fun t ht => by
      have := hh (n + 1 + t) (by unfold stringsOf at ht; omega)
      rw [show np + 8 * (n + 1 + t) = np + 8 * n + 8 + 8 * t from by omega] at this
      exact this)
    have hn := hh n (by omega)
    refine ⟨(h, vp, (List.range n).map (fun t => cstr (memL buf) buf.length (rd64 (memL buf) (np + 8 * t) - B)),
      cstr (memL buf) buf.length (rd64 (memL buf) (np + 8 * n) - B)) :: r, ?_, ?_, ?_⟩
    · simp only [enumNamesC, Option.bind_eq_bind]
      rw [namesC_eq B buf n np (fun t ht => hh t (by omega))]
      simp only [Option.bind_some, nameC, Option.bind_eq_bind]
      rw [get64_ok (by omega)]
      simp only [Option.bind_some]
      rw [if_pos ⟨hn.2.1, hn.2.2⟩]
      simp only [Option.bind_some]
      rw [r1]
      simp only [Option.bind_some]
    · simp only [viewEnums, List.map_cons, r2, List.map_map]
      rfl
    · simp only [List.map_cons, r3]

/-- What the header of a file says: its field `i`. -/
def field (file : List Byte) (i : Nat) : Nat := leNat ((file.drop (4 * i)).take 4)

theorem work_saved (db : DB) (wf : WF db) (B : Nat) (hB : 0 < B) (hl : (body db).length < 2 ^ 31) (hb : B + (body db).length < 2 ^ 64) :
    ∃ buf r, workC B db.classes.length db.enums.length (totalStrings db.enums) (run (classesEv db.classes)).buf.length (body db) = some (buf, r) ∧
      buf.length = (body db).length ∧
      (List.range db.classes.length).map (fun c => viewClass B buf.length (memL buf) (56 * c)) = db.classes.map forget ∧
      r.map (fun e => (e.1, e.2.2.1, e.2.2.2)) = db.enums.map (fun e => (e.hash, e.items.map Prod.fst, e.name)) := by
  have key := load_body db wf B hB hl hb (body db).length (Nat.le_refl _)
  have hbody : body db = render (fun q => destsOf q 0 (classesEv db.classes ++ enumsEv db.enums)) 0 (classesEv db.classes ++ enumsEv db.enums) :=
    fixAll_run _
  have hlen : (body db).length = fin 0 (classesEv db.classes ++ enumsEv db.enums) := by rw [hbody, render_len0]
  have hmem : memL (body db) = memOf (classesEv db.classes ++ enumsEv db.enums) := by unfold memOf memL; rw [hbody]
  have hrun : (run (classesEv db.classes)).buf.length = fin 0 (classesEv db.classes) := by
    rw [run_eq]; have := raw_length 0 (classesEv db.classes); simp only; omega
  have hmem0 : (fun a => (body db).getD a 0#8) = memL (body db) := rfl
  rw [hmem0] at key
  generalize hbd : body db = buf0 at *
  obtain ⟨wc, we⟩ := wf
  generalize hcs : db.classes = cs at *
  generalize hes : db.enums = es at *
  have wi : ∀ i (hi : i < cs.length), WFClass cs[i] := fun i hi => wc _ (List.getElem_mem hi)
  have hl' : fin 0 (classesEv cs ++ enumsEv es) < 2 ^ 31 := by omega
  have u := U_mono cs
  have u8 : fin 0 (U8 cs) ≤ fin 0 (classesEv cs) := by rw [classesEv_eq]; exact fin_mono (List.prefix_append _ _)
  have uc : fin 0 (classesEv cs) ≤ fin 0 (classesEv cs ++ enumsEv es) := fin_mono (List.prefix_append _ _)
  let I : Nat → Info := fun i => if h : i < cs.length then infoOf cs i cs[i] else ⟨⟨0, [], none, none, none, none, none⟩, 0, 0, 0, 0, 0, 0, fun _ => 0, fun _ => 0, fun _ => 0, fun _ => 0⟩
  have hI : ∀ i (h : i < cs.length), I i = infoOf cs i cs[i] := fun i h => by simp only [I, dif_pos h]
  have hdis : ∀ i j x, i < cs.length → j < cs.length → i ≠ j → Area (I i) x → ¬ Area (I j) x := by
    intro i j x hi hj hij h1 h2
    rw [hI i hi] at h1; rw [hI j hj] at h2
    rcases Nat.lt_or_gt_of_ne hij with h | h
    · exact disjoint cs i j x hi hj h (wi i hi) (wi j hj) h1 h2
    · exact disjoint cs j i x hj hi h (wi j hj) (wi i hi) h2 h1
  have ex := expandAll_spec B I cs.length
    (fun i h => by rw [hI i h]; exact info_a cs i _ (by omega))
    (fun i h => by rw [hI i h]; exact sep cs i _ (extents cs i h (wi i h)))
    (fun i h => by rw [hI i h]; exact small cs es i h (wi i h) B (by omega))
    hdis cs.length 0 (memL buf0) (by omega)
    (fun j _ h => by rw [hI j h, hmem]; exact before_of cs es j h (wi j h) (by omega))
    (fun j h => by omega)
  obtain ⟨b1, p1, l1, m1⟩ := expandAllC_eq B I cs.length
    (fun i h => by rw [hI i h]; exact info_a cs i _ (by omega))
    (fun i h => by rw [hI i h]; exact sep cs i _ (extents cs i h (wi i h)))
    (fun i h => by rw [hI i h]; exact small cs es i h (wi i h) B (by omega))
    hdis cs.length 0 buf0 (by omega)
    (fun j _ h => by rw [hI j h, hmem]; exact before_of cs es j h (wi j h) (by omega))
    (fun j h => by
      rw [hI j h]
      have e := extents cs j h (wi j h)
      have ht := e.t'
      refine ⟨by have := e.a'; omega, by have := e.n'; omega, by have := e.al'; omega, by have := e.p'; omega, by omega⟩)
  have exF := ex.2
  have fr : ∀ x, (fin 0 (U2 cs) ≤ x ∧ x < fin 0 (U4 cs)) ∨ fin 0 (U7 cs) ≤ x → memL b1 x = memOf (classesEv cs ++ enumsEv es) x := by
    intro x hx
    rw [m1, ← hmem]
    apply exF
    intro j hj ha
    rw [hI j hj] at ha
    have := area_in cs j _ (extents cs j hj (wi j hj)) x ha
    omega
  have hV := fin_V1 cs es
  have hV2 := fin_V2 cs es
  have hV1le := fin_mono (V1_prefix cs es)
  have hV2le : fin 0 (V2 cs es) ≤ fin 0 (classesEv cs ++ enumsEv es) := by rw [all_eq]; exact fin_mono (List.prefix_append _ _)
  have hitems : ∀ e ∈ es, e.items.length < 2 ^ 32 := by
    intro e he
    have h1 := hV1le
    rw [fin_V1] at h1
    obtain ⟨a, b, hab⟩ := List.append_of_mem he
    have : (enumBytes e).length ≤ (es.flatMap enumBytes).length := by
      rw [hab]; simp only [List.flatMap_append, List.flatMap_cons, List.length_append]; omega
    rw [enumBytes_length] at this
    omega
  have henum : rd (memL b1) (fin 0 (classesEv cs)) (es.flatMap enumBytes).length = es.flatMap enumBytes := by
    refine Eq.trans (rd_congr ?_) (enums_at cs es)
    intro x hx _
    exact fr x (Or.inr (by omega))
  have he : enumLoop (memL b1) es.length (fin 0 (classesEv cs)) = (descr (fin 0 (classesEv cs)) es, fin 0 (V1 cs es)) := by
    rw [fin_V1]; exact enumLoop_spec (memL b1) es _ hitems henum
  have he' : enumLoopC b1 es.length (fin 0 (classesEv cs)) = some (descr (fin 0 (classesEv cs)) es, fin 0 (V1 cs es)) := by
    rw [enumLoopC_eq b1 es.length _ (by rw [he]; simp only; omega), he]
  have hst : totalStrings es = (allStrings es).length := totalStrings_eq es
  obtain ⟨b2, p2, l2, m2⟩ := ptrLoopC_eq B false (fin 0 (V1 cs es)) (totalStrings es) (fun _ => some (totalStrings es))
    (fun _ _ _ _ h => h) (totalStrings es) 0 (2 ^ 32) b1 (by omega) (by omega) (by omega) rfl
  have hstrlt : ∀ t, t < (allStrings es).length → fin 0 (V2 cs es ++ ((allStrings es).take t).flatMap (strEv .strs)) ≤ fin 0 (classesEv cs ++ enumsEv es) := by
    intro t _
    apply fin_mono
    rw [all_eq, List.prefix_append_right_inj]
    exact flatMap_prefix _ (List.take_prefix _ _)
  have pl := (ptrLoop_spec B false (fin 0 (V1 cs es)) (allStrings es).length
    (fun t => fin 0 (V2 cs es ++ ((allStrings es).take t).flatMap (strEv .strs)))
    (fun t ht => by have := hstrlt t ht; omega) (allStrings es).length 0 (memL b1) (by omega)
    (by
      intro t _ ht
      rw [← enumStr_at cs es hl' t ht]
      exact rd32_congr (fun x _ _ => fr x (Or.inr (by omega))))).1
  rw [hst] at m2 p2
  rw [← m2] at pl
  have hdes : ∀ (es : List Enm) (it : Nat), stringsOf (descr it es) = (allStrings es).length := by
    intro es
    induction es with
    | nil => intro it; rfl
    | cons e es ih =>
      intro it
      have := ih (it + 8 + 8 * e.items.length)
      simp only [stringsOf, descr, List.map_cons, List.sum_cons, allStrings, List.flatMap_cons, List.length_append, enumStrings, List.length_map,
        List.length_cons, List.length_nil] at this ⊢
      omega
  obtain ⟨r, r1, r2, r3⟩ := enumNamesC_eq B b2 (descr (fin 0 (classesEv cs)) es) (fin 0 (V1 cs es)) (fun t ht => by
    rw [hdes] at ht
    have h1 := pl t (by omega) ht
    have h2 := hstrlt t ht
    simp only [ptrVal, Bool.false_eq_true, false_and, if_false] at h1
    rw [h1]
    omega)
  have k1 := key.1
  have k2 := key.2
  have m1' : memL b1 = expandAll B cs.length 0 (memL buf0) := m1
  have l2' : b2.length = buf0.length := by omega
  rw [hrun, ← m1', he, hst] at k1 k2
  simp only at k1 k2
  rw [← m2, ← l2'] at k1 k2
  refine ⟨b2, r, ?_, l2', k1, ?_⟩
  · simp only [workC, Option.bind_eq_bind, hrun]
    rw [show (0 : Nat) = 56 * 0 from rfl, p1]
    simp only [Option.bind_some, he', hst]
    rw [p2]
    simp only [Option.bind_some]
    rw [r1]
    simp only [Option.bind_some]
  · rw [r2, k2]

/-- The header of a saved database. -/
theorem saved_fields (db : DB) (wf : WF db) (first : List Byte) (hf : first.length = 32) (B : Nat) (hB : 0 < B) (hl : (body db).length < 2 ^ 31)
    (hb : B + (body db).length < 2 ^ 64) :
    let file := save [] first db
    file.length = 32 + (body db).length ∧ field file 0 = magic ∧ field file 1 = 1000 ∧ field file 2 = db.classes.length ∧
    field file 3 = db.enums.length ∧ field file 4 = totalStrings db.enums ∧ field file 5 = (run (classesEv db.classes)).buf.length ∧
    field file 6 = (body db).length ∧ (file.drop 32).take (body db).length = body db := by
  intro file
  have hfile : file = header db ++ body db := save_nil first db hf
  have hrl := run_length db
  have hE : (run (classesEv db.classes)).buf.length ≤ (body db).length := by
    have h1 : body db = _ := fixAll_run _
    rw [h1, render_len0, run_eq]
    have h2 := raw_length 0 (classesEv db.classes)
    have h3 := fin_mono (List.prefix_append (classesEv db.classes) (enumsEv db.enums))
    simp only
    omega
  obtain ⟨buf, r, hw, hbl, _, _⟩ := work_saved db wf B hB hl hb
  have hcl : 56 * db.classes.length ≤ (body db).length := by
    simp only [workC, Option.bind_eq_bind] at hw
    obtain ⟨b, h1, _⟩ := bind_inv hw
    rcases Nat.eq_zero_or_pos db.classes.length with h | h
    · omega
    · have := (expandAllC_inv _ _ _ _ h1).1 h; omega
  have hel : 8 * db.enums.length + 8 * totalStrings db.enums ≤ (body db).length := by
    have h1 : body db = _ := fixAll_run _
    rw [h1, render_len0, all_eq]
    have h3 := fin_mono (List.prefix_append (V2 db.classes db.enums) ((allStrings db.enums).flatMap (strEv .strs)))
    rw [fin_V2, fin_V1, ← totalStrings_eq] at h3
    have : ∀ es : List Enm, 8 * es.length ≤ (es.flatMap enumBytes).length := by
      intro es
      induction es with
      | nil => simp
      | cons e es ih => rw [List.flatMap_cons, List.length_append, enumBytes_length, List.length_cons]; omega
    have := this db.enums
    omega
  have hfield : ∀ (i v : Nat), i < 8 → v < 2 ^ 32 → [magic, 1000, db.classes.length, db.enums.length, totalStrings db.enums,
      (run (classesEv db.classes)).buf.length, (run (classesEv db.classes ++ enumsEv db.enums)).buf.length, 0].getD i 0 = v →
      field file i = v := by
    intro i v hi hv hg
    unfold field
    rw [hfile, header_eq, field32 _ _ i (by simpa using hi), leNat_toLE]
    rw [List.getD_eq_getElem?_getD, List.getElem?_eq_getElem (by simpa using hi)] at hg
    simp only [Option.getD_some] at hg
    rw [hg]; exact Nat.mod_eq_of_lt hv
  refine ⟨?_, hfield 0 magic (by omega) (by unfold magic; omega) rfl, hfield 1 1000 (by omega) (by omega) rfl,
    hfield 2 _ (by omega) (by omega) rfl, hfield 3 _ (by omega) (by omega) rfl, hfield 4 _ (by omega) (by omega) rfl,
    hfield 5 _ (by omega) (by omega) rfl, hfield 6 _ (by omega) (by omega) (by rw [← hrl]; rfl), ?_⟩
  · rw [hfile, List.length_append, header_length]
  · rw [hfile, ← header_length db, List.drop_left, List.take_length]

theorem loadC_eq (B : Nat) (file : List Byte) (h : 32 ≤ file.length) (h0 : field file 0 = magic) (h1 : field file 1 ≤ 1000)
    (h6 : 32 + field file 6 ≤ file.length) :
    loadC B file = match workC B (field file 2) (field file 3) (field file 4) (field file 5) ((file.drop 32).take (field file 6)) with
      | none => .stray
      | some r => .done 0 r.1 r.2 := by
  simp only [field] at h0 h1 h6 ⊢
  simp only [loadC]
  rw [if_neg (by omega), if_neg (fun q => q h0), if_neg (by omega), if_neg (by omega)]
  rfl

/-- A saved database loads without an access outside the buffer, and gives the classes and enums saved. -/
theorem saved_inside (db : DB) (wf : WF db) (first : List Byte) (hf : first.length = 32) (B : Nat) (hB : 0 < B)
    (hl : (body db).length < 2 ^ 31) (hb : B + (body db).length < 2 ^ 64) :
    ∃ buf enums, loadC B (save [] first db) = .done 0 buf enums ∧
      (List.range db.classes.length).map (fun c => viewClass B buf.length (memL buf) (56 * c)) = db.classes.map forget ∧
      enums.map (fun e => (e.1, e.2.2.1, e.2.2.2)) = db.enums.map (fun e => (e.hash, e.items.map Prod.fst, e.name)) := by
  obtain ⟨f, f0, f1, f2, f3, f4, f5, f6, f7⟩ := saved_fields db wf first hf B hB hl hb
  obtain ⟨buf, r, hw, _, v1, v2⟩ := work_saved db wf B hB hl hb
  refine ⟨buf, r, ?_, v1, v2⟩
  rw [loadC_eq B _ (by omega) f0 (by omega) (by omega), f2, f3, f4, f5, f6, f7, hw]

example : ∃ buf enums, loadC 4096 (save [] (zeros 32) sampleDB) = .done 0 buf enums ∧ sampleDB.classes ≠ [] ∧ sampleDB.enums ≠ [] := by
  obtain ⟨b, e, h, _⟩ := saved_inside sampleDB sample_wf (zeros 32) (by decide) 4096 (by omega) (by have := sample_size; omega)
    (by have := sample_size; omega)
  exact ⟨b, e, h, by decide, by decide⟩

/-- What must hold of the header of any file whose load stays inside the buffer: the records, the enum heads and the table of enum names
fit. -/
theorem inside_fits (B : Nat) (file buf : List Byte) (enums : List (BitVec 32 × Nat × List Text × Text)) (h : 32 ≤ file.length) (h0 : field file 0 = magic)
    (h1 : field file 1 ≤ 1000) (hd : loadC B file = .done 0 buf enums) :
    56 * field file 2 ≤ field file 6 ∧ (0 < field file 3 → field file 5 + 8 * field file 3 ≤ field file 6 + 1) ∧
    (0 < field file 4 → field file 5 + 8 * field file 3 + 8 * field file 4 ≤ field file 6) ∧ enums.length = field file 3 ∧
    buf.length = field file 6 := by
  by_cases h6 : 32 + field file 6 ≤ file.length
  · rw [loadC_eq B file h h0 h1 h6] at hd
    generalize hdat : (file.drop 32).take (field file 6) = data at hd
    have hlen : data.length = field file 6 := by rw [← hdat]; simp only [List.length_take, List.length_drop]; omega
    cases hw : workC B (field file 2) (field file 3) (field file 4) (field file 5) data with
    | none => rw [hw] at hd; exact absurd hd (by simp)
    | some r =>
      rw [hw] at hd
      simp only [Loaded.done.injEq, true_and] at hd
      simp only [workC, Option.bind_eq_bind] at hw
      obtain ⟨b1, p1, hw⟩ := bind_inv hw
      obtain ⟨es, p2, hw⟩ := bind_inv hw
      obtain ⟨b2, p3, hw⟩ := bind_inv hw
      obtain ⟨ns, p4, hw⟩ := bind_inv hw
      injection hw with hw
      have i1 := expandAllC_inv _ _ _ _ p1
      have i2 := enumLoopC_inv _ _ _ p2
      have i3 := ptrLoopC_length _ _ _ _ _ _ _ _ _ p3
      have n32 : field file 4 < 2 ^ 32 := by
        have := leNat_lt ((file.drop (4 * 4)).take 4)
        have hk : ((file.drop (4 * 4)).take 4).length = 4 := by simp only [List.length_take, List.length_drop]; omega
        rw [hk] at this
        unfold field
        simpa using this
      refine ⟨?_, ?_, ?_, ?_, ?_⟩
      · rcases Nat.eq_zero_or_pos (field file 2) with e | e
        · omega
        · have := i1.1 e; omega
      · intro hp; have := i2.2.1 hp; omega
      · intro hp
        have := ptrLoopC_const_inv _ _ _ _ (by omega) hp p3
        omega
      · have : ∀ (ds : List (BitVec 32 × Nat × Nat)) (np : Nat) (r : List (BitVec 32 × Nat × List Text × Text)), enumNamesC B b2 ds np = some r → r.length = ds.length := by
          intro ds
          induction ds with
          | nil => intro np r hr; simp only [enumNamesC, Option.some.injEq] at hr; subst hr; rfl
          | cons d ds ih =>
            intro np r hr
            simp only [enumNamesC, Option.bind_eq_bind] at hr
            obtain ⟨_, _, hr⟩ := bind_inv hr
            obtain ⟨_, _, hr⟩ := bind_inv hr
            obtain ⟨r', h', hr⟩ := bind_inv hr
            injection hr with hr
            rw [← hr, List.length_cons, List.length_cons, ih _ _ h']
        rw [← hd.2, ← hw]
        simp only
        rw [this _ _ _ p4, i2.2.2]
      · rw [← hd.1, ← hw]; simp only; omega
  · exfalso
    have hd' := hd
    simp only [field] at h0 h1 h6
    simp only [loadC] at hd'
    rw [if_neg (by omega), if_neg (fun q => q h0), if_neg (by omega), if_pos (by omega)] at hd'
    exact absurd hd' (by simp)

/-- Every complete file whose header names more classes than its buffer has room for makes `Load` leave the buffer. -/
theorem too_many_classes_violated (B : Nat) (file : List Byte) (h : 32 ≤ file.length) (h0 : field file 0 = magic) (h1 : field file 1 ≤ 1000)
    (h6 : 32 + field file 6 ≤ file.length) (hc : field file 6 < 56 * field file 2) : loadC B file = .stray := by
  cases e : loadC B file with
  | stray => rfl
  | short => rw [loadC_eq B file h h0 h1 h6] at e; split at e <;> exact absurd e (by simp)
  | done c b r =>
    have hc0 : c = 0 := by
      rw [loadC_eq B file h h0 h1 h6] at e
      split at e
      · exact absurd e (by simp)
      · injection e with e; exact e.symm
    subst hc0
    have := (inside_fits B file b r h h0 h1 e).1
    omega

/-- The same for the table of the names of the enums. -/
theorem too_many_names_violated (B : Nat) (file : List Byte) (h : 32 ≤ file.length) (h0 : field file 0 = magic) (h1 : field file 1 ≤ 1000)
    (h6 : 32 + field file 6 ≤ file.length) (hp : 0 < field file 4) (hc : field file 6 < field file 5 + 8 * field file 3 + 8 * field file 4) :
    loadC B file = .stray := by
  cases e : loadC B file with
  | stray => rfl
  | short => rw [loadC_eq B file h h0 h1 h6] at e; split at e <;> exact absurd e (by simp)
  | done c b r =>
    have hc0 : c = 0 := by
      rw [loadC_eq B file h h0 h1 h6] at e
      split at e
      · exact absurd e (by simp)
      · injection e with e; exact e.symm
    subst hc0
    have := (inside_fits B file b r h h0 h1 e).2.2.1 hp
    omega

/-- The shortest such file: a header alone that names one class. -/
def headerOnly : List Byte := [magic, 1000, 1, 0, 0, 0, 0, 0].flatMap (toLE 4)

example : headerOnly.length = 32 ∧ ∀ B, loadC B headerOnly = .stray :=
  ⟨by decide +kernel, fun B => too_many_classes_violated B headerOnly (by decide +kernel) (by decide +kernel) (by decide +kernel)
    (by decide +kernel) (by decide +kernel)⟩

example (B : Nat) : loadC B ([magic, 1000, 0, 0, 3, 8, 16, 0].flatMap (toLE 4) ++ zeros 16) = .stray :=
  too_many_names_violated B _ (by decide +kernel) (by decide +kernel) (by decide +kernel) (by decide +kernel) (by decide +kernel) (by decide +kernel)

/-- A table of pointers that was converted without leaving the buffer lies inside, when it is behind the record that counts its entries. -/
theorem ptrLoopC_fits {B : Nat} {nu : Bool} {tbl offs n a : Nat} (ha : a + 8 ≤ tbl) :
    ∀ (fuel t : Nat) (buf buf' : List Byte), n ≤ fuel + t → t < n → get32 buf (a + 4) = some n →
      ptrLoopC B nu tbl offs (fun b => get32 b (a + 4)) fuel t buf = some buf' → tbl + 8 * n ≤ buf.length := by
  intro fuel
  induction fuel with
  | zero => intro t buf buf' h1 h2; omega
  | succ f ih =>
    intro t buf buf' h1 h2 hn h
    simp only [ptrLoopC, Option.bind_eq_bind, hn, Option.bind_some] at h
    rw [if_pos h2] at h
    obtain ⟨o, _, h⟩ := bind_inv h
    obtain ⟨b, hb, h⟩ := bind_inv h
    have l := put64_inv hb
    rcases Nat.lt_or_ge (t + 1) n with h3 | h3
    · have := ih _ _ _ (by omega) h3 (bound_keep ha buf b l.2.1 (fun x hx => by rw [l.2.2]; exact wr64_frame _ _ _ _ (by omega)) hn) h
      omega
    · omega

/-- Every complete file with classes whose first record has a table of member names that ends behind the buffer makes `Load` leave the buffer:
`n` is the number of members of the record, `p` the offset of the table. -/
theorem names_outside_violated (B : Nat) (file : List Byte) (h : 32 ≤ file.length) (h0 : field file 0 = magic) (h1 : field file 1 ≤ 1000)
    (h6 : 32 + field file 6 ≤ file.length) (hc : 0 < field file 2) (n p : Nat) (hn : field file 9 = n) (hp : field file 17 = p) (hn0 : 0 < n)
    (hp0 : 56 ≤ p) (hout : field file 6 < p + 8 * n) : loadC B file = .stray := by
  cases e : loadC B file with
  | stray => rfl
  | short => rw [loadC_eq B file h h0 h1 h6] at e; split at e <;> exact absurd e (by simp)
  | done c b r =>
    exfalso
    rw [loadC_eq B file h h0 h1 h6] at e
    generalize hdat : (file.drop 32).take (field file 6) = data at e
    have hlen : data.length = field file 6 := by rw [← hdat]; simp only [List.length_take, List.length_drop]; omega
    cases hw : workC B (field file 2) (field file 3) (field file 4) (field file 5) data with
    | none => rw [hw] at e; exact absurd e (by simp)
    | some w =>
      simp only [workC, Option.bind_eq_bind] at hw
      obtain ⟨b1, p1, hw⟩ := bind_inv hw
      obtain ⟨k, hk⟩ : ∃ k, field file 2 = k + 1 := ⟨field file 2 - 1, by omega⟩
      rw [hk] at p1
      simp only [expandAllC] at p1
      obtain ⟨b2, p2, p1⟩ := bind_inv p1
      have fits := (expandClassC_inv p2).1
      have rdf : ∀ i, i < 14 → rd32 (memL data) (4 * i) = field file (8 + i) := by
        intro i hi
        unfold rd32 field
        congr 1
        apply List.ext_getElem
        · simp only [rd_length, List.length_take, List.length_drop]; omega
        · intro j j1 j2
          simp only [rd_length] at j1
          simp only [rd, List.getElem_map, List.getElem_range, memL, List.getD_eq_getElem?_getD, List.getElem_take, List.getElem_drop]
          rw [← hdat, List.getElem?_take_of_lt (by omega), List.getElem?_drop, List.getElem?_eq_getElem (by omega), Option.getD_some]
          congr 1
          omega
      simp only [expandClassC, Option.bind_eq_bind, Nat.zero_add] at p2
      obtain ⟨ty, _, p2⟩ := bind_inv p2
      obtain ⟨b3, q1, p2⟩ := bind_inv p2
      obtain ⟨b4, q2, p2⟩ := bind_inv p2
      have l3 := put64_inv q1
      have r1 : rd32 (memL b3) 36 = p := by
        rw [l3.2.2, rd32_wr64_ne _ _ _ _ (by omega)]
        exact (rdf 9 (by omega)).trans hp
      have r2 : rd32 (memL b3) 4 = n := by
        rw [l3.2.2, rd32_wr64_ne _ _ _ _ (by omega)]
        exact (rdf 1 (by omega)).trans hn
      simp only [tableC, Option.bind_eq_bind, Nat.zero_add] at q2
      rw [get32_ok (by omega), r1] at q2
      simp only [Option.bind_some] at q2
      rw [if_pos (by omega)] at q2
      obtain ⟨b5, q3, q2⟩ := bind_inv q2
      have l5 := put64_inv q3
      have r3 : get32 b5 4 = some n := by
        rw [get32_ok (by omega), l5.2.2, rd32_wr64_ne _ _ _ _ (by omega), r2]
      rw [r3] at q2
      simp only [Option.bind_some] at q2
      have n32 : n < 2 ^ 32 := by rw [← r2]; exact rd32_lt _ _
      have := ptrLoopC_fits (tbl := p) (n := n) (a := 0) (by omega) (2 ^ 32) 0 b5 b4 (by omega) hn0 (by simpa using r3) (by simpa using q2)
      omega

/-- Two members named by a table of which only one entry is in the file. -/
example (B : Nat) : loadC B ([magic, 1000, 1, 0, 0, 0, 64, 0, 7, 2, 0, 0, 0, 0, 0, 0, 56, 56].flatMap (toLE 4) ++ zeros 24) = .stray :=
  names_outside_violated B _ (by decide +kernel) (by decide +kernel) (by decide +kernel) (by decide +kernel) (by decide +kernel) 2 56
    (by decide +kernel) (by decide +kernel) (by decide +kernel) (by decide +kernel) (by decide +kernel)

/-- A file with one class with one member, whose alias hashes are at offset 60, and which has no aliases. -/
def withHashes : List Byte :=
  [magic, 1000, 1, 0, 0, 64, 64, 0].flatMap (toLE 4) ++ [7, 1, 0, 0, 0, 0, 0, 0, 56, 0, 0, 0, 60, 0].flatMap (toLE 4) ++ [0, 9].flatMap (toLE 4)

/-- **C156 violated**: the pointer to alias hashes is stored in the place of the pointer to the aliases. A file that has the hashes and no aliases
loads as a class with aliases, which are the hashes read as pointers, and without hashes. -/
theorem alias_hashes_misplaced_violated : ∃ file buf, field file 19 = 0 ∧ field file 20 = 60 ∧ loadC 4096 file = .done 0 buf [] ∧
    rd64 (memL buf) 32 = 4096 + 60 ∧ rd64 (memL buf) 40 = 0 :=
  ⟨withHashes, [7, 1].flatMap (toLE 4) ++ [4096 + 56, 0, 0, 4096 + 60, 0, 0].flatMap (toLE 8) ++ [0, 9].flatMap (toLE 4),
    by decide +kernel, by decide +kernel, by decide +kernel, by decide +kernel, by decide +kernel⟩

end PreCore.ReflIO
