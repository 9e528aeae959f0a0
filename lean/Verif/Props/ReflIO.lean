import Verif.Lemmas.ReflIOEnum
/-!
# C47: the database of class and enum descriptions survives saving and loading

`save [] first db` are the bytes of the file after `Save` on a fresh writer, `load B file` the result of `Load` into an empty object
whose buffer is allocated at address `B`: return code and the descriptions as seen through the pointers it leaves behind. `WF` and
`forget` are in `Spec/ReflIO`.
-/
namespace PreCore.ReflIO
open PreCore

/-- The header as a list of numbers. -/
theorem header_eq (db : DB) : header db = [magic, 1000, db.classes.length, db.enums.length, totalStrings db.enums,
    (run (classesEv db.classes)).buf.length, (run (classesEv db.classes ++ enumsEv db.enums)).buf.length, 0].flatMap (toLE 4) := by
  simp [header]

theorem header_length (db : DB) : (header db).length = 32 := by
  simp only [header, List.length_append, toLE_length]

theorem field32 (xs : List Nat) (tail : List Byte) (i : Nat) (hi : i < xs.length) :
    ((xs.flatMap (toLE 4) ++ tail).drop (4 * i)).take 4 = toLE 4 xs[i] := by
  induction xs generalizing i with
  | nil => simp at hi
  | cons x xs ih =>
    have l4 : (toLE 4 x).length = 4 := toLE_length 4 x
    cases i with
    | zero =>
      simp only [List.flatMap_cons, List.append_assoc, Nat.mul_zero, List.drop_zero, List.getElem_cons_zero]
      rw [List.take_append_of_le_length (by omega), List.take_of_length_le (by omega)]
    | succ i =>
      have := ih i (by simpa using hi)
      simp only [List.flatMap_cons, List.append_assoc, List.getElem_cons_succ]
      rw [show 4 * (i + 1) = (toLE 4 x).length + 4 * i by omega, List.drop_length_add_append]
      exact this

theorem save_nil (first : List Byte) (db : DB) (hf : first.length = 32) : save [] first db = header db ++ body db := by
  simp only [save, Stream.overwrite, List.nil_append, Nat.zero_sub, Nat.zero_add, List.take_zero, header_length, List.replicate_zero]
  rw [← hf, List.drop_left]

theorem run_length (db : DB) : (run (classesEv db.classes ++ enumsEv db.enums)).buf.length = (body db).length := by
  have h1 : body db = _ := fixAll_run _
  rw [h1, render_len0, run_eq]
  have := raw_length 0 (classesEv db.classes ++ enumsEv db.enums)
  simp only
  omega

/-- **C47**: every well formed database of any size whose file stays below 2 GiB, saved at the start of a file and loaded into an
empty object at any address, gives back every class and enum - hashes, types, names, class name, aliases, descriptions, values, in
order - except the alias hashes. -/
theorem save_load_partial (db : DB) (wf : WF db) (first : List Byte) (hf : first.length = 32) (B : Nat) (hB : 0 < B)
    (hl : (body db).length < 2 ^ 31) (hb : B + (body db).length < 2 ^ 64) :
    load B (save [] first db) = some (0, { db with classes := db.classes.map forget }) := by
  have hrl := run_length db
  have hE : (run (classesEv db.classes)).buf.length ≤ (body db).length := by
    have h1 : body db = _ := fixAll_run _
    rw [h1, render_len0, run_eq]
    have h2 := raw_length 0 (classesEv db.classes)
    have h3 := fin_mono (List.prefix_append (classesEv db.classes) (enumsEv db.enums))
    simp only
    omega
  have hcl : 56 * db.classes.length ≤ (body db).length := by
    have h1 : body db = _ := fixAll_run _
    rw [h1, render_len0]
    have h3 : U2 db.classes <+: classesEv db.classes ++ enumsEv db.enums := by
      refine ⟨?_, ?_⟩
      · exact db.classes.flatMap typesEv ++ db.classes.flatMap ahashEv ++ db.classes.flatMap namesEv ++ db.classes.flatMap aliasEv ++
          db.classes.flatMap descEv ++ db.classes.flatMap stringsEv ++ [.pad] ++ enumsEv db.enums
      · simp [U2, classesEv]
    have h4 := fin_mono h3
    rw [U2, fin_recs] at h4
    omega
  have hel : 8 * db.enums.length + 8 * totalStrings db.enums ≤ (body db).length := by
    have h1 : body db = _ := fixAll_run _
    rw [h1, render_len0, all_eq]
    have h3 := fin_mono (List.prefix_append (V2 db.classes db.enums) ((allStrings db.enums).flatMap (strEv .strs)))
    rw [fin_V2, fin_V1, ← totalStrings_eq] at h3
    have : ∀ es : List Enm, 8 * es.length ≤ (es.flatMap enumBytes).length := by
      intro es
      induction es with
      | nil => simp
      | cons e es ih => rw [List.flatMap_cons, List.length_append, enumBytes_length, List.length_cons]; omega
    have := this db.enums
    omega
  have key := load_body db wf B hB hl hb (body db).length (Nat.le_refl _)
  rw [save_nil first db hf]
  have hfield : ∀ (i v : Nat), i < 8 → v < 2 ^ 32 → [magic, 1000, db.classes.length, db.enums.length, totalStrings db.enums,
      (run (classesEv db.classes)).buf.length, (run (classesEv db.classes ++ enumsEv db.enums)).buf.length, 0].getD i 0 = v →
      leNat (((header db ++ body db).drop (4 * i)).take 4) = v := by
    intro i v hi hv hg
    rw [header_eq, field32 _ _ i (by simpa using hi), leNat_toLE]
    rw [List.getD_eq_getElem?_getD, List.getElem?_eq_getElem (by simpa using hi)] at hg
    simp only [Option.getD_some] at hg
    rw [hg]; exact Nat.mod_eq_of_lt hv
  have h0 := hfield 0 magic (by omega) (by unfold magic; omega) rfl
  have h1 := hfield 1 1000 (by omega) (by omega) rfl
  have h2 := hfield 2 db.classes.length (by omega) (by omega) rfl
  have h3 := hfield 3 db.enums.length (by omega) (by omega) rfl
  have h4 := hfield 4 (totalStrings db.enums) (by omega) (by omega) rfl
  have h5 := hfield 5 (run (classesEv db.classes)).buf.length (by omega) (by omega) rfl
  have h6 := hfield 6 (body db).length (by omega) (by omega) (by rw [← hrl]; rfl)
  unfold load
  simp only [h0, h1, h2, h3, h4, h5, h6, List.length_append, header_length]
  have hd : ((header db ++ body db).drop 32).take (body db).length = body db := by
    rw [← header_length db, List.drop_left, List.take_length]
  rw [hd, if_neg (by omega), if_neg (by simp), if_neg (by omega), if_neg (by omega)]
  simp only at key
  rw [key.1, key.2]

/-- A database with everything in it meets the hypotheses of `save_load_partial`. -/
def sampleDB : DB :=
  ⟨[⟨7#32, [List.replicate 16 1#8, List.replicate 16 2#8], some [[65#8], [66#8, 67#8]], some [75#8], some [none, some [90#8]], none,
      some [([80#8], []), ([], [81#8, 0#8])]⟩,
    ⟨9#32, [List.replicate 16 3#8], none, none, none, none, none⟩],
   [⟨5#32, [([70#8], 0xffffffffffffffff#64), ([71#8], 3#64)], [72#8]⟩, ⟨6#32, [], [73#8]⟩]⟩

theorem sample_wf : WF sampleDB := by
  constructor
  · intro c hc
    simp only [sampleDB, List.mem_cons, List.not_mem_nil, or_false] at hc
    rcases hc with rfl | rfl
    · refine ⟨by decide, ?_, ?_, ?_, ?_⟩
      · intro ns h; injection h with h; subst h; exact ⟨by decide, by unfold NoNul; decide⟩
      · intro t h; injection h with h; subst h; unfold NoNul; decide
      · intro as h; injection h with h; subst h
        refine ⟨by decide, ?_⟩
        intro t ht
        have : t = [90#8] := by simpa using ht
        subst this; unfold NoNul; decide
      · intro ds h; injection h with h; subst h; decide
    · refine ⟨by decide, ?_, ?_, ?_, ?_⟩ <;> intro x h <;> cases h
  · intro e he
    simp only [sampleDB, List.mem_cons, List.not_mem_nil, or_false] at he
    rcases he with rfl | rfl
    · exact ⟨by unfold NoNul; decide, by unfold NoNul; decide⟩
    · exact ⟨by simp, by unfold NoNul; decide⟩

theorem sample_size : (body sampleDB).length < 2000 := by decide +kernel

example : load 0x7f0000001000 (save [] (zeros 32) sampleDB) = some (0, sampleDB) := by
  have := save_load_partial sampleDB sample_wf (zeros 32) (by simp) 0x7f0000001000 (by omega) (by have := sample_size; omega)
    (by have := sample_size; omega)
  simpa [forget, sampleDB] using this

/-- Databases without alias hashes survive completely. -/
theorem save_load (db : DB) (wf : WF db) (ha : ∀ c ∈ db.classes, c.aliasHashes = none) (first : List Byte) (hf : first.length = 32)
    (B : Nat) (hB : 0 < B) (hl : (body db).length < 2 ^ 31) (hb : B + (body db).length < 2 ^ 64) :
    load B (save [] first db) = some (0, db) := by
  rw [save_load_partial db wf first hf B hB hl hb]
  have : db.classes.map forget = db.classes := by
    conv => rhs; rw [← List.map_id db.classes]
    apply List.map_congr_left
    intro c hc
    have := ha c hc
    cases c
    simp only [forget, id] at this ⊢
    rw [this]
  rw [this]

/-- **C47 violated**: alias hashes are written but their place is never recorded, so every saved class comes back without them. -/
theorem alias_hashes_lost_violated : ∃ db : DB, WF db ∧ (∃ c ∈ db.classes, c.aliasHashes ≠ none) ∧
    load 4096 (save [] (zeros 32) db) = some (0, { db with classes := db.classes.map forget }) ∧
    ({ db with classes := db.classes.map forget } : DB) ≠ db := by
  refine ⟨⟨[⟨1#32, [List.replicate 16 1#8], none, none, none, some [5#32], none⟩], []⟩, ?_, ⟨_, List.mem_singleton.mpr rfl, by decide⟩, ?_, by decide⟩
  · constructor
    · intro c hc
      simp only [List.mem_cons, List.not_mem_nil, or_false] at hc
      subst hc
      refine ⟨by decide, ?_, ?_, ?_, ?_⟩ <;> intro x h <;> cases h
    · intro e he; cases he
  · refine save_load_partial _ ?_ _ (by simp) _ (by omega) (by decide +kernel) (by decide +kernel)
    constructor
    · intro c hc
      simp only [List.mem_cons, List.not_mem_nil, or_false] at hc
      subst hc
      refine ⟨by decide, ?_, ?_, ?_, ?_⟩ <;> intro x h <;> cases h
    · intro e he; cases he

/-- **C47 violated**: `Save` behind other data puts the final header at the very start of the file: the first bytes of what was
there are overwritten (here by the magic number) and the header in front of the body keeps what was written first. -/
theorem save_behind_data_violated (pre first : List Byte) (db : DB) (hp : 32 ≤ pre.length) (hf : first.length = 32) :
    (save pre first db).take 32 = header db ∧ ((save pre first db).drop pre.length).take 32 = first := by
  have hh := header_length db
  have e : save pre first db = header db ++ (pre.drop 32 ++ (first ++ body db)) := by
    simp only [save, Stream.overwrite, Nat.zero_sub, Nat.zero_add, List.take_zero, hh, List.replicate_zero, List.nil_append,
      List.append_assoc]
    rw [List.drop_append_of_le_length hp]
  rw [e]
  constructor
  · rw [List.take_append_of_le_length (by omega), List.take_of_length_le (by omega)]
  · rw [← List.append_assoc]
    have hlen : (header db ++ pre.drop 32).length = pre.length := by simp only [List.length_append, List.length_drop, hh]; omega
    rw [← hlen, List.drop_left, ← hf, List.take_left]

example : (save (zeros 40) (zeros 32) sampleDB).take 4 = toLE 4 magic := by
  have := (save_behind_data_violated (zeros 40) (zeros 32) sampleDB (by simp) (by simp)).1
  have h := congrArg (List.take 4) this
  rw [List.take_take] at h
  have h2 : (header sampleDB).take 4 = toLE 4 magic := by decide +kernel
  rw [← h2, ← h]; rfl

/-- **C47**: a file with another magic number is refused with code 1, one from a newer version with code 2, and nothing is loaded. -/
theorem load_refuses (B : Nat) (file : List Byte) (h : 32 ≤ file.length) :
    (leNat (file.take 4) ≠ magic → load B file = some (1, ⟨[], []⟩)) ∧
    (leNat (file.take 4) = magic → leNat ((file.drop 4).take 4) > 1000 → load B file = some (2, ⟨[], []⟩)) := by
  have e0 : leNat ((file.drop (4 * 0)).take 4) = leNat (file.take 4) := by simp
  have e1 : leNat ((file.drop (4 * 1)).take 4) = leNat ((file.drop 4).take 4) := by simp
  constructor
  · intro h1
    simp only [load, e0]
    rw [if_neg (by omega), if_pos h1]
  · intro h1 h2
    simp only [load, e0, e1]
    rw [if_neg (by omega), if_neg (by simpa using h1), if_pos h2]

example : load 1 (zeros 32) = some (1, ⟨[], []⟩) := (load_refuses 1 (zeros 32) (by simp)).1 (by decide)
example : load 1 (toLE 4 magic ++ toLE 4 1001 ++ zeros 24) = some (2, ⟨[], []⟩) :=
  (load_refuses 1 _ (by decide)).2 (by decide) (by decide)

/-! ## Loading into an object that is in use -/

theorem expandList_range (B : Nat) (k : Nat) : ∀ (a : Nat) (m : Mem), expandList B ((List.range k).map (fun c => a + 56 * c)) m = expandAll B k a m := by
  induction k with
  | zero => intro a m; rfl
  | succ k ih =>
    intro a m
    rw [List.range_succ_eq_map, List.map_cons, List.map_map, expandList, expandAll, ← ih]
    congr 1
    apply List.map_congr_left
    intro c _
    simp only [Function.comp, Nat.succ_eq_add_one]; omega

/-- `loadMore` into an object without classes is `load`. -/
theorem loadMore_empty (B : Nat) (file : List Byte) (h : 32 ≤ file.length) (he : leNat ((file.drop 12).take 4) = 0)
    (hs : leNat ((file.drop 16).take 4) = 0) (r : Nat × DB) (hr : load B file = some r) : loadMore B [] file = some (r.1, r.2.classes) := by
  unfold load at hr
  unfold loadMore
  have hn : ¬ file.length < 32 := by omega
  rw [if_neg hn] at hr
  rw [if_neg hn]
  simp only at hr ⊢
  split at hr
  · rename_i hc; rw [if_pos hc]; cases hr; rfl
  rename_i h1
  rw [if_neg h1]
  split at hr
  · rename_i hc; rw [if_pos hc]; cases hr; rfl
  rename_i h2
  rw [if_neg h2]
  split at hr
  · cases hr
  rename_i h3
  rw [if_neg h3]
  cases hr
  have he' : leNat ((file.drop (4 * 3)).take 4) = 0 := he
  have hs' : leNat ((file.drop (4 * 4)).take 4) = 0 := hs
  rw [hs']
  simp only [ptrLoop, List.nil_append]
  have e := expandList_range B (leNat ((file.drop (4 * 2)).take 4)) 0 (fun a => ((file.drop 32).take (leNat ((file.drop (4 * 6)).take 4))).getD a 0#8)
  simp only [Nat.zero_add] at e
  rw [e, List.map_map]
  rfl

/-- A database of one class with one member. -/
def oneClass : DB := ⟨[⟨0x11223344#32, [List.replicate 16 7#8], none, none, none, none, none⟩], []⟩

/-- C47 VIOLATED for an object in use: loading a file for the second time with the same object goes over the classes of the first
time again: the types of its classes are then read from the wrong place. -/
theorem load_again_violated :
    loadMore 4096 [] (save [] (zeros 32) oneClass) = some (0, oneClass.classes) ∧
    ∃ l, loadMore 4096 [0] (save [] (zeros 32) oneClass) = some (0, l) ∧ l.length = 2 ∧ ∀ c ∈ l, c.types ≠ [List.replicate 16 7#8] := by
  have h : (loadMore 4096 [0] (save [] (zeros 32) oneClass)).any (fun r => r.1 == 0 && r.2.length == 2 &&
      r.2.all (fun c => c.types != [List.replicate 16 7#8])) = true := by decide +kernel
  refine ⟨by decide +kernel, ?_⟩
  generalize loadMore 4096 [0] (save [] (zeros 32) oneClass) = o at h ⊢
  obtain _ | ⟨n, l⟩ := o
  · simp at h
  · simp only [Option.any_some, Bool.and_eq_true, beq_iff_eq, List.all_eq_true, bne_iff_ne] at h
    exact ⟨l, by rw [h.1.1], h.1.2, h.2⟩

end PreCore.ReflIO
