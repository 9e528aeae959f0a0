import Verif.Model.ZipRec
import Verif.Spec.ZipRec
import Verif.Lemmas.Mem
/-!
# C72: ZIP records are written and read as APPNOTE lays them out
-/
namespace PreCore.ZipRec

/-- The records of the header with their published layouts. -/
def records : List (Fields × List (String × Nat)) :=
  [(localFile, Spec.ZipRec.localFile), (file, Spec.ZipRec.file), (signature, Spec.ZipRec.signature),
   (centralDir, Spec.ZipRec.centralDir), (central64, Spec.ZipRec.central64), (locator64, Spec.ZipRec.locator64)]

def positions (bs : List (Nat × Nat)) : List Nat := bs.flatMap fun b => List.range' b.1 b.2

theorem slice_positions (mem : List Byte) (o n : Nat) (h : o + n ≤ mem.length) :
    (mem.drop o).take n = (List.range' o n).map (fun i => mem.getD i 0#8) := by
  apply List.ext_getElem?
  intro i
  rw [List.getElem?_take, List.getElem?_map]
  by_cases hi : i < n
  · rw [if_pos hi, List.getElem?_drop, List.getElem?_range' hi]
    simp [List.getD, List.getElem?_eq_getElem (show o + i < mem.length by omega)]
  · rw [if_neg hi, List.getElem?_eq_none (by simp; omega)]; rfl

theorem write_positions (bs : List (Nat × Nat)) (mem : List Byte) (h : ∀ b ∈ bs, b.1 + b.2 ≤ mem.length) :
    write bs mem = (positions bs).map (fun i => mem.getD i 0#8) := by
  induction bs with
  | nil => rfl
  | cons b bs ih =>
    have h1 := slice_positions mem b.1 b.2 (h b (by simp))
    have h2 := ih (fun x hx => h x (by simp [hx]))
    unfold write positions at h2 ⊢
    rw [List.flatMap_cons, List.flatMap_cons, List.map_append, h1, h2]

theorem bytes_positions (fs : Fields) (sp : List (String × Nat)) (mem : List Byte)
    (hw : ∀ f ∈ sp, (fieldAt fs f.1).2 = f.2 ∧ (fieldAt fs f.1).1 + f.2 ≤ mem.length) :
    Spec.ZipRec.bytes sp (value fs mem) =
      (positions (sp.map fun f => fieldAt fs f.1)).map (fun i => mem.getD i 0#8) := by
  induction sp with
  | nil => rfl
  | cons f sp ih =>
    have h1 := hw f (by simp)
    have h2 := ih (fun x hx => hw x (by simp [hx]))
    unfold Spec.ZipRec.bytes positions at h2 ⊢
    rw [List.flatMap_cons, List.map_cons, List.flatMap_cons, List.map_append, h2]
    congr 1
    rw [← slice_positions mem _ _ (by rw [h1.1]; exact h1.2), value]
    have hl : ((mem.drop (fieldAt fs f.1).1).take (fieldAt fs f.1).2).length = f.2 := by
      simp only [List.length_take, List.length_drop]; omega
    conv => lhs; rw [← hl]
    exact toLE_leNat _

theorem records_check : ∀ r ∈ records,
    positions (writeBlocks r.1) = positions (r.2.map fun f => fieldAt r.1 f.1) ∧
    positions (readBlocks r.1) = positions (r.2.map fun f => fieldAt r.1 f.1) ∧
    (∀ f ∈ r.2, (fieldAt r.1 f.1).2 = f.2 ∧ (fieldAt r.1 f.1).1 + f.2 ≤ sizeOf r.1) ∧
    (∀ b ∈ writeBlocks r.1, b.1 + b.2 ≤ sizeOf r.1) ∧ (∀ b ∈ readBlocks r.1, b.1 + b.2 ≤ sizeOf r.1) ∧
    (positions (readBlocks r.1)).Nodup := by decide +kernel

/-- **C72** `Write` of any record: the bytes are the published layout of its members' values. -/
theorem zip_write (r : Fields × List (String × Nat)) (hr : r ∈ records) (mem : List Byte)
    (hl : mem.length = sizeOf r.1) : writeRec r.1 mem = Spec.ZipRec.bytes r.2 (value r.1 mem) := by
  obtain ⟨h1, -, h3, h4, -, -⟩ := records_check r hr
  rw [writeRec, write_positions _ _ (by rw [hl]; exact h4), h1, bytes_positions _ _ _ (by rw [hl]; exact h3)]

/-- What one `Read` does to the bytes of the struct. -/
theorem read_spec (bs : List (Nat × Nat)) : ∀ (mem s rest : List Byte), (∀ b ∈ bs, b.1 + b.2 ≤ mem.length) →
    (positions bs).Nodup → s.length = (positions bs).length →
    ∃ mem', read bs mem (s ++ rest) = some (mem', rest) ∧ mem'.length = mem.length ∧
      (∀ i : Nat, i ∉ positions bs → mem'[i]? = mem[i]?) ∧ write bs mem' = s := by
  induction bs with
  | nil =>
    intro mem s rest _ _ hs
    have : s = [] := by simpa [positions] using hs
    exact ⟨mem, by simp [read, this], rfl, fun _ _ => rfl, by simp [write, this]⟩
  | cons b bs ih =>
    obtain ⟨o, n⟩ := b
    intro mem s rest hb hnd hs
    have hpos : positions ((o, n) :: bs) = List.range' o n ++ positions bs := by simp [positions]
    rw [hpos] at hnd hs
    simp only [List.length_append, List.length_range'] at hs
    have hon : o + n ≤ mem.length := hb (o, n) (by simp)
    have hnd' := List.nodup_append.1 hnd
    have hm1 : (mem.take o ++ s.take n ++ mem.drop (o + n)).length = mem.length := by simp; omega
    obtain ⟨mem', h1, h2, h3, h4⟩ := ih (mem.take o ++ s.take n ++ mem.drop (o + n)) (s.drop n) rest
      (fun x hx => by rw [hm1]; exact hb x (by simp [hx])) hnd'.2.1 (by simp; omega)
    refine ⟨mem', ?_, by rw [h2, hm1], ?_, ?_⟩
    · rw [read, if_neg (by simp; omega)]
      rw [List.take_append_of_le_length (by omega), List.drop_append_of_le_length (by omega)]
      exact h1
    · intro i hi
      rw [hpos] at hi
      simp only [List.mem_append, not_or, List.mem_range'_1] at hi
      rw [h3 i hi.2]
      by_cases h : i < o
      · rw [List.append_assoc, List.getElem?_append_left (by simp; omega), List.getElem?_take, if_pos h]
      · rw [List.getElem?_append_right (by simp; omega), List.getElem?_drop]
        congr 1; simp; omega
    · unfold write at h4 ⊢
      rw [List.flatMap_cons, h4]
      have : (mem'.drop o).take n = s.take n := by
        apply List.ext_getElem?
        intro i
        rw [List.getElem?_take, List.getElem?_take]
        split
        · rename_i hi
          rw [List.getElem?_drop, h3 (o + i) (fun hm => hnd'.2.2 (o + i) (by rw [List.mem_range'_1]; omega) _ hm rfl)]
          rw [List.append_assoc, List.getElem?_append_right (by simp; omega), List.getElem?_append_left (by simp; omega)]
          rw [List.getElem?_take, if_pos (by simp; omega)]
          congr 1; simp; omega
        · rfl
      show (mem'.drop o).take n ++ s.drop n = s
      rw [this, List.take_append_drop]

theorem bytes_inj (sp : List (String × Nat)) (v w : String → Nat) (hv : ∀ f ∈ sp, v f.1 < 256 ^ f.2)
    (hw : ∀ f ∈ sp, w f.1 < 256 ^ f.2) (h : Spec.ZipRec.bytes sp v = Spec.ZipRec.bytes sp w) :
    ∀ f ∈ sp, v f.1 = w f.1 := by
  induction sp with
  | nil => simp
  | cons f sp ih =>
    unfold Spec.ZipRec.bytes at h ih
    rw [List.flatMap_cons, List.flatMap_cons] at h
    obtain ⟨h1, h2⟩ := List.append_inj h (by rw [toLE_length, toLE_length])
    intro g hg
    simp only [List.mem_cons] at hg
    rcases hg with rfl | hg
    · have e1 := leNat_toLE g.2 (v g.1)
      have e2 := leNat_toLE g.2 (w g.1)
      rw [h1, e2, Nat.mod_eq_of_lt (hv g (by simp)), Nat.mod_eq_of_lt (hw g (by simp))] at e1
      exact e1.symm
    · exact ih (fun x hx => hv x (by simp [hx])) (fun x hx => hw x (by simp [hx])) h2 g hg

theorem value_lt (fs : Fields) (mem : List Byte) (name : String) (w : Nat) (h : (fieldAt fs name).2 = w) :
    value fs mem name < 256 ^ w := by
  unfold value
  refine Nat.lt_of_lt_of_le (leNat_lt _) (Nat.pow_le_pow_right (by omega) ?_)
  simp only [List.length_take]; omega

/-- **C72** `Read` of a published record with any values, whatever the struct held and whatever follows in the stream:
every member gets its value, bytes that belong to no member of the record (padding) are left alone, and the stream
stands behind the record. -/
theorem zip_read (r : Fields × List (String × Nat)) (hr : r ∈ records) (mem : List Byte)
    (hl : mem.length = sizeOf r.1) (v : String → Nat) (hv : ∀ f ∈ r.2, v f.1 < 256 ^ f.2) (rest : List Byte) :
    ∃ mem', readRec r.1 mem (Spec.ZipRec.bytes r.2 v ++ rest) = some (mem', rest) ∧ mem'.length = mem.length ∧
      (∀ f ∈ r.2, value r.1 mem' f.1 = v f.1) ∧
      ∀ i : Nat, (∀ f ∈ r.2, ¬ ((fieldAt r.1 f.1).1 ≤ i ∧ i < (fieldAt r.1 f.1).1 + f.2)) → mem'[i]? = mem[i]? := by
  obtain ⟨h1, h2, h3, h4, h5, h6⟩ := records_check r hr
  have hlen : (Spec.ZipRec.bytes r.2 v).length = (positions (readBlocks r.1)).length := by
    rw [h2]
    have h3' : ∀ f ∈ r.2, (fieldAt r.1 f.1).2 = f.2 := fun f hf => (h3 f hf).1
    generalize r.2 = sp at h3'
    unfold Spec.ZipRec.bytes positions
    induction sp with
    | nil => rfl
    | cons f sp ih =>
      rw [List.flatMap_cons, List.map_cons, List.flatMap_cons, List.length_append, List.length_append,
        ih (fun x hx => h3' x (by simp [hx])), toLE_length, List.length_range', h3' f (by simp)]
  obtain ⟨mem', e1, e2, e3, e4⟩ := read_spec (readBlocks r.1) mem (Spec.ZipRec.bytes r.2 v) rest
    (by rw [hl]; exact h5) h6 hlen
  refine ⟨mem', e1, e2, ?_, ?_⟩
  · have hb : Spec.ZipRec.bytes r.2 (value r.1 mem') = Spec.ZipRec.bytes r.2 v := by
      rw [bytes_positions _ _ _ (by rw [e2, hl]; exact h3), ← h2, ← write_positions _ _ (by rw [e2, hl]; exact h5), e4]
    exact bytes_inj r.2 _ _ (fun f hf => value_lt _ _ _ _ (h3 f hf).1) hv hb
  · intro i hi
    apply e3
    rw [h2]
    unfold positions
    rw [List.mem_flatMap]
    rintro ⟨b, hb, hib⟩
    obtain ⟨f, hf, rfl⟩ := List.mem_map.1 hb
    rw [List.mem_range'_1, (h3 f hf).1] at hib
    exact hi f hf hib

/-- **C72** A record that was written is read back: every member, into any struct. -/
theorem zip_round_trip (r : Fields × List (String × Nat)) (hr : r ∈ records) (mem mem0 : List Byte)
    (hl : mem.length = sizeOf r.1) (hl0 : mem0.length = sizeOf r.1) (rest : List Byte) :
    ∃ mem', readRec r.1 mem0 (writeRec r.1 mem ++ rest) = some (mem', rest) ∧
      ∀ f ∈ r.2, value r.1 mem' f.1 = value r.1 mem f.1 := by
  obtain ⟨h1, h2, h3, h4, h5, h6⟩ := records_check r hr
  rw [zip_write r hr mem hl]
  obtain ⟨mem', e1, -, e3, -⟩ := zip_read r hr mem0 hl0 (value r.1 mem) (fun f hf => value_lt _ _ _ _ (h3 f hf).1) rest
  exact ⟨mem', e1, e3⟩

/-- **C72** A stream that ends within the record does not give a record. -/
theorem zip_short (r : Fields × List (String × Nat)) (hr : r ∈ records) (mem s : List Byte)
    (hs : s.length < (r.2.map Prod.snd).sum) : readRec r.1 mem s = none := by
  have hsum : ∀ r ∈ records, (r.2.map Prod.snd).sum = ((readBlocks r.1).map Prod.snd).sum := by decide +kernel
  rw [hsum r hr] at hs
  unfold readRec
  generalize readBlocks r.1 = bs at hs
  induction bs generalizing mem s with
  | nil => simp at hs
  | cons b bs ih =>
    obtain ⟨o, n⟩ := b
    rw [read]
    split
    · rfl
    · apply ih
      simp only [List.map_cons, List.sum_cons] at hs
      simp only [List.length_drop]; omega

/-- The published sizes, and where the members lie in memory. -/
example : (Spec.ZipRec.bytes Spec.ZipRec.localFile (fun _ => 0)).length = 30 ∧
    (Spec.ZipRec.bytes Spec.ZipRec.file (fun _ => 0)).length = 46 ∧
    (Spec.ZipRec.bytes Spec.ZipRec.centralDir (fun _ => 0)).length = 22 ∧
    (Spec.ZipRec.bytes Spec.ZipRec.central64 (fun _ => 0)).length = 56 ∧
    (Spec.ZipRec.bytes Spec.ZipRec.locator64 (fun _ => 0)).length = 20 ∧
    sizeOf localFile = 32 ∧ sizeOf file = 48 ∧ sizeOf central64 = 64 ∧ sizeOf locator64 = 24 ∧
    fieldAt file "localHeaderOffset" = (44, 4) ∧ fieldAt central64 "dirOffset" = (56, 8) := by decide +kernel

/-- A directory record with its offset. -/
example : ((readRec centralDir (List.replicate 24 0#8)
    (Spec.ZipRec.bytes Spec.ZipRec.centralDir (fun n => if n = "dirOffset" then 0x12345 else 7))).map
      fun p => (value centralDir p.1 "dirOffset", value centralDir p.1 "commentSize", p.2)) = some (0x12345, 7, []) := by
  decide +kernel

end PreCore.ZipRec
