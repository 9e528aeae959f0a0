import Verif.Props.Zip
/-!
# C148, C149: ZIP archives made of arbitrary bytes

Specification: `At` (the bytes of the file), `Member` (what a local file header in the file says, after APPNOTE 4.3.7).
-/
namespace PreCore.Zip
open PreCore.Stream

/-- Little endian number of `k` bytes at place `p` of the file. -/
def At (data : List Byte) (p k : Nat) : Nat := leNat ((data.drop p).take k)

/-- At place `p` of the file there is a complete local file header and name of a stored, unencrypted, named, non-empty member
whose data starts at place `start`. -/
structure Member (data : List Byte) (p : Nat) (name : List Byte) (start size : Nat) : Prop where
  inside : p + 30 + name.length ≤ data.length
  signature : At data p 4 = 0x04034b50
  clear : At data (p + 6) 2 % 2 = 0
  stored : At data (p + 8) 2 = 0
  size_eq : At data (p + 18) 4 = size
  nonempty : 0 < size
  name_size : At data (p + 26) 2 = name.length
  named : name ≠ []
  name_eq : (data.drop (p + 30)).take name.length = name
  start_eq : start = p + 30 + name.length + At data (p + 28) 2

/-! ## Lemmas -/

theorem read_some {s s' : Stream} {k : Nat} {a : List Byte} (h : s.read k = (some a, s')) (hk : 0 < k) :
    s.fail = false ∧ s.eof = false ∧ s.pos + k ≤ s.data.length ∧ a = (s.data.drop s.pos).take k ∧ s' = adv s k := by
  unfold Stream.Stream.read at h
  split at h
  · cases h
  · rename_i hf
    rw [if_neg (by omega)] at h
    split at h
    · rename_i hp
      simp only [Prod.mk.injEq, Option.some.injEq] at h
      simp only [Bool.not_eq_true, not_or] at hf
      exact ⟨hf.1, hf.2, hp, h.1.symm, h.2.symm⟩
    · cases h

theorem readParts_some : ∀ (ks : List Nat) (n n' : Navi) (h : List Byte), readParts n ks = (some h, n') → (∀ k ∈ ks, 0 < k) →
    h = (n.s.data.drop n.s.pos).take ks.sum ∧ n' = { n with s := adv n.s ks.sum } ∧
    (ks ≠ [] → n.s.fail = false ∧ n.s.eof = false ∧ n.s.pos + ks.sum ≤ n.s.data.length) := by
  intro ks
  induction ks with
  | nil =>
    intro n n' h hr _
    simp only [readParts, Prod.mk.injEq, Option.some.injEq] at hr
    exact ⟨by simp [← hr.1], by simp [← hr.2, adv], by simp⟩
  | cons k ks ih =>
    intro n n' h hr hk
    unfold readParts at hr
    split at hr
    · rename_i a s e1
      obtain ⟨f1, f2, f3, f4, f5⟩ := read_some e1 (hk k (by simp))
      split at hr
      · rename_i b m e2
        obtain ⟨g1, g2, g3⟩ := ih _ _ _ e2 (fun x hx => hk x (by simp [hx]))
        simp only [Prod.mk.injEq, Option.some.injEq] at hr
        subst f5
        refine ⟨?_, ?_, fun _ => ⟨f1, f2, ?_⟩⟩
        · rw [← hr.1, f4, g1, List.sum_cons, List.take_add, List.drop_drop]; rfl
        · rw [← hr.2, g2]; simp only [adv_adv, List.sum_cons]
        · rw [List.sum_cons]
          cases ks with
          | nil => simpa using f3
          | cons q qs =>
            have := (g3 (by simp)).2.2
            have e : (adv n.s k).pos = n.s.pos + k := rfl
            have e' : (adv n.s k).data = n.s.data := rfl
            simp only [e, e'] at this
            omega
      · cases hr
    · cases hr

theorem skip_data (n : Navi) (i : Int) : (skip .reader n i).s.data = n.s.data := by
  simp only [skip, Stream.skipIn, Stream.Stream.seek]
  repeat' split
  all_goals rfl

theorem skip_rest (n : Navi) (i : Int) : (skip .reader n i).localPos = n.localPos ∧ (skip .reader n i).swap = n.swap := ⟨rfl, rfl⟩

/-- The bytes of a header read from place `p`. -/
theorem at_header (data : List Byte) (p o k : Nat) (hk : o + k ≤ 30) :
    leNat ((((data.drop p).take 30).drop o).take k) = At data (p + o) k := by
  unfold At
  rw [List.drop_take, List.drop_drop, List.take_take, Nat.min_eq_left (by omega)]

/-- What one step of the loop may add to the index. -/
theorem readLocal_ok (n n' : Navi) (ix ix' : Index) (hd : n.s.data.length < 2 ^ 62) (hsig : At n.s.data n.s.pos 4 = 0x04034b50)
    (h : readLocal n ix = .ok (n', ix')) :
    n'.s.data = n.s.data ∧ n'.localPos = n.localPos ∧ n'.swap = n.swap ∧
    (ix' = ix ∨ ∃ name off size, ix' = emplace ix name (off, size) ∧
      ∃ start, Member n.s.data n.s.pos name start size ∧ off = (start + 2 ^ 64 - n.localPos) % 2 ^ 64) := by
  unfold readLocal at h
  split at h
  · cases h
  · rename_i hdr m e1
    obtain ⟨g1, g2, g3⟩ := readParts_some _ _ _ _ e1 (by simp)
    obtain ⟨f1, f2, f3⟩ := g3 (by simp)
    simp only [List.sum_cons, List.sum_nil, Nat.reduceAdd] at g1 g2 f3
    have a : ∀ o, o + 2 ≤ 30 → u16 hdr o = At n.s.data (n.s.pos + o) 2 := fun o ho => by
      rw [g1]; exact at_header _ _ _ _ ho
    have b : ∀ o, o + 4 ≤ 30 → u32 hdr o = At n.s.data (n.s.pos + o) 4 := fun o ho => by
      rw [g1]; exact at_header _ _ _ _ ho
    simp only at h
    split at h
    · simp only [Except.ok.injEq, Prod.mk.injEq] at h
      rw [← h.1, ← h.2, g2]
      exact ⟨skip_data _ _, rfl, rfl, .inl rfl⟩
    · rename_i c0
      split at h
      · cases h
      · rename_i c1
        split at h
        · cases h
        · rename_i c2
          split at h
          · cases h
          · rename_i c3
            split at h
            · cases h
            · rename_i path s e2
              obtain ⟨r1, r2, r3, r4, r5⟩ := read_some e2 (by omega)
              simp only [Except.ok.injEq, Prod.mk.injEq] at h
              subst g2
              have hpl : path.length = u16 hdr 26 := by
                have r3 : n.s.pos + 30 + u16 hdr 26 ≤ n.s.data.length := r3
                have r4 : path = (n.s.data.drop (n.s.pos + 30)).take (u16 hdr 26) := r4
                rw [r4, List.length_take, List.length_drop]; omega
              have hx : u16 hdr 28 < 2 ^ 16 := by
                have := leNat_lt ((hdr.drop 28).take 2)
                have hl : ((hdr.drop 28).take 2).length ≤ 2 := by simp; omega
                exact Nat.lt_of_lt_of_le this (by
                  calc 256 ^ _ ≤ 256 ^ 2 := Nat.pow_le_pow_right (by omega) hl
                    _ = 2 ^ 16 := rfl)
              subst r5
              have r3' : n.s.pos + 30 + u16 hdr 26 ≤ n.s.data.length := r3
              have hs := skip_adv { n with s := adv (adv n.s 30) (u16 hdr 26) } (u16 hdr 28) f1 f2 (by omega)
                (by show n.s.pos + 30 + u16 hdr 26 + _ < _; omega)
              refine ⟨?_, ?_, ?_, .inr ⟨path, _, _, h.2.symm, n.s.pos + 30 + path.length + At n.s.data (n.s.pos + 28) 2, ?_, ?_⟩⟩
              · rw [← h.1, skip_data, skip_data]; rfl
              · rw [← h.1]; rfl
              · rw [← h.1]; rfl
              · refine ⟨by omega, hsig, ?_, ?_, (b 18 (by omega)).symm, by omega, ?_, ?_, ?_, rfl⟩
                · rw [← a 6 (by omega)]
                  simp only [Nat.testBit_zero, decide_eq_true_eq] at c1
                  omega
                · rw [← a 8 (by omega)]; simpa using c2
                · rw [← a 26 (by omega)]; exact hpl.symm
                · intro hc; rw [hc] at hpl; simp at hpl; omega
                · rw [hpl]; exact r4.symm
              · simp only [hs, tell, Stream.Stream.tell]
                rw [if_neg (by show ¬ n.s.fail = true; simp [f1])]
                show (n.s.pos + 30 + u16 hdr 26 + u16 hdr 28 + W64 - n.localPos) % W64 = _
                rw [hpl, ← a 28 (by omega)]
                rfl

/-- `Push; Read(id); Pop` when the four bytes are there. -/
theorem peek_some (n n' : Navi) (id : BitVec (8 * Ty.u32.bytes)) (hsw : n.swap = false) (hd : n.s.data.length < 2 ^ 62)
    (h : readScalar (push n) .u32 = (some id, n')) :
    n.s.fail = false ∧ n.s.eof = false ∧ n.s.pos + 4 ≤ n.s.data.length ∧ id.toNat = At n.s.data n.s.pos 4 ∧ pop n' = push n := by
  unfold readScalar at h
  split at h
  · rename_i bs s e1
    obtain ⟨f1, f2, f3, f4, f5⟩ := read_some e1 (by decide)
    have f3 : n.s.pos + 4 ≤ n.s.data.length := f3
    have f4 : bs = (n.s.data.drop n.s.pos).take 4 := f4
    have f1 : n.s.fail = false := f1
    have f2 : n.s.eof = false := f2
    have hsw' : (push n).swap = false := hsw
    simp only [hsw', Bool.false_eq_true, if_false, Prod.mk.injEq, Option.some.injEq] at h
    refine ⟨f1, f2, f3, ?_, ?_⟩
    · rw [← h.1, f4, BitVec.toNat_ofNat]
      have := leNat_lt ((n.s.data.drop n.s.pos).take 4)
      have hl : ((n.s.data.drop n.s.pos).take 4).length = 4 := by simp; omega
      rw [hl] at this
      exact Nat.mod_eq_of_lt this
    · rw [← h.2, f5]
      unfold pop push
      simp only [Stream.Stream.tell, f1, Bool.false_eq_true, if_false]
      rw [seek_beg _ _ (by exact f1) (by omega)]
      simp [adv, ← f2]
      exact f2.trans hsw.symm
  · cases h

theorem readOther_ok (n n' : Navi) (ix ix' : Index) (parts : List Nat) (len : List Byte → Nat) (hp : ∀ k ∈ parts, 0 < k)
    (h : readOther n ix parts len = .ok (n', ix')) :
    n'.s.data = n.s.data ∧ n'.localPos = n.localPos ∧ n'.swap = n.swap ∧ ix' = ix := by
  unfold readOther at h
  split at h
  · cases h
  · rename_i hdr m e1
    obtain ⟨g1, g2, g3⟩ := readParts_some _ _ _ _ e1 hp
    simp only [Except.ok.injEq, Prod.mk.injEq] at h
    rw [← h.1, ← h.2, g2]
    exact ⟨skip_data _ _, rfl, rfl, rfl⟩

theorem readPlain_ok (n n' : Navi) (ix ix' : Index) (parts : List Nat) (hp : ∀ k ∈ parts, 0 < k)
    (h : readPlain n ix parts = .ok (n', ix')) :
    n'.s.data = n.s.data ∧ n'.localPos = n.localPos ∧ n'.swap = n.swap ∧ ix' = ix := by
  unfold readPlain at h
  split at h
  · cases h
  · rename_i hdr m e1
    obtain ⟨g1, g2, g3⟩ := readParts_some _ _ _ _ e1 hp
    simp only [Except.ok.injEq, Prod.mk.injEq] at h
    rw [← h.1, ← h.2, g2]
    exact ⟨rfl, rfl, rfl, rfl⟩

theorem readEntry_ok (n n' : Navi) (ix ix' : Index) (hsw : n.swap = false) (hd : n.s.data.length < 2 ^ 62)
    (h : readEntry n ix = .ok (n', ix')) :
    n'.s.data = n.s.data ∧ n'.localPos = n.localPos ∧ n'.swap = false ∧
    (ix' = ix ∨ ∃ name off size, ix' = emplace ix name (off, size) ∧
      ∃ p start, Member n.s.data p name start size ∧ off = (start + 2 ^ 64 - n.localPos) % 2 ^ 64) := by
  unfold readEntry at h
  simp only at h
  split at h
  · cases h
  · rename_i id m e1
    obtain ⟨f1, f2, f3, f4, f5⟩ := peek_some n m id hsw hd e1
    simp only [f5] at h
    split at h
    · rename_i c
      obtain ⟨g1, g2, g3, g4⟩ := readLocal_ok (push n) n' ix ix' hd (by rw [push_s, ← f4]; exact c) h
      refine ⟨g1, g2, g3.trans hsw, ?_⟩
      rcases g4 with g | ⟨name, off, size, q1, start, q2, q3⟩
      · exact .inl g
      · exact .inr ⟨name, off, size, q1, _, start, q2, q3⟩
    · have fin : (n'.s.data = (push n).s.data ∧ n'.localPos = (push n).localPos ∧ n'.swap = (push n).swap ∧ ix' = ix) →
          n'.s.data = n.s.data ∧ n'.localPos = n.localPos ∧ n'.swap = false ∧
          (ix' = ix ∨ ∃ name off size, ix' = emplace ix name (off, size) ∧
            ∃ p start, Member n.s.data p name start size ∧ off = (start + 2 ^ 64 - n.localPos) % 2 ^ 64) :=
        fun ⟨a, b, c, d⟩ => ⟨a, b, c.trans hsw, .inl d⟩
      split at h
      · exact fin (readOther_ok _ _ _ _ _ _ (by simp) h)
      · split at h
        · exact fin (readOther_ok _ _ _ _ _ _ (by simp) h)
        · split at h
          · exact fin (readPlain_ok _ _ _ _ _ (by simp) h)
          · split at h
            · exact fin (readPlain_ok _ _ _ _ _ (by simp) h)
            · split at h
              · exact fin (readOther_ok _ _ _ _ _ _ (by simp) h)
              · split at h
                · exact fin (readOther_ok _ _ _ _ _ _ (by simp) h)
                · cases h

/-- Every listed member is in the file, under one name each. -/
def Sound (data : List Byte) (origin : Nat) (ix : Index) : Prop :=
  (ix.map Prod.fst).Nodup ∧
  ∀ name off size, (name, off, size) ∈ ix →
    ∃ p start, Member data p name start size ∧ off = (start + 2 ^ 64 - origin) % 2 ^ 64

theorem Sound.emplace {data : List Byte} {o : Nat} {ix : Index} (h : Sound data o ix) (k : List Byte) (off size : Nat)
    (hm : ∃ p start, Member data p k start size ∧ off = (start + 2 ^ 64 - o) % 2 ^ 64) : Sound data o (emplace ix k (off, size)) := by
  unfold Zip.emplace
  split
  · exact h
  · rename_i hk
    refine ⟨?_, ?_⟩
    · rw [List.map_append, List.nodup_append]
      refine ⟨h.1, by simp, ?_⟩
      intro a ha b hb
      simp only [List.map_cons, List.map_nil, List.mem_singleton] at hb
      rw [hb]
      intro hc
      exact hk (hc ▸ ha)
    · intro name off' size' hmem
      rcases List.mem_append.1 hmem with h1 | h1
      · exact h.2 _ _ _ h1
      · simp only [List.mem_singleton, Prod.mk.injEq] at h1
        obtain ⟨rfl, rfl, rfl⟩ := h1
        exact hm

theorem readLoop_sound (size : Nat) : ∀ (f : Nat) (n n' : Navi) (ix ix' : Index), n.swap = false → n.s.data.length < 2 ^ 62 →
    Sound n.s.data n.localPos ix → readLoop size f n ix = some (.ok (n', ix')) →
    n'.s.data = n.s.data ∧ n'.localPos = n.localPos ∧ Sound n.s.data n.localPos ix' := by
  intro f
  induction f with
  | zero =>
    intro n n' ix ix' _ _ hs h
    unfold readLoop at h
    split at h
    · cases h
    · simp only [Option.some.injEq, Except.ok.injEq, Prod.mk.injEq] at h
      rw [← h.1, ← h.2]; exact ⟨rfl, rfl, hs⟩
  | succ f ih =>
    intro n n' ix ix' hsw hd hs h
    rw [readLoop_succ] at h
    split at h
    · split at h
      · rename_i m jx e1
        obtain ⟨g1, g2, g3, g4⟩ := readEntry_ok n m ix jx hsw hd e1
        have hs' : Sound m.s.data m.localPos jx := by
          rw [g1, g2]
          rcases g4 with g | ⟨name, off, size, q1, q⟩
          · rw [g]; exact hs
          · rw [q1]; exact hs.emplace _ _ _ q
        obtain ⟨k1, k2, k3⟩ := ih m n' jx ix' g3 (by rw [g1]; exact hd) hs' h
        rw [g1, g2] at k3
        exact ⟨k1.trans g1, k2.trans g2, k3⟩
      · cases h
    · simp only [Option.some.injEq, Except.ok.injEq, Prod.mk.injEq] at h
      rw [← h.1, ← h.2]; exact ⟨rfl, rfl, hs⟩

theorem getSize_frame (n : Navi) : (getSize n).2.s.data = n.s.data ∧ (getSize n).2.localPos = n.localPos ∧
    (getSize n).2.swap = n.swap := by
  refine ⟨?_, rfl, rfl⟩
  simp only [getSize, seek, Stream.Stream.seek]
  repeat' split
  all_goals rfl

/-- C148: whatever the bytes of the file, the origin and the state of the reader are, if opening succeeds then every listed member
stands in the file behind a complete local file header that has this name and size and says that the member is stored and not
encrypted, at the offset where that header's data starts; names are listed once. -/
theorem open_sound (f : Nat) (n n' : Navi) (ix : Index) (hsw : n.swap = false) (hd : n.s.data.length < 2 ^ 62)
    (h : openZip f n = some (.ok (n', ix))) :
    (ix.map Prod.fst).Nodup ∧
    (∀ name off size, (name, off, size) ∈ ix →
      ∃ p start, Member n.s.data p name start size ∧ off = (start + 2 ^ 64 - n.localPos) % 2 ^ 64) ∧
    n'.s.data = n.s.data ∧ n'.localPos = n.localPos := by
  obtain ⟨f1, f2, f3⟩ := getSize_frame n
  have := readLoop_sound (getSize n).1 f (getSize n).2 n' [] ix (f3.trans hsw) (by rw [f1]; exact hd)
    ⟨by simp, by simp⟩ h
  rw [f1, f2] at this
  exact ⟨this.2.2.1, this.2.2.2, this.1, this.2.1⟩

/-- The only listed member called `name`. -/
theorem find_mem {ix : Index} {name : List Byte} {v : Nat × Nat} (h : find ix name = some v) : (name, v.1, v.2) ∈ ix := by
  unfold find at h
  rw [Option.map_eq_some_iff] at h
  obtain ⟨e, he, rfl⟩ := h
  have h1 := List.find?_some he
  have h2 := List.mem_of_find?_eq_some he
  simp only [beq_iff_eq] at h1
  rw [← h1]; exact h2

/-- C148: and reading a listed member on a reader that has not failed returns exactly the bytes of the file behind that header,
if the file has that many. -/
theorem get_sound (f : Nat) (n n' m : Navi) (ix : Index) (hsw : n.swap = false) (hd : n.s.data.length < 2 ^ 62)
    (h : openZip f n = some (.ok (n', ix))) (name : List Byte) (v : Nat × Nat) (hv : find ix name = some v)
    (ho : n.localPos ≤ n.s.data.length) (hm : Holds m n.s.data n.localPos) :
    ∃ p start, Member n.s.data p name start v.2 ∧
      (n.localPos ≤ start → start + v.2 ≤ n.s.data.length →
        (get m ix name).1 = some ((n.s.data.drop start).take v.2) ∧ Holds (get m ix name).2 n.s.data n.localPos) := by
  obtain ⟨-, h2, -⟩ := open_sound f n n' ix hsw hd h
  obtain ⟨p, start, h3, h4⟩ := h2 _ _ _ (find_mem hv)
  refine ⟨p, start, h3, fun hl he => ?_⟩
  have hoff : v.1 = start - n.localPos := by rw [h4]; omega
  have h0 := h3.nonempty
  have := getAt_spec m v n.s.data n.localPos hm hd (by omega) (by omega)
  unfold get
  rw [hv]
  simp only
  rw [show v.1 + n.localPos = start by omega] at this
  exact this

/-- The hypotheses are met: the sample archive, and a file that is no archive but starts with a header. -/
example : ∃ n' ix, openZip 4 ⟨⟨archive sample, 0, false, false⟩, 0, 0, false⟩ = some (.ok (n', ix)) ∧
    ix = [([97#8], 32, 2)] ∧ Holds n' (archive sample) 0 ∧ (get n' ix [97#8]).1 = some [1#8, 2#8] :=
  ⟨⟨⟨archive sample, 135, false, false⟩, 112, 0, false⟩, [([97#8], 32, 2)], by decide +kernel, rfl, ⟨rfl, rfl, rfl⟩,
    by decide +kernel⟩

/-! ## Termination, and the state after opening -/

/-- No length in the file makes a skip wrap: behind each local file signature the two sizes are below 2 GiB, with room for a name and
extra data, and so is the length behind each extra data record signature. -/
def NoWrap (data : List Byte) : Prop :=
  (∀ p, At data p 4 = 0x04034b50 → At data (p + 18) 4 < 2 ^ 31 - 2 ^ 17 ∧ At data (p + 22) 4 < 2 ^ 31 - 2 ^ 17) ∧
  (∀ p, At data p 4 = 0x08064b50 → At data (p + 4) 4 < 2 ^ 31)

/-- Position after a step. -/
def Moves (n n' : Navi) : Prop :=
  n'.s.data = n.s.data ∧ n'.localPos = n.localPos ∧ n'.swap = n.swap ∧ n'.s.fail = false ∧ n'.s.eof = false ∧
    n.s.pos + 4 ≤ n'.s.pos ∧ n'.s.pos < 2 ^ 63

theorem field_lt (h : List Byte) (o k : Nat) : leNat ((h.drop o).take k) < 256 ^ k := by
  refine Nat.lt_of_lt_of_le (leNat_lt _) (Nat.pow_le_pow_right (by omega) ?_)
  simp; omega

theorem u16_lt (h : List Byte) (o : Nat) : u16 h o < 2 ^ 16 := field_lt h o 2

theorem readLocal_moves (n n' : Navi) (ix ix' : Index) (hd : n.s.data.length < 2 ^ 62) (hsig : At n.s.data n.s.pos 4 = 0x04034b50)
    (hw : NoWrap n.s.data) (h : readLocal n ix = .ok (n', ix')) : Moves n n' := by
  obtain ⟨w1, w2⟩ := hw.1 _ hsig
  unfold readLocal at h
  split at h
  · cases h
  · rename_i hdr m e1
    obtain ⟨g1, g2, g3⟩ := readParts_some _ _ _ _ e1 (by simp)
    obtain ⟨f1, f2, f3⟩ := g3 (by simp)
    simp only [List.sum_cons, List.sum_nil, Nat.reduceAdd] at g1 g2 f3
    rw [← at_header _ _ _ _ (by omega), ← g1] at w1 w2
    have w1 : u32 hdr 18 < 2 ^ 31 - 2 ^ 17 := w1
    have w2 : u32 hdr 22 < 2 ^ 31 - 2 ^ 17 := w2
    have x1 := u16_lt hdr 26
    have x2 := u16_lt hdr 28
    subst g2
    simp only at h
    split at h
    · simp only [Except.ok.injEq, Prod.mk.injEq] at h
      rw [skip_adv _ _ (by exact f1) (by exact f2) (by omega) (by show n.s.pos + 30 + _ < _; omega)] at h
      rw [← h.1]
      exact ⟨rfl, rfl, rfl, f1, f2, by show n.s.pos + 4 ≤ n.s.pos + 30 + _; omega, by show n.s.pos + 30 + _ < _; omega⟩
    · split at h
      · cases h
      · split at h
        · cases h
        · split at h
          · cases h
          · split at h
            · cases h
            · rename_i c3 _ path s e2
              obtain ⟨r1, r2, r3, r4, r5⟩ := read_some e2 (by omega)
              have r3 : n.s.pos + 30 + u16 hdr 26 ≤ n.s.data.length := r3
              simp only [Except.ok.injEq, Prod.mk.injEq] at h
              subst r5
              have hs := skip_adv { n with s := adv (adv n.s 30) (u16 hdr 26) } (u16 hdr 28) f1 f2 (by omega)
                (by show n.s.pos + 30 + u16 hdr 26 + _ < _; omega)
              simp only [hs] at h
              rw [skip_adv _ _ (by exact f1) (by exact f2) (by omega)
                (by show n.s.pos + 30 + u16 hdr 26 + u16 hdr 28 + _ < _; omega)] at h
              rw [← h.1]
              exact ⟨rfl, rfl, rfl, f1, f2, by show n.s.pos + 4 ≤ n.s.pos + 30 + u16 hdr 26 + u16 hdr 28 + _; omega,
                by show n.s.pos + 30 + u16 hdr 26 + u16 hdr 28 + _ < _; omega⟩

theorem readOther_moves (n n' : Navi) (ix ix' : Index) (parts : List Nat) (len : List Byte → Nat) (hp : ∀ k ∈ parts, 0 < k)
    (hd : n.s.data.length < 2 ^ 62) (h4 : 4 ≤ parts.sum)
    (hlen : len ((n.s.data.drop n.s.pos).take parts.sum) < 2 ^ 31)
    (h : readOther n ix parts len = .ok (n', ix')) : Moves n n' := by
  unfold readOther at h
  split at h
  · cases h
  · rename_i hdr m e1
    obtain ⟨g1, g2, g3⟩ := readParts_some _ _ _ _ e1 hp
    obtain ⟨f1, f2, f3⟩ := g3 (by intro hc; rw [hc] at h4; simp at h4)
    rw [← g1] at hlen
    subst g2
    simp only [Except.ok.injEq, Prod.mk.injEq] at h
    rw [skip_adv _ _ (by exact f1) (by exact f2) hlen (by show n.s.pos + _ + _ < _; omega)] at h
    rw [← h.1]
    exact ⟨rfl, rfl, rfl, f1, f2, by show n.s.pos + 4 ≤ n.s.pos + parts.sum + _; omega, by show n.s.pos + _ + _ < _; omega⟩

theorem readPlain_moves (n n' : Navi) (ix ix' : Index) (parts : List Nat) (hp : ∀ k ∈ parts, 0 < k)
    (hd : n.s.data.length < 2 ^ 62) (h4 : 4 ≤ parts.sum)
    (h : readPlain n ix parts = .ok (n', ix')) : Moves n n' := by
  unfold readPlain at h
  split at h
  · cases h
  · rename_i hdr m e1
    obtain ⟨g1, g2, g3⟩ := readParts_some _ _ _ _ e1 hp
    obtain ⟨f1, f2, f3⟩ := g3 (by intro hc; rw [hc] at h4; simp at h4)
    subst g2
    simp only [Except.ok.injEq, Prod.mk.injEq] at h
    rw [← h.1]
    exact ⟨rfl, rfl, rfl, f1, f2, by show n.s.pos + 4 ≤ n.s.pos + parts.sum; omega, by show n.s.pos + _ < _; omega⟩

theorem readEntry_moves (n n' : Navi) (ix ix' : Index) (hsw : n.swap = false) (hd : n.s.data.length < 2 ^ 62)
    (hw : NoWrap n.s.data) (h : readEntry n ix = .ok (n', ix')) : Moves n n' ∧ n.s.pos + 4 ≤ n.s.data.length := by
  unfold readEntry at h
  simp only at h
  split at h
  · cases h
  · rename_i id m e1
    obtain ⟨f1, f2, f3, f4, f5⟩ := peek_some n m id hsw hd e1
    refine ⟨?_, f3⟩
    simp only [f5] at h
    suffices Moves (push n) n' from this
    split at h
    · rename_i c
      exact readLocal_moves (push n) n' ix ix' hd (by rw [push_s, ← f4]; exact c) hw h
    · split at h
      · refine readOther_moves _ _ _ _ _ _ (by simp) hd (by simp) ?_ h
        generalize List.take _ _ = q
        have := u16_lt q 28
        have := u16_lt q 30
        have := u16_lt q 32
        omega
      · split at h
        · refine readOther_moves _ _ _ _ _ _ (by simp) hd (by simp) ?_ h
          generalize List.take _ _ = q
          have := u16_lt q 20
          omega
        · split at h
          · exact readPlain_moves _ _ _ _ _ (by simp) hd (by simp) h
          · split at h
            · exact readPlain_moves _ _ _ _ _ (by simp) hd (by simp) h
            · split at h
              · refine readOther_moves _ _ _ _ _ _ (by simp) hd (by simp) ?_ h
                generalize List.take _ _ = q
                have := u16_lt q 4
                omega
              · split at h
                · rename_i c
                  refine readOther_moves _ _ _ _ _ _ (by simp) hd (by simp) ?_ h
                  have := hw.2 n.s.pos (by rw [← f4]; exact c)
                  simp only [u32, push_s, List.sum_cons, List.sum_nil, Nat.add_zero]
                  rw [List.drop_take, List.drop_drop, List.take_take]
                  exact this
                · cases h

/-- With the reader at `pos`, one step per remaining byte is enough. -/
theorem readLoop_returns (data : List Byte) (o : Nat) (hd : data.length < 2 ^ 62) (hw : NoWrap data) (ho : o ≤ data.length) :
    ∀ (f : Nat) (n : Navi) (ix : Index), n.s.data = data → n.localPos = o → n.swap = false → n.s.fail = false → n.s.eof = false →
    o ≤ n.s.pos → n.s.pos < 2 ^ 63 → data.length ≤ n.s.pos + f →
    ∃ r, (∀ g, f ≤ g → readLoop (data.length - o) g n ix = some r) ∧ ∀ n' ix', r = .ok (n', ix') → Holds n' data o := by
  intro f
  induction f with
  | zero =>
    intro n ix e1 e2 e3 e4 e5 e6 e7 e8
    have ht : ¬ tell n < data.length - o := by
      simp only [tell, Stream.Stream.tell, e4, Bool.false_eq_true, if_false, e2]
      unfold W64; omega
    refine ⟨.ok (n, ix), fun g _ => ?_, ?_⟩
    · cases g with
      | zero => unfold readLoop; rw [if_neg ht]
      | succ g => rw [readLoop_succ, if_neg ht]
    · intro n' ix' hr
      simp only [Except.ok.injEq, Prod.mk.injEq] at hr
      rw [← hr.1]; exact ⟨e1, e2, e4⟩
  | succ f ih =>
    intro n ix e1 e2 e3 e4 e5 e6 e7 e8
    by_cases ht : tell n < data.length - o
    · cases hr : readEntry n ix with
      | error e =>
        refine ⟨.error e, fun g hg => ?_, ?_⟩
        · obtain ⟨g, rfl⟩ : ∃ k, g = k + 1 := ⟨g - 1, by omega⟩
          rw [readLoop_succ, if_pos ht, hr]
        · intro n' ix' hc; cases hc
      | ok p =>
        obtain ⟨m, jx⟩ := p
        obtain ⟨⟨m1, m2, m3, m4, m5, m6, m7⟩, m8⟩ := readEntry_moves n m ix jx e3 (by rw [e1]; exact hd) (by rw [e1]; exact hw) hr
        obtain ⟨r, k1, k2⟩ := ih m jx (m1.trans e1) (m2.trans e2) (m3.trans e3) m4 m5 (by omega) m7 (by omega)
        refine ⟨r, fun g hg => ?_, k2⟩
        obtain ⟨g, rfl⟩ : ∃ k, g = k + 1 := ⟨g - 1, by omega⟩
        rw [readLoop_succ, if_pos ht, hr]
        exact k1 g (by omega)
    · refine ⟨.ok (n, ix), fun g _ => ?_, ?_⟩
      · cases g with
        | zero => unfold readLoop; rw [if_neg ht]
        | succ g => rw [readLoop_succ, if_neg ht]
      · intro n' ix' hr
        simp only [Except.ok.injEq, Prod.mk.injEq] at hr
        rw [← hr.1]; exact ⟨e1, e2, e4⟩

/-- C148 (complement of `open_never_returns_violated`): opening any file without wrapping lengths returns, with a list or an error,
after at most one step per byte; when it succeeds the reader is still usable. -/
theorem open_returns (n : Navi) (hn : Ready n) (hp : n.s.pos ≤ n.s.data.length) (hw : NoWrap n.s.data) :
    ∃ r, (∀ f, n.s.data.length ≤ f → openZip f n = some r) ∧ ∀ n' ix, r = .ok (n', ix) → Holds n' n.s.data n.localPos := by
  have ho := hn.orig
  have hd := hn.size
  obtain ⟨r, h1, h2⟩ := readLoop_returns n.s.data n.localPos hn.size hw (by omega) n.s.data.length n [] rfl rfl hn.swap hn.fail hn.eof
    hn.orig (by omega) (by omega)
  refine ⟨r, fun f hf => ?_, h2⟩
  unfold openZip
  rw [getSize_ready hn (by omega) hp]
  exact h1 f hf

/-- A file without wrapping lengths. -/
example : ∃ n : Navi, Ready n ∧ n.s.pos ≤ n.s.data.length ∧ n.s.data.length = 6 ∧ NoWrap n.s.data ∧
    openZip 6 n = some (.ok (⟨⟨n.s.data, 6, false, false⟩, 0, 0, false⟩, [])) := by
  refine ⟨⟨⟨[0x50#8, 0x4b#8, 5#8, 5#8, 0#8, 0#8], 0, false, false⟩, 0, 0, false⟩, ⟨rfl, rfl, rfl, by decide, by decide⟩, by decide, rfl, ⟨?_, ?_⟩,
    by decide +kernel⟩
  all_goals
    intro p hp
    exfalso
    by_cases hlt : p < 6
    · have h : ∀ q : Fin 6, At [0x50#8, 0x4b#8, 5#8, 5#8, 0#8, 0#8] q.val 4 ≠ 0x04034b50 ∧
          At [0x50#8, 0x4b#8, 5#8, 5#8, 0#8, 0#8] q.val 4 ≠ 0x08064b50 := by decide
      have h' := h ⟨p, hlt⟩
      first | exact h'.1 hp | exact h'.2 hp
    · unfold At at hp
      rw [List.drop_eq_nil_of_le (by simp; omega)] at hp
      simp [leNat] at hp

/-! ## C149: reading many members -/

/-- The contents that a sequence of `Get(name)` calls returns. -/
def getAll (ix : Index) : Navi → List (List Byte) → List (Option (List Byte))
  | _, [] => []
  | m, name :: names => (get m ix name).1 :: getAll ix (get m ix name).2 names

/-- Every listed member lies in the file. -/
def Inside (data : List Byte) (origin : Nat) (ix : Index) : Prop :=
  ∀ e ∈ ix, e.2.1 + origin + e.2.2 ≤ data.length

/-- C149 (partial: all listed members have their data in the file, no wrapping lengths): after opening, every sequence of reads, in any
order and with any repetition, returns for each listed name the bytes of the file behind its header, independent of the reads before it,
and nothing for other names. -/
theorem reads_independent_partial (n : Navi) (hn : Ready n) (hp : n.s.pos ≤ n.s.data.length) (hw : NoWrap n.s.data) (f : Nat)
    (hf : n.s.data.length ≤ f) (n' : Navi) (ix : Index) (h : openZip f n = some (.ok (n', ix))) (hi : Inside n.s.data n.localPos ix)
    (names : List (List Byte)) :
    getAll ix n' names = names.map (fun name => (find ix name).map (fun v => (n.s.data.drop (v.1 + n.localPos)).take v.2)) ∧
    ∀ name v, find ix name = some v → ∃ p, Member n.s.data p name (v.1 + n.localPos) v.2 := by
  obtain ⟨r, h1, h2⟩ := open_returns n hn hp hw
  have hr := h1 f hf
  rw [h] at hr
  have hh := h2 n' ix (Option.some.inj hr).symm
  obtain ⟨-, s2, -⟩ := open_sound f n n' ix hn.swap hn.size h
  have hsz := hn.size
  have ho := hn.orig
  have mem : ∀ name v, find ix name = some v → ∃ p, Member n.s.data p name (v.1 + n.localPos) v.2 := by
    intro name v hv
    obtain ⟨p, start, a, b⟩ := s2 _ _ _ (find_mem hv)
    have c := hi _ (find_mem hv)
    simp only at c
    have := a.start_eq
    have := a.inside
    have hx : At n.s.data (p + 28) 2 < 2 ^ 16 := field_lt _ _ _
    have : start = v.1 + n.localPos := by omega
    exact ⟨p, this ▸ a⟩
  refine ⟨?_, mem⟩
  clear h hr h1 h2
  revert n'
  induction names with
  | nil => intro n' _; rfl
  | cons name names ih =>
    intro n' hh
    have step : (get n' ix name).1 = (find ix name).map (fun v => (n.s.data.drop (v.1 + n.localPos)).take v.2) ∧
        Holds (get n' ix name).2 n.s.data n.localPos := by
      unfold get
      cases hv : find ix name with
      | none => exact ⟨rfl, hh⟩
      | some v =>
        obtain ⟨p, a⟩ := mem _ _ hv
        have h0 := a.nonempty
        exact getAt_spec n' v _ _ hh hn.size (hi _ (find_mem hv)) (by omega)
    rw [getAll, List.map_cons, step.1, ih _ step.2]

theorem getAt_failed (m : Navi) (v : Nat × Nat) (hf : m.s.fail = true) (h0 : v.2 ≠ 0) :
    (getAt m v).1 = none ∧ (getAt m v).2.s.fail = true := by
  unfold getAt
  simp only
  rw [if_neg h0]
  have : (seek m v.1 .beg).s.fail = true := by simp [seek, Stream.Stream.seek, hf]
  unfold Stream.Stream.read
  rw [if_pos (.inl this)]
  exact ⟨rfl, rfl⟩

/-- C149 violated: reading a listed member whose data is not completely in the file (a truncated archive opens without error) fails the
shared reader, after which no member can be read any more. -/
theorem truncated_member_violated (m : Navi) (data : List Byte) (o : Nat) (ix : Index) (hm : Holds m data o) (name : List Byte)
    (v : Nat × Nat) (hv : find ix name = some v) (h0 : ∀ e ∈ ix, e.2.2 ≠ 0) (hb : v.1 + o < 2 ^ 63) (ht : data.length < v.1 + o + v.2)
    (other : List Byte) : (get m ix name).1 = none ∧ (get (get m ix name).2 ix other).1 = none := by
  have hv0 := h0 _ (find_mem hv)
  simp only at hv0
  obtain ⟨h1, h2, h3⟩ := hm
  have hs : (seek m v.1 .beg).s = { m.s with pos := v.1 + o, eof := false } := by
    simp only [seek, if_true, h2]
    rw [Nat.mod_eq_of_lt (by unfold W64; omega), seek_beg _ _ h3 (by omega)]
  have g : (get m ix name).1 = none ∧ (get m ix name).2.s.fail = true := by
    unfold get
    rw [hv]
    simp only [getAt]
    rw [if_neg hv0, hs]
    unfold Stream.Stream.read
    simp only [h3, h1]
    rw [if_neg (by simp), if_neg hv0, if_neg (by omega)]
    exact ⟨rfl, rfl⟩
  refine ⟨g.1, ?_⟩
  generalize (get m ix name).2 = k at g
  unfold get
  cases hw : find ix other with
  | none => rfl
  | some w =>
    have := h0 _ (find_mem hw)
    exact (getAt_failed k w g.2 this).1

/-- An archive of two members whose last byte was cut off. -/
def cutArchive : List Byte :=
  (archive [.file ⟨20, 0, 0, 1, 2, 3, 2, [97#8], [], [1#8, 2#8]⟩, .file ⟨20, 0, 0, 1, 2, 3, 2, [98#8], [], [3#8, 4#8]⟩]).dropLast

/-- It opens, lists both members and holds the first one, which can be read only until the second one was tried. -/
example : ∃ n' ix, openZip 9 ⟨⟨cutArchive, 0, false, false⟩, 0, 0, false⟩ = some (.ok (n', ix)) ∧
    ix = [([97#8], 31, 2), ([98#8], 64, 2)] ∧ Holds n' cutArchive 0 ∧ cutArchive.length = 65 ∧
    getAll ix n' [[97#8], [98#8], [97#8]] = [some [1#8, 2#8], none, none] :=
  ⟨⟨⟨cutArchive, 66, false, false⟩, 33, 0, false⟩, [([97#8], 31, 2), ([98#8], 64, 2)], by decide +kernel, rfl, ⟨rfl, rfl, rfl⟩,
    by decide +kernel, by decide +kernel⟩

/-- `Skip` of 2 GiB or more: the length becomes negative and the target lies before the start of the file. -/
theorem skip_large (n : Navi) (m : Nat) (hf : n.s.fail = false) (h1 : 2 ^ 31 ≤ m) (h2 : n.s.pos + m < 2 ^ 32) :
    (skip .reader n (toInt m)).s = { n.s with eof := false, fail := true } := by
  have ht : toInt m = (m : Int) - 2 ^ 32 := by
    unfold toInt
    rw [BitVec.toInt_eq_toNat_bmod, BitVec.toNat_ofNat, Nat.mod_eq_of_lt (by omega), Int.bmod_def]
    omega
  unfold skip
  simp only [ht, Stream.skipIn, Stream.Stream.tell, hf, Bool.false_eq_true, if_false]
  rw [if_pos (by omega)]
  unfold Stream.Stream.seek s64 W64 addInt
  simp only [hf, Bool.false_eq_true, if_false]
  generalize hx : ((n.s.pos : Int) + ((m : Int) - 2 ^ 32)) % 2 ^ 64 = x
  have hx2 : x = (n.s.pos : Int) + m - 2 ^ 32 + 2 ^ 64 := by omega
  have hx3 : x.toNat % 2 ^ 64 = n.s.pos + m + 2 ^ 64 - 2 ^ 32 := by omega
  rw [hx3, if_neg (c := n.s.pos + m + 2 ^ 64 - 2 ^ 32 < 2 ^ 63) (by omega), if_pos (by omega)]

/-- C149 and C33 violated: an archive that holds a stored member of 2 GiB or more (ending before the 4 GiB mark, behind any valid
blocks, before anything) opens without error and lists it, but the skip over its data runs before the start of the file and fails the
reader: no member at all can be read, and what stands behind it is not listed. -/
theorem large_member_violated (n : Navi) (bs : List Block) (e : Entry) (rest : List Byte) (hn : Ready n) (ho : n.localPos = n.s.pos)
    (hdata : n.s.data.drop n.s.pos = archive bs ++ (e.bytes ++ rest)) (hok : ∀ b ∈ bs, b.ok)
    (hname : e.name ≠ [] ∧ e.name.length < 2 ^ 16 ∧ e.extra.length < 2 ^ 16) (hfl : e.flags % 2 = 0) (hme : e.method = 0)
    (hbig : 2 ^ 31 ≤ e.content.length) (hend : n.s.pos + (archive bs).length + e.bytes.length < 2 ^ 32) :
    ∃ n' ix, (∀ f, bs.length < f → openZip f n = some (.ok (n', ix))) ∧ (find ix e.name).isSome ∧
      (∀ name, (find ix name).isSome = (name = e.name || (contentOf name bs).isSome)) ∧ ∀ name, (get n' ix name).1 = none := by
  obtain ⟨c1, c2, c3⟩ := hname
  have hlen := congrArg List.length hdata
  simp only [List.length_drop, List.length_append] at hlen
  have hsz := hn.size
  have hel : e.bytes.length = 30 + e.name.length + e.extra.length + e.content.length := by
    rw [bytes_eq]; simp [header_length]; omega
  have hhas : Has n.s (archive bs ++ (e.bytes ++ rest)) := ⟨hn.fail, hn.eof, [], by rw [hdata]; simp⟩
  have hrel : n.s.pos - n.localPos = 0 := by omega
  obtain ⟨sp, key⟩ := readLoop_blocks (n.s.data.length - n.localPos) bs n [] hn hhas.left hok (by omega) (by omega)
  rw [hrel] at key
  have hloc : ∀ name, find (indexAll 0 [] bs) name = locOf 0 name bs := by
    intro name; rw [find_indexAll]; rfl
  generalize hix : indexAll 0 [] bs = ix0 at key hloc
  generalize hA : (archive bs).length = A at *
  -- the reader before the large member
  have hr : Ready { n with s := adv n.s A, savePos := sp } :=
    ⟨hn.swap, hn.fail, hn.eof, hn.size, by show n.localPos ≤ n.s.pos + _; omega⟩
  have hm := hhas.right
  rw [hA] at hm
  generalize hmm : ({ n with s := adv n.s A, savePos := sp } : Navi) = m at key hr
  have hms : m.s = adv n.s A := by rw [← hmm]
  have hml : m.localPos = n.localPos := by rw [← hmm]
  have hmd : m.s.data = n.s.data := by rw [hms]; rfl
  have hmp : m.s.pos = n.s.pos + A := by rw [hms]; rfl
  rw [← hms] at hm
  have hlt : tell m < n.s.data.length - n.localPos := by
    rw [tell_ready hr (by rw [hmp, hmd]; omega), hmp, hml]; omega
  -- reading it
  have hh := hm
  simp only [Entry.bytes, List.append_assoc] at hh
  obtain ⟨v, e1, e2, e3⟩ := peek_id m _ _ hr.swap hh (by decide) (by omega)
  obtain ⟨g1, g2, g3, g4, g5, g6⟩ := header_fields e
  have hb := hm.left
  rw [bytes_eq] at hb
  have h1 := readParts_has [14, 16] (push m) e.header (show Has (push m).s _ from hb.left) (by rw [header_length]; rfl)
  rw [header_length] at h1
  have h2 := hb.right
  rw [header_length] at h2
  have hread := h2.left.read
  have hnl : e.name.length ≠ 0 := by simpa using c1
  have hfail : m.s.fail = false := hr.fail
  have heof : m.s.eof = false := hr.eof
  have entry : ∃ n' off, readEntry m ix0 = .ok (n', emplace ix0 e.name (off, e.content.length)) ∧ n'.s.fail = true ∧
      n'.localPos = n.localPos := by
    unfold readEntry
    simp only [e1, e3, e2, if_true]
    unfold readLocal
    rw [h1]
    simp only
    rw [g1, g2, g3, g4, g5, g6, hme, Nat.mod_eq_of_lt (a := e.content.length) (by omega), Nat.mod_eq_of_lt c2, Nat.mod_eq_of_lt c3,
      if_neg (by omega), if_neg (by simp [Nat.testBit_zero]; omega), if_neg (by simp), if_neg hnl]
    rw [push_s, hread]
    simp only
    have hs1 := skip_adv { push m with s := adv (adv m.s 30) e.name.length } e.extra.length hfail heof (by omega)
      (by show m.s.pos + 30 + _ + _ < _; omega)
    rw [hs1]
    have hs2 := skip_large { push m with s := adv (adv (adv m.s 30) e.name.length) e.extra.length } e.content.length hfail hbig
      (by show m.s.pos + 30 + _ + _ + _ < _; omega)
    refine ⟨_, _, rfl, ?_, hml⟩
    rw [hs2]
  obtain ⟨n', off, k1, k2, k3⟩ := entry
  have hstop : ¬ tell n' < n.s.data.length - n.localPos := by
    simp only [tell, Stream.Stream.tell, k2, if_true, k3]
    unfold W64
    omega
  have hfind : ∀ name, (find (emplace ix0 e.name (off, e.content.length)) name).isSome =
      (name = e.name || (contentOf name bs).isSome) := by
    intro name
    have hd0 : n.s.data.drop (n.localPos + 0) = archive bs ++ (e.bytes ++ rest) := by rw [ho, Nat.add_zero, hdata]
    have := (locOf_content name n.s.data (e.bytes ++ rest) n.localPos bs 0 hd0).1
    rw [find_emplace, hloc name, this]
    cases locOf 0 name bs with
    | some w => simp
    | none =>
      by_cases hc : e.name = name
      · simp [hc]
      · simp [hc, Ne.symm hc]
  refine ⟨n', emplace ix0 e.name (off, e.content.length), ?_, ?_, hfind, ?_⟩
  · intro f hf
    obtain ⟨g, rfl⟩ : ∃ g, f = bs.length + (g + 1) := ⟨f - bs.length - 1, by omega⟩
    unfold openZip
    simp only
    rw [getSize_ready hn (by omega) (by omega)]
    simp only
    rw [key, readLoop_succ, if_pos hlt, k1]
    simp only
    cases g with
    | zero => unfold readLoop; rw [if_neg hstop]
    | succ g => rw [readLoop_succ, if_neg hstop]
  · rw [hfind]; simp
  · intro name
    unfold get
    cases hw : find (emplace ix0 e.name (off, e.content.length)) name with
    | none => rfl
    | some w =>
      refine (getAt_failed n' w k2 ?_).1
      rw [find_emplace, hloc] at hw
      have hd0 : n.s.data.drop (n.localPos + 0) = archive bs ++ (e.bytes ++ rest) := by rw [ho, Nat.add_zero, hdata]
      cases hl : locOf 0 name bs with
      | some x =>
        rw [hl] at hw
        simp only [Option.some.injEq] at hw
        rw [← hw]
        exact ((locOf_content name n.s.data (e.bytes ++ rest) n.localPos bs 0 hd0).2 x hl).2
      | none =>
        rw [hl] at hw
        simp only at hw
        split at hw
        · simp only [Option.some.injEq] at hw
          rw [← hw]; simp only; omega
        · cases hw

/-- Such archives exist: the sample's first member, then 2 GiB of zeros, then the sample's directory. -/
example : ∃ (n : Navi) (e : Entry), Ready n ∧ n.localPos = n.s.pos ∧
    n.s.data.drop n.s.pos = archive (sample.take 1) ++ (e.bytes ++ archive (sample.drop 2)) ∧ (∀ b ∈ sample.take 1, b.ok) ∧
    (e.name ≠ [] ∧ e.name.length < 2 ^ 16 ∧ e.extra.length < 2 ^ 16) ∧ e.flags % 2 = 0 ∧ e.method = 0 ∧
    2 ^ 31 ≤ e.content.length ∧ n.s.pos + (archive (sample.take 1)).length + e.bytes.length < 2 ^ 32 := by
  have key : ∀ c : List Byte, c.length = 2 ^ 31 → ∃ (n : Navi) (e : Entry), Ready n ∧ n.localPos = n.s.pos ∧
      n.s.data.drop n.s.pos = archive (sample.take 1) ++ (e.bytes ++ archive (sample.drop 2)) ∧ (∀ b ∈ sample.take 1, b.ok) ∧
      (e.name ≠ [] ∧ e.name.length < 2 ^ 16 ∧ e.extra.length < 2 ^ 16) ∧ e.flags % 2 = 0 ∧ e.method = 0 ∧
      2 ^ 31 ≤ e.content.length ∧ n.s.pos + (archive (sample.take 1)).length + e.bytes.length < 2 ^ 32 := by
    intro c hc
    have hel : (⟨20, 0, 0, 0, 0, 0, 0, [98#8], [], c⟩ : Entry).bytes.length = 31 + 2 ^ 31 := by
      rw [bytes_eq]; simp [header_length, hc]
    have ha : (archive (sample.take 1)).length = 34 := by decide
    have hb : (archive (sample.drop 2)).length = 70 := by decide
    refine ⟨⟨⟨archive (sample.take 1) ++ ((⟨20, 0, 0, 0, 0, 0, 0, [98#8], [], c⟩ : Entry).bytes ++ archive (sample.drop 2)), 0, false, false⟩,
      0, 0, false⟩, ⟨20, 0, 0, 0, 0, 0, 0, [98#8], [], c⟩, ⟨rfl, rfl, rfl, ?_, Nat.le_refl _⟩, rfl, rfl, ?_, by simp, rfl, rfl,
      by rw [hc]; exact Nat.le_refl _, ?_⟩
    · simp only [List.length_append, ha, hb, hel]; omega
    · intro b hb
      simp [sample] at hb
      subst hb; simp [Block.ok, Entry.stored, Entry.fits]
    · rw [ha, hel]; show 0 + 34 + _ < _; omega
  exact key (List.replicate (2 ^ 31) 0#8) List.length_replicate

end PreCore.Zip
