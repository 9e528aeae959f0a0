import Verif.Lemmas.ReflIOInfo
/-!
# Lemmas about `Model/ReflIO`: loading a saved file
-/
namespace PreCore.ReflIO
open PreCore

/-! ## Extents -/

theorem fin_names (p : Nat) (c : Cls) (wf : WFClass c) : fin p (namesEv c) = fin p (padIf c.names) + opt c.names (8 * c.types.length) := by
  unfold namesEv padIf opt
  cases h : c.names with
  | none => simp [fin]
  | some ns =>
    have := (wf.names ns h).1
    simp only [fin, evLen, zeros_length, Option.isSome_some, if_true, ← this]
    rw [fin_four _ _ (by intro e he p; obtain ⟨_, _, rfl⟩ := List.mem_map.mp he; rfl), List.length_map]
    omega

theorem fin_alias (p : Nat) (c : Cls) (wf : WFClass c) : fin p (aliasEv c) = fin p (padIf c.aliases) + opt c.aliases (8 * c.types.length) := by
  unfold aliasEv padIf opt
  cases h : c.aliases with
  | none => simp [fin]
  | some ns =>
    have := (wf.aliases ns h).1
    simp only [fin, evLen, zeros_length, Option.isSome_some, if_true, ← this]
    rw [fin_four _ _ (by intro e he p; obtain ⟨_, _, rfl⟩ := List.mem_map.mp he; exact evLen_slotIf _ _ _), List.length_map]
    omega

theorem fin_parts (l : List Text) (p : Nat) : fin p (l.flatMap partEv) = p + 8 * l.length := by
  induction l generalizing p with
  | nil => rfl
  | cons x l ih =>
    rw [List.flatMap_cons, fin_append, ih]
    simp only [partEv, fin, evLen_slotIf, evLen_bytes, toLE_length, List.length_cons]; omega

theorem fin_desc (p : Nat) (c : Cls) (wf : WFClass c) : fin p (descEv c) = p + opt c.descs (32 * c.types.length) := by
  rw [descEv_eq]
  unfold opt
  cases h : c.descs with
  | none => simp [fin]
  | some ns =>
    have := wf.descs ns h
    simp only [fin, evLen, zeros_length, Option.isSome_some, if_true, ← this, fin_parts, parts_length]
    omega

theorem take_prefix {α : Type} (l : List α) {i j : Nat} (h : i ≤ j) : l.take i <+: l.take j := by
  refine ⟨(l.take j).drop i, ?_⟩
  conv => rhs; rw [← List.take_append_drop i (l.take j)]
  rw [List.take_take, Nat.min_eq_left h]

theorem flatMap_prefix {α β : Type} (f : α → List β) {l k : List α} (h : l <+: k) : l.flatMap f <+: k.flatMap f := by
  obtain ⟨r, rfl⟩ := h; rw [List.flatMap_append]; exact List.prefix_append _ _

/-- The statements of an element end before those of a later one. -/
theorem sec_le (U : List Ev) (f : Cls → List Ev) (cs : List Cls) (i j : Nat) (hi : i < cs.length) (h : i < j) :
    fin (fin 0 (U ++ (cs.take i).flatMap f)) (f cs[i]) ≤ fin 0 (U ++ (cs.take j).flatMap f) := by
  rw [← fin_append]
  apply fin_mono
  rw [List.append_assoc, List.prefix_append_right_inj]
  have : (cs.take i).flatMap f ++ f cs[i] = (cs.take (i + 1)).flatMap f := by
    rw [← List.take_append_getElem hi, List.flatMap_append, List.flatMap_singleton]
  rw [this]
  exact flatMap_prefix f (take_prefix cs h)

theorem sec_end (U : List Ev) (f : Cls → List Ev) (cs : List Cls) (i : Nat) (hi : i < cs.length) :
    fin (fin 0 (U ++ (cs.take i).flatMap f)) (f cs[i]) ≤ fin 0 (U ++ cs.flatMap f) := by
  have := sec_le U f cs i cs.length hi hi
  rwa [List.take_length] at this

theorem sec_start (U : List Ev) (f : Cls → List Ev) (cs : List Cls) (i : Nat) : fin 0 U ≤ fin 0 (U ++ (cs.take i).flatMap f) :=
  fin_mono (List.prefix_append _ _)

/-- Where the parts of class `i` lie. -/
structure Extents (cs : List Cls) (i : Nat) (I : Info) : Prop where
  a : I.a = 56 * i
  a' : I.a + 56 ≤ fin 0 (U2 cs)
  t : fin 0 (U2 cs) ≤ I.T
  t' : I.T + 16 * I.c.types.length ≤ fin 0 (U3 cs)
  n : fin 0 (U4 cs) ≤ I.N
  n' : I.N + opt I.c.names (8 * I.c.types.length) ≤ fin 0 (U5 cs)
  al : fin 0 (U5 cs) ≤ I.A
  al' : I.A + opt I.c.aliases (8 * I.c.types.length) ≤ fin 0 (U6 cs)
  p : fin 0 (U6 cs) ≤ I.P
  p' : I.P + opt I.c.descs (32 * I.c.types.length) ≤ fin 0 (U7 cs)

theorem U_mono (cs : List Cls) : fin 0 (U2 cs) ≤ fin 0 (U3 cs) ∧ fin 0 (U3 cs) ≤ fin 0 (U4 cs) ∧ fin 0 (U4 cs) ≤ fin 0 (U5 cs) ∧
    fin 0 (U5 cs) ≤ fin 0 (U6 cs) ∧ fin 0 (U6 cs) ≤ fin 0 (U7 cs) ∧ fin 0 (U7 cs) ≤ fin 0 (U8 cs) :=
  ⟨fin_mono (List.prefix_append _ _), fin_mono (List.prefix_append _ _), fin_mono (List.prefix_append _ _),
    fin_mono (List.prefix_append _ _), fin_mono (List.prefix_append _ _), fin_mono (List.prefix_append _ _)⟩

theorem flatten_length16 (l : List (List Byte)) (h : ∀ t ∈ l, t.length = 16) : l.flatten.length = 16 * l.length := by
  induction l with
  | nil => rfl
  | cons x l ih =>
    rw [List.flatten_cons, List.length_append, ih (fun t ht => h t (by simp [ht])), h x (by simp), List.length_cons]; omega

theorem extents (cs : List Cls) (i : Nat) (hi : i < cs.length) (wf : WFClass cs[i]) : Extents cs i (infoOf cs i cs[i]) := by
  refine ⟨info_a cs i _ (by omega), ?_, sec_start _ _ _ _, ?_, ?_, ?_, ?_, ?_, sec_start _ _ _ _, ?_⟩
  · rw [info_a cs i _ (by omega), U2, fin_recs]; omega
  · have := sec_end (U2 cs) typesEv cs i hi
    simp only [typesEv, fin, evLen, Nat.add_zero] at this
    rw [flatten_length16 _ wf.types] at this
    exact this
  · exact Nat.le_trans (sec_start (U4 cs) namesEv cs i) (fin_mono (List.prefix_append _ _))
  · have := sec_end (U4 cs) namesEv cs i hi
    rw [fin_names _ _ wf, ← fin_append] at this
    exact this
  · exact Nat.le_trans (sec_start (U5 cs) aliasEv cs i) (fin_mono (List.prefix_append _ _))
  · have := sec_end (U5 cs) aliasEv cs i hi
    rw [fin_alias _ _ wf, ← fin_append] at this
    exact this
  · have := sec_end (U6 cs) descEv cs i hi
    rw [fin_desc _ _ wf] at this
    exact this

theorem order (cs : List Cls) (i j : Nat) (hi : i < cs.length) (hij : i < j) (hj : j < cs.length) (wf : WFClass cs[i]) :
    let I := infoOf cs i cs[i]
    let J := infoOf cs j cs[j]
    I.N + opt I.c.names (8 * I.c.types.length) ≤ J.N ∧ I.A + opt I.c.aliases (8 * I.c.types.length) ≤ J.A ∧
    I.P + opt I.c.descs (32 * I.c.types.length) ≤ J.P := by
  refine ⟨?_, ?_, ?_⟩
  · have := sec_le (U4 cs) namesEv cs i j hi hij
    rw [fin_names _ _ wf, ← fin_append] at this
    exact Nat.le_trans this (fin_mono (List.prefix_append _ _))
  · have := sec_le (U5 cs) aliasEv cs i j hi hij
    rw [fin_alias _ _ wf, ← fin_append] at this
    exact Nat.le_trans this (fin_mono (List.prefix_append _ _))
  · have := sec_le (U6 cs) descEv cs i j hi hij
    rw [fin_desc _ _ wf] at this
    exact this

theorem area_in (cs : List Cls) (i : Nat) (I : Info) (e : Extents cs i I) (x : Nat) (h : Area I x) :
    x < fin 0 (U2 cs) ∨ (fin 0 (U4 cs) ≤ x ∧ x < fin 0 (U7 cs)) := by
  have u := U_mono cs
  have := e.a'; have := e.n; have := e.n'; have := e.al; have := e.al'; have := e.p; have := e.p'
  rcases h with h | h | h | h
  all_goals omega

theorem disjoint (cs : List Cls) (i j : Nat) (x : Nat) (hi : i < cs.length) (hj : j < cs.length) (hij : i < j)
    (wi : WFClass cs[i]) (wj : WFClass cs[j]) (h1 : Area (infoOf cs i cs[i]) x) (h2 : Area (infoOf cs j cs[j]) x) : False := by
  have ei := extents cs i hi wi
  have ej := extents cs j hj wj
  have o := order cs i j hi hij hj wi
  have u := U_mono cs
  simp only at o
  have := ei.a; have := ei.a'; have := ei.n; have := ei.n'; have := ei.al; have := ei.al'; have := ei.p; have := ei.p'
  have := ej.a; have := ej.a'; have := ej.n; have := ej.n'; have := ej.al; have := ej.al'; have := ej.p; have := ej.p'
  rcases h1 with h1 | h1 | h1 | h1 <;> rcases h2 with h2 | h2 | h2 | h2 <;> omega

theorem sep (cs : List Cls) (i : Nat) (I : Info) (e : Extents cs i I) : Sep I := by
  have u := U_mono cs
  have := e.a'; have := e.n; have := e.n'; have := e.al; have := e.al'; have := e.p
  exact ⟨by omega, by omega, by omega⟩

/-! ## Strings -/

theorem str_at (es pre : List Ev) (q : Q) (t : Text) (h : pre ++ strEv q t <+: es) :
    rd (memOf es) (fin 0 pre) (t.length + 1) = t ++ [0#8] := by
  have := bytes_at es (pre ++ [.dest q]) (t ++ [0#8]) (by simpa [strEv] using h)
  rw [fin_append] at this
  simpa [fin, evLen] using this

theorem rd_succ (m : Mem) (a n : Nat) : rd m a (n + 1) = m a :: rd m (a + 1) n := by
  rw [Nat.add_comm n 1, rd_add]; simp [rd]

theorem cstr_of (m : Mem) (t : Text) (f a : Nat) (h : rd m a (t.length + 1) = t ++ [0#8]) (hn : NoNul t) (hf : t.length ≤ f) :
    cstr m f a = t := by
  induction t generalizing f a with
  | nil =>
    cases f with
    | zero => rfl
    | succ f =>
      have : m a = 0#8 := by simpa [rd] using h
      simp [cstr, this]
  | cons c t ih =>
    cases f with
    | zero => simp at hf
    | succ f =>
      rw [List.length_cons, rd_succ] at h
      simp only [List.cons_append, List.cons.injEq] at h
      have hc : c ≠ 0#8 := by intro e; exact hn (by simp [e])
      simp only [cstr, h.1, if_neg hc]
      rw [ih f (a + 1) h.2 (by intro e; exact hn (by simp [e])) (by simp at hf; omega)]

/-- A memory with a string in it that does not touch what was changed. -/
theorem str_read (es pre : List Ev) (q : Q) (t : Text) (h : pre ++ strEv q t <+: es) (m : Mem) (lo hi : Nat) (hlo : lo ≤ fin 0 pre)
    (hhi : fin 0 (pre ++ strEv q t) ≤ hi) (hm : ∀ x, lo ≤ x → x < hi → m x = memOf es x) :
    rd m (fin 0 pre) (t.length + 1) = t ++ [0#8] := by
  rw [← str_at es pre q t h]
  rw [fin_append] at hhi
  simp only [strEv, fin, evLen, List.length_append, List.length_cons, List.length_nil] at hhi
  exact rd_congr (fun x _ _ => hm x (by omega) (by omega))

theorem rd_prefix (m : Mem) (a : Nat) (t u : List Byte) (h : rd m a (t ++ u).length = t ++ u) : rd m a t.length = t := by
  rw [List.length_append, rd_add] at h
  exact (List.append_inj h (rd_length _ _ _)).1

theorem rd_suffix (m : Mem) (a : Nat) (t u : List Byte) (h : rd m a (t ++ u).length = t ++ u) : rd m (a + t.length) u.length = u := by
  rw [List.length_append, rd_add] at h
  exact (List.append_inj h (rd_length _ _ _)).2

theorem types_read (m : Mem) (l : List (List Byte)) (a : Nat) (hl : ∀ t ∈ l, t.length = 16) (h : rd m a l.flatten.length = l.flatten) :
    (List.range l.length).map (fun t => rd m (a + 16 * t) 16) = l := by
  induction l generalizing a with
  | nil => rfl
  | cons x l ih =>
    rw [List.flatten_cons] at h
    have hx := hl x (by simp)
    have h1 := rd_prefix m a _ _ h
    have h2 := rd_suffix m a _ _ h
    rw [hx] at h1 h2
    have := ih (a + 16) (fun t ht => hl t (by simp [ht])) h2
    rw [List.length_cons, List.range_succ_eq_map, List.map_cons, List.map_map, Nat.mul_zero, Nat.add_zero, h1]
    congr 1
    conv => rhs; rw [← this]
    apply List.map_congr_left
    intro t _
    simp only [Function.comp]
    congr 1
    omega

theorem deref_opt {α : Type} (B : Nat) (hB : 0 < B) (o : Option α) (k : Nat) : deref B (opt o (B + k)) = o.map (fun _ => k) := by
  cases o with
  | none => simp [deref, opt]
  | some v => simp [deref, opt]; omega

theorem range_map_eq {α : Type} (l : List α) (n : Nat) (f : Nat → α) (h : n = l.length) (hf : ∀ t (ht : t < l.length), f t = l[t]) :
    (List.range n).map f = l := by
  subst h
  apply List.ext_getElem
  · simp
  · intro t h1 h2
    simp only [List.getElem_map, List.getElem_range]
    exact hf t h2

theorem parts_get (ds : List (Text × Text)) (t : Nat) (ht : t < ds.length) :
    (parts ds).getD (2 * t) [] = ds[t].1 ∧ (parts ds).getD (2 * t + 1) [] = ds[t].2 := by
  induction ds generalizing t with
  | nil => simp at ht
  | cons d ds ih =>
    cases t with
    | zero => simp [parts]
    | succ t =>
      have := ih t (by simpa using ht)
      simp only [parts, List.flatMap_cons, List.getElem_cons_succ] at this ⊢
      rw [show 2 * (t + 1) = 2 * t + 1 + 1 by omega, show 2 * t + 1 + 1 + 1 = (2 * t + 1) + 1 + 1 by omega]
      simpa using this

/-! ## A class as it is loaded -/

theorem view_class (cs : List Cls) (es : List Enm) (i : Nat) (hi : i < cs.length) (wf : WFClass cs[i]) (B f : Nat) (hB : 0 < B) (m : Mem)
    (hf : fin 0 (classesEv cs ++ enumsEv es) ≤ f) (haf : After B m (infoOf cs i cs[i]))
    (ht : ∀ x, fin 0 (U2 cs) ≤ x → x < fin 0 (U3 cs) → m x = memOf (classesEv cs ++ enumsEv es) x)
    (hs : ∀ x, fin 0 (U7 cs) ≤ x → x < fin 0 (U8 cs) → m x = memOf (classesEv cs ++ enumsEv es) x) :
    viewClass B f m (56 * i) = forget cs[i] := by
  have hx := extents cs i hi wf
  have ha := hx.a
  have psU : ∀ inner, inner <+: stringsEv cs[i] → S7 cs i ++ inner <+: classesEv cs ++ enumsEv es :=
    fun inner h => pre_strs cs es i hi inner h
  have psE : ∀ inner, inner <+: stringsEv cs[i] → fin 0 (S7 cs i ++ inner) ≤ fin 0 (U8 cs) := by
    intro inner h
    have h1 := sec_end (U7 cs) stringsEv cs i hi
    have h2 := fin_mono ((List.prefix_append_right_inj (S7 cs i)).mpr h)
    rw [fin_append _ (S7 cs i)] at h2
    rw [fin_append _ (S7 cs i) (stringsEv cs[i])] at h2
    rw [fin_append _ (S7 cs i)]
    exact Nat.le_trans h2 h1
  have psS : ∀ inner, fin 0 (U7 cs) ≤ fin 0 (S7 cs i ++ inner) := fun inner =>
    Nat.le_trans (sec_start (U7 cs) stringsEv cs i) (fin_mono (List.prefix_append _ _))
  have hT := bytes_at _ (U2 cs ++ (cs.take i).flatMap typesEv ++ [.dest .item]) cs[i].types.flatten
    (by rw [List.append_assoc]; exact pre_types cs es i hi _ (List.prefix_refl _))
  rw [fin_append] at hT
  simp only [fin, evLen, Nat.add_zero] at hT
  generalize hc : cs[i] = c at wf haf hx ha psU psE hT ⊢
  have hname : ∀ inner t q, inner ++ strEv q t <+: stringsEv c →
      rd m (fin 0 (S7 cs i ++ inner)) (t.length + 1) = t ++ [0#8] ∧ t.length ≤ f := by
    intro inner t q h
    have h1 := psU _ h
    rw [← List.append_assoc] at h1
    have h2 := psE _ h
    rw [← List.append_assoc] at h2
    refine ⟨str_read _ _ q t h1 m (fin 0 (U7 cs)) (fin 0 (U8 cs)) (psS _) h2 hs, ?_⟩
    have h3 := fin_mono h1
    rw [fin_append] at h3
    simp only [strEv, fin, evLen, List.length_append] at h3
    omega
  have e1 : rd32 m (56 * i) = c.hash.toNat := ha ▸ haf.hash
  have e2 : rd32 m (56 * i + 4) = c.types.length := ha ▸ haf.n
  have e3 : rd64 m (56 * i + 8) = B + (infoOf cs i c).T := ha ▸ haf.types
  have e4 : rd64 m (56 * i + 16) = opt c.names (B + (infoOf cs i c).N) := ha ▸ haf.names
  have e5 : rd64 m (56 * i + 24) = opt c.className (B + (infoOf cs i c).C) := ha ▸ haf.cls
  have e6 : rd64 m (56 * i + 32) = opt c.aliases (B + (infoOf cs i c).A) := ha ▸ haf.alias
  have e7 : rd64 m (56 * i + 40) = 0 := ha ▸ haf.ahash
  have e8 : rd64 m (56 * i + 48) = opt c.descs (B + (infoOf cs i c).P) := ha ▸ haf.desc
  have f1 : BitVec.ofNat 32 c.hash.toNat = c.hash := by simp
  have f2 : (List.range c.types.length).map (fun t => rd m (B + (infoOf cs i c).T - B + 16 * t) 16) = c.types := by
    rw [Nat.add_sub_cancel_left]
    apply types_read _ _ _ wf.types
    refine Eq.trans (rd_congr ?_) hT
    intro x hx1 hx2
    have h1 : x < fin 0 (U3 cs) := by
      have := hx.t'
      rw [flatten_length16 _ wf.types] at hx2
      change _ + 16 * c.types.length ≤ _ at this
      exact Nat.lt_of_lt_of_le hx2 this
    exact ht x (Nat.le_trans hx.t hx1) h1
  have f3 : (c.names.map (fun _ => (infoOf cs i c).N)).map (fun p => (List.range c.types.length).map (fun t => cstr m f (rd64 m (p + 8 * t) - B))) = c.names := by
    cases h : c.names with
    | none => rfl
    | some ns =>
      obtain ⟨w1, w2⟩ := wf.names ns h
      simp only [Option.map_some, Option.some.injEq]
      apply range_map_eq _ _ _ w1.symm
      intro t htn
      have hn := haf.nameS (by rw [show (infoOf cs i c).c.names = some ns from h]; rfl) t (by rw [show (infoOf cs i c).c.types.length = ns.length from w1.symm]; exact htn)
      rw [hn, Nat.add_sub_cancel_left]
      have hp : (ns.take t).flatMap (strEv .strs) ++ strEv .strs ns[t] <+: stringsEv c := by
        refine (flat_prefix (strEv .strs) ns t htn _ (List.prefix_refl _)).trans ?_
        simp only [stringsEv, nameStrs, h, Option.getD_some, List.append_assoc]
        exact List.prefix_append _ _
      obtain ⟨r1, r2⟩ := hname _ _ _ hp
      simp only [infoOf, nameAt, h, Option.getD_some]
      exact cstr_of m _ f _ r1 (w2 _ (List.getElem_mem _)) r2
  have f4 : (c.className.map (fun _ => (infoOf cs i c).C)).map (fun p => cstr m f p) = c.className := by
    cases h : c.className with
    | none => rfl
    | some t =>
      simp only [Option.map_some, Option.some.injEq]
      have hp : nameStrs c ++ aliasStrs c ++ descStrs c ++ strEv .cls t <+: stringsEv c := by
        simp only [stringsEv, classStr, h]
        exact List.prefix_refl _
      obtain ⟨r1, r2⟩ := hname _ _ _ hp
      exact cstr_of m _ f _ r1 (wf.className t h) r2
  have f5 : (c.aliases.map (fun _ => (infoOf cs i c).A)).map (fun p => (List.range c.types.length).map (fun t =>
      (deref B (rd64 m (p + 8 * t))).map (fun q => cstr m f q))) = c.aliases := by
    cases h : c.aliases with
    | none => rfl
    | some ns =>
      obtain ⟨w1, w2⟩ := wf.aliases ns h
      simp only [Option.map_some, Option.some.injEq]
      apply range_map_eq _ _ _ w1.symm
      intro t htn
      have hn := haf.aliasS (by rw [show (infoOf cs i c).c.aliases = some ns from h]; rfl) t (by rw [show (infoOf cs i c).c.types.length = ns.length from w1.symm]; exact htn)
      rw [hn]
      have hv : (infoOf cs i c).sA t = if (ns[t]).isSome then fin 0 (aliasAt cs i c t) else 0 := by
        simp only [infoOf, h, Option.getD_some, List.getD_eq_getElem?_getD, List.getElem?_eq_getElem htn]
      rw [hv]
      cases hnt : ns[t] with
      | none => simp [ptrVal, deref]
      | some x =>
        have hp : nameStrs c ++ (ns.take t).flatMap aliasStr ++ strEv .alias x <+: stringsEv c := by
          have := flat_prefix aliasStr ns t htn (strEv .alias x) (by rw [hnt]; exact List.prefix_refl _)
          simp only [stringsEv, aliasStrs, h, Option.getD_some, List.append_assoc]
          rw [List.prefix_append_right_inj]
          exact this.trans (List.prefix_append _ _)
        obtain ⟨r1, r2⟩ := hname _ _ _ hp
        have hpos : 0 < fin 0 (aliasAt cs i c t) := by
          have := psS (nameStrs c ++ ((c.aliases.getD []).take t).flatMap aliasStr)
          have h2 := hx.a'
          have u := U_mono cs
          unfold aliasAt; omega
        have hd : deref B (ptrVal B true (if (some x).isSome then fin 0 (aliasAt cs i c t) else 0)) = some (fin 0 (aliasAt cs i c t)) := by
          have hk : ∀ k, 0 < k → ptrVal B true k = B + k := by intro k hk; unfold ptrVal; rw [if_neg (by simp only [true_and]; omega)]
          simp only [Option.isSome_some, if_true]
          rw [hk _ hpos, deref, if_neg (by omega), Nat.add_sub_cancel_left]
        rw [hd]
        simp only [Option.map_some, Option.some.injEq]
        simp only [aliasAt, h, Option.getD_some]
        exact cstr_of m _ f _ r1 (w2 x (hnt ▸ List.getElem_mem _)) r2
  have part : ∀ ds, c.descs = some ds → ∀ t, t < (parts ds).length →
      rd m (ptrVal B true ((infoOf cs i c).sD t) - B) ((infoOf cs i c).lD t) = (parts ds).getD t [] := by
    intro ds h t htn
    have hl : (infoOf cs i c).lD t = ((parts ds).getD t []).length := by simp only [infoOf, h, Option.getD_some]
    have hv : (infoOf cs i c).sD t = if !((parts ds).getD t []).isEmpty then fin 0 (partAt cs i c t) else 0 := by
      simp only [infoOf, h, Option.getD_some]
    rw [hl, hv]
    have hg : (parts ds).getD t [] = (parts ds)[t] := by
      rw [List.getD_eq_getElem?_getD, List.getElem?_eq_getElem htn]; rfl
    rw [hg]
    by_cases he : (parts ds)[t].isEmpty
    · have : (parts ds)[t] = [] := by simpa using he
      rw [this]; simp [rd]
    · have hp : nameStrs c ++ aliasStrs c ++ ((parts ds).take t).flatMap partStr ++ strEv .desc (parts ds)[t] <+: stringsEv c := by
        have := flat_prefix partStr (parts ds) t htn (strEv .desc (parts ds)[t]) (by
          simp only [partStr, he, Bool.false_eq_true, if_false]; exact List.prefix_refl _)
        simp only [stringsEv, descStrs_eq, h, Option.getD_some]
        rw [List.append_assoc (nameStrs c ++ aliasStrs c), List.append_assoc (nameStrs c ++ aliasStrs c), List.prefix_append_right_inj]
        exact this.trans (List.prefix_append _ _)
      obtain ⟨r1, r2⟩ := hname _ _ _ hp
      have hpos : 0 < fin 0 (partAt cs i c t) := by
        have := psS (nameStrs c ++ aliasStrs c ++ ((parts (c.descs.getD [])).take t).flatMap partStr)
        have h2 := hx.a'
        have u := U_mono cs
        unfold partAt; omega
      simp only [he, Bool.not_false, if_true, ptrVal]
      rw [if_neg (by simp only [true_and]; omega), Nat.add_sub_cancel_left]
      simp only [partAt, h, Option.getD_some]
      apply rd_prefix m _ _ [0#8]
      rw [List.length_append]
      exact r1
  have f6 : (c.descs.map (fun _ => (infoOf cs i c).P)).map (fun p => (List.range c.types.length).map (fun t =>
      (rd m (rd64 m (p + 32 * t) - B) (rd64 m (p + 32 * t + 8)), rd m (rd64 m (p + 32 * t + 16) - B) (rd64 m (p + 32 * t + 24))))) = c.descs := by
    cases h : c.descs with
    | none => rfl
    | some ds =>
      have w1 := wf.descs ds h
      simp only [Option.map_some, Option.some.injEq]
      apply range_map_eq _ _ _ w1.symm
      intro t htn
      have hsome : (infoOf cs i c).c.descs.isSome := by rw [show (infoOf cs i c).c.descs = some ds from h]; rfl
      have hlen : (infoOf cs i c).c.types.length = ds.length := w1.symm
      have h1 := haf.descS hsome (2 * t) (by rw [hlen]; omega)
      have h2 := haf.descS hsome (2 * t + 1) (by rw [hlen]; omega)
      rw [show 16 * (2 * t) = 32 * t by omega] at h1
      rw [show (infoOf cs i c).P + 16 * (2 * t + 1) = (infoOf cs i c).P + 32 * t + 16 by omega] at h2
      rw [show (infoOf cs i c).P + 32 * t + 16 + 8 = (infoOf cs i c).P + 32 * t + 24 by omega] at h2
      rw [h1.1, h1.2, h2.1, h2.2, part ds h _ (by rw [parts_length]; omega), part ds h _ (by rw [parts_length]; omega),
        (parts_get ds t htn).1, (parts_get ds t htn).2]
  simp only [viewClass, e1, e2, e3, e4, e5, e6, e7, e8, deref_opt B hB, f1, f2, f3, f4, f5, f6, forget]
  simp [deref]

end PreCore.ReflIO
