import Verif.Props.ReflReg
import Verif.Props.ReflectorFrame2
/-!
# C65 (continued): members of a registered class are independent; limits of the tables
-/
namespace PreCore.Refl
open CNum

theorem CTy.cells_range (t : CTy) : ∀ a c, c ∈ t.cells a → a ≤ c.addr ∧ c.addr + c.bytes ≤ a + t.sizeof ∧ c.kind ≠ .BitFieldMember ∧
    (c.kind = .String → 0 < c.bytes) := by
  have list : ∀ (e : CTy) (n : Nat), (∀ a c, c ∈ e.cells a → a ≤ c.addr ∧ c.addr + c.bytes ≤ a + e.sizeof ∧ c.kind ≠ .BitFieldMember ∧
      (c.kind = .String → 0 < c.bytes)) →
      ∀ a c, c ∈ (List.range n).flatMap (fun i => e.cells (a + i * e.sizeof)) →
        a ≤ c.addr ∧ c.addr + c.bytes ≤ a + n * e.sizeof ∧ c.kind ≠ .BitFieldMember ∧
        (c.kind = .String → 0 < c.bytes) := by
    intro e n ih a c hc
    simp only [List.mem_flatMap, List.mem_range] at hc
    obtain ⟨i, hi, hc⟩ := hc
    obtain ⟨h1, h2, h3⟩ := ih _ _ hc
    have : (i + 1) * e.sizeof ≤ n * e.sizeof := Nat.mul_le_mul_right _ hi
    rw [Nat.add_mul, Nat.one_mul] at this
    exact ⟨by omega, by omega, h3⟩
  induction t with
  | arr e n ih => exact list e n ih
  | vec e n ih => exact list e n ih
  | _ =>
    intro a c hc
    simp only [CTy.cells, List.mem_singleton] at hc
    subst hc
    simp [CTy.ty, CTy.sizeof]

/-- Two objects hold the same in these cells. -/
def AgreeOn (cs : List Cell) (o o' : Obj) : Prop :=
  ∀ c ∈ cs, (∀ x, c.addr ≤ x → x < c.addr + c.bytes → o'.mem x = o.mem x) ∧ (c.kind = .String → o'.strs c.addr = o.strs c.addr)

theorem read_agree {o o' : Obj} {a n : Nat} (h : ∀ x, a ≤ x → x < a + n → o'.mem x = o.mem x) : o'.read a n = o.read a n := by
  unfold Obj.read
  apply List.map_congr_left
  intro i hi
  rw [List.mem_range] at hi
  exact h _ (by omega) (by omega)

theorem printItems_agree (p q : Nat → Option Text) : ∀ k i, (∀ j, i ≤ j → j < i + k → p j = q j) → printItems p k i = printItems q k i := by
  intro k
  induction k with
  | zero => intro i _; rfl
  | succ k ih =>
    intro i h
    unfold printItems
    rw [h i (Nat.le_refl _) (by omega), ih (i + 1) (fun j h1 h2 => h j (by omega) (by omega))]

theorem printArray_agree (p q : Nat → Option Text) (op cl : Byte) (k : Nat) (h : ∀ j, j < k → p j = q j) :
    printArray p op cl k = printArray q op cl k := by
  unfold printArray
  rw [printItems_agree p q k 0 (fun j _ h2 => h j (by omega))]

/-- Printing a member reads nothing but its cells. -/
theorem print_local (env : Env) : ∀ f r a (o o' : Obj), AgreeOn (RType.cells f r a) o o' →
    (∀ c ∈ RType.cells f r a, c.kind ≠ .BitFieldMember) → print env f r a o' = print env f r a o := by
  intro f
  induction f with
  | zero => intro r a o o' _ _; rfl
  | succ f ih =>
    intro r a o o' h hb
    have hlist : (r.type = .Array ∨ r.type = .Vector ∨ r.type = .ArrayClass) → ∀ j, j < r.numItems.toNat →
        print env f (elemType r) (a + r.subSize.toNat * j) o' = print env f (elemType r) (a + r.subSize.toNat * j) o := by
      intro hl j hj
      have hc : RType.cells (f + 1) r a = (List.range r.numItems.toNat).flatMap (fun i => RType.cells f (elemType r) (a + r.subSize.toNat * i)) := by
        rcases hl with hl | hl | hl <;> rw [RType.cells, hl]
      have hsub : ∀ c ∈ RType.cells f (elemType r) (a + r.subSize.toNat * j), c ∈ RType.cells (f + 1) r a := by
        intro c hcm
        rw [hc, List.mem_flatMap]
        exact ⟨j, List.mem_range.mpr hj, hcm⟩
      exact ih _ _ _ _ (fun c hcm => h c (hsub c hcm)) (fun c hcm => hb c (hsub c hcm))
    unfold print
    unfold RType.cells at h hb
    cases hty : r.type <;> rw [hty] at h hb hlist <;> simp only at h hb ⊢
    case Array => exact printArray_agree _ _ _ _ _ (hlist (by simp))
    case Vector => exact printArray_agree _ _ _ _ _ (hlist (by simp))
    case ArrayClass => exact printArray_agree _ _ _ _ _ (hlist (by simp))
    case BitFieldMember => exact absurd rfl (hb _ (List.mem_singleton.mpr rfl))
    case Bool =>
      have := (h _ (List.mem_singleton.mpr rfl)).1 a (by simp) (by simp)
      rw [this]
    case String =>
      have := (h _ (List.mem_singleton.mpr rfl)).2 rfl
      simp only at this
      rw [this]
    case CString =>
      rw [read_agree (h _ (List.mem_singleton.mpr rfl)).1]
    all_goals first | rfl | rw [read_agree (h _ (List.mem_singleton.mpr rfl)).1]

/-- Types whose assignment stays inside the member (C24): scalars, vectors and arrays of scalars other than bools, flags and
strings, arrays of such vectors. -/
def CTy.Tame : CTy → Prop
  | .arr e _ => (e.Scalar ∧ Quiet e.ty) ∨ ∃ c d, e = .vec c d ∧ c.Scalar ∧ Quiet c.ty
  | .vec c _ => c.Scalar ∧ Quiet c.ty
  | _ => True

theorem scalar_isScalar {t : CTy} (h : t.Scalar) : IsScalar t.ty := by
  cases t <;> simp_all [CTy.Scalar, CTy.ty, IsScalar]

/-- Bytes `size` counts for a quiet scalar element of `n` bytes. -/
theorem size_elem_le (r : RType) (n : Nat) (hq : Quiet r.type) (hs : IsScalar r.type) (hn : r.subSize.toNat = n) : size r ≤ n := by
  unfold size
  cases h : r.type <;> rw [h] at hq hs <;> simp_all [Quiet, IsScalar]

theorem build_wf (i : Nat) (m : Member) (hf : m.ty.Fits) (ht : m.ty.Tame) (hpos : 0 < m.ty.sizeof) :
    WF (buildType i m) ∧ size (buildType i m) ≤ m.ty.sizeof := by
  obtain ⟨name, t, off⟩ := m
  have hss := CTy.subSize_toNat hf
  simp only at hf ht hpos hss ⊢
  have vecCase : ∀ (r : RType) (c : CTy) (d : Nat), c.Scalar → Quiet c.ty → r.type = .Vector → r.subType = c.ty →
      r.subSize.toNat = c.sizeof → r.numItems.toNat = d → ScalarList r ∧ size r = d * c.sizeof := by
    intro r c d h1 h2 h3 h4 h5 h6
    have hel : elemType r = { r with type := r.subType } := by
      unfold elemType; rw [if_neg (by rw [h4]; exact scalar_ty h1)]
    refine ⟨⟨Or.inr (Or.inl h3), by rw [h4]; exact scalar_isScalar h1, by rw [h4]; exact h2, ?_⟩, ?_⟩
    · rw [hel]
      refine size_elem_le _ _ ?_ ?_ rfl
      · show Quiet r.subType; rw [h4]; exact h2
      · show IsScalar r.subType; rw [h4]; exact scalar_isScalar h1
    · unfold size; rw [h3]; simp only; rw [h5, h6, Nat.mul_comm]
  cases t with
  | arr e n =>
    obtain ⟨h1, h2, h3⟩ := hf
    have hz : (buildType i ⟨name, .arr e n, off⟩).subSize.toNat = e.sizeof := hss
    have hn : (buildType i ⟨name, .arr e n, off⟩).numItems.toNat = n := by simp [buildType, CTy.numItems]; omega
    have hsize : size (buildType i ⟨name, .arr e n, off⟩) = n * e.sizeof := by
      show (buildType i ⟨name, .arr e n, off⟩).subSize.toNat * (buildType i ⟨name, .arr e n, off⟩).numItems.toNat = _
      rw [hz, hn, Nat.mul_comm]
    refine ⟨?_, by rw [hsize]; simp [CTy.sizeof]⟩
    rcases ht with ⟨hs, hq⟩ | ⟨c, d, rfl, hs, hq⟩
    · refine Or.inr (Or.inl ⟨Or.inl rfl, scalar_isScalar hs, hq, ?_⟩)
      have hel : elemType (buildType i ⟨name, .arr e n, off⟩) = { buildType i ⟨name, .arr e n, off⟩ with type := e.ty } := by
        unfold elemType; rw [if_neg (by exact scalar_ty hs)]; rfl
      rw [hel]
      exact size_elem_le _ _ hq (scalar_isScalar hs) rfl
    · have hcd : c.sizeof < 256 ∧ d < 65536 := by
        rcases h3 with h3 | ⟨c', d', he, _, h4, h5⟩
        · exact absurd h3 (by simp [CTy.Scalar])
        · cases he; exact ⟨h4, h5⟩
      have hh := vectorHash_dec c.ty (BitVec.ofNat 8 c.sizeof) (BitVec.ofNat 16 d)
      have hv := vecCase (elemType (buildType i ⟨name, .arr (.vec c d) n, off⟩)) c d hs hq
        (by rw [elemType_vec _ rfl]) (by rw [elemType_vec _ rfl]; exact hh.1)
        (by rw [elemType_vec _ rfl]
            show (decSize (vectorHash c.ty (BitVec.ofNat 8 c.sizeof) (BitVec.ofNat 16 d))).toNat = _
            rw [hh.2.1]; simp; omega)
        (by rw [elemType_vec _ rfl]
            show (decNum (vectorHash c.ty (BitVec.ofNat 8 c.sizeof) (BitVec.ofNat 16 d))).toNat = _
            rw [hh.2.2]; simp; omega)
      exact Or.inr (Or.inr ⟨Or.inl rfl, rfl, hv.1, by rw [hv.2, hz]; exact Nat.le_refl _⟩)
  | vec c d =>
    obtain ⟨h1, h2, h3⟩ := hf
    have hv := vecCase (buildType i ⟨name, .vec c d, off⟩) c d ht.1 ht.2 rfl rfl hss (by simp [buildType, CTy.numItems]; omega)
    exact ⟨Or.inr (Or.inl hv.1), by rw [hv.2]; simp [CTy.sizeof]⟩
  | bool => exact ⟨Or.inl trivial, by simp [size, buildType, CTy.ty, CTy.sizeof]⟩
  | str => exact ⟨Or.inl trivial, by simp [size, buildType, CTy.ty, CTy.sizeof]⟩
  | cstr => exact ⟨Or.inl trivial, by simp [size, buildType, CTy.ty]⟩
  | cls n h => exact ⟨Or.inl trivial, by simp [size, buildType, CTy.ty]⟩
  | bits n h => exact ⟨Or.inl trivial, by simp [size, buildType, CTy.ty]⟩
  | _ => exact ⟨Or.inl trivial, Nat.le_of_eq hss⟩

theorem argID_ids : ∀ (n k : Nat) (l : List Member) (tab : List RType),
    (staticForArgIDAdd n k l).mapM (fun p : Nat × Option Member => p.2.map (buildType p.1)) = some tab →
    ∀ (i : Nat) (r : RType), tab[i]? = some r → i < n ∧ ∃ m ∈ l, r = buildType (k + i) m := by
  intro n
  induction n with
  | zero =>
    intro k l tab h i r hr
    simp only [staticForArgIDAdd, List.mapM_nil] at h
    cases h
    simp at hr
  | succ n ih =>
    intro k l tab h i r hr
    cases l with
    | nil =>
      simp only [staticForArgIDAdd, List.mapM_cons, List.head?_nil, Option.map_none] at h
      cases h
    | cons a l =>
      simp only [staticForArgIDAdd, List.mapM_cons, List.head?_cons, Option.map_some, List.tail_cons] at h
      cases hm : (staticForArgIDAdd n (k + 1) l).mapM (fun p : Nat × Option Member => p.2.map (buildType p.1)) with
      | none => rw [hm] at h; cases h
      | some t =>
        rw [hm] at h
        cases h
        cases i with
        | zero => simp at hr; exact ⟨by omega, a, by simp, hr.symm⟩
        | succ i =>
          simp only [List.getElem?_cons_succ] at hr
          obtain ⟨h1, m, h2, h3⟩ := ih (k + 1) l t hm i r hr
          exact ⟨by omega, m, by simp [h2], by rw [h3]; congr 1; omega⟩

/-- Every table `REFLECTOR_CREATE` generates numbers its entries by position, and its entries come from the list. -/
theorem registered_ids (ms : List Member) (tab : List RType) (h : buildTable ms = some tab) :
    ∀ (i : Nat) (r : RType), tab[i]? = some r → r.ID.toNat = i ∧ ∃ m ∈ ms, r = buildType i m := by
  intro i r hr
  unfold buildTable staticForArgID at h
  cases hv : vaNArgs ms with
  | none => rw [hv] at h; cases h
  | some x =>
    cases x with
    | item a => rw [hv] at h; cases h
    | num n =>
      rw [hv] at h
      have hn : n ≤ 89 := by
        unfold vaNArgs at hv
        have := List.mem_of_getElem? hv
        simp only [List.mem_append, List.mem_map, reduceCtorEq, and_false, exists_false, MArg.num.injEq, exists_eq_right, false_or] at this
        have hall : ∀ k ∈ nargsTail, k ≤ 89 := by decide
        exact hall n this
      obtain ⟨h1, m, h2, h3⟩ := argID_ids n 0 ms tab h i r hr
      rw [Nat.zero_add] at h3
      refine ⟨?_, m, h2, h3⟩
      rw [h3]
      simp [buildType]; omega

/-- Reading by name in a class registered from a member list is reading the entry found by the name;
the class questions have the answer of that entry, and `false` for a name or a number that is not there. -/
theorem getByHash_eq (env : Env) (ms : List Member) (tab : List RType) (h : buildTable ms = some tab) (al) (x : BitVec 32) (o : Obj) :
    getByHash env ⟨tab, al⟩ x o = getByName env ⟨tab, al⟩ x o ∧
    (∀ r, typeOf ⟨tab, al⟩ x = some r → isArrayByHash ⟨tab, al⟩ x = isArray r ∧
      isSubClassByHash ⟨tab, al⟩ x = (r.type == .Class || r.type == .BitFieldClass ||
        (isArray r && (r.subType == .Class || r.subType == .BitFieldClass)))) ∧
    (typeOf ⟨tab, al⟩ x = none → isArrayByHash ⟨tab, al⟩ x = false ∧ isSubClassByHash ⟨tab, al⟩ x = false) ∧
    (∀ i, tab.length ≤ i → isArrayAt ⟨tab, al⟩ i = false ∧ isSubClassAt ⟨tab, al⟩ i = false) := by
  have key : ∀ i r, lookup ⟨tab, al⟩ x = some i → typeAt ⟨tab, al⟩ i = some r → r.ID.toNat = i :=
    fun i r _ hr => (registered_ids ms tab h i r hr).1
  refine ⟨?_, ?_, ?_, ?_⟩
  · unfold getByHash getByName typeOf
    cases hl : lookup ⟨tab, al⟩ x with
    | none => rfl
    | some i =>
      simp only [Option.bind_some]
      cases ht : typeAt ⟨tab, al⟩ i with
      | none => simp only [getByID, ht]
      | some r => simp only [key i r hl ht]
  · intro r hr
    have hr' := hr
    unfold typeOf at hr'
    cases hl : lookup ⟨tab, al⟩ x with
    | none => rw [hl] at hr'; cases hr'
    | some i =>
      rw [hl] at hr'
      simp only [Option.bind_some] at hr'
      unfold isArrayByHash isSubClassByHash
      rw [hr]
      simp only [key i r hl hr', isArrayAt, isSubClassAt, hr', true_and]
  · intro hx
    unfold isArrayByHash isSubClassByHash
    rw [hx]
    exact ⟨rfl, rfl⟩
  · intro i hi
    have : typeAt ⟨tab, al⟩ i = none := List.getElem?_eq_none hi
    unfold isSubClassAt isArrayAt
    rw [this]
    exact ⟨rfl, rfl⟩

theorem lookup_member (ms : List Member) (hn : (ms.map (·.name)).Nodup) (al) (i : Nat) (m : Member) (hi : ms[i]? = some m) :
    typeOf ⟨ms.mapIdx buildType, al⟩ m.name = some (buildType i m) ∧ lookup ⟨ms.mapIdx buildType, al⟩ m.name = some i := by
  have hmap : (ms.mapIdx buildType).map (·.valueNameHash) = ms.map (·.name) := by
    apply List.ext_getElem?; intro j
    simp [List.getElem?_mapIdx, List.getElem?_map, Function.comp_def, buildType]
  have hlk : lookup ⟨ms.mapIdx buildType, al⟩ m.name = some i := by
    unfold lookup
    simp only [hmap]
    have : findHash m.name (ms.map (·.name)) 0 = some i := by
      refine ((findHash_spec m.name (ms.map (·.name)) 0).1 i).mpr ⟨by omega, by simp [hi], ?_⟩
      intro j hj hj2
      rw [Nat.sub_zero] at hj
      have hlt := (List.getElem?_eq_some_iff.mp hi).1
      have e1 : (ms.map (·.name))[j]? = (ms.map (·.name))[i]? := by rw [hj2]; simp [hi]
      have := (List.getElem?_inj (by simp; omega) hn).mp e1
      omega
    rw [this]
  exact ⟨by unfold typeOf; rw [hlk]; simp [typeAt, hi], hlk⟩

/-- Members that share no byte with the changed range still read the same by name. -/
theorem others_same (env : Env) (ms : List Member) (h : Registrable ms) (hn : (ms.map (·.name)).Nodup)
    (al : Option (List (BitVec 32))) {a b : Nat} {o o' : Obj} (hsame : SameOutside a b o o') :
    ∀ m' ∈ ms, (m'.offset + m'.ty.sizeof ≤ a ∨ b ≤ m'.offset) →
        getByHash env ⟨ms.mapIdx buildType, al⟩ m'.name o' = getByHash env ⟨ms.mapIdx buildType, al⟩ m'.name o := by
  have hoff : ∀ i (m : Member), m ∈ ms → (buildType i m).offset.toNat = m.offset := by
    intro i m hm
    have := (h.fits m hm).2
    simp [buildType]; omega
  intro m' hm' hd
  obtain ⟨j, hj⟩ := List.mem_iff_getElem?.mp hm'
  have hl' := lookup_member ms hn al j m' hj
  rw [(getByHash_eq env ms _ (buildTable_eq ms h.count) al _ _).1, (getByHash_eq env ms _ (buildTable_eq ms h.count) al _ _).1]
  unfold getByName
  rw [hl'.2]
  simp only
  unfold getByID
  have htyp : typeAt ⟨ms.mapIdx buildType, al⟩ j = some (buildType j m') := by simp [typeAt, hj]
  rw [htyp]
  simp only
  have hnb : (buildType j m').type ≠ .BitFieldMember := by
    show m'.ty.ty ≠ _
    cases m'.ty <;> simp [CTy.ty]
  rw [if_neg hnb, hoff j m' hm']
  unfold printMember
  have hc := buildType_cells j m' (h.fits m' hm').1 m'.offset
  refine print_local env 3 _ _ _ _ ?_ ?_
  · rw [hc]
    intro c hcm
    obtain ⟨h1, h2, h3⟩ := CTy.cells_range m'.ty _ c hcm
    refine ⟨fun x hx1 hx2 => (hsame x (by omega)).1, ?_⟩
    intro hk
    have := h3.2 hk
    exact (hsame _ (by omega)).2
  · rw [hc]
    intro c hcm
    exact (CTy.cells_range m'.ty _ c hcm).2.2.1

/-- A list of any scalar, bools, flags and strings included, and a text with fewer commas than the list has elements. -/
def CTy.Counted (m : CTy) (t : Text) : Prop := ∃ e n, m = .arr e n ∧ e.Scalar ∧ commas t < n

theorem build_safe (i : Nat) (m : Member) (t : Text) (hf : m.ty.Fits) (ht : m.ty.Tame ∨ m.ty.Counted t) (hpos : 0 < m.ty.sizeof) :
    Safe (buildType i m) t ∧ size (buildType i m) ≤ m.ty.sizeof := by
  rcases ht with ht | ⟨e, n, he, hs, hc⟩
  · exact ⟨.inl (build_wf i m hf ht hpos).1, (build_wf i m hf ht hpos).2⟩
  · obtain ⟨name, ty, off⟩ := m
    simp only at he hf hpos
    subst he
    have hss := CTy.subSize_toNat hf
    obtain ⟨h1, h2, h3⟩ := hf
    have hz : (buildType i ⟨name, .arr e n, off⟩).subSize.toNat = e.sizeof := hss
    have hn : (buildType i ⟨name, .arr e n, off⟩).numItems.toNat = n := by simp [buildType, CTy.numItems]; omega
    have hsize : size (buildType i ⟨name, .arr e n, off⟩) = n * e.sizeof := by
      show (buildType i ⟨name, .arr e n, off⟩).subSize.toNat * (buildType i ⟨name, .arr e n, off⟩).numItems.toNat = _
      rw [hz, hn, Nat.mul_comm]
    have hel : elemType (buildType i ⟨name, .arr e n, off⟩) = { buildType i ⟨name, .arr e n, off⟩ with type := e.ty } := by
      unfold elemType; rw [if_neg (by exact scalar_ty hs)]; rfl
    refine ⟨.inr (.inl ⟨⟨Or.inl rfl, scalar_isScalar hs, ?_⟩, by rw [hn]; exact hc⟩), by rw [hsize]; simp [CTy.sizeof]⟩
    rw [hel, hz]
    have hz' : ({ buildType i ⟨name, .arr e n, off⟩ with type := e.ty } : RType).subSize.toNat = e.sizeof := hz
    unfold size
    rw [hz']
    cases e <;> simp [CTy.ty, CTy.sizeof, CTy.Scalar] at hs ⊢

/-- C65/C24 end to end: in a class registered with `REFLECTOR_CREATE` within the limits, assigning any text to a member by
name changes only bytes of that member, and every other member of the class — any that shares no byte with it — still reads
the same by name; for lists of bools, flags and strings when the text has fewer commas than the list has elements.
Missing: other texts for those lists (`array_overrun_violated`), members outside the limits. -/
theorem members_independent_partial (env : Env) (ms : List Member) (h : Registrable ms) (hn : (ms.map (·.name)).Nodup)
    (al : Option (List (BitVec 32))) :
    ∃ tab : List RType, buildTable ms = some tab ∧ ∀ m ∈ ms, 0 < m.ty.sizeof → ∀ (t : Text) (o : Obj), (m.ty.Tame ∨ m.ty.Counted t) →
      let o' := (setByName env ⟨tab, al⟩ m.name t o).2
      SameOutside m.offset (m.offset + m.ty.sizeof) o o' ∧
      ∀ m' ∈ ms, (m'.offset + m'.ty.sizeof ≤ m.offset ∨ m.offset + m.ty.sizeof ≤ m'.offset) → 
        getByHash env ⟨tab, al⟩ m'.name o' = getByHash env ⟨tab, al⟩ m'.name o := by
  refine ⟨_, buildTable_eq ms h.count, ?_⟩
  intro m hm hpos t o ht o'
  obtain ⟨i, hi⟩ := List.mem_iff_getElem?.mp hm
  have hl := lookup_member ms hn al i m hi
  have hw := build_safe i m t (h.fits m hm).1 ht hpos
  have hoff : (buildType i m).offset.toNat = m.offset := by
    have := (h.fits m hm).2
    simp [buildType]; omega
  have hsame : SameOutside m.offset (m.offset + m.ty.sizeof) o o' := by
    have := (frame_lists_partial env ⟨ms.mapIdx buildType, al⟩ t o).1 m.name _ hl.1 hw.1
    rw [hoff] at this
    exact this.mono (Nat.le_refl _) (by have := hw.2; omega)
  exact ⟨hsame, others_same env ms h hn al hsame⟩

/-- A list of three strings and the text "{a,b,c}". -/
example : (CTy.arr .str 3).Counted [0x7b#8, 0x61#8, 0x2c#8, 0x62#8, 0x2c#8, 0x63#8, 0x7d#8] := ⟨_, _, rfl, trivial, by decide⟩

/-- A class { int16 a; float v[2]-vector b[3]; bool c; std::string s; } registered with `REFLECTOR_CREATE`. -/
def exMembers : List Member :=
  [⟨10#32, .int 2, 0⟩, ⟨11#32, .arr (.vec (.flt 4) 2) 3, 4⟩, ⟨12#32, .bool, 28⟩, ⟨13#32, .str, 32⟩]

example : Registrable exMembers ∧ (exMembers.map (·.name)).Nodup ∧ (∀ m ∈ exMembers, m.ty.Tame ∧ 0 < m.ty.sizeof) ∧
    exMembers[1]?.map (fun m => m.ty.cells m.offset) = some [⟨4, .FloatingPoint, 4⟩, ⟨8, .FloatingPoint, 4⟩, ⟨12, .FloatingPoint, 4⟩,
      ⟨16, .FloatingPoint, 4⟩, ⟨20, .FloatingPoint, 4⟩, ⟨24, .FloatingPoint, 4⟩] := by
  refine ⟨⟨⟨by decide, by decide, by decide, by decide⟩, ?_⟩, by decide, ?_, by decide⟩
  · intro m hm
    simp only [exMembers, List.mem_cons, List.not_mem_nil, or_false] at hm
    rcases hm with rfl | rfl | rfl | rfl
    · exact ⟨show _ < 256 by decide, by decide⟩
    · exact ⟨⟨by decide, by decide, Or.inr ⟨_, _, rfl, trivial, by decide, by decide⟩⟩, by decide⟩
    · exact ⟨show _ < 256 by decide, by decide⟩
    · exact ⟨show _ < 256 by decide, by decide⟩
  · intro m hm
    simp only [exMembers, List.mem_cons, List.not_mem_nil, or_false] at hm
    rcases hm with rfl | rfl | rfl | rfl
    · exact ⟨trivial, by decide⟩
    · exact ⟨Or.inr ⟨_, _, rfl, trivial, trivial⟩, by decide⟩
    · exact ⟨trivial, by decide⟩
    · exact ⟨trivial, by decide⟩

/-- C65 is violated beyond the limits, silently: a member at offset 65540 is described at offset 4 — and assigning it
overwrites what is there; an array of 256-byte elements is described with element size 0, so that all its elements share an
address; an array of 65537 items is described as having one. -/
theorem table_limits_violated :
    (∀ i n, (buildType i ⟨n, .int 4, 65540⟩).offset.toNat = 4) ∧
    (setByName exEnv ⟨[buildType 0 ⟨1, .int 4, 65540⟩], none⟩ 1 [0x37#8] exObj).2.nat 4 4 = 7 ∧
    (∀ i n h, RType.cells 3 (buildType i ⟨n, .arr (.cls 256 h) 2, 0⟩) 0 = [⟨0, .Class, 0⟩, ⟨0, .Class, 0⟩]) ∧
    (∀ i n off, (buildType i ⟨n, .arr (.int 4) 65537, off⟩).numItems.toNat = 1) :=
  ⟨fun _ _ => by simp [buildType], by decide +kernel, fun _ _ _ => by simp [RType.cells, buildType, CTy.ty, CTy.sub, CTy.subSize, CTy.sizeof, CTy.numItems, elemType, List.range, List.range.loop],
   fun _ _ _ => by simp [buildType, CTy.numItems]⟩

/-- An array of arrays keeps the outer count and element size but the description of an element still says it is an array of
the outer count: `int16 x[2][3]` is walked as 2 × 2 × ... elements 6 bytes apart: printing recurses without end (no bound on the depth suffices). -/
theorem nested_array_violated (i : Nat) (n : BitVec 32) :
    elemType (buildType i ⟨n, .arr (.arr (.int 2) 3) 2, 0⟩) = buildType i ⟨n, .arr (.arr (.int 2) 3) 2, 0⟩ ∧
    ∀ (env : Env) (o : Obj) (f a : Nat), print env f (buildType i ⟨n, .arr (.arr (.int 2) 3) 2, 0⟩) a o = none := by
  refine ⟨rfl, fun env o f => ?_⟩
  have hel : elemType (buildType i ⟨n, .arr (.arr (.int 2) 3) 2, 0⟩) = buildType i ⟨n, .arr (.arr (.int 2) 3) 2, 0⟩ := rfl
  induction f with
  | zero => intro a; rfl
  | succ f ih =>
    intro a
    unfold print
    simp only [hel, ih]
    rfl

end PreCore.Refl
