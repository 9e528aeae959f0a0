import Verif.Model.Max
/-!
# C121 node suffixes, C122 layers of composite textures, C123 material and map parameters
-/
namespace PreCore.Max

/-! ## C121 -/

/-- The channels a program asked for: those added, the colour channel (0) once if colours were added, and -2 for each full colour. -/
def asked (l : List SOp) : List Int :=
  l.filterMap (fun o => match o with | .addChannel id => some id | _ => none) ++
  (if l.any (fun o => o == .addColor || o == .addFullColor) then [0] else []) ++
  List.replicate (l.count .addFullColor) (-2)

/-- Ascending. -/
def Ascending : List Int → Prop
  | [] => True
  | x :: l => (∀ y ∈ l, x ≤ y) ∧ Ascending l

theorem insertInt_perm (x : Int) (l : List Int) : (insertInt x l).Perm (x :: l) := by
  induction l with
  | nil => exact .refl _
  | cons y l ih =>
    unfold insertInt
    split
    · exact .refl _
    · exact (ih.cons y).trans (.swap x y l)

theorem sortInts_perm (l : List Int) : (sortInts l).Perm l := by
  induction l with
  | nil => exact .refl _
  | cons x l ih => exact (insertInt_perm x _).trans (ih.cons x)

theorem insertInt_ascending (x : Int) (l : List Int) (h : Ascending l) : Ascending (insertInt x l) := by
  induction l with
  | nil => exact ⟨by simp, trivial⟩
  | cons y l ih =>
    unfold insertInt
    split
    · rename_i hxy
      exact ⟨fun z hz => (List.mem_cons.1 hz).elim (fun e => e ▸ hxy) (fun hz => Int.le_trans hxy (h.1 z hz)), h⟩
    · rename_i hxy
      refine ⟨fun z hz => ?_, ih h.2⟩
      rcases List.mem_cons.1 ((insertInt_perm x l).mem_iff.1 hz) with rfl | hz
      · omega
      · exact h.1 z hz

theorem sortInts_ascending (l : List Int) : Ascending (sortInts l) := by
  induction l with
  | nil => trivial
  | cons x l ih => exact insertInt_ascending x _ ih

theorem ascending_unique (a b : List Int) (ha : Ascending a) (hb : Ascending b) (h : a.Perm b) : a = b := by
  induction a generalizing b with
  | nil => exact h.nil_eq
  | cons x a ih =>
    cases b with
    | nil => exact absurd h.symm.nil_eq (by simp)
    | cons y b =>
      have hxy : x = y := by
        have h1 : x ∈ y :: b := h.mem_iff.1 List.mem_cons_self
        have h2 : y ∈ x :: a := h.mem_iff.2 List.mem_cons_self
        rcases List.mem_cons.1 h1 with h1 | h1
        · exact h1
        · rcases List.mem_cons.1 h2 with h2 | h2
          · exact h2.symm
          · have := hb.1 x h1; have := ha.1 y h2; omega
      subst hxy
      rw [ih b ha.2 hb.2 h.cons_inv]

/-- The state after a program. -/
def after (l : List SOp) : Suffixer := l.foldl Suffixer.step .new

theorem after_snoc (l : List SOp) (o : SOp) : after (l ++ [o]) = (after l).step o := by simp [after]

theorem snoc_induction {P : List SOp → Prop} (h0 : P []) (h1 : ∀ l o, P l → P (l ++ [o])) (l : List SOp) : P l := by
  have : ∀ l : List SOp, P l.reverse := by
    intro l
    induction l with
    | nil => exact h0
    | cons o l ih => rw [List.reverse_cons]; exact h1 _ _ ih
  simpa using this l.reverse

theorem after_spec (l : List SOp) : (after l).chans.Perm (asked l) ∧ (after l).color = l.any (fun o => o == .addColor || o == .addFullColor) ∧
    (after l).normals = l.contains .useNormals ∧ (after l).skin = l.contains .useSkin ∧ (after l).morph = l.contains .useMorph := by
  induction l using snoc_induction with
  | h0 => exact ⟨.refl _, rfl, rfl, rfl, rfl⟩
  | h1 l o ih =>
    obtain ⟨h1, h2, h3, h4, h5⟩ := ih
    rw [after_snoc]
    have flags : ∀ p, (l ++ [o]).contains p = (l.contains p || (o == p)) := by
      intro p
      rw [List.contains_eq_any_beq, List.contains_eq_any_beq, List.any_append, List.any_cons, List.any_nil, Bool.or_false]
      congr 1
      rw [Bool.eq_iff_iff, beq_iff_eq, beq_iff_eq]
      exact eq_comm
    refine ⟨?_, ?_, ?_, ?_, ?_⟩
    · have hcount : (l ++ [o]).count .addFullColor = l.count .addFullColor + (if o = .addFullColor then 1 else 0) := by
        rw [List.count_append]; congr 1
        by_cases h : o = .addFullColor
        · subst h; rfl
        · rw [if_neg h, List.count_cons_of_ne h]; rfl
      have hask : ∀ z, (asked l).count z = (l.filterMap (fun o => match o with | .addChannel id => some id | _ => none)).count z +
          (if (after l).color then [0] else []).count z + (List.replicate (l.count .addFullColor) (-2)).count z := by
        intro z; unfold asked; rw [List.count_append, List.count_append, h2]
      have hask' : ∀ z, (asked (l ++ [o])).count z = (l.filterMap (fun o => match o with | .addChannel id => some id | _ => none)).count z +
          (match o with | .addChannel id => [id] | _ => []).count z + 
          (if ((after l).color || (o == .addColor || o == .addFullColor)) then [0] else []).count z +
          (List.replicate (l.count .addFullColor + (if o = .addFullColor then 1 else 0)) (-2)).count z := by
        intro z; unfold asked; rw [List.count_append, List.count_append, List.filterMap_append, List.count_append, hcount, h2]
        congr 2
        · cases o <;> rfl
        · simp
      rw [List.perm_iff_count] at h1 ⊢
      intro z
      have := h1 z
      rw [hask] at this
      rw [hask']
      cases o with
      | addChannel id => simp only [Suffixer.step, List.count_append, this]; simp; omega
      | addColor =>
        simp only [Suffixer.step]
        cases hc : (after l).color <;> rw [hc] at this <;> simp only [Bool.false_eq_true, if_true, if_false, List.count_append, this] <;> simp <;> omega
      | addFullColor =>
        simp only [Suffixer.step]
        cases hc : (after l).color <;> rw [hc] at this <;> simp only [Bool.false_eq_true, if_true, if_false, List.count_append, this] <;>
          simp [List.replicate_succ'] <;> omega
      | useNormals => simp only [Suffixer.step, this]; simp
      | useSkin => simp only [Suffixer.step, this]; simp
      | useMorph => simp only [Suffixer.step, this]; simp
    · rw [List.any_append, ← h2]
      cases o <;> simp only [Suffixer.step] <;> first | (simp; done) | (cases hc : (after l).color <;> simp [hc])
    · rw [flags, ← h3]; cases o <;> simp only [Suffixer.step] <;> first | (simp; done) | (split <;> simp)
    · rw [flags, ← h4]; cases o <;> simp only [Suffixer.step] <;> first | (simp; done) | (split <;> simp)
    · rw [flags, ← h5]; cases o <;> simp only [Suffixer.step] <;> first | (simp; done) | (split <;> simp)

/-- C121: the generated text: class name in parentheses if given, then in brackets `U` with the asked channels in ascending order if there are
any, `N`, `S`, `M` exactly when asked for. -/
theorem suffix_text (l : List SOp) (className : Option (List Byte)) : ∃ chans : List Int, chans.Perm (asked l) ∧ Ascending chans ∧
    ((after l).generate className).1 =
      (match className with | some n => [0x28#8] ++ n | none => []) ++ [0x5b#8] ++ (if chans = [] then [] else [0x55#8] ++ (chans.map CNum.showInt).flatten) ++
      (if .useNormals ∈ l then [0x4e#8] else []) ++ (if .useSkin ∈ l then [0x53#8] else []) ++ (if .useMorph ∈ l then [0x4d#8] else []) ++ [0x5d#8] ++
      (match className with | some _ => [0x29#8] | none => []) := by
  obtain ⟨h1, _, h3, h4, h5⟩ := after_spec l
  refine ⟨sortInts (after l).chans, (sortInts_perm _).trans h1, sortInts_ascending _, ?_⟩
  unfold Suffixer.generate
  simp only [h3, h4, h5, List.contains_iff_mem, List.flatMap_def]
  cases className <;> simp

/-- C121: the order of the calls does not matter, nor does generating before. -/
theorem suffix_order (l l' : List SOp) (h : l.Perm l') (className : Option (List Byte)) :
    ((after l).generate className).1 = ((after l').generate className).1 := by
  obtain ⟨c, a1, a2, a3⟩ := suffix_text l className
  obtain ⟨c', b1, b2, b3⟩ := suffix_text l' className
  have hp : (asked l).Perm (asked l') := by
    unfold asked
    have e1 : l.any (fun o => o == .addColor || o == .addFullColor) = l'.any (fun o => o == .addColor || o == .addFullColor) := by
      rw [Bool.eq_iff_iff, List.any_eq_true, List.any_eq_true]
      exact ⟨fun ⟨x, hx, h1⟩ => ⟨x, h.mem_iff.1 hx, h1⟩, fun ⟨x, hx, h1⟩ => ⟨x, h.mem_iff.2 hx, h1⟩⟩
    rw [e1, h.count_eq]
    exact ((h.filterMap _).append_right _).append_right _
  have hc : c = c' := ascending_unique c c' a2 b2 (a1.trans (hp.trans b1.symm))
  rw [a3, b3, hc]
  simp only [h.mem_iff]

theorem sortInts_sorted (l : List Int) : sortInts (sortInts l) = sortInts l :=
  ascending_unique _ _ (sortInts_ascending _) (sortInts_ascending _) (sortInts_perm _)

theorem suffix_again (s : Suffixer) (c c' : Option (List Byte)) : ((s.generate c).2.generate c').1 = (s.generate c').1 := by
  unfold Suffixer.generate
  simp only [sortInts_sorted]

/-- UV channels 2 and 1, full colours, skin: `[U-2012S]`. -/
example : ((after [.addChannel 2, .addFullColor, .useSkin, .addChannel 1, .addColor]).generate none).1 =
    "[U-2012S]".toList.map (fun c => BitVec.ofNat 8 c.toNat) := by decide +kernel

/-- The text does not determine the channels: 1 and 2, or 12. -/
theorem suffix_ambiguous_violated : ((after [.addChannel 1, .addChannel 2]).generate none).1 = ((after [.addChannel 12]).generate none).1 ∧
    ¬ (asked [.addChannel 1, .addChannel 2]).Perm (asked [.addChannel 12]) := by
  refine ⟨by decide +kernel, fun h => ?_⟩
  have := h.length_eq
  simp [asked] at this

/-- Unlike `AddColor`, `AddFullColor` counts every call. -/
theorem full_color_twice_violated : ((after [.addFullColor, .addFullColor]).generate none).1 ≠ ((after [.addFullColor]).generate none).1 := by
  decide +kernel

/-! ## C122 -/

theorem addLayers_eq {α : Type} (fresh : α) (n : Nat) (l : List α) : addLayers fresh n l = l ++ List.replicate n fresh := by
  induction n generalizing l with
  | zero => simp [addLayers]
  | succ n ih => rw [addLayers, ih]; simp [List.replicate_succ]

theorem deleteLayers_eq {α : Type} (total : Nat) (todo t : Nat) (l : List α) (h : l.length = total + 1 - t) (ht : 1 ≤ t) (hd : t + todo ≤ total) :
    deleteLayers total todo t l = .ok (l.take (l.length - todo)) := by
  induction todo generalizing t l with
  | zero => simp [deleteLayers]
  | succ n ih =>
    rw [deleteLayers]
    have hdel : deleteLayer l ((total : Int) - (t : Int)) = .ok (l.take (l.length - 1)) := by
      unfold deleteLayer
      rw [if_neg (by omega), if_neg (by omega), if_neg (by omega)]
      have : ((total : Int) - (t : Int)).toNat = l.length - 1 := by omega
      rw [this, List.eraseIdx_eq_take_drop_succ]
      rw [show l.length - 1 + 1 = l.length by omega, List.drop_length, List.append_nil]
    rw [hdel]
    simp only
    rw [ih (t + 1) _ (by rw [List.length_take]; omega) (by omega) (by omega)]
    rw [List.take_take, List.length_take]
    congr 2
    omega

/-- C122: `Resize` to a positive size keeps the layers there is room for, in order, and adds new ones up to the size; other sizes are refused
(by an assertion) and change nothing. -/
theorem resize_spec {α : Type} (fresh : α) (layers : List α) (n : Int) :
    (n < 1 → resize fresh layers n = .asserted layers) ∧
    (1 ≤ n → ∃ l, resize fresh layers n = .ok l ∧ (l.length : Int) = n ∧ l.take layers.length = layers.take n.toNat ∧
      ∀ i, layers.length ≤ i → i < l.length → l[i]? = some fresh) := by
  refine ⟨fun h => by rw [resize, if_pos h], fun h => ?_⟩
  rw [resize, if_neg (by omega)]
  simp only
  by_cases h0 : n - (layers.length : Int) = 0
  · rw [if_pos h0]
    refine ⟨layers, rfl, by omega, ?_, fun i h1 h2 => by omega⟩
    rw [show n.toNat = layers.length by omega]
  · rw [if_neg h0]
    by_cases h1 : n - (layers.length : Int) > 0
    · rw [if_pos h1, addLayers_eq]
      refine ⟨_, rfl, ?_, ?_, ?_⟩
      · simp only [List.length_append, List.length_replicate]; omega
      · rw [List.take_left, List.take_of_length_le (by omega)]
      · intro i hi hi2
        rw [List.getElem?_append_right hi, List.getElem?_replicate, if_pos]
        simp only [List.length_append, List.length_replicate] at hi2
        omega
    · rw [if_neg h1, deleteLayers_eq layers.length _ 1 layers (by omega) (by omega) (by omega)]
      refine ⟨_, rfl, ?_, ?_, ?_⟩
      · rw [List.length_take]; omega
      · rw [List.take_take]; congr 1; omega
      · intro i hi hi2
        rw [List.length_take] at hi2; omega

example : resize 0 [1, 2, 3, 4] 2 = .ok [1, 2] ∧ resize 0 [1, 2] 4 = .ok [1, 2, 0, 0] ∧ resize 0 [1] 0 = .asserted [1] := by decide

/-- C122: `DeleteLayer` of a layer that exists and is not the only one removes that layer and no other; the only layer and positions behind
the end are refused. -/
theorem delete_spec {α : Type} (layers : List α) (i : Int) :
    (0 ≤ i → i < layers.length → 1 < layers.length → deleteLayer layers i = .ok (layers.eraseIdx i.toNat)) ∧
    (layers.length ≤ 1 → 0 ≤ i → deleteLayer layers i = .asserted layers) ∧ ((layers.length : Int) ≤ i → deleteLayer layers i = .asserted layers) := by
  unfold deleteLayer
  refine ⟨fun h1 h2 h3 => ?_, fun h1 h2 => ?_, fun h => ?_⟩
  · rw [if_neg (by omega), if_neg (by omega), if_neg (by omega)]
  · by_cases h : i < 1 ∧ layers.length = 1
    · rw [if_pos h]
    · rw [if_neg h, if_pos (by omega)]
  · by_cases h' : i < 1 ∧ layers.length = 1
    · rw [if_pos h']
    · rw [if_neg h', if_pos (by omega)]

/-- Negative positions are passed on when there are several layers. -/
theorem delete_negative_violated {α : Type} (layers : List α) (h : 1 < layers.length) (i : Int) (hi : i < 0) : deleteLayer layers i = .badIndex := by
  unfold deleteLayer
  rw [if_neg (by omega), if_neg (by omega), if_pos hi]

/-! ## C123 -/

/-- What a program last set, or what was there. -/
def lastSet {V : Type} (initial : V) (fname : String) (index : Nat) : List (Nat × String × V) → V
  | [] => initial
  | (k, f, v) :: l => lastSet (if k = index ∧ f = fname then v else initial) fname index l

/-- Every accessor has a parameter, and no two the same one. -/
theorem accessors_distinct : ∀ c ∈ classes, (c.accessors.map c.idOf).Nodup ∧ ∀ f ∈ c.accessors, (c.idOf f).isSome = true := by
  decide +kernel

/-- The rule of the language for the values of an enumeration. -/
def EnumRule (params : List (String × Option Nat)) (value : Nat → Nat) : Prop :=
  ∀ (i : Nat) (n : String) (o : Option Nat), params[i]? = some (n, o) →
    value i = match o, i with
      | some v, _ => v
      | none, 0 => 0
      | none, i + 1 => value i + 1

theorem enumerate_rule (l : List (String × Option Nat)) : ∀ k, (enumerate k l).length = l.length ∧
    ∀ (i : Nat) (n : String) (o : Option Nat), l[i]? = some (n, o) → ∃ v, (enumerate k l)[i]? = some (n, v) ∧
      v = match o, i with
        | some v, _ => v
        | none, 0 => k
        | none, i + 1 => ((enumerate k l)[i]?.map (·.2)).getD 0 + 1 := by
  induction l with
  | nil => intro k; exact ⟨rfl, fun i n o h => by simp at h⟩
  | cons x l ih =>
    intro k
    obtain ⟨n, o⟩ := x
    have main : ∀ v, enumerate k ((n, o) :: l) = (n, v) :: enumerate (v + 1) l → v = o.getD k →
        (enumerate k ((n, o) :: l)).length = ((n, o) :: l).length ∧
        ∀ (i : Nat) (m : String) (p : Option Nat), ((n, o) :: l)[i]? = some (m, p) → ∃ w, (enumerate k ((n, o) :: l))[i]? = some (m, w) ∧
          w = match p, i with
            | some v, _ => v
            | none, 0 => k
            | none, i + 1 => ((enumerate k ((n, o) :: l))[i]?.map (·.2)).getD 0 + 1 := by
      intro v hv ho
      rw [hv]
      refine ⟨by simp [(ih (v + 1)).1], ?_⟩
      intro i m p h
      cases i with
      | zero =>
        simp only [List.getElem?_cons_zero, Option.some.injEq, Prod.mk.injEq] at h
        obtain ⟨rfl, rfl⟩ := h
        refine ⟨v, rfl, ?_⟩
        rw [ho]; cases o <;> rfl
      | succ i =>
        simp only [List.getElem?_cons_succ] at h ⊢
        obtain ⟨w, h1, h2⟩ := (ih (v + 1)).2 i m p h
        refine ⟨w, h1, ?_⟩
        rw [h2]
        cases p with
        | some v => rfl
        | none => cases i <;> rfl
    cases o with
    | some v => exact main v rfl rfl
    | none => exact main k rfl rfl

theorem lookup_nodup (l : List (String × Nat)) (h : (l.map (·.1)).Nodup) (i : Nat) (n : String) (v : Nat)
    (hi : l[i]? = some (n, v)) : l.lookup n = some v := by
  induction l generalizing i with
  | nil => simp at hi
  | cons x l ih =>
    obtain ⟨m, w⟩ := x
    rw [List.map_cons, List.nodup_cons] at h
    cases i with
    | zero =>
      simp only [List.getElem?_cons_zero, Option.some.injEq, Prod.mk.injEq] at hi
      obtain ⟨rfl, rfl⟩ := hi
      simp [List.lookup]
    | succ i =>
      simp only [List.getElem?_cons_succ] at hi
      have hne : (n == m) = false := by
        rw [beq_eq_false_iff_ne]
        rintro rfl
        exact h.1 (List.mem_map.2 ⟨(n, v), List.mem_of_getElem? hi, rfl⟩)
      rw [List.lookup, hne]
      exact ih h.2 i hi

theorem params_nodup : ∀ c ∈ classes, ((enumerate 0 c.params).map (·.1)).Nodup := by decide +kernel

/-- C123: the parameter an accessor uses is the enumerator of its name, with the value the language gives it. -/
theorem id_rule (c : Class) (hc : c ∈ classes) : ∃ value, EnumRule c.params value ∧
    ∀ (i : Nat) (f : String) (o : Option Nat), c.params[i]? = some ("e" ++ f, o) → c.idOf f = some (value i) := by
  refine ⟨fun i => ((enumerate 0 c.params)[i]?.map (·.2)).getD 0, ?_, ?_⟩
  · intro i n o h
    obtain ⟨v, h1, h2⟩ := (enumerate_rule c.params 0).2 i n o h
    simp only [h1, Option.map_some, Option.getD_some]
    rw [h2]
  · intro i f o h
    obtain ⟨v, h1, h2⟩ := (enumerate_rule c.params 0).2 i _ o h
    simp only [h1, Option.map_some, Option.getD_some]
    exact lookup_nodup _ (params_nodup c hc) i _ v h1

example : compositeLayer ∈ classes ∧ compositeLayer.params[1]? = some ("e" ++ "MaskEnabled", some 3) ∧
    compositeLayer.idOf "MaskEnabled" = some 3 := ⟨by simp [classes], by decide +kernel, by decide +kernel⟩

/-- C123: for all classes of parameters and every sequence of calls to the setting accessors of the objects (layers) of a parameter block,
each getting accessor returns what was last set with it on its object; no other accessor or object interferes. -/
theorem params_independent {V : Type} (c : Class) (hc : c ∈ classes) (b : Block V) (l : List (Nat × String × V)) (hl : ∀ x ∈ l, x.2.1 ∈ c.accessors) :
    ∃ b', l.foldl (fun b x => b.bind (fun b => c.set b x.1 x.2.1 x.2.2)) (some b) = some b' ∧
      ∀ f ∈ c.accessors, ∀ k, ∃ v0, c.get b k f = some v0 ∧ c.get b' k f = some (lastSet v0 f k l) := by
  obtain ⟨hn, hd⟩ := accessors_distinct c hc
  have inj : ∀ f ∈ c.accessors, ∀ g ∈ c.accessors, c.idOf f = c.idOf g → f = g := by
    have : ∀ (l : List String), (l.map c.idOf).Nodup → ∀ f ∈ l, ∀ g ∈ l, c.idOf f = c.idOf g → f = g := by
      intro l
      induction l with
      | nil => intro _ f hf; cases hf
      | cons x l ih =>
        intro hn f hf g hg he
        rw [List.map_cons, List.nodup_cons] at hn
        rcases List.mem_cons.1 hf with rfl | hf <;> rcases List.mem_cons.1 hg with rfl | hg
        · rfl
        · exact absurd (by rw [he]; exact List.mem_map_of_mem hg) hn.1
        · exact absurd (by rw [← he]; exact List.mem_map_of_mem (by assumption)) hn.1
        · exact ih hn.2 f hf g hg he
    exact this _ hn
  induction l generalizing b with
  | nil =>
    refine ⟨b, rfl, ?_⟩
    intro f hf k
    obtain ⟨i, hi⟩ := Option.isSome_iff_exists.1 (hd f hf)
    exact ⟨b i k, by simp [Class.get, hi, getParam], by simp [Class.get, hi, getParam, lastSet]⟩
  | cons x l ih =>
    obtain ⟨k0, g, v⟩ := x
    have hg : g ∈ c.accessors := hl _ List.mem_cons_self
    obtain ⟨j, hj⟩ := Option.isSome_iff_exists.1 (hd g hg)
    obtain ⟨b', h1, h2⟩ := ih (setParam b j k0 v) (fun x hx => hl x (List.mem_cons_of_mem _ hx))
    refine ⟨b', ?_, ?_⟩
    · rw [List.foldl_cons]
      simp only [Option.bind_some, Class.set, hj, Option.map_some]
      exact h1
    · intro f hf k
      obtain ⟨i, hi⟩ := Option.isSome_iff_exists.1 (hd f hf)
      obtain ⟨v0, h3, h4⟩ := h2 f hf k
      refine ⟨b i k, by simp [Class.get, hi, getParam], ?_⟩
      rw [h4]
      have hv : v0 = if k0 = k ∧ g = f then v else b i k := by
        simp only [Class.get, hi, Option.map_some, getParam, setParam, Option.some.injEq] at h3
        rw [← h3]
        by_cases hfg : g = f
        · subst hfg
          have : i = j := by rw [hi] at hj; exact Option.some.inj hj
          by_cases hk : k0 = k
          · simp [this, hk]
          · rw [if_neg (fun h => hk h.2.symm), if_neg (fun h => hk h.1)]
        · have : i ≠ j := by
            rintro rfl
            exact hfg (inj g hg f hf (by rw [hi, hj]))
          rw [if_neg (fun h => this h.1), if_neg (fun h => hfg h.2)]
      rw [hv]; rfl

example : compositeLayer ∈ classes := by simp [classes]
example : ((some (fun _ _ => (0 : Int))).bind (fun b => compositeLayer.set b 2 "Opacity" 50)).bind (fun b => compositeLayer.get b 2 "Opacity") = some 50 := by
  decide +kernel

end PreCore.Max
