import Verif.Model.Settings
/-!
# C75: the help and the log list every setting
-/
namespace PreCore.Settings
open PreCore.Refl

/-- What a user expects of the help: the settings in order, each with its description, its choices, or its own settings. -/
inductive Help
  | done
  | plain (name desc : Text) (rest : Help)
  | choice (name desc : Text) (values : List Text) (rest : Help)
  | group (name desc : Text) (inner rest : Help)

/-- Nesting depth. -/
def Help.depth : Help → Nat
  | .done => 1
  | .plain _ _ r => r.depth
  | .choice _ _ _ r => r.depth
  | .group _ _ i r => max (i.depth + 1) r.depth

/-- One line: tabs, text, line end. -/
def line (level : Nat) (t : Text) : Text := List.replicate level 0x09#8 ++ t ++ [0x0a#8]

/-- A description gets a line of its own, one deeper, when there is one. -/
def descLine (level : Nat) (d : Text) : Text := if d = [] then [] else line (level + 1) d

/-- The help text. -/
def render (level : Nat) : Help → Text
  | .done => []
  | .plain n d r => line level n ++ descLine level d ++ render level r
  | .choice n d vs r => line level n ++ descLine level d ++
      line (level + 1) (tValues ++ vs.flatMap (fun v => v ++ [0x2c#8, 0x20#8])) ++ render level r
  | .group n d i r => line level n ++ descLine level d ++ render (level + 1) i ++ render level r

/-- A member holds a class: itself, or as the elements of a list. -/
def HoldsClass (r : RType) : Prop := r.type = .Class ∨ r.type = .BitFieldClass ∨
  ((r.type = .Array ∨ r.type = .ArrayClass) ∧ (r.subType = .Class ∨ r.subType = .BitFieldClass))

/-- `h` describes a class registered with EXTENDED: one entry per member, enums and member classes as registered. -/
def Describes (reg : Reg) : Help → List (RType × ExtMember) → Prop
  | .done, l => l = []
  | .plain n d rest, l => ∃ r m l', l = (r, m) :: l' ∧ n = m.text ∧ d = ((m.desc.map splitDesc).getD ([], [])).1 ∧
      ¬ HoldsClass r ∧ r.type ≠ .Enum ∧ Describes reg rest l'
  | .choice n d vs rest, l => ∃ r m l', l = (r, m) :: l' ∧ n = m.text ∧ d = ((m.desc.map splitDesc).getD ([], [])).1 ∧
      r.type = .Enum ∧ reg.enums r.typeHash = some vs ∧ Describes reg rest l'
  | .group n d inner rest, l => ∃ r m l', l = (r, m) :: l' ∧ n = m.text ∧ d = ((m.desc.map splitDesc).getD ([], [])).1 ∧
      HoldsClass r ∧ (∃ ms : List (RType × ExtMember), reg.classes r.typeHash =
        some ⟨ms.map Prod.fst, extNames (ms.map Prod.snd)⟩ ∧ Describes reg inner ms) ∧ Describes reg rest l'

theorem hasClass_iff (r : RType) : hasClass r = true ↔ HoldsClass r := by
  unfold hasClass HoldsClass
  simp [or_assoc]

theorem line_eq (level : Nat) (t : Text) : line level t = indent level ++ t ++ [nl] := rfl

theorem helpFrom_step (reg : Reg) (sub : Cls → Nat → Out) (level : Nat) (pre ms : List ExtMember) (m : ExtMember)
    (r : RType) (rs : List RType) :
    helpFrom reg sub level (extNames (pre ++ m :: ms)) pre.length (r :: rs) =
      (if hasClass r then
            match reg.classes r.typeHash with
            | some c => sub c (level + 1)
            | none => Out.throws
          else if r.type = .Enum then
            match reg.enums r.typeHash with
            | some vs => Out.text (indent (level + 1) ++ tValues ++ vs.flatMap (fun v => v ++ [0x2c#8, 0x20#8]) ++ [nl])
            | none => Out.throws
          else Out.text []).bind fun b =>
        (helpFrom reg sub level (extNames (pre ++ m :: ms)) (pre.length + 1) rs).bind fun t =>
          .text (line level m.text ++ descLine level ((m.desc.map splitDesc).getD ([], [])).1 ++ b ++ t) := by
  rw [helpFrom]
  have h1 : ((pre ++ m :: ms).map (·.text))[pre.length]? = some m.text := by simp
  have h2 : ∀ ds, (extNames (pre ++ m :: ms)).descs = some ds → ds[pre.length]? =
      some ((m.desc.map splitDesc).getD ([], [])) := by
    intro ds hds
    simp only [extNames, Option.some.injEq] at hds
    subst hds
    simp; cases m.desc <;> rfl
  have h3 := h2 _ rfl
  simp only [extNames] at h1 ⊢
  simp only [h1, h3]
  have hd : (if ((m.desc.map splitDesc).getD ([], [])).1 ≠ [] then
      indent (level + 1) ++ ((m.desc.map splitDesc).getD ([], [])).1 ++ [nl] else []) =
      descLine level ((m.desc.map splitDesc).getD ([], [])).1 := by
    unfold descLine line; split <;> simp_all <;> rfl
  rw [hd]
  rfl

theorem help_from (reg : Reg) : ∀ (h : Help) (f level : Nat) (pre : List ExtMember) (l : List (RType × ExtMember)),
    h.depth ≤ f + 1 → Describes reg h l →
    helpFrom reg (help reg f) level (extNames (pre ++ l.map Prod.snd)) pre.length (l.map Prod.fst) =
      .text (render level h) := by
  intro h
  induction h with
  | done => intro f level pre l _ hd; rw [Describes] at hd; subst hd; rfl
  | plain n d rest ih =>
    intro f level pre l hf hd
    rw [Describes] at hd
    obtain ⟨r, m, l', rfl, rfl, rfl, hc, he, hrest⟩ := hd
    simp only [List.map_cons]
    rw [helpFrom_step, if_neg (by rw [hasClass_iff]; exact hc), if_neg he]
    have := ih f level (pre ++ [m]) l' hf hrest
    simp only [List.append_assoc, List.singleton_append, List.length_append, List.length_singleton] at this
    rw [this]
    simp [Out.bind, render]
  | choice n d vs rest ih =>
    intro f level pre l hf hd
    rw [Describes] at hd
    obtain ⟨r, m, l', rfl, rfl, rfl, he, hv, hrest⟩ := hd
    simp only [List.map_cons]
    have hc : ¬ hasClass r = true := by
      rw [hasClass_iff]; unfold HoldsClass; rw [he]; simp
    rw [helpFrom_step, if_neg hc, if_pos he, hv]
    have := ih f level (pre ++ [m]) l' hf hrest
    simp only [List.append_assoc, List.singleton_append, List.length_append, List.length_singleton] at this
    rw [this]
    simp [Out.bind, render, line_eq]
  | group n d inner rest ihi ihr =>
    intro f level pre l hf hd
    rw [Describes] at hd
    obtain ⟨r, m, l', rfl, rfl, rfl, hc, ⟨ms, hreg, hin⟩, hrest⟩ := hd
    simp only [List.map_cons]
    simp only [Help.depth] at hf
    rw [helpFrom_step, if_pos ((hasClass_iff r).2 hc), hreg]
    have hr := ihr f level (pre ++ [m]) l' (by omega) hrest
    simp only [List.append_assoc, List.singleton_append, List.length_append, List.length_singleton] at hr
    have hd0 : ∀ h : Help, 1 ≤ h.depth := by
      intro h; induction h <;> simp only [Help.depth] <;> omega
    obtain ⟨g, rfl⟩ : ∃ g, f = g + 1 := ⟨f - 1, by have := hd0 inner; omega⟩
    have hi := ihi g (level + 1) [] ms (by omega) hin
    simp only [List.nil_append, List.length_nil] at hi
    rw [hr]
    simp only [help, hi, Out.bind]
    simp [render]

/-- **C75** The help of an EXTENDED class whose member classes are registered and EXTENDED as well, at any depth, lists
every setting in order with the first part of its description, the registered values of enums, and the settings of member
classes one level deeper. Missing: classes of other kinds, and what `help_omits` shows is left out. -/
theorem help_lists_partial (reg : Reg) (cname : Text) (ms : List (RType × ExtMember)) (h : Help)
    (hd : Describes reg h ms) :
    getHelp reg h.depth cname ⟨ms.map Prod.fst, extNames (ms.map Prod.snd)⟩ =
      .text (cname ++ tSettings ++ [0x0a#8] ++ render 1 h) := by
  have hd0 : ∀ h : Help, 1 ≤ h.depth := by
    intro h; induction h <;> simp only [Help.depth] <;> omega
  obtain ⟨g, hg⟩ : ∃ g, h.depth = g + 1 := ⟨h.depth - 1, by have := hd0 h; omega⟩
  have := help_from reg h g 1 [] ms (by omega) hd
  simp only [List.nil_append, List.length_nil] at this
  rw [getHelp, hg, help, this]
  rfl

/-- **C75 violated**: a class with a member that is not EXTENDED (plain or VARNAMES) makes the help index a null table;
whatever the recursion does. -/
theorem help_null_violated (reg : Reg) (sub : Cls → Nat → Out) (level : Nat) (r : RType) (rs : List RType) (ns : List Text) :
    helpFrom reg sub level (varNames ns) 0 (r :: rs) = .ub ∧ helpFrom reg sub level plainNames 0 (r :: rs) = .ub := by
  constructor <;> rfl

/-- **C75 violated**: the values of a flags member and of a list of enums are not listed: the text does not depend on the
registered enum. -/
theorem help_omits_violated (reg reg' : Reg) (sub : Cls → Nat → Out) (level : Nat)
    (n : NameTab) (i : Nat) (r : RType) (hr : r.type = .EnumFlags ∨ (r.type = .Array ∧ r.subType = .Enum)) :
    helpFrom reg sub level n i [r] = helpFrom reg' sub level n i [r] := by
  have h1 : hasClass r = false := by
    unfold hasClass
    rcases hr with h | ⟨h, h'⟩ <;> simp_all
  have h2 : r.type ≠ .Enum := by rcases hr with h | ⟨h, -⟩ <;> rw [h] <;> simp
  simp only [helpFrom, h1, h2, Bool.false_eq_true, if_false]

/-- **C75 violated**: an unregistered member class ends the help with an exception. -/
theorem help_unregistered_violated (reg : Reg) (sub : Cls → Nat → Out) (level : Nat) (m : ExtMember) (r : RType)
    (hr : HoldsClass r) (hn : reg.classes r.typeHash = none) :
    helpFrom reg sub level (extNames [m]) 0 [r] = .throws := by
  have := helpFrom_step reg sub level [] [] m r []
  simp only [List.nil_append, List.length_nil] at this
  rw [this, if_pos ((hasClass_iff r).2 hr), hn]; rfl

/-- **C75** The log of an EXTENDED class: for every setting a tab, its alias if it has one, else its name, and its value. -/
theorem log_lists (env : Env) (c : ClassTab) (ms : List ExtMember) (hl : ms.length = c.types.length) (o : Obj)
    (vs : List Text) (hv : vs.length = ms.length) (hvs : ∀ (i : Nat) (v : Text), vs[i]? = some v → getByID env c i o = some v) :
    logSettings env c (extNames ms) o = .text ((ms.zip vs).flatMap fun p =>
      [0x09#8] ++ p.1.alias_.getD p.1.text ++ [0x3a#8, 0x20#8] ++ p.2.takeWhile (· ≠ 0#8) ++ [0x0a#8]) := by
  have key : ∀ k i, i + k = ms.length → logFrom env c (extNames ms) o k i = .text (((ms.drop i).zip (vs.drop i)).flatMap fun p =>
      [0x09#8] ++ p.1.alias_.getD p.1.text ++ [0x3a#8, 0x20#8] ++ p.2.takeWhile (· ≠ 0#8) ++ [0x0a#8]) := by
    intro k
    induction k with
    | zero => intro i hi; rw [List.drop_of_length_le (by omega)]; rfl
    | succ k ih =>
      intro i hi
      have him : i < ms.length := by omega
      have hiv : i < vs.length := by omega
      rw [logFrom]
      have hp : getPair env c (extNames ms) true false i o = some (ms[i].alias_.getD ms[i].text, vs[i]) := by
        unfold getPair
        rw [if_neg (by omega), hvs i vs[i] (List.getElem?_eq_getElem hiv)]
        simp only [extNames, List.getElem?_map, List.getElem?_eq_getElem him, Option.map_some, if_true, Bool.false_eq_true, if_false]
        cases ms[i].alias_ <;> rfl
      rw [hp]
      simp only
      rw [ih (i + 1) (by omega), List.drop_eq_getElem_cons him, List.drop_eq_getElem_cons hiv]
      simp only [Out.bind, cView, tab, nl, List.zip_cons_cons, List.flatMap_cons]
  have := key ms.length 0 (by omega)
  unfold logSettings
  rw [← hl, this]; simp

/-- **C75 violated**: the log of a VARNAMES class indexes a null table. -/
theorem log_null_violated (env : Env) (c : ClassTab) (ns : List Text) (o : Obj) (h : c.types ≠ []) :
    logSettings env c (varNames ns) o = .ub := by
  unfold logSettings
  cases hc : c.types with
  | nil => exact absurd hc h
  | cons r rs =>
    simp only [List.length_cons, logFrom]
    have : getPair env c (varNames ns) true false 0 o = none := by
      unfold getPair
      rw [if_neg (by simp [hc])]
      simp [varNames]
    rw [this]

/-- One number with a description and one enum inside a member class. -/
def exNum : RType := ⟨.Integer, .None, 4, 0, 1, 0, 1#32, 0#32⟩
def exEnumT : RType := ⟨.Enum, .None, 1, 0, 1, 0, 2#32, 7#32⟩
def exSub : RType := ⟨.Class, .None, 1, 1, 1, 4, 3#32, 9#32⟩
def exReg : Reg := ⟨fun h => if h = 9#32 then some ⟨[exEnumT], extNames [⟨[0x65#8], none, none⟩]⟩ else none,
  fun h => if h = 7#32 then some [[0x41#8], [0x42#8]] else none⟩

example : Describes exReg (.plain [0x6e#8] [0x64#8] (.group [0x73#8] [] (.choice [0x65#8] [] [[0x41#8], [0x42#8]] .done) .done))
    [(exNum, ⟨[0x6e#8], none, some [0x64#8, 0x25#8]⟩), (exSub, ⟨[0x73#8], none, none⟩)] := by
  refine ⟨_, _, _, rfl, rfl, by decide, ?_, by decide, ?_⟩
  · unfold HoldsClass; decide
  · refine ⟨_, _, _, rfl, rfl, by decide, .inl rfl, ⟨[(exEnumT, ⟨[0x65#8], none, none⟩)], ?_, ?_⟩, rfl⟩
    · rfl
    · exact ⟨_, _, _, rfl, rfl, by decide, rfl, by decide, rfl⟩

end PreCore.Settings
