import Verif.Model.PrinterColour
import Verif.Props.Printer
import Verif.Props.ReflectorArray
/-!
# C120: console colours

Specification: a sink is a terminal that shows texts in its current colour (`none`: the normal one).
-/
namespace PreCore.PrinterColour
open PreCore.Printer

abbrev RGB := Int × Int × Int

/-- What a terminal shows: the texts with the colour each has, and the colour at the end. -/
def display : List Call → List (Option RGB × Text) × Option RGB → List (Option RGB × Text) × Option RGB
  | [], s => s
  | .text t :: l, s => display l (s.1 ++ [(s.2, t)], s.2)
  | .colour r g b :: l, s => display l (s.1, some (r, g, b))
  | .restore :: l, s => display l (s.1, none)

/-- The calls of one sink. -/
def callsOf (f : Nat) (out : List (Nat × Call)) : List Call := (out.filter (fun p => p.1 == f)).map (·.2)

/-- Everything a sink shows. -/
def shows (f : Nat) (w : World) : List (Option RGB × Text) × Option RGB := display (callsOf f w.out) ([], none)

/-- Yellow for warnings, red for errors. -/
def severityColour : MPType → Option RGB
  | .WRN => some (255, 255, 0)
  | .ERR => some (255, 0, 0)
  | _ => none

/-! ## Lemmas -/

theorem display_append (a b : List Call) (s : List (Option RGB × Text) × Option RGB) : display (a ++ b) s = display b (display a s) := by
  induction a generalizing s with
  | nil => rfl
  | cons c a ih => cases c <;> simp only [List.cons_append, display] <;> exact ih _

theorem display_texts (l : List Text) (s : List (Option RGB × Text) × Option RGB) :
    display (l.map .text) s = (s.1 ++ l.map (fun t => (s.2, t)), s.2) := by
  induction l generalizing s with
  | nil => simp [display]
  | cons t l ih => simp only [List.map_cons, display]; rw [ih]; simp

theorem callsOf_append (f : Nat) (a b : List (Nat × Call)) : callsOf f (a ++ b) = callsOf f a ++ callsOf f b := by simp [callsOf]

theorem callsOf_same (f : Nat) (l : List Call) : callsOf f (l.map (fun c => (f, c))) = l := by
  induction l with
  | nil => rfl
  | cons c l ih =>
    have : callsOf f ((c :: l).map (fun c => (f, c))) = c :: callsOf f (l.map (fun c => (f, c))) := by simp [callsOf]
    rw [this, ih]

theorem callsOf_other (f g : Nat) (h : g ≠ f) (l : List Call) : callsOf f (l.map (fun c => (g, c))) = [] := by
  induction l with
  | nil => rfl
  | cons c l ih =>
    have : callsOf f ((c :: l).map (fun c => (g, c))) = callsOf f (l.map (fun c => (g, c))) := by simp [callsOf, h]
    rw [this, ih]

/-- A sink gets an escape sequence once if it uses colours, and not otherwise. -/
theorem callsOf_coloured (fs : List Sink) (hn : (fs.map (·.1)).Nodup) (s : Sink) (hs : s ∈ fs) (c : Call) :
    callsOf s.1 (toColoured fs c) = if s.2 then [c] else [] := by
  induction fs with
  | nil => cases hs
  | cons x fs ih =>
    have hcons : toColoured (x :: fs) c = (if x.2 then [(x.1, c)] else []) ++ toColoured fs c := by
      unfold toColoured; by_cases h : x.2 <;> simp [h]
    rw [List.map_cons, List.nodup_cons] at hn
    have hnone : ∀ f, f ∉ fs.map (·.1) → callsOf f (toColoured fs c) = [] := by
      intro f hf
      unfold callsOf toColoured
      rw [List.map_eq_nil_iff, List.filter_eq_nil_iff]
      intro p hp
      simp only [List.mem_map, List.mem_filter] at hp
      obtain ⟨y, ⟨hy, _⟩, rfl⟩ := hp
      simp only [beq_iff_eq]
      intro h; exact hf (h ▸ List.mem_map_of_mem hy)
    rw [hcons, callsOf_append]
    rcases List.mem_cons.1 hs with rfl | hs
    · rw [hnone _ hn.1, List.append_nil]
      split
      · simp [callsOf]
      · rfl
    · rw [ih hn.2 hs]
      have hne : x.1 ≠ s.1 := fun h => hn.1 (h ▸ List.mem_map_of_mem hs)
      have : callsOf s.1 (if x.2 = true then [(x.1, c)] else []) = [] := by split <;> simp [callsOf, hne]
      rw [this]; rfl

/-- The texts of the thread mark. -/
def mark (withId : Bool) (tid : Text) : List Text :=
  if withId then [[0x54#8, 0x68#8, 0x72#8, 0x65#8, 0x61#8, 0x64#8, 0x5b#8, 0x30#8, 0x78#8], tid, [0x5d#8, 0x20#8]] else []

theorem callsOf_texts (f g : Nat) (l : List Text) : callsOf f (l.map (fun t => (g, Call.text t))) = if g = f then l.map .text else [] := by
  have : l.map (fun t => (g, Call.text t)) = (l.map Call.text).map (fun c => (g, c)) := by simp
  rw [this]
  split
  · rename_i h; subst h; exact callsOf_same _ _
  · rename_i h; exact callsOf_other _ _ h _

theorem round_eq (fs : List Sink) (withId : Bool) (tid : Text) (c : MPType) (text : Text) (s : Sink) :
    round fs withId tid c text s = (mark withId tid).map (fun t => (s.1, .text t)) ++
      (if s.2 then (match severityCall c with | some e => toColoured fs e | none => []) else []) ++
      ((prefixOf c ++ [text]).map (fun t => (s.1, .text t))) ++ (if s.2 && decide (c ≠ .MSG) then toColoured fs .restore else []) := by
  unfold round mark
  cases withId <;> cases severityCall c <;> simp

/-- The round of another sink shows nothing on this one; if both use colours and the message is no plain one, this one is back to normal. -/
theorem round_other (fs : List Sink) (hn : (fs.map (·.1)).Nodup) (withId : Bool) (tid : Text) (c : MPType) (text : Text) (s x : Sink) (hs : s ∈ fs)
    (hne : x.1 ≠ s.1) (d : List (Option RGB × Text) × Option RGB) :
    display (callsOf s.1 (round fs withId tid c text x)) d = (d.1, if s.2 && x.2 && decide (c ≠ .MSG) then none else d.2) := by
  rw [round_eq]
  simp only [callsOf_append, callsOf_texts, if_neg hne, List.nil_append, List.append_nil]
  cases hx : x.2 with
  | false => simp [callsOf, display]
  | true =>
    cases c <;> cases h2 : s.2 <;> simp [severityCall, callsOf_coloured fs hn s hs, h2, display] <;> simp [callsOf, display]

/-- Its own round. -/
theorem round_self (fs : List Sink) (hn : (fs.map (·.1)).Nodup) (withId : Bool) (tid : Text) (c : MPType) (text : Text) (s : Sink) (hs : s ∈ fs)
    (d : List (Option RGB × Text) × Option RGB) :
    display (callsOf s.1 (round fs withId tid c text s)) d =
      (d.1 ++ (mark withId tid).map (fun t => (d.2, t)) ++
        (prefixOf c ++ [text]).map (fun t => (if s.2 then (severityColour c).or d.2 else d.2, t)),
       if s.2 && decide (c ≠ .MSG) then none else d.2) := by
  rw [round_eq]
  simp only [callsOf_append, callsOf_texts, if_true, display_append]
  rw [display_texts]
  cases h2 : s.2 with
  | false =>
    simp only [Bool.false_and, Bool.false_eq_true, if_false]
    have : callsOf s.1 [] = [] := rfl
    rw [this]
    simp only [display]
    rw [display_texts]
  | true =>
    cases c <;> simp [severityCall, callsOf_coloured fs hn s hs, h2, display, display_texts, severityColour, prefixOf] <;> simp [callsOf, display]

/-- Rounds of several other sinks. -/
theorem rounds_other (fs : List Sink) (hn : (fs.map (·.1)).Nodup) (withId : Bool) (tid : Text) (c : MPType) (text : Text) (s : Sink) (hs : s ∈ fs)
    (l : List Sink) (hl : ∀ x ∈ l, x.1 ≠ s.1) (d : List (Option RGB × Text) × Option RGB) :
    display (callsOf s.1 (l.flatMap (round fs withId tid c text))) d = (d.1, if s.2 && l.any (·.2) && decide (c ≠ .MSG) then none else d.2) := by
  induction l generalizing d with
  | nil => simp [callsOf, display]
  | cons x l ih =>
    rw [List.flatMap_cons, callsOf_append, display_append, round_other fs hn withId tid c text s x hs (hl x List.mem_cons_self),
      ih (fun y hy => hl y (List.mem_cons_of_mem _ hy))]
    cases h1 : s.2 <;> cases h2 : x.2 <;> cases h3 : l.any (·.2) <;> cases c <;> simp [h2, h3]

/-- C120: what one flush shows on one sink, whatever other sinks there are: the message in one piece; without colours everything in the
sink's present colour; with colours warnings are yellow, errors red, and after anything but a plain message the colour is normal. The
thread mark and plain texts have the present colour, or, when a coloured sink came before and the message is no plain one, the normal one. -/
theorem flush_shows (tidText : Nat → Text) (w w' : World) (i : Nat) (hn : (w.functions.map (·.1)).Nodup) (pre post : List Sink) (s : Sink)
    (hf : w.functions = pre ++ s :: post) (h : flushAll tidText w i = some w') :
    ∃ text, cstr ((w.threads i).buf.take ((w.threads i).put + 1)) = some text ∧
    let c := (w.threads i).cType
    let cur := if s.2 && pre.any (·.2) && decide (c ≠ .MSG) then none else (shows s.1 w).2
    shows s.1 w' = ((shows s.1 w).1 ++ (mark w.printThreadID (tidText i)).map (fun t => (cur, t)) ++
        (prefixOf c ++ [text]).map (fun t => (if s.2 then (severityColour c).or cur else cur, t)),
      if s.2 && decide (c ≠ .MSG) then none else (shows s.1 w).2) := by
  have hs : s ∈ w.functions := by rw [hf]; simp
  unfold flushAll at h
  simp only at h
  cases ht : cstr ((w.threads i).buf.take ((w.threads i).put + 1)) with
  | none => rw [ht] at h; simp at h
  | some text =>
    rw [ht] at h
    simp only [Option.some.injEq] at h
    refine ⟨text, rfl, ?_⟩
    intro c cur
    have hout : w'.out = w.out ++ w.functions.flatMap (round w.functions w.printThreadID (tidText i) c text) := by rw [← h]
    unfold shows
    rw [hout, callsOf_append, display_append]
    have hn' := hn
    rw [hf, List.map_append, List.map_cons, List.nodup_append] at hn'
    obtain ⟨-, hn2, hn3⟩ := hn'
    rw [List.nodup_cons] at hn2
    have hfl : ∀ g : Sink → List (Nat × Call), w.functions.flatMap g = pre.flatMap g ++ g s ++ post.flatMap g := by
      intro g; rw [hf]; simp
    rw [hfl, callsOf_append, callsOf_append, display_append, display_append]
    rw [rounds_other w.functions hn _ _ c text s hs pre (fun x hx he => hn3 x.1 (List.mem_map_of_mem hx) s.1 List.mem_cons_self he),
      round_self w.functions hn _ _ c text s hs,
      rounds_other w.functions hn _ _ c text s hs post (fun x hx he => hn2.1 (he ▸ List.mem_map_of_mem hx))]
    simp only [cur, shows]
    cases h1 : s.2 <;> cases h2 : pre.any (·.2) <;> cases h3 : post.any (·.2) <;> cases hc : c <;> simp

/-! ## Histories -/

/-- The plain operation: colours forgotten. -/
def plainOp : Op → List Printer.Op
  | .text s => [.text s]
  | .type c => [.type c]
  | .flush e => [.flush e]
  | .addFunction f _ => [.addFunction f]
  | .threadId b => [.threadId b]
  | .colour _ _ _ => []
  | .restore => []

def plainHistory (l : List (Nat × Op)) : List (Nat × Printer.Op) := l.flatMap (fun p => (plainOp p.2).map (fun o => (p.1, o)))

/-- The texts among the calls. -/
def texts (out : List (Nat × Call)) : List (Nat × Text) :=
  out.filterMap (fun p => match p.2 with | .text t => some (p.1, t) | _ => none)

def plainWorld (w : World) : Printer.World := ⟨w.threads, w.functions.map (·.1), w.printThreadID, texts w.out⟩

theorem texts_append (a b : List (Nat × Call)) : texts (a ++ b) = texts a ++ texts b := by simp [texts]

theorem texts_coloured (fs : List Sink) (c : Call) (h : ∀ t, c ≠ .text t) : texts (toColoured fs c) = [] := by
  unfold texts toColoured
  rw [List.filterMap_eq_nil_iff]
  intro p hp
  simp only [List.mem_map] at hp
  obtain ⟨x, _, rfl⟩ := hp
  cases c with
  | text t => exact absurd rfl (h t)
  | _ => rfl

theorem texts_texts (f : Nat) (l : List Text) : texts (l.map (fun t => (f, Call.text t))) = l.map (fun t => (f, t)) := by
  induction l with
  | nil => rfl
  | cons t l ih => simp only [List.map_cons]; rw [← ih]; rfl

theorem texts_round (fs : List Sink) (withId : Bool) (tid : Text) (c : MPType) (text : Text) (s : Sink) :
    texts (round fs withId tid c text s) = (calls withId tid c text).map (fun t => (s.1, t)) := by
  rw [round_eq]
  have h1 : texts (if s.2 then (match severityCall c with | some e => toColoured fs e | none => []) else []) = [] := by
    split
    · cases c <;> simp only [severityCall]
      · rfl
      · exact texts_coloured _ _ (by simp)
      · exact texts_coloured _ _ (by simp)
      · rfl
    · rfl
  have h2 : texts (if s.2 && decide (c ≠ .MSG) then toColoured fs .restore else []) = [] := by
    split
    · exact texts_coloured _ _ (by simp)
    · rfl
  rw [texts_append, texts_append, texts_append, h1, h2, texts_texts, texts_texts]
  unfold calls mark
  cases withId <;> simp

theorem texts_rounds (fs l : List Sink) (withId : Bool) (tid : Text) (c : MPType) (text : Text) :
    texts (l.flatMap (round fs withId tid c text)) = (l.map (·.1)).flatMap (fun f => (calls withId tid c text).map (fun t => (f, t))) := by
  induction l with
  | nil => rfl
  | cons x l ih => rw [List.flatMap_cons, texts_append, texts_round, ih]; rfl

theorem plain_step (tidText : Nat → Text) (w : World) (i : Nat) (o : Op) :
    (step tidText w i o).map plainWorld = Printer.run tidText ((plainOp o).map (fun o => (i, o))) (plainWorld w) := by
  have hone : ∀ o, Printer.run tidText [(i, o)] (plainWorld w) = Printer.step tidText (plainWorld w) i o := by
    intro o
    simp only [Printer.run]
    cases Printer.step tidText (plainWorld w) i o <;> rfl
  cases o with
  | text s => rw [show plainOp (.text s) = [.text s] from rfl]; rfl
  | type c => rfl
  | flush e =>
    simp only [plainOp, List.map_cons, List.map_nil]
    rw [hone]
    simp only [step, Printer.step]
    unfold flushAll Printer.flushAll
    simp only [World.setThread, Printer.World.setThread, plainWorld, if_true]
    generalize hc : cstr _ = r
    cases r with
    | none => rfl
    | some text =>
      simp only [Option.map_some, Option.some.injEq, plainWorld]
      rw [texts_append, texts_rounds]
  | addFunction f c =>
    simp only [plainOp, List.map_cons, List.map_nil]
    rw [hone]
    simp only [step, Printer.step, Option.map_some, Option.some.injEq]
    have hiff : (w.functions.any (·.1 == f)) = true ↔ f ∈ (plainWorld w).functions := by
      simp [plainWorld, List.any_eq_true]
    by_cases h : w.functions.any (·.1 == f) = true
    · rw [if_pos h, if_pos (hiff.1 h)]
    · rw [if_neg h, if_neg (fun hh => h (hiff.2 hh))]
      simp [plainWorld]
  | threadId b => rfl
  | colour r g b =>
    simp only [step, plainOp, List.map_nil, Printer.run, Option.map_some, Option.some.injEq, plainWorld]
    rw [texts_append, texts_coloured _ _ (by simp), List.append_nil]
  | restore =>
    simp only [step, plainOp, List.map_nil, Printer.run, Option.map_some, Option.some.injEq, plainWorld]
    rw [texts_append, texts_coloured _ _ (by simp), List.append_nil]

theorem plain_run_append (tidText : Nat → Text) (a b : List (Nat × Printer.Op)) (w : Printer.World) :
    Printer.run tidText (a ++ b) w = (Printer.run tidText a w).bind (Printer.run tidText b) := by
  induction a generalizing w with
  | nil => rfl
  | cons x a ih =>
    obtain ⟨i, o⟩ := x
    simp only [List.cons_append, Printer.run]
    cases Printer.step tidText w i o with
    | none => rfl
    | some w => exact ih w

/-- C120: colours do not change what is printed: the texts the sinks get, in order, are those of the history without colours (so C42 and
C101 apply), and the same histories are defined. -/
theorem colours_erase (tidText : Nat → Text) (l : List (Nat × Op)) (w : World) :
    (run tidText l w).map plainWorld = Printer.run tidText (plainHistory l) (plainWorld w) := by
  induction l generalizing w with
  | nil => rfl
  | cons x l ih =>
    obtain ⟨i, o⟩ := x
    have h := plain_step tidText w i o
    have hcons : plainHistory ((i, o) :: l) = (plainOp o).map (fun o => (i, o)) ++ plainHistory l := rfl
    rw [hcons, plain_run_append, ← h]
    simp only [run]
    cases step tidText w i o with
    | none => rfl
    | some w => exact ih w

/-! ## Specification of whole histories -/

/-- Per thread: text since the last flush, severity; the sinks with their flags; what every sink shows and its present colour. -/
structure Spec where
  pending : Nat → Text
  sev : Nat → MPType
  sinks : List Sink
  withId : Bool
  shown : Nat → List (Option RGB × Text)
  cur : Nat → Option RGB

/-- Whether a sink is registered, and with colours. -/
def Spec.flag (s : Spec) (f : Nat) : Option Bool := (s.sinks.find? (·.1 == f)).map (·.2)
/-- Whether a coloured sink was registered before `f`. -/
def Spec.follows (s : Spec) (f : Nat) : Bool := (s.sinks.takeWhile (fun x => x.1 != f)).any (·.2)

/-- The colour sink `f` has when the message of severity `c` reaches it. -/
def Spec.reached (s : Spec) (c : MPType) (f : Nat) : Option RGB :=
  if s.flag f = some true ∧ s.follows f = true ∧ c ≠ .MSG then none else s.cur f

/-- What a message adds to sink `f`. -/
def Spec.message (s : Spec) (tid text : Text) (c : MPType) (f : Nat) : List (Option RGB × Text) :=
  match s.flag f with
  | none => []
  | some false => (mark s.withId tid ++ prefixOf c ++ [text]).map (fun t => (s.cur f, t))
  | some true => (mark s.withId tid).map (fun t => (s.reached c f, t)) ++
      (prefixOf c ++ [text]).map (fun t => ((severityColour c).or (s.reached c f), t))

def specStep (tidText : Nat → Text) (s : Spec) (i : Nat) : Op → Spec
  | .text t => { s with pending := fun j => if j = i then s.pending i ++ t else s.pending j }
  | .type c => { s with sev := fun j => if j = i then c else s.sev j }
  | .flush e =>
    { s with
      pending := fun j => if j = i then [] else s.pending j
      sev := fun j => if j = i then .MSG else s.sev j
      shown := fun f => s.shown f ++ s.message (tidText i) (s.pending i ++ if e then [0x0a#8] else []) (s.sev i) f
      cur := fun f => if s.flag f = some true ∧ s.sev i ≠ .MSG then none else s.cur f }
  | .addFunction f c => { s with sinks := if (s.flag f).isSome then s.sinks else s.sinks ++ [(f, c)] }
  | .threadId b => { s with withId := b }
  | .colour r g b => { s with cur := fun f => if s.flag f = some true then some (r, g, b) else s.cur f }
  | .restore => { s with cur := fun f => if s.flag f = some true then none else s.cur f }

def specRun (tidText : Nat → Text) (l : List (Nat × Op)) : Spec :=
  l.foldl (fun s p => specStep tidText s p.1 p.2) ⟨fun _ => [], fun _ => .MSG, [], false, fun _ => [], fun _ => none⟩

/-- No inserted text contains a zero byte. -/
def NoNul (l : List (Nat × Op)) : Prop := ∀ i s, (i, Op.text s) ∈ l → 0#8 ∉ s

structure Rel (w : World) (s : Spec) : Prop where
  buf : ∀ i, (w.threads i).buf.take (w.threads i).put = s.pending i
  len : ∀ i, (w.threads i).put = (s.pending i).length
  sev : ∀ i, (w.threads i).cType = s.sev i
  sinks : w.functions = s.sinks
  ids : w.printThreadID = s.withId
  nonul : ∀ i, 0#8 ∉ s.pending i
  nodup : (s.sinks.map (·.1)).Nodup
  shown : ∀ f, shows f w = (s.shown f, s.cur f)
  only : ∀ p ∈ w.out, p.1 ∈ s.sinks.map (·.1)

theorem find_split (l : List Sink) (f : Nat) (x : Sink) (h : l.find? (·.1 == f) = some x) :
    ∃ pre post, l = pre ++ x :: post ∧ x.1 = f ∧ l.takeWhile (fun y => y.1 != f) = pre := by
  induction l with
  | nil => simp at h
  | cons y l ih =>
    by_cases hy : y.1 = f
    · rw [List.find?_cons_of_pos (by simp [hy])] at h
      cases h
      exact ⟨[], l, rfl, hy, by rw [List.takeWhile_cons_of_neg (by simp [hy])]⟩
    · rw [List.find?_cons_of_neg (by simp [hy])] at h
      obtain ⟨pre, post, h1, h2, h3⟩ := ih h
      exact ⟨y :: pre, post, by rw [h1]; rfl, h2, by rw [List.takeWhile_cons_of_pos (by simp [hy]), h3]⟩

theorem not_found (l : List Sink) (f : Nat) : l.find? (·.1 == f) = none ↔ f ∉ l.map (·.1) := by
  rw [List.find?_eq_none]
  simp only [beq_iff_eq, List.mem_map, not_exists, not_and]

theorem callsOf_none (f : Nat) (l : List (Nat × Call)) (h : ∀ p ∈ l, p.1 ≠ f) : callsOf f l = [] := by
  unfold callsOf
  rw [List.map_eq_nil_iff, List.filter_eq_nil_iff]
  intro p hp
  simpa using h p hp

theorem mem_coloured (fs : List Sink) (c : Call) (p : Nat × Call) (h : p ∈ toColoured fs c) : p.1 ∈ fs.map (·.1) := by
  unfold toColoured at h
  simp only [List.mem_map, List.mem_filter] at h
  obtain ⟨x, ⟨hx, _⟩, rfl⟩ := h
  exact List.mem_map_of_mem hx

theorem mem_round (fs : List Sink) (withId : Bool) (tid : Text) (c : MPType) (text : Text) (s : Sink) (hs : s ∈ fs) (p : Nat × Call)
    (h : p ∈ round fs withId tid c text s) : p.1 ∈ fs.map (·.1) := by
  have hm := List.mem_map_of_mem (f := (·.1)) hs
  rw [round_eq] at h
  simp only [List.mem_append] at h
  rcases h with ((h | h) | h) | h
  · simp only [List.mem_map] at h
    obtain ⟨_, _, rfl⟩ := h; exact hm
  · split at h
    · split at h
      · exact mem_coloured _ _ _ h
      · cases h
    · cases h
  · obtain ⟨_, _, rfl⟩ := List.mem_map.1 h; exact hm
  · split at h
    · exact mem_coloured _ _ _ h
    · cases h

theorem shows_coloured (w : World) (s : Spec) (hr : Rel w s) (c : Call) (col : Option RGB) (hc : ∀ d : List (Option RGB × Text) × Option RGB, display [c] d = (d.1, col))
    (f : Nat) : shows f { w with out := w.out ++ toColoured w.functions c } = (s.shown f, if s.flag f = some true then col else s.cur f) := by
  unfold shows
  rw [callsOf_append, display_append]
  have h0 := hr.shown f
  unfold shows at h0
  rw [h0]
  cases hfl : s.sinks.find? (·.1 == f) with
  | none =>
    have hnot := (not_found _ _).1 hfl
    rw [callsOf_none f _ (fun p hp he => hnot (by rw [← he, ← hr.sinks]; exact mem_coloured _ _ _ hp))]
    simp [display, Spec.flag, hfl]
  | some x =>
    obtain ⟨pre, post, h1, h2, h3⟩ := find_split _ _ _ hfl
    have := callsOf_coloured w.functions (by rw [hr.sinks]; exact hr.nodup) x (by rw [hr.sinks, h1]; simp) c
    rw [h2] at this
    rw [this]
    simp only [Spec.flag, hfl, Option.map_some, Option.some.injEq]
    cases x.2 with
    | false => simp [display]
    | true => simp [hc]

theorem step_rel (tidText : Nat → Text) (w : World) (s : Spec) (i : Nat) (o : Op) (hr : Rel w s) (hn : ∀ t, o = .text t → 0#8 ∉ t) :
    ∃ w', step tidText w i o = some w' ∧ Rel w' (specStep tidText s i o) := by
  have hlen : ∀ j, ((w.threads j).buf.take (w.threads j).put).length = (w.threads j).put := by
    intro j; rw [hr.buf j, hr.len j]
  cases o with
  | text t =>
    refine ⟨_, rfl, ⟨?_, ?_, ?_, hr.sinks, hr.ids, ?_, hr.nodup, hr.shown, hr.only⟩⟩
    · intro j
      simp only [World.setThread, specStep]
      split
      · rename_i e; subst e; rw [insert_take _ _ (hlen _), hr.buf]
      · exact hr.buf j
    · intro j
      simp only [World.setThread, specStep]
      split
      · rename_i e; subst e; simp [Printer.insert, hr.len]
      · exact hr.len j
    · intro j
      simp only [World.setThread, specStep]
      split
      · rename_i e; subst e; exact hr.sev _
      · exact hr.sev j
    · intro j
      simp only [specStep]
      split
      · rename_i e; subst e
        simp only [List.mem_append, not_or]
        exact ⟨hr.nonul _, hn t rfl⟩
      · exact hr.nonul j
  | type c =>
    refine ⟨_, rfl, ⟨?_, ?_, ?_, hr.sinks, hr.ids, hr.nonul, hr.nodup, hr.shown, hr.only⟩⟩
    · intro j
      simp only [World.setThread, specStep]
      split
      · rename_i e; subst e; exact hr.buf _
      · exact hr.buf j
    · intro j
      simp only [World.setThread, specStep]
      split
      · rename_i e; subst e; exact hr.len _
      · exact hr.len j
    · intro j
      simp only [World.setThread, specStep]
      split
      · rfl
      · exact hr.sev j
  | flush e =>
    have key : ∀ t : Thread, (t.buf.take t.put).length = t.put → 0#8 ∉ t.buf.take t.put →
        cstr ((insert t [0#8]).buf.take ((insert t [0#8]).put + 1)) = some (t.buf.take t.put) := by
      intro t h1 h2
      have h3 := insert_take t [0#8] h1
      have h4 : (insert t [0#8]).buf.take ((insert t [0#8]).put + 1) =
          t.buf.take t.put ++ 0#8 :: ((insert t [0#8]).buf.drop (insert t [0#8]).put).take 1 := by
        rw [List.take_add, h3]
        simp
      rw [h4]
      exact cstr_text _ _ h2
    have hmain : ∀ t : Thread, (t.buf.take t.put).length = t.put → t.buf.take t.put = s.pending i ++ (if e then [0x0a#8] else []) →
        t.cType = s.sev i → ∃ w', flushAll tidText (w.setThread i (insert t [0#8])) i = some w' ∧ Rel w' (specStep tidText s i (.flush e)) := by
      intro t h1 h2 h3
      have h0 : 0#8 ∉ t.buf.take t.put := by
        rw [h2]
        simp only [List.mem_append, not_or]
        refine ⟨hr.nonul i, ?_⟩
        split <;> simp
      have hti : ((w.setThread i (insert t [0#8])).threads i) = insert t [0#8] := by simp [World.setThread]
      have hct : (insert t [0#8]).cType = s.sev i := h3
      have hfl : flushAll tidText (w.setThread i (insert t [0#8])) i = some { w with
          threads := fun j => if j = i then ⟨if (insert t [0#8]).put + 1 > maximumStreamSize then [] else (insert t [0#8]).buf, 0, .MSG⟩
            else w.threads j
          out := w.out ++ w.functions.flatMap (round w.functions w.printThreadID (tidText i) (insert t [0#8]).cType (t.buf.take t.put)) } := by
        unfold flushAll
        simp only [World.setThread, if_true]
        rw [key t h1 h0]
        simp only
        congr 2
        funext j
        split <;> rfl
      refine ⟨_, hfl, ⟨?_, ?_, ?_, hr.sinks, hr.ids, ?_, hr.nodup, ?_, ?_⟩⟩
      · intro j
        simp only [specStep]
        split
        · simp
        · exact hr.buf j
      · intro j
        simp only [specStep]
        split
        · rfl
        · exact hr.len j
      · intro j
        simp only [specStep]
        split
        · rfl
        · exact hr.sev j
      · intro j
        simp only [specStep]
        split
        · simp
        · exact hr.nonul j
      · intro f
        cases hff : s.sinks.find? (·.1 == f) with
        | none =>
          have hnot := (not_found _ _).1 hff
          have hflag : s.flag f = none := by simp [Spec.flag, hff]
          unfold shows
          simp only [specStep, callsOf_append, display_append, Spec.message, hflag]
          have hs0 := hr.shown f
          unfold shows at hs0
          rw [hs0, callsOf_none f _ ?_]
          · simp [display]
          · intro p hp he
            obtain ⟨x, hx, hp⟩ := List.mem_flatMap.1 hp
            have := mem_round _ _ _ _ _ x hx p hp
            rw [hr.sinks, he] at this
            exact hnot this
        | some x =>
          obtain ⟨pre, post, g1, g2, g3⟩ := find_split _ _ _ hff
          have hflag : s.flag f = some x.2 := by simp [Spec.flag, hff]
          have hfollows : s.follows f = pre.any (·.2) := by simp [Spec.follows, g3]
          obtain ⟨text, ht, hs⟩ := flush_shows tidText (w.setThread i (insert t [0#8])) _ i (by
            show ((w.functions).map (·.1)).Nodup
            rw [hr.sinks]; exact hr.nodup) pre post x (by show w.functions = _; rw [hr.sinks]; exact g1) hfl
          rw [hti, key t h1 h0] at ht
          simp only [Option.some.injEq] at ht
          rw [hti] at hs
          have hsw : shows x.1 (w.setThread i (insert t [0#8])) = (s.shown f, s.cur f) := by rw [g2]; exact hr.shown f
          simp only [hsw] at hs
          rw [g2] at hs
          rw [hs, hct]
          simp only [specStep, Spec.message, hflag, Spec.reached, hfollows, ← ht, h2]
          have hid : (w.setThread i (insert t [0#8])).printThreadID = s.withId := hr.ids
          rw [hid]
          cases hx2 : x.2 with
          | false => simp
          | true =>
            cases hp : pre.any (·.2) <;> by_cases hm : s.sev i = .MSG <;> simp [hm]
      · intro p hp
        simp only [specStep]
        rcases List.mem_append.1 hp with hp | hp
        · exact hr.only p hp
        · obtain ⟨x, hx, hp⟩ := List.mem_flatMap.1 hp
          have := mem_round _ _ _ _ _ x hx p hp
          rw [hr.sinks] at this
          exact this
    simp only [step]
    cases e with
    | false => exact hmain _ (hlen i) (by simp [hr.buf]) (hr.sev i)
    | true =>
      refine hmain (insert (w.threads i) [0x0a#8]) ?_ ?_ ?_
      · rw [insert_take _ _ (hlen i)]
        simp [Printer.insert, hlen i]
      · rw [insert_take _ _ (hlen i), hr.buf]
        rfl
      · exact hr.sev i
  | addFunction f c =>
    refine ⟨_, rfl, ?_⟩
    have hiff : (w.functions.any (·.1 == f)) = (s.flag f).isSome := by
      rw [hr.sinks]
      simp only [Spec.flag, Option.isSome_map, List.find?_isSome]
      rw [Bool.eq_iff_iff]
      simp [List.any_eq_true]
    simp only [specStep]
    rw [hiff]
    by_cases hf : (s.flag f).isSome = true
    · rw [if_pos hf, if_pos hf]
      exact hr
    · rw [if_neg hf, if_neg hf]
      have hnot : f ∉ s.sinks.map (·.1) := by
        rw [← not_found]
        unfold Spec.flag at hf
        cases hh : s.sinks.find? (·.1 == f) with
        | none => rfl
        | some x => rw [hh] at hf; exact absurd rfl hf
      refine ⟨hr.buf, hr.len, hr.sev, by simp [hr.sinks], hr.ids, hr.nonul, ?_, hr.shown, ?_⟩
      · simp only [List.map_append, List.map_cons, List.map_nil]
        rw [List.nodup_append]
        refine ⟨hr.nodup, by simp, ?_⟩
        intro a ha b hb
        simp only [List.mem_singleton] at hb
        subst hb
        rintro rfl
        exact hnot ha
      · intro p hp
        simp only [List.map_append, List.mem_append]
        exact .inl (hr.only p hp)
  | threadId b =>
    exact ⟨_, rfl, ⟨hr.buf, hr.len, hr.sev, hr.sinks, rfl, hr.nonul, hr.nodup, hr.shown, hr.only⟩⟩
  | colour r g b =>
    refine ⟨_, rfl, ⟨hr.buf, hr.len, hr.sev, hr.sinks, hr.ids, hr.nonul, hr.nodup, ?_, ?_⟩⟩
    · exact shows_coloured w s hr (.colour r g b) (some (r, g, b)) (fun d => rfl)
    · intro p hp
      rcases List.mem_append.1 hp with hp | hp
      · exact hr.only p hp
      · have := mem_coloured _ _ _ hp; rw [hr.sinks] at this; exact this
  | restore =>
    refine ⟨_, rfl, ⟨hr.buf, hr.len, hr.sev, hr.sinks, hr.ids, hr.nonul, hr.nodup, ?_, ?_⟩⟩
    · exact shows_coloured w s hr .restore none (fun d => rfl)
    · intro p hp
      rcases List.mem_append.1 hp with hp | hp
      · exact hr.only p hp
      · have := mem_coloured _ _ _ hp; rw [hr.sinks] at this; exact this

/-- C120: for every number of threads and sinks and every history, each sink shows exactly what the specification says, in the colours it
says. -/
theorem colours_shown (tidText : Nat → Text) (l : List (Nat × Op)) (h : NoNul l) :
    ∃ w, run tidText l start = some w ∧ ∀ f, shows f w = ((specRun tidText l).shown f, (specRun tidText l).cur f) := by
  have key : ∀ (l : List (Nat × Op)) (w : World) (s : Spec), Rel w s → NoNul l →
      ∃ w', run tidText l w = some w' ∧ Rel w' (l.foldl (fun s p => specStep tidText s p.1 p.2) s) := by
    intro l
    induction l with
    | nil => intro w s hr _; exact ⟨w, rfl, hr⟩
    | cons x l ih =>
      intro w s hr hn
      obtain ⟨i, o⟩ := x
      obtain ⟨w1, h1, h2⟩ := step_rel tidText w s i o hr (fun t ht => hn i t (by subst ht; exact List.mem_cons_self))
      obtain ⟨w2, h3, h4⟩ := ih w1 _ h2 (fun j t ht => hn j t (List.mem_cons_of_mem _ ht))
      exact ⟨w2, by simp only [run, h1, Option.bind_some]; exact h3, h4⟩
  obtain ⟨w, h1, h2⟩ := key l start ⟨fun _ => [], fun _ => .MSG, [], false, fun _ => [], fun _ => none⟩ (by
    refine ⟨?_, ?_, ?_, rfl, rfl, ?_, ?_, ?_, ?_⟩ <;> simp [start, shows, callsOf, display]) h
  exact ⟨w, h1, fun f => h2.shown f⟩

/-- Two coloured sinks, one without; an error, then a message after `SetConsoleTextColor`. -/
example : (run (fun _ => []) [(0, .addFunction 0 true), (0, .addFunction 1 false), (0, .addFunction 2 true), (0, .type .ERR), (0, .text [0x61#8]), (0, .flush false),
    (0, .colour 1 2 3), (1, .text [0x62#8]), (1, .flush false)] start).map (fun w => [shows 0 w, shows 1 w, shows 2 w]) =
  some [([(some (255, 0, 0), [0x45#8, 0x52#8, 0x52#8, 0x4f#8, 0x52#8, 0x3a#8, 0x20#8]), (some (255, 0, 0), [0x61#8]), (some (1, 2, 3), [0x62#8])], some (1, 2, 3)),
    ([(none, [0x45#8, 0x52#8, 0x52#8, 0x4f#8, 0x52#8, 0x3a#8, 0x20#8]), (none, [0x61#8]), (none, [0x62#8])], none),
    ([(some (255, 0, 0), [0x45#8, 0x52#8, 0x52#8, 0x4f#8, 0x52#8, 0x3a#8, 0x20#8]), (some (255, 0, 0), [0x61#8]), (some (1, 2, 3), [0x62#8])], some (1, 2, 3))] := by
  rfl

/-- C120: a sink registered without colours is never called with an escape sequence. -/
theorem plain_sinks (tidText : Nat → Text) (l : List (Nat × Op)) (w : World) (h : run tidText l start = some w) (f : Nat)
    (hf : (f, false) ∈ w.functions) (c : Call) (hc : (f, c) ∈ w.out) : ∃ t, c = .text t := by
  have col : ∀ (fs : List Sink) (c : Call) (p : Nat × Call), p ∈ toColoured fs c → (p.1, true) ∈ fs := by
    intro fs c p hp
    unfold toColoured at hp
    simp only [List.mem_map, List.mem_filter] at hp
    obtain ⟨⟨a, b⟩, ⟨hx, hb⟩, rfl⟩ := hp
    simp only at hb; subst hb; exact hx
  have rnd : ∀ (fs : List Sink) (i : Bool) (tid : Text) (c : MPType) (text : Text) (s : Sink) (p : Nat × Call), p ∈ round fs i tid c text s →
      (∃ t, p.2 = .text t) ∨ (p.1, true) ∈ fs := by
    intro fs i tid c text s p hp
    rw [round_eq] at hp
    simp only [List.mem_append] at hp
    rcases hp with ((h | h) | h) | h
    · obtain ⟨t, _, rfl⟩ := List.mem_map.1 h; exact .inl ⟨t, rfl⟩
    · split at h
      · split at h
        · exact .inr (col _ _ _ h)
        · cases h
      · cases h
    · obtain ⟨t, _, rfl⟩ := List.mem_map.1 h; exact .inl ⟨t, rfl⟩
    · split at h
      · exact .inr (col _ _ _ h)
      · cases h
  have inv : ∀ (l : List (Nat × Op)) (w w' : World), run tidText l w = some w' →
      ((w.functions.map (·.1)).Nodup ∧ ∀ p ∈ w.out, (∃ t, p.2 = .text t) ∨ (p.1, true) ∈ w.functions) →
      ((w'.functions.map (·.1)).Nodup ∧ ∀ p ∈ w'.out, (∃ t, p.2 = .text t) ∨ (p.1, true) ∈ w'.functions) := by
    intro l
    induction l with
    | nil => intro w w' h hi; simp only [run, Option.some.injEq] at h; subst h; exact hi
    | cons x l ih =>
      intro w w' h hi
      obtain ⟨i, o⟩ := x
      simp only [run] at h
      cases hs : step tidText w i o with
      | none => rw [hs] at h; cases h
      | some w1 =>
        rw [hs] at h
        refine ih w1 w' h ?_
        cases o with
        | text s => simp only [step, Option.some.injEq] at hs; subst hs; exact hi
        | type c => simp only [step, Option.some.injEq] at hs; subst hs; exact hi
        | threadId b => simp only [step, Option.some.injEq] at hs; subst hs; exact hi
        | flush e =>
          simp only [step, flushAll] at hs
          split at hs
          · cases hs
          · simp only [Option.some.injEq] at hs
            subst hs
            refine ⟨hi.1, ?_⟩
            intro p hp
            rcases List.mem_append.1 hp with hp | hp
            · exact hi.2 p hp
            · obtain ⟨x, _, hp⟩ := List.mem_flatMap.1 hp
              exact rnd _ _ _ _ _ _ _ hp
        | addFunction f c =>
          simp only [step, Option.some.injEq] at hs
          by_cases hany : w.functions.any (·.1 == f) = true
          · rw [if_pos hany] at hs; subst hs; exact hi
          · rw [if_neg hany] at hs
            subst hs
            refine ⟨?_, fun p hp => (hi.2 p hp).imp id (fun h => List.mem_append_left _ h)⟩
            simp only [List.map_append, List.map_cons, List.map_nil]
            rw [List.nodup_append]
            refine ⟨hi.1, by simp, ?_⟩
            intro a ha b hb
            simp only [List.mem_singleton] at hb
            subst hb
            rintro rfl
            obtain ⟨x, hx, hxf⟩ := List.mem_map.1 ha
            exact hany (List.any_eq_true.2 ⟨x, hx, by simpa using hxf⟩)
        | colour r g b =>
          simp only [step, Option.some.injEq] at hs; subst hs
          exact ⟨hi.1, fun p hp => (List.mem_append.1 hp).elim (hi.2 p) (fun h => .inr (col _ _ _ h))⟩
        | restore =>
          simp only [step, Option.some.injEq] at hs; subst hs
          exact ⟨hi.1, fun p hp => (List.mem_append.1 hp).elim (hi.2 p) (fun h => .inr (col _ _ _ h))⟩
  obtain ⟨hn, ho⟩ := inv l start w h ⟨by simp [start], by simp [start]⟩
  rcases ho _ hc with h | h
  · exact h
  · exfalso
    have uniq : ∀ (fs : List Sink), (fs.map (·.1)).Nodup → (f, false) ∈ fs → (f, true) ∈ fs → False := by
      intro fs
      induction fs with
      | nil => intro _ h; cases h
      | cons x fs ih =>
        intro hn h1 h2
        rw [List.map_cons, List.nodup_cons] at hn
        rcases List.mem_cons.1 h1 with h1 | h1 <;> rcases List.mem_cons.1 h2 with h2 | h2
        · rw [← h1] at h2; cases h2
        · exact hn.1 (by rw [← h1]; exact List.mem_map_of_mem (f := (·.1)) h2)
        · exact hn.1 (by rw [← h2]; exact List.mem_map_of_mem (f := (·.1)) h1)
        · exact ih hn.2 h1 h2
    exact uniq _ hn hf h

/-- C120: in programs that do not set colours themselves, every sink is in its normal colour between messages, warnings are yellow and errors
red on sinks with colours, and everything else is in the normal colour. -/
theorem colours_own (tidText : Nat → Text) (l : List (Nat × Op)) (hl : ∀ i r g b, (i, Op.colour r g b) ∉ l) :
    ∀ f, (specRun tidText l).cur f = none ∧ ∀ tid text c, (specRun tidText l).message tid text c f =
      match (specRun tidText l).flag f with
      | none => []
      | some col => (mark (specRun tidText l).withId tid).map (fun t => (none, t)) ++
          (prefixOf c ++ [text]).map (fun t => (if col then severityColour c else none, t)) := by
  have key : ∀ (l : List (Nat × Op)) (s : Spec), (∀ f, s.cur f = none) → (∀ i r g b, (i, Op.colour r g b) ∉ l) →
      ∀ f, (l.foldl (fun s p => specStep tidText s p.1 p.2) s).cur f = none := by
    intro l
    induction l with
    | nil => intro s hs _; exact hs
    | cons x l ih =>
      intro s hs hl
      obtain ⟨i, o⟩ := x
      refine ih _ ?_ (fun j r g b h => hl j r g b (List.mem_cons_of_mem _ h))
      intro f
      cases o with
      | colour r g b => exact absurd List.mem_cons_self (hl i r g b)
      | flush e => simp only [specStep]; split <;> simp [hs]
      | restore => simp only [specStep]; split <;> simp [hs]
      | _ => exact hs f
  intro f
  have hcur : ∀ f, (specRun tidText l).cur f = none := key l _ (fun _ => rfl) hl
  refine ⟨hcur f, ?_⟩
  intro tid text c
  have hreach : (specRun tidText l).reached c f = none := by
    unfold Spec.reached; split
    · rfl
    · exact hcur f
  unfold Spec.message
  cases (specRun tidText l).flag f with
  | none => rfl
  | some col => cases col <;> simp [hcur f, hreach]

/-- With a colour set by the program an informational message is in that colour on the first coloured sink and in the normal one on the
others, because the first one's round resets all of them. -/
theorem info_colour_violated : ∃ l w, run (fun _ => []) l start = some w ∧ NoNul l ∧
    (shows 0 w).1 = [(some (1, 2, 3), [0x61#8])] ∧ (shows 1 w).1 = [(none, [0x61#8])] ∧ w.functions = [(0, true), (1, true)] := by
  refine ⟨[(0, .addFunction 0 true), (0, .addFunction 1 true), (0, .colour 1 2 3), (0, .type .INF), (0, .text [0x61#8]), (0, .flush false)], _, rfl, ?_, ?_, ?_, rfl⟩
  · intro i s h
    simp only [List.mem_cons, Prod.mk.injEq, reduceCtorEq, and_false, Op.text.injEq, List.not_mem_nil, or_false, false_or] at h
    rw [h.2]; decide
  · decide
  · decide

/-! ## Escape sequences -/

/-- The characters of a text. -/
def asciiBytes (s : String) : List Byte := s.toList.map (fun c => BitVec.ofNat 8 c.toNat)

/-- C120: the two calls of the library and all colours with components from 0 to 255 fit the buffer. -/
theorem colour_fits (r g b : Int) (hr : 0 ≤ r ∧ r ≤ 255) (hg : 0 ≤ g ∧ g ≤ 255) (hb : 0 ≤ b ∧ b ≤ 255) :
    callBytes (.colour r g b) = some (colourText r g b) := by
  have h3 : ∀ z : Int, 0 ≤ z ∧ z ≤ 255 → (CNum.showInt z).length ≤ 3 := by
    intro z hz
    unfold CNum.showInt
    rw [if_neg (by omega)]
    exact Refl.showNat_len 2 z.natAbs (by omega)
  have a := h3 r hr
  have b' := h3 g hg
  have c := h3 b hb
  simp only [callBytes]
  rw [if_pos]
  unfold colourText
  simp only [List.length_append, List.length_cons, List.length_nil]
  omega

/-- C120: it is the terminal's escape sequence for a 24 bit foreground colour (ECMA-48 SGR 38;2), numbers in decimal. -/
theorem colour_text_spec (r g b : Int) : colourText r g b =
    asciiBytes "\x1b[38;2;" ++ CNum.showInt r ++ asciiBytes ";" ++ CNum.showInt g ++ asciiBytes ";" ++ CNum.showInt b ++ asciiBytes "m" := by
  have e1 : asciiBytes "\x1b[38;2;" = [0x1b#8, 0x5b#8, 0x33#8, 0x38#8, 0x3b#8, 0x32#8, 0x3b#8] := by decide +kernel
  have e2 : asciiBytes ";" = [0x3b#8] := by decide +kernel
  have e3 : asciiBytes "m" = [0x6d#8] := by decide +kernel
  rw [e1, e2, e3]
  rfl

/-- C120: going back to the normal colour is the reset sequence (SGR 0); see `callBytes`. -/
theorem restore_spec : callBytes .restore = some (asciiBytes "\x1b[0m") := by decide +kernel

/-- Reading decimal digits. -/
def readNat (l : Text) : Nat := l.foldl (fun a c => a * 10 + (c.toNat - 48)) 0

theorem readNat_showNat (n : Nat) : readNat (CNum.showNat n) = n := by
  induction n using Nat.strongRecOn with
  | ind n ih =>
    rw [CNum.showNat]
    by_cases h : n < 10
    · rw [dif_pos h]
      simp only [readNat, List.foldl_cons, List.foldl_nil, BitVec.toNat_ofNat]
      omega
    · rw [dif_neg h]
      have := ih (n / 10) (by omega)
      unfold readNat at this ⊢
      rw [List.foldl_append, this]
      simp only [List.foldl_cons, List.foldl_nil, BitVec.toNat_ofNat]
      omega

theorem showNat_chars (n : Nat) : ∀ c ∈ CNum.showNat n, 48 ≤ c.toNat ∧ c.toNat ≤ 57 := by
  induction n using Nat.strongRecOn with
  | ind n ih =>
    rw [CNum.showNat]
    by_cases h : n < 10
    · rw [dif_pos h]
      intro c hc
      rw [List.mem_singleton.1 hc, BitVec.toNat_ofNat]
      omega
    · rw [dif_neg h]
      intro c hc
      rcases List.mem_append.1 hc with hc | hc
      · exact ih _ (by omega) c hc
      · rw [List.mem_singleton.1 hc, BitVec.toNat_ofNat]
        omega

theorem showInt_chars (z : Int) : ∀ c ∈ CNum.showInt z, (48 ≤ c.toNat ∧ c.toNat ≤ 57) ∨ c = 0x2d#8 := by
  unfold CNum.showInt
  intro c hc
  split at hc
  · rcases List.mem_cons.1 hc with rfl | hc
    · exact .inr rfl
    · exact .inl (showNat_chars _ c hc)
  · exact .inl (showNat_chars _ c hc)

theorem showInt_injective (a b : Int) (h : CNum.showInt a = CNum.showInt b) : a = b := by
  have hneg : ∀ n m : Nat, CNum.showNat n ≠ 0x2d#8 :: CNum.showNat m := by
    intro n m hh
    have := showNat_chars n 0x2d#8 (by rw [hh]; exact List.mem_cons_self)
    simp at this
  have hnat : ∀ n m : Nat, CNum.showNat n = CNum.showNat m → n = m := by
    intro n m hh
    rw [← readNat_showNat n, hh, readNat_showNat]
  unfold CNum.showInt at h
  split at h <;> split at h
  · have := hnat _ _ (List.cons.inj h).2; omega
  · exact absurd h.symm (hneg _ _)
  · exact absurd h (hneg _ _)
  · have := hnat _ _ h; omega

theorem split_at (x : Byte) (a a' b b' : Text) (ha : x ∉ a) (ha' : x ∉ a') (h : a ++ x :: b = a' ++ x :: b') : a = a' ∧ b = b' := by
  induction a generalizing a' with
  | nil =>
    cases a' with
    | nil => exact ⟨rfl, (List.cons.inj h).2⟩
    | cons y a' => exact absurd ((List.cons.inj h).1 ▸ List.mem_cons_self) ha'
  | cons y a ih =>
    cases a' with
    | nil => exact absurd ((List.cons.inj h).1 ▸ List.mem_cons_self) ha
    | cons z a' =>
      obtain ⟨h1, h2⟩ := List.cons.inj h
      obtain ⟨h3, h4⟩ := ih a' (fun hx => ha (List.mem_cons_of_mem _ hx)) (fun hx => ha' (List.mem_cons_of_mem _ hx)) h2
      exact ⟨by rw [h1, h3], h4⟩

/-- C120: the escape sequence determines the colour. -/
theorem colour_text_injective (r g b r' g' b' : Int) (h : colourText r g b = colourText r' g' b') : r = r' ∧ g = g' ∧ b = b' := by
  have hno : ∀ z, (0x3b#8 : Byte) ∉ CNum.showInt z := by
    intro z hz
    rcases showInt_chars z _ hz with h | h
    · simp at h
    · cases h
  unfold colourText at h
  simp only [List.append_assoc, List.cons_append, List.nil_append, List.cons.injEq, true_and] at h
  obtain ⟨h1, h⟩ := split_at _ _ _ _ _ (hno r) (hno r') h
  obtain ⟨h2, h⟩ := split_at _ _ _ _ _ (hno g) (hno g') h
  exact ⟨showInt_injective _ _ h1, showInt_injective _ _ h2, showInt_injective _ _ (List.append_cancel_right h)⟩

example : colourText 255 0 7 = "\x1b[38;2;255;0;7m".toList.map (fun c => BitVec.ofNat 8 c.toNat) := by decide +kernel

/-- Larger numbers overflow it. -/
theorem colour_overflow_violated : callBytes (.colour (-2147483648) (-2147483648) (-2147483648)) = none := by decide +kernel

end PreCore.PrinterColour
