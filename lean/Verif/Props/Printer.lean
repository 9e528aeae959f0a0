import Verif.Model.Printer
/-!
# C42: the log printer
-/
namespace PreCore.Printer

/-! ## Specification: no streams, only the text since the last flush -/

structure Spec where
  pending : Nat → Text
  sev : Nat → MPType
  sinks : List Nat
  withId : Bool
  delivered : List (Nat × List Text)

/-- Text as bytes. -/
def ascii (t : String) : Text := t.toList.map (fun c => BitVec.ofNat 8 c.toNat)

/-- Warnings and errors are marked as such. -/
def severity : MPType → List Text
  | .WRN => [ascii "WARNING: "]
  | .ERR => [ascii "ERROR: "]
  | .MSG => []
  | .INF => []

/-- One message, in the pieces it is delivered in. -/
def message (withId : Bool) (tid : Text) (c : MPType) (text : Text) : List Text :=
  (if withId then [ascii "Thread[0x", tid, ascii "] "] else []) ++ severity c ++ [text]

theorem severity_eq (c : MPType) : prefixOf c = severity c := by cases c <;> decide +kernel

theorem message_eq (withId : Bool) (tid : Text) (c : MPType) (text : Text) : calls withId tid c text = message withId tid c text := by
  unfold calls message
  rw [severity_eq, show ascii "Thread[0x" = [0x54#8, 0x68#8, 0x72#8, 0x65#8, 0x61#8, 0x64#8, 0x5b#8, 0x30#8, 0x78#8] by decide +kernel,
    show ascii "] " = [0x5d#8, 0x20#8] by decide +kernel]

/-- A flush delivers, to every sink in order of registration, one message: thread mark if enabled, severity text, and all
text inserted by this thread since its last flush, with a line end if asked for. -/
def specStep (tidText : Nat → Text) (s : Spec) (i : Nat) : Op → Spec
  | .text t => { s with pending := fun j => if j = i then s.pending i ++ t else s.pending j }
  | .type c => { s with sev := fun j => if j = i then c else s.sev j }
  | .flush e =>
    { s with
      pending := fun j => if j = i then [] else s.pending j
      sev := fun j => if j = i then .MSG else s.sev j
      delivered := s.delivered ++ s.sinks.map (fun f => (f, message s.withId (tidText i) (s.sev i) (s.pending i ++ if e then [0x0a#8] else []))) }
  | .addFunction f => { s with sinks := if f ∈ s.sinks then s.sinks else s.sinks ++ [f] }
  | .threadId b => { s with withId := b }

def specRun (tidText : Nat → Text) (l : List (Nat × Op)) : Spec :=
  l.foldl (fun s p => specStep tidText s p.1 p.2) ⟨fun _ => [], fun _ => .MSG, [], false, []⟩

/-- No inserted text contains a zero byte. -/
def NoNul (l : List (Nat × Op)) : Prop := ∀ i s, (i, Op.text s) ∈ l → 0#8 ∉ s

/-! ## Proof -/

/-- Relation between the program and the specification. -/
structure Rel (w : World) (s : Spec) : Prop where
  buf : ∀ i, (w.threads i).buf.take (w.threads i).put = s.pending i
  len : ∀ i, (w.threads i).put = (s.pending i).length
  sev : ∀ i, (w.threads i).cType = s.sev i
  sinks : w.functions = s.sinks
  ids : w.printThreadID = s.withId
  out : w.out = s.delivered.flatMap (fun p => p.2.map (fun c => (p.1, c)))
  nonul : ∀ i, 0#8 ∉ s.pending i
  nodup : s.sinks.Nodup

theorem insert_take (t : Thread) (s : Text) (h : (t.buf.take t.put).length = t.put) :
    (insert t s).buf.take (insert t s).put = t.buf.take t.put ++ s := by
  have hl : t.put + s.length = (t.buf.take t.put ++ s).length := by simp only [List.length_append, h]
  simp only [insert]
  rw [hl, List.take_left]

theorem cstr_text (a b : Text) (h : 0#8 ∉ a) : cstr (a ++ 0#8 :: b) = some a := by
  unfold cstr
  rw [if_pos (by simp)]
  congr 1
  induction a with
  | nil => simp
  | cons x a ih =>
    simp only [List.mem_cons, not_or] at h
    rw [List.cons_append, List.takeWhile_cons_of_pos (by simpa using fun e : x = 0#8 => h.1 e.symm), ih h.2]

theorem step_rel (tidText : Nat → Text) (w : World) (s : Spec) (i : Nat) (o : Op) (hr : Rel w s)
    (hn : ∀ t, o = .text t → 0#8 ∉ t) : ∃ w', step tidText w i o = some w' ∧ Rel w' (specStep tidText s i o) := by
  have hlen : ∀ j, ((w.threads j).buf.take (w.threads j).put).length = (w.threads j).put := by
    intro j; rw [hr.buf j, hr.len j]
  cases o with
  | text t =>
    refine ⟨_, rfl, ⟨?_, ?_, ?_, hr.sinks, hr.ids, hr.out, ?_, hr.nodup⟩⟩
    · intro j
      simp only [World.setThread, specStep]
      split
      · rename_i e; subst e; rw [insert_take _ _ (hlen _), hr.buf]
      · exact hr.buf j
    · intro j
      simp only [World.setThread, specStep]
      split
      · rename_i e; subst e; simp [insert, hr.len]
      · exact hr.len j
    · intro j
      simp only [World.setThread, specStep]
      split
      · rename_i e; subst e; exact hr.sev _
      · exact hr.sev j
    · intro j
      simp only [specStep]
      split
      · rename_i e; subst e
        simp only [List.mem_append, not_or]
        exact ⟨hr.nonul _, hn t rfl⟩
      · exact hr.nonul j
  | type c =>
    refine ⟨_, rfl, ⟨?_, ?_, ?_, hr.sinks, hr.ids, hr.out, hr.nonul, hr.nodup⟩⟩
    · intro j
      simp only [World.setThread, specStep]
      split
      · rename_i e; subst e; exact hr.buf _
      · exact hr.buf j
    · intro j
      simp only [World.setThread, specStep]
      split
      · rename_i e; subst e; exact hr.len _
      · exact hr.len j
    · intro j
      simp only [World.setThread, specStep]
      split
      · rfl
      · exact hr.sev j
  | flush e =>
    have key : ∀ t : Thread, (t.buf.take t.put).length = t.put → 0#8 ∉ t.buf.take t.put →
        cstr ((insert t [0#8]).buf.take ((insert t [0#8]).put + 1)) = some (t.buf.take t.put) := by
      intro t h1 h2
      have h3 := insert_take t [0#8] h1
      have h4 : (insert t [0#8]).buf.take ((insert t [0#8]).put + 1) =
          t.buf.take t.put ++ 0#8 :: ((insert t [0#8]).buf.drop (insert t [0#8]).put).take 1 := by
        rw [List.take_add, h3]
        simp
      rw [h4]
      exact cstr_text _ _ h2
    have hmain : ∀ t : Thread, (t.buf.take t.put).length = t.put → t.buf.take t.put = s.pending i ++ (if e then [0x0a#8] else []) →
        t.cType = s.sev i → ∃ w', flushAll tidText (w.setThread i (insert t [0#8])) i = some w' ∧ Rel w' (specStep tidText s i (.flush e)) := by
      intro t h1 h2 h3
      have h0 : 0#8 ∉ t.buf.take t.put := by
        rw [h2]
        simp only [List.mem_append, not_or]
        refine ⟨hr.nonul i, ?_⟩
        split <;> simp
      have hfl : flushAll tidText (w.setThread i (insert t [0#8])) i = some { w with
          threads := fun j => if j = i then ⟨if (insert t [0#8]).put + 1 > maximumStreamSize then [] else (insert t [0#8]).buf, 0, .MSG⟩
            else w.threads j
          out := w.out ++ w.functions.flatMap (fun f => (calls w.printThreadID (tidText i) (insert t [0#8]).cType (t.buf.take t.put)).map (fun c => (f, c))) } := by
        unfold flushAll
        simp only [World.setThread, if_true]
        rw [key t h1 h0]
        simp only
        congr 2
        funext j
        split <;> rfl
      refine ⟨_, hfl, ⟨?_, ?_, ?_, hr.sinks, hr.ids, ?_, ?_, hr.nodup⟩⟩
      · intro j
        simp only [specStep]
        split
        · simp
        · exact hr.buf j
      · intro j
        simp only [specStep]
        split
        · rfl
        · exact hr.len j
      · intro j
        simp only [specStep]
        split
        · rfl
        · exact hr.sev j
      · simp only [specStep, hr.out, hr.sinks, hr.ids, List.flatMap_append, List.flatMap_map]
        congr 1
        have hc : (insert t [0#8]).cType = s.sev i := h3
        rw [hc, h2]
        simp only [message_eq]
      · intro j
        simp only [specStep]
        split
        · simp
        · exact hr.nonul j
    simp only [step]
    cases e with
    | false => exact hmain _ (hlen i) (by simp [hr.buf]) (hr.sev i)
    | true =>
      refine hmain (insert (w.threads i) [0x0a#8]) ?_ ?_ ?_
      · rw [insert_take _ _ (hlen i)]
        simp [insert, hlen i]
      · rw [insert_take _ _ (hlen i), hr.buf]
        rfl
      · exact hr.sev i
  | addFunction f =>
    refine ⟨_, rfl, ?_⟩
    simp only [specStep, ← hr.sinks]
    by_cases hf : f ∈ w.functions
    · simp only [hf, if_true]
      exact ⟨hr.buf, hr.len, hr.sev, rfl, hr.ids, hr.out, hr.nonul, by rw [hr.sinks]; exact hr.nodup⟩
    · simp only [hf, if_false]
      refine ⟨hr.buf, hr.len, hr.sev, rfl, hr.ids, hr.out, hr.nonul, ?_⟩
      simp only
      rw [List.nodup_append]
      refine ⟨by rw [hr.sinks]; exact hr.nodup, by simp, ?_⟩
      intro a ha b hb
      simp only [List.mem_singleton] at hb
      subst hb
      rintro rfl
      exact hf ha
  | threadId b =>
    exact ⟨_, rfl, ⟨hr.buf, hr.len, hr.sev, hr.sinks, rfl, hr.out, hr.nonul, hr.nodup⟩⟩

/-- C42: for every number of threads and every interleaving of inserting, setting the severity, flushing with `>>` and
registering sinks, the calls to the sinks are exactly the messages of the specification, in order and without
interleaving. -/
theorem printer_delivers (tidText : Nat → Text) (l : List (Nat × Op)) (h : NoNul l) :
    ∃ w, run tidText l start = some w ∧
      w.out = (specRun tidText l).delivered.flatMap (fun p => p.2.map (fun c => (p.1, c))) ∧ w.functions.Nodup := by
  have key : ∀ (l : List (Nat × Op)) (w : World) (s : Spec), Rel w s → NoNul l →
      ∃ w', run tidText l w = some w' ∧ Rel w' (l.foldl (fun s p => specStep tidText s p.1 p.2) s) := by
    intro l
    induction l with
    | nil => intro w s hr _; exact ⟨w, rfl, hr⟩
    | cons p l ih =>
      obtain ⟨i, o⟩ := p
      intro w s hr hn
      obtain ⟨w1, h1, h2⟩ := step_rel tidText w s i o hr (fun t ht => hn i t (by rw [ht]; simp))
      obtain ⟨w2, h3, h4⟩ := ih w1 _ h2 (fun j t hm => hn j t (by simp [hm]))
      exact ⟨w2, by simp [run, h1, h3], h4⟩
  obtain ⟨w, h1, h2⟩ := key l start ⟨fun _ => [], fun _ => .MSG, [], false, []⟩
    ⟨fun _ => rfl, fun _ => rfl, fun _ => rfl, rfl, rfl, rfl, by simp, List.nodup_nil⟩ h
  exact ⟨w, h1, h2.out, by rw [h2.sinks]; exact h2.nodup⟩

/-- C42, one message spelt out: whatever happened before, `printer << c << s >> 1` adds for every registered sink, once
each, the severity text, the text and a line end. -/
theorem printer_message (tidText : Nat → Text) (l : List (Nat × Op)) (i : Nat) (c : MPType) (s : Text)
    (h : NoNul l) (hs : 0#8 ∉ s) (hp : (specRun tidText l).pending i = []) (hid : (specRun tidText l).withId = false) :
    ∃ w w', run tidText l start = some w ∧ run tidText (l ++ [(i, .type c), (i, .text s), (i, .flush true)]) start = some w' ∧
      w'.out = w.out ++ w.functions.flatMap (fun f => (severity c ++ [s ++ [0x0a#8]]).map (fun t => (f, t))) := by
  have key : ∀ (l : List (Nat × Op)) (w : World) (s : Spec), Rel w s → NoNul l →
      ∃ w', run tidText l w = some w' ∧ Rel w' (l.foldl (fun s p => specStep tidText s p.1 p.2) s) := by
    intro l
    induction l with
    | nil => intro w s hr _; exact ⟨w, rfl, hr⟩
    | cons p l ih =>
      obtain ⟨i, o⟩ := p
      intro w s hr hn
      obtain ⟨w1, h1, h2⟩ := step_rel tidText w s i o hr (fun t ht => hn i t (by rw [ht]; simp))
      obtain ⟨w2, h3, h4⟩ := ih w1 _ h2 (fun j t hm => hn j t (by simp [hm]))
      exact ⟨w2, by simp [run, h1, h3], h4⟩
  obtain ⟨w, h1, h2⟩ := key l start ⟨fun _ => [], fun _ => .MSG, [], false, []⟩
    ⟨fun _ => rfl, fun _ => rfl, fun _ => rfl, rfl, rfl, rfl, by simp, List.nodup_nil⟩ h
  obtain ⟨w', h3, h4⟩ := key [(i, .type c), (i, .text s), (i, .flush true)] w _ h2
    (by intro j t hm; simp at hm; rw [hm.2]; exact hs)
  have happ : ∀ (l m : List (Nat × Op)) (w : World), run tidText (l ++ m) w = (run tidText l w).bind (run tidText m) := by
    intro l
    induction l with
    | nil => intro m w; rfl
    | cons p l ih =>
      intro m w
      simp only [List.cons_append, run]
      cases step tidText w p.1 p.2 with
      | none => rfl
      | some x => simp only [Option.bind_some]; exact ih m x
  refine ⟨w, w', h1, by rw [happ, h1]; exact h3, ?_⟩
  rw [h4.out, h2.out]
  unfold specRun at hp hid
  clear h1 h3 happ
  generalize List.foldl (fun s p => specStep tidText s p.1 p.2) ⟨fun _ => [], fun _ => .MSG, [], false, []⟩ l = S at *
  simp only [List.foldl_cons, List.foldl_nil, specStep, if_true, hp, hid, List.nil_append, List.flatMap_append,
    List.flatMap_map, h2.sinks]
  rfl

/-- Two threads whose messages overlap in time; a longer message before a shorter one. -/
example : (run (fun _ => []) [(0, .addFunction 7), (0, .addFunction 7), (0, .text [0x61#8, 0x62#8, 0x63#8]), (1, .type .ERR), (1, .text [0x78#8]),
    (0, .flush true), (0, .text [0x64#8]), (1, .flush false), (0, .flush true)] start).map (·.out) =
    some [(7, [0x61#8, 0x62#8, 0x63#8, 0x0a#8]), (7, [0x45#8, 0x52#8, 0x52#8, 0x4f#8, 0x52#8, 0x3a#8, 0x20#8]), (7, [0x78#8]),
      (7, [0x64#8, 0x0a#8])] := by decide +kernel

/-- What a thread's stream keeps is bounded. -/
def Bounded (t : Thread) : Prop := t.put ≤ t.buf.length ∧ t.buf.length ≤ max 2047 t.put

theorem bounded_insert (t : Thread) (s : Text) (h : Bounded t) : Bounded (insert t s) := by
  obtain ⟨h1, h2⟩ := h
  unfold Bounded insert
  simp only [List.length_append, List.length_take, List.length_drop]
  omega

theorem bounded_flush (tidText : Nat → Text) (w w' : World) (i : Nat) (h : ∀ j, Bounded (w.threads j)) (hf : flushAll tidText w i = some w') :
    (∀ j, Bounded (w'.threads j)) ∧ (w'.threads i).buf.length ≤ 2047 := by
  unfold flushAll at hf
  simp only at hf
  split at hf
  · cases hf
  injection hf with hf
  subst hf
  have hb : (if (w.threads i).put + 1 > maximumStreamSize then ([] : Text) else (w.threads i).buf).length ≤ 2047 := by
    obtain ⟨h1, h2⟩ := h i
    unfold maximumStreamSize
    split
    · simp
    · omega
  refine ⟨fun j => ?_, by simpa using hb⟩
  simp only
  split
  · exact ⟨by simp, by simp only; omega⟩
  · exact h j

/-- C42: whatever was printed, a thread that has flushed holds on to at most 2047 bytes, and never to more than that or
what is pending. -/
theorem printer_memory (tidText : Nat → Text) (l : List (Nat × Op)) (w : World) (hr : run tidText l start = some w) (i : Nat) :
    (w.threads i).buf.length ≤ max 2047 (w.threads i).put ∧
    ∀ e w', step tidText w i (.flush e) = some w' → (w'.threads i).buf.length ≤ 2047 := by
  have setB : ∀ (w : World) (i : Nat) (t : Thread), (∀ j, Bounded (w.threads j)) → Bounded t → ∀ j, Bounded ((w.setThread i t).threads j) := by
    intro w i t hw ht j
    unfold World.setThread
    simp only
    split
    · exact ht
    · exact hw j
  have ready : ∀ (w : World) (i : Nat) (e : Bool), (∀ j, Bounded (w.threads j)) →
      ∀ j, Bounded ((w.setThread i (insert (if e then insert (w.threads i) [0x0a#8] else w.threads i) [0#8])).threads j) := by
    intro w i e hw
    apply setB _ _ _ hw
    apply bounded_insert
    split
    · exact bounded_insert _ _ (hw i)
    · exact hw i
  have key : ∀ (l : List (Nat × Op)) (w0 w : World), (∀ j, Bounded (w0.threads j)) → run tidText l w0 = some w → ∀ j, Bounded (w.threads j) := by
    intro l
    induction l with
    | nil => intro w0 w h hr; simp only [run, Option.some.injEq] at hr; rw [← hr]; exact h
    | cons p l ih =>
      obtain ⟨i, o⟩ := p
      intro w0 w h hr
      simp only [run] at hr
      cases hs : step tidText w0 i o with
      | none => rw [hs] at hr; cases hr
      | some w1 =>
        rw [hs, Option.bind_some] at hr
        refine ih w1 w ?_ hr
        cases o with
        | text s => injection hs with hs; rw [← hs]; exact setB _ _ _ h (bounded_insert _ _ (h i))
        | type c => injection hs with hs; rw [← hs]; exact setB _ _ _ h (h i)
        | addFunction f => injection hs with hs; rw [← hs]; split <;> exact h
        | threadId b => injection hs with hs; rw [← hs]; exact h
        | flush e => exact (bounded_flush tidText _ _ i (ready w0 i e h) hs).1
  have hb := key l start w (fun _ => ⟨Nat.le_refl _, Nat.zero_le _⟩) hr
  exact ⟨(hb i).2, fun e w' hs => (bounded_flush tidText _ _ i (ready w i e hb) hs).2⟩

example : ((run (fun _ => []) [(0, .text (List.replicate 3000 0x61#8))] start).map (fun w => (w.threads 0).buf.length)) = some 3000 ∧
    ((run (fun _ => []) [(0, .text (List.replicate 3000 0x61#8)), (0, .flush true)] start).map (fun w => (w.threads 0).buf.length)) = some 0 := by
  decide +kernel

/-- `FlushAll()` is public; called without `>>` there is no terminator: rests of an earlier message show up. -/
theorem flushAll_stale_violated : ∃ w w', run (fun _ => []) [(0, .addFunction 7), (0, .text [0x61#8, 0x62#8, 0x63#8]), (0, .flush false),
    (0, .text [0x7a#8, 0x7a#8, 0x7a#8]), (0, .flush false), (0, .text [0x64#8, 0x64#8])] start = some w ∧
    flushAll (fun _ => []) w 0 = none ∧
    run (fun _ => []) [(0, .text [0x65#8])] w = some w' ∧ (flushAll (fun _ => []) w' 0).map (·.out.getLast?) = some (some (7, [0x64#8, 0x64#8, 0x65#8])) := by
  refine ⟨_, _, rfl, by decide +kernel, rfl, by decide +kernel⟩

/-- Text with a zero byte in it is cut there. -/
theorem nul_text_violated : (run (fun _ => []) [(0, .addFunction 7), (0, .text [0x61#8, 0#8, 0x62#8]), (0, .flush false)] start).map (·.out) =
    some [(7, [0x61#8])] := by decide +kernel

end PreCore.Printer
