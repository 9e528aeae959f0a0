import Verif.Props.ReflectorText
import Verif.Spec.Ascii
/-!
# C26: flag fields
-/
namespace PreCore.Refl
open CNum Spec Supercore

theorem trim_pad {pre name post : Text} (hn : IsName name) (h1 : ∀ c ∈ pre, IsBlank false c) (h2 : ∀ c ∈ post, IsBlank false c) :
    (trim (pre ++ name ++ post)).1 = name := by
  have e1 : (skipStart false (pre ++ name ++ post)).1 = name ++ post := by
    apply indented_skip
    refine ⟨pre, by rw [List.append_assoc], h1, ?_⟩
    intro c hc
    cases hnm : name with
    | nil => exact absurd hnm hn.1
    | cons d ds =>
      rw [hnm] at hc
      simp only [List.cons_append, List.head?_cons, Option.some.injEq] at hc
      subst hc
      exact (hn.2 d (by rw [hnm]; simp)).1
  have e2 : (skipEnd false (name ++ post)).1 = name := by
    unfold skipEnd
    simp only [skipEndRev_eq]
    rw [indented_skip (t := (name ++ post).reverse) (s := name.reverse), List.reverse_reverse]
    refine ⟨post.reverse, by simp, by simpa using h2, ?_⟩
    intro c hc
    exact (hn.2 c (by simpa using List.mem_of_mem_head? hc)).1
  unfold trim
  simp only [e1, e2]

theorem trim_blank {s : Text} (h : ∀ c ∈ s, IsBlank false c) : (trim s).1 = [] := by
  have e1 : (skipStart false s).1 = [] := by
    apply indented_skip
    exact ⟨s, by simp, h, by simp⟩
  unfold trim
  simp only [e1]
  rfl

/-- A printed piece: nothing (unregistered bit) or a name. -/
def IsPiece (p : Text) : Prop := p = [] ∨ IsName p

theorem sp_blank : IsBlank false 0x20#8 := by simp [IsBlank]

theorem trim_piece {p : Text} (h : IsPiece p) : (trim p).1 = p ∧ (trim (0x20#8 :: p)).1 = p ∧ (trim (p ++ [0x20#8])).1 = p ∧
    (trim (0x20#8 :: p ++ [0x20#8])).1 = p := by
  rcases h with rfl | h
  · decide
  · refine ⟨?_, ?_, ?_, ?_⟩
    · simpa using trim_pad h (pre := []) (post := []) (by simp) (by simp)
    · simpa using trim_pad h (pre := [0x20#8]) (post := []) (by simp [IsBlank]) (by simp)
    · simpa using trim_pad h (pre := []) (post := [0x20#8]) (by simp) (by simp [IsBlank])
    · simpa using trim_pad h (pre := [0x20#8]) (post := [0x20#8]) (by simp [IsBlank]) (by simp [IsBlank])

theorem flagFromEnum_congr (env : Env) (h : BitVec 32) (acc : BitVec 64) {p q : Text} (e : (trim p).1 = (trim q).1) :
    flagFromEnum env p h acc = flagFromEnum env q h acc := by
  unfold flagFromEnum; simp only [e]

/-- Processing pieces one after the other. -/
def steps (env : Env) (h : BitVec 32) : List Text → Err → BitVec 64 → Option (Err × BitVec 64)
  | [], err, acc => some (err, acc)
  | p :: ps, err, acc =>
    let r := flagFromEnum env p h acc
    if r.1 = .InvalidDestination then none else steps env h ps (if r.1 = .None then err else r.1) r.2

theorem flagsLoop_piece (env : Env) (h : BitVec 32) (p : Text) (hp : ∀ c ∈ p, c ≠ 0x7c#8) (rest : Text) : ∀ cur err acc,
    flagsLoop env h (p ++ rest) cur err acc = flagsLoop env h rest (p.reverse ++ cur) err acc := by
  induction p with
  | nil => intro cur err acc; rfl
  | cons c p ih =>
    intro cur err acc
    simp only [List.cons_append, flagsLoop]
    rw [if_neg (hp c (by simp)), ih (fun c' hc' => hp c' (by simp [hc']))]
    simp

def tailBar : List Text → Text
  | [] => []
  | p :: ps => tBar ++ p ++ tailBar ps

def joinBar : List Text → Text
  | [] => []
  | p :: ps => p ++ tailBar ps

theorem piece_nobar {p : Text} (h : IsPiece p) : ∀ c ∈ p, c ≠ 0x7c#8 := by
  rcases h with rfl | h
  · simp
  · intro c hc; exact (h.2 c hc).2

theorem tail_loop (env : Env) (h : BitVec 32) (ps : List Text) (hps : ∀ p ∈ ps, IsPiece p) :
    ∀ q q0 err acc, IsPiece q → q0 ≠ [] → (q0 = q ∨ q0 = 0x20#8 :: q) →
      flagsLoop env h (tailBar ps) q0.reverse err acc = steps env h (q :: ps) err acc := by
  induction ps with
  | nil =>
    intro q q0 err acc hq hq0 hqq
    obtain ⟨t1, t2, t3, t4⟩ := trim_piece hq
    have e : flagFromEnum env q0 h acc = flagFromEnum env q h acc := by
      apply flagFromEnum_congr
      rcases hqq with rfl | rfl
      · rfl
      · rw [t2, t1]
    simp only [tailBar, flagsLoop, List.reverse_eq_nil_iff, if_neg hq0, List.reverse_reverse, e, steps]
  | cons p ps ih =>
    intro q q0 err acc hq hq0 hqq
    obtain ⟨t1, t2, t3, t4⟩ := trim_piece hq
    have hp := hps p (by simp)
    have e : flagFromEnum env (q0 ++ [0x20#8]) h acc = flagFromEnum env q h acc := by
      apply flagFromEnum_congr
      rcases hqq with rfl | rfl
      · rw [t3, t1]
      · rw [t4, t1]
    have hexp : tailBar (p :: ps) = 0x20#8 :: 0x7c#8 :: 0x20#8 :: (p ++ tailBar ps) := by simp [tailBar, tBar]
    rw [hexp]
    have hrev : (0x20#8 :: q0.reverse).reverse = q0 ++ [0x20#8] := by simp
    rw [steps]
    simp only [flagsLoop]
    rw [if_neg (by decide), if_pos trivial, hrev, e]
    by_cases hinv : (flagFromEnum env q h acc).1 = .InvalidDestination
    · rw [if_pos hinv, if_pos hinv]
    · rw [if_neg hinv, if_neg hinv, if_neg (by decide)]
      rw [flagsLoop_piece env h p (piece_nobar hp)]
      have := ih (fun p' hp' => hps p' (by simp [hp'])) p (0x20#8 :: p)
        (if (flagFromEnum env q h acc).1 = .None then err else (flagFromEnum env q h acc).1) (flagFromEnum env q h acc).2 hp (by simp) (Or.inr rfl)
      rw [List.reverse_cons] at this
      exact this

theorem join_loop (env : Env) (h : BitVec 32) (p : Text) (ps : List Text) (hp : IsName p) (hps : ∀ q ∈ ps, IsPiece q) (err acc) :
    flagsLoop env h (joinBar (p :: ps)) [] err acc = steps env h (p :: ps) err acc := by
  rw [joinBar, flagsLoop_piece env h p (piece_nobar (Or.inr hp)), List.append_nil]
  exact tail_loop env h ps hps p p err acc (Or.inr hp) hp.1 (Or.inl rfl)

/-- The pieces printed for bits `t .. t+k-1`. -/
def pieces (tab : EnumTab) (v : BitVec 64) : Nat → Nat → List Text
  | 0, _ => []
  | k + 1, t =>
    if v.getLsbD t then
      (match tab.find? (fun e => e.2.toNat == t) with | none => [] | some e => e.1) :: pieces tab v k (t + 1)
    else pieces tab v k (t + 1)

/-- Leading empty pieces leave no trace in the text. -/
def dropEmpty : List Text → List Text
  | [] => []
  | p :: ps => if p = [] then dropEmpty ps else p :: ps

theorem flagsPrintLoop_eq (env : Env) (h : BitVec 32) (tab : EnumTab) (henv : env.enums h = some tab) (hg : GoodTab tab)
    (v : BitVec 64) : ∀ k t res, flagsPrintLoop env h v k t res =
      if res = [] then joinBar (dropEmpty (pieces tab v k t)) else res ++ tailBar (pieces tab v k t) := by
  intro k
  induction k with
  | zero => intro t res; by_cases hr : res = [] <;> simp [flagsPrintLoop, pieces, dropEmpty, joinBar, tailBar, hr]
  | succ k ih =>
    intro t res
    unfold flagsPrintLoop pieces
    by_cases hb : v.getLsbD t
    · simp only [hb, if_true, enumName, henv]
      cases hf : tab.find? (fun e => e.2.toNat == t) with
      | none =>
        simp only
        rw [ih]
        by_cases hr : res = []
        · simp [hr, dropEmpty]
        · rw [if_pos hr, if_neg hr, if_neg (by simp [hr])]
          simp [tailBar]
      | some e =>
        have hn := (hg.1 e (List.mem_of_find?_eq_some hf)).1
        simp only
        rw [ih]
        by_cases hr : res = []
        · simp [hr, dropEmpty, hn, joinBar]
        · rw [if_pos hr, if_neg hr, if_neg (by simp [hr])]
          simp [tailBar]
    · simp only [hb]
      exact ih (t + 1) res

/-- Bit `j` is the value of some enumerator. -/
def Registered (tab : EnumTab) (j : Nat) : Prop := ∃ e ∈ tab, e.2.toNat = j

theorem pieces_isPiece (tab : EnumTab) (hg : GoodTab tab) (v : BitVec 64) : ∀ k t, ∀ p ∈ pieces tab v k t, IsPiece p := by
  intro k
  induction k with
  | zero => intro t p hp; cases hp
  | succ k ih =>
    intro t p hp
    unfold pieces at hp
    split at hp
    · rcases List.mem_cons.1 hp with h | h
      · subst h
        cases hf : tab.find? (fun e => e.2.toNat == t) with
        | none => exact Or.inl rfl
        | some e => exact Or.inr (hg.1 e (List.mem_of_find?_eq_some hf))
      · exact ih _ _ h
    · exact ih _ _ hp

theorem shl_one_bit (b : Nat) (hb : b < 64) (j : Nat) : (1#64 <<< b).getLsbD j = decide (j = b) := by
  simp only [BitVec.getLsbD_shiftLeft, BitVec.getLsbD_one]
  by_cases h : j = b
  · subst h; simp [hb]
  · simp only [h, decide_false]
    by_cases hj : j < 64
    · by_cases hjb : j < b
      · simp [hjb]
      · have : j - b ≠ 0 := by omega
        simp [hjb, this]
    · simp [hj]

theorem steps_pieces (env : Env) (h : BitVec 32) (tab : EnumTab) (henv : env.enums h = some tab) (hg : GoodTab tab)
    (v : BitVec 64) : ∀ k t, t + k ≤ 64 → ∀ (ps : List Text), ps = pieces tab v k t ∨ ps = dropEmpty (pieces tab v k t) →
      ∀ err acc, ∃ err' acc', steps env h ps err acc = some (err', acc') ∧
      (∀ j, acc'.getLsbD j = true ↔ (acc.getLsbD j = true ∨ (t ≤ j ∧ j < t + k ∧ v.getLsbD j = true ∧ Registered tab j))) ∧
      ((∀ j, t ≤ j → j < t + k → v.getLsbD j = true → Registered tab j) → err' = err) := by
  intro k
  induction k with
  | zero =>
    intro t _ ps hps err acc
    have : ps = [] := by rcases hps with rfl | rfl <;> rfl
    subst this
    refine ⟨err, acc, rfl, ?_, fun _ => rfl⟩
    intro j; constructor
    · exact Or.inl
    · rintro (h | h)
      · exact h
      · omega
  | succ k ih =>
    intro t ht ps hps err acc
    have hih := ih (t + 1) (by omega)
    unfold pieces at hps
    by_cases hb : v.getLsbD t
    · simp only [hb, if_true] at hps
      cases hf : tab.find? (fun e => e.2.toNat == t) with
      | none =>
        have hnr : ¬ Registered tab t := by
          rintro ⟨e, he, hev⟩
          rw [List.find?_eq_none] at hf
          exact hf e he (by simpa using hev)
        simp only [hf] at hps
        have adjust : ∀ (err' : Err) (acc' : BitVec 64), (∀ j, acc'.getLsbD j = true ↔ (acc.getLsbD j = true ∨
              (t + 1 ≤ j ∧ j < t + 1 + k ∧ v.getLsbD j = true ∧ Registered tab j))) →
            (∀ j, acc'.getLsbD j = true ↔ (acc.getLsbD j = true ∨ (t ≤ j ∧ j < t + (k + 1) ∧ v.getLsbD j = true ∧ Registered tab j))) ∧
            ((∀ j, t ≤ j → j < t + (k + 1) → v.getLsbD j = true → Registered tab j) → err' = err) := by
          intro err' acc' h2
          constructor
          · intro j
            rw [h2 j]
            constructor
            · rintro (h | ⟨a, b, c, d⟩)
              · exact Or.inl h
              · exact Or.inr ⟨by omega, by omega, c, d⟩
            · rintro (h | ⟨a, b, c, d⟩)
              · exact Or.inl h
              · right
                have : j ≠ t := by intro hjt; subst hjt; exact hnr d
                exact ⟨by omega, by omega, c, d⟩
          · intro hall
            exact absurd (hall t (by omega) (by omega) hb) hnr
        rcases hps with rfl | rfl
        · -- the empty piece is processed and reports EmptyInput
          obtain ⟨err', acc', h1, h2, _⟩ := hih _ (Or.inl rfl) .EmptyInput acc
          refine ⟨err', acc', ?_, adjust err' acc' h2⟩
          rw [steps]
          have : flagFromEnum env [] h acc = (.EmptyInput, acc) := by unfold flagFromEnum; simp [trim_blank (s := [])]
          simp only [this, reduceCtorEq, if_false]
          exact h1
        · -- dropped
          obtain ⟨err', acc', h1, h2, _⟩ := hih _ (Or.inr rfl) err acc
          refine ⟨err', acc', ?_, adjust err' acc' h2⟩
          simp only [dropEmpty, if_true]
          exact h1
      | some e =>
        have hmem := List.mem_of_find?_eq_some hf
        have hval : e.2.toNat = t := by simpa using List.find?_some hf
        have hnm := hg.1 e hmem
        simp only [hf] at hps
        have hps' : ps = e.1 :: pieces tab v k (t + 1) := by
          rcases hps with rfl | rfl
          · rfl
          · simp only [dropEmpty, if_neg hnm.1]
        have hfl : flagFromEnum env e.1 h acc = (.None, acc ||| (1#64 <<< t)) := by
          unfold flagFromEnum
          simp only [(trim_piece (Or.inr hnm)).1, if_neg hnm.1, enumValue, henv, find_name tab hg e hmem, hval]
        obtain ⟨err', acc', h1, h2, h3⟩ := hih _ (Or.inl rfl) err (acc ||| (1#64 <<< t))
        refine ⟨err', acc', ?_, ?_, ?_⟩
        · rw [hps', steps, hfl]
          simp only [reduceCtorEq, if_false, if_true]
          exact h1
        · intro j
          rw [h2 j, BitVec.getLsbD_or, shl_one_bit t (by omega), Bool.or_eq_true, decide_eq_true_iff]
          constructor
          · rintro ((h | h) | ⟨a, b, c, d⟩)
            · exact Or.inl h
            · right; subst h; exact ⟨by omega, by omega, hb, e, hmem, hval⟩
            · exact Or.inr ⟨by omega, by omega, c, d⟩
          · rintro (h | ⟨a, b, c, d⟩)
            · exact Or.inl (Or.inl h)
            · by_cases hjt : j = t
              · exact Or.inl (Or.inr hjt)
              · exact Or.inr ⟨by omega, by omega, c, d⟩
        · intro hall
          exact h3 (fun j h1 h2 h3 => hall j (by omega) (by omega) h3)
    · simp only [hb] at hps
      obtain ⟨err', acc', h1, h2, h3⟩ := hih ps hps err acc
      refine ⟨err', acc', h1, ?_, ?_⟩
      · intro j
        rw [h2 j]
        constructor
        · rintro (h | ⟨a, b, c, d⟩)
          · exact Or.inl h
          · exact Or.inr ⟨by omega, by omega, c, d⟩
        · rintro (h | ⟨a, b, c, d⟩)
          · exact Or.inl h
          · right
            have : j ≠ t := by intro hjt; subst hjt; exact hb c
            exact ⟨by omega, by omega, c, d⟩
      · intro hall
        exact h3 (fun j h1 h2 h3 => hall j (by omega) (by omega) h3)

theorem dropEmpty_shape (l : List Text) (hl : ∀ p ∈ l, IsPiece p) :
    dropEmpty l = [] ∨ ∃ p ps, dropEmpty l = p :: ps ∧ IsName p ∧ ∀ q ∈ ps, IsPiece q := by
  induction l with
  | nil => exact Or.inl rfl
  | cons p ps ih =>
    unfold dropEmpty
    by_cases hp : p = []
    · rw [if_pos hp]; exact ih (fun q hq => hl q (by simp [hq]))
    · rw [if_neg hp]
      refine Or.inr ⟨p, ps, rfl, ?_, fun q hq => hl q (by simp [hq])⟩
      exact (hl p (by simp)).resolve_left hp

theorem null_flags (env : Env) (h : BitVec 32) (tab : EnumTab) (henv : env.enums h = some tab)
    (hnull : tNULL ∉ tab.map (·.1)) (acc : BitVec 64) : flagsLoop env h tNULL [] .None acc = some (.None, acc) := by
  have hnm : IsName tNULL := ⟨by decide, by simp [tNULL, IsBlank]⟩
  have : flagFromEnum env tNULL h acc = (.None, acc) := by
    unfold flagFromEnum
    simp only [(trim_piece (Or.inr hnm)).1, if_neg hnm.1, enumValue, henv, find_name_none tab _ hnull]
    simp
  have hj := join_loop env h tNULL [] hnm (by simp) .None acc
  simp only [joinBar, tailBar, List.append_nil] at hj
  rw [hj, steps, this]
  simp [steps]

theorem joinBar_ne_nil {p : Text} {ps} (hp : IsName p) : joinBar (p :: ps) ≠ [] := by
  simp [joinBar, hp.1]

theorem joinBar_head {p : Text} {ps} (hp : IsName p) : ∀ c, (joinBar (p :: ps)).head? = some c → ¬ IsBlank false c := by
  intro c hc
  cases hpp : p with
  | nil => exact absurd hpp hp.1
  | cons d ds =>
    rw [hpp] at hc
    simp only [joinBar, List.cons_append, List.head?_cons, Option.some.injEq] at hc
    subst hc
    exact (hp.2 d (by rw [hpp]; simp)).1

/-- C26: the text printed for a flags field of at most 8 bytes, assigned to that field of any object, stores exactly the
registered bits of the printed word; with all set bits registered the assignment reports success (and so restores the
word); the empty set prints as `NULL`. -/
theorem flags_roundtrip (env : Env) (c : ClassTab) (h : BitVec 32) (i : Nat) (r : RType) (n : Nat) (tab : EnumTab)
    (hl : lookup c h = some i) (hr : c.types[i]? = some r)
    (hty : r.type = .EnumFlags) (hn : r.subSize.toNat = n) (hn8 : n ≤ 8)
    (henv : env.enums r.typeHash = some tab) (hg : GoodTab tab) (hnull : ascii "NULL" ∉ tab.map (·.1)) (o o' : Obj) :
    ∃ t, getByName env c h o = some t ∧
      (∀ j, ((setByName env c h t o').2.nat r.offset.toNat n).testBit j = true ↔
        ((o.nat r.offset.toNat n).testBit j = true ∧ Registered tab j)) ∧
      ((∀ j, (o.nat r.offset.toNat n).testBit j = true → Registered tab j) →
        (setByName env c h t o').1 = .None ∧ (setByName env c h t o').2.nat r.offset.toNat n = o.nat r.offset.toNat n) ∧
      (o.nat r.offset.toNat n = 0 → t = ascii "NULL") := by
  rw [show ascii "NULL" = tNULL by decide] at hnull ⊢
  have ht : typeOf c h = some r := by unfold typeOf; rw [hl]; exact hr
  let v : BitVec 64 := BitVec.ofNat 64 (o.nat r.offset.toNat n)
  have hlt := nat_lt o r.offset.toNat n
  have hlt64 : o.nat r.offset.toNat n < 2 ^ 64 := Nat.lt_of_lt_of_le hlt (Nat.pow_le_pow_right (by omega) (by omega))
  have hvt : v.toNat = o.nat r.offset.toNat n := by
    show (BitVec.ofNat 64 _).toNat = _
    rw [BitVec.toNat_ofNat, Nat.mod_eq_of_lt hlt64]
  have hvb : ∀ j, v.getLsbD j = (o.nat r.offset.toNat n).testBit j := by
    intro j; rw [BitVec.getLsbD, hvt]
  have hvn : ∀ j, v.getLsbD j = true → j < 8 * n := by
    intro j hj
    rw [hvb] at hj
    apply Nat.lt_of_not_le
    intro hle
    have := Nat.testBit_lt_two_pow (Nat.lt_of_lt_of_le hlt (Nat.pow_le_pow_right (by omega) hle))
    rw [this] at hj; cases hj
  have hget : getByName env c h o = some (printFlags env r.typeHash v (n * 8)) := by
    unfold getByName getByID typeAt
    rw [hl]; simp only; rw [hr]
    simp only [printMember, print, hty, hn]
    rw [if_pos hn8]
    rfl
  -- the loop on the printed text
  have hloop : ∃ err' acc', flagsLoop env r.typeHash (printFlags env r.typeHash v (n * 8)) [] .None 0#64 = some (err', acc') ∧
      (∀ j, acc'.getLsbD j = true ↔ (v.getLsbD j = true ∧ Registered tab j)) ∧
      ((∀ j, v.getLsbD j = true → Registered tab j) → err' = .None) ∧
      (∀ c, (printFlags env r.typeHash v (n * 8)).head? = some c → ¬ IsBlank false c) := by
    obtain ⟨err', acc', s1, s2, s3⟩ := steps_pieces env r.typeHash tab henv hg v (n * 8) 0 (by omega) _ (Or.inr rfl) .None 0#64
    have s2' : ∀ j, acc'.getLsbD j = true ↔ (v.getLsbD j = true ∧ Registered tab j) := by
      intro j
      rw [s2 j]
      constructor
      · rintro (h | ⟨a, b, c, d⟩)
        · simp at h
        · exact ⟨c, d⟩
      · rintro ⟨a, b⟩
        exact Or.inr ⟨by omega, by have := hvn j a; omega, a, b⟩
    have s3' : (∀ j, v.getLsbD j = true → Registered tab j) → err' = .None :=
      fun hall => s3 (fun j _ _ hj => hall j hj)
    unfold printFlags
    rw [flagsPrintLoop_eq env r.typeHash tab henv hg]
    simp only [if_true]
    rcases dropEmpty_shape _ (pieces_isPiece tab hg v (n * 8) 0) with hd | ⟨p, ps, hd, hp, hps⟩
    · rw [hd] at s1
      simp only [steps, Option.some.injEq, Prod.mk.injEq] at s1
      obtain ⟨rfl, rfl⟩ := s1
      rw [hd]
      simp only [joinBar, if_true]
      refine ⟨.None, 0#64, null_flags env r.typeHash tab henv hnull _, s2', s3', ?_⟩
      simp [tNULL, IsBlank]
    · rw [hd] at s1 ⊢
      rw [if_neg (joinBar_ne_nil hp)]
      exact ⟨err', acc', by rw [join_loop env r.typeHash p ps hp hps]; exact s1, s2', s3', joinBar_head hp⟩
  obtain ⟨err', acc', l1, l2, l3, l4⟩ := hloop
  have hset : setByName env c h (printFlags env r.typeHash v (n * 8)) o' = (err', o'.write r.offset.toNat (u64Bytes acc' n)) := by
    unfold setByName
    rw [ht]
    simp only [setValue, setMember, member, hty, indented_skip (indented_self l4), setEnumFlags, l1, storeBytes, hn]
    rfl
  have hacc : acc'.toNat < 256 ^ n := by
    rw [pow_256_8]
    apply Nat.lt_pow_two_of_testBit
    intro j hj
    cases hb : acc'.toNat.testBit j with
    | false => rfl
    | true =>
      have := (l2 j).1 hb
      have := hvn j this.1
      omega
  have hnat : (setByName env c h (printFlags env r.typeHash v (n * 8)) o').2.nat r.offset.toNat n = acc'.toNat := by
    rw [hset]; exact u64Bytes_nat _ _ _ _ hacc
  refine ⟨_, hget, ?_, ?_, ?_⟩
  · intro j
    rw [hnat]
    have := l2 j
    rw [hvb] at this
    exact this
  · intro hall
    refine ⟨by rw [hset]; exact l3 (fun j hj => hall j (by rw [← hvb]; exact hj)), ?_⟩
    rw [hnat]
    apply Nat.eq_of_testBit_eq
    intro j
    have := l2 j
    rw [hvb] at this
    cases hb : (o.nat r.offset.toNat n).testBit j with
    | true => exact this.2 ⟨hb, hall j hb⟩
    | false =>
      cases hb' : acc'.toNat.testBit j with
      | false => rfl
      | true => have := (this.1 hb').1; rw [hb] at this; cases this
  · intro h0
    have : v = 0#64 := by
      apply BitVec.eq_of_toNat_eq; rw [hvt, h0]; rfl
    rw [this]
    unfold printFlags
    have : ∀ k t, flagsPrintLoop env r.typeHash 0#64 k t [] = [] := by
      intro k
      induction k with
      | zero => intro t; rfl
      | succ k ih => intro t; unfold flagsPrintLoop; simp [ih]
    rw [this]; rfl

/-- Flags A = 0, B = 2 in a 2 byte field. -/
def exFlagTab : EnumTab := [([0x41#8], 0), ([0x42#8], 2)]
example : GoodTab exFlagTab ∧ tNULL ∉ exFlagTab.map (·.1) ∧ Registered exFlagTab 2 ∧
    printFlags { exEnv with enums := fun _ => some exFlagTab } 0 5#64 16 = [0x41#8, 0x20#8, 0x7c#8, 0x20#8, 0x42#8] := by
  refine ⟨⟨?_, by decide⟩, by decide, ⟨([0x42#8], 2), by simp [exFlagTab], rfl⟩, by decide +kernel⟩
  intro e he
  simp only [exFlagTab, List.mem_cons, List.not_mem_nil, or_false] at he
  rcases he with rfl | rfl <;> exact ⟨by simp, by simp [IsBlank]⟩

/-- Element access prints single bits through an `int` shift: bit 32 and above have no defined result. -/
theorem flag_bit_violated : ∀ (v : BitVec 64) (n i : Nat), 31 < i → flagBit v n i = none := by
  intro v n i hi
  unfold flagBit
  rw [if_neg (by omega), if_neg (by omega)]

end PreCore.Refl
