import Verif.Model.ReflIOCheck
import Verif.Lemmas.ReflIOEnum
/-!
# The checked `Load` does what the unchecked one does, as long as the tables lie in the buffer
-/
namespace PreCore.ReflIO

theorem put_inv {buf : List Byte} {a : Nat} {bs : List Byte} {buf' : List Byte} (h : put buf a bs = some buf') :
    a + bs.length ≤ buf.length ∧ buf'.length = buf.length ∧ memL buf' = wr (memL buf) a bs := by
  unfold put at h
  split at h
  · rename_i hl
    injection h with h
    subst h
    refine ⟨hl, ?_, ?_⟩
    · simp only [List.length_append, List.length_take, List.length_drop]; omega
    · funext x
      simp only [memL, wr, List.getD_eq_getElem?_getD]
      by_cases h1 : x < a
      · rw [if_neg (by omega), List.append_assoc, List.getElem?_append_left (by simp; omega), List.getElem?_take_of_lt h1]
      · by_cases h2 : x < a + bs.length
        · rw [if_pos (by omega), List.append_assoc, List.getElem?_append_right (by simp; omega), List.getElem?_append_left (by simp; omega)]
          congr 2; simp; omega
        · rw [if_neg (by omega), List.getElem?_append_right (by simp; omega), List.getElem?_drop]
          congr 2; simp; omega
  · exact absurd h (by simp)

theorem put_ok {buf : List Byte} {a : Nat} {bs : List Byte} (h : a + bs.length ≤ buf.length) :
    ∃ buf', put buf a bs = some buf' ∧ buf'.length = buf.length ∧ memL buf' = wr (memL buf) a bs := by
  cases e : put buf a bs with
  | none => unfold put at e; rw [if_pos h] at e; exact absurd e (by simp)
  | some b => exact ⟨b, rfl, (put_inv e).2⟩

theorem put64_inv {buf : List Byte} {a v : Nat} {buf' : List Byte} (h : put64 buf a v = some buf') :
    a + 8 ≤ buf.length ∧ buf'.length = buf.length ∧ memL buf' = wr64 (memL buf) a v := by
  have := put_inv h
  rw [toLE_length] at this
  exact this

theorem put64_ok {buf : List Byte} {a v : Nat} (h : a + 8 ≤ buf.length) :
    ∃ buf', put64 buf a v = some buf' ∧ buf'.length = buf.length ∧ memL buf' = wr64 (memL buf) a v :=
  put_ok (by rw [toLE_length]; exact h)

theorem get32_ok {buf : List Byte} {a : Nat} (h : a + 4 ≤ buf.length) : get32 buf a = some (rd32 (memL buf) a) := by
  unfold get32; rw [if_pos (by omega)]

theorem get64_ok {buf : List Byte} {a : Nat} (h : a + 8 ≤ buf.length) : get64 buf a = some (rd64 (memL buf) a) := by
  unfold get64; rw [if_pos (by omega)]

theorem get32_inv {buf : List Byte} {a v : Nat} (h : get32 buf a = some v) : a + 4 ≤ buf.length + 1 ∧ v = rd32 (memL buf) a := by
  unfold get32 at h
  split at h
  · rename_i hl; injection h with h; exact ⟨hl, h.symm⟩
  · exact absurd h (by simp)

theorem bind_inv {α β : Type} {o : Option α} {f : α → Option β} {b : β} (h : o.bind f = some b) : ∃ a, o = some a ∧ f a = some b := by
  cases o with
  | none => exact absurd h (by simp)
  | some a => exact ⟨a, rfl, h⟩

/-! ## Nothing changes the size of the buffer -/

theorem ptrLoopC_length (B : Nat) (nu : Bool) (tbl offs : Nat) (bound : List Byte → Option Nat) :
    ∀ (fuel t : Nat) (buf buf' : List Byte), ptrLoopC B nu tbl offs bound fuel t buf = some buf' → buf'.length = buf.length := by
  intro fuel
  induction fuel with
  | zero => intro t buf buf' h; simp only [ptrLoopC, Option.some.injEq] at h; rw [h]
  | succ f ih =>
    intro t buf buf' h
    simp only [ptrLoopC, Option.bind_eq_bind] at h
    obtain ⟨n, _, h⟩ := bind_inv h
    split at h
    · obtain ⟨o, _, h⟩ := bind_inv h
      obtain ⟨b, hb, h⟩ := bind_inv h
      rw [ih _ _ _ h, (put64_inv hb).2.1]
    · injection h with h; rw [h]

theorem descLoopC_length (B tbl offs : Nat) (bound : List Byte → Option Nat) :
    ∀ (fuel t : Nat) (buf buf' : List Byte), descLoopC B tbl offs bound fuel t buf = some buf' → buf'.length = buf.length := by
  intro fuel
  induction fuel with
  | zero => intro t buf buf' h; simp only [descLoopC, Option.some.injEq] at h; rw [h]
  | succ f ih =>
    intro t buf buf' h
    simp only [descLoopC, Option.bind_eq_bind] at h
    obtain ⟨n, _, h⟩ := bind_inv h
    split at h
    · obtain ⟨o, _, h⟩ := bind_inv h
      obtain ⟨b, hb, h⟩ := bind_inv h
      obtain ⟨l, _, h⟩ := bind_inv h
      obtain ⟨b', hb', h⟩ := bind_inv h
      rw [ih _ _ _ h, (put64_inv hb').2.1]
      unfold descPtrC at hb
      split at hb
      · exact (put64_inv hb).2.1
      · obtain ⟨b'', h1, h2⟩ := bind_inv hb
        rw [(put_inv h2).2.1, (put64_inv h1).2.1]
    · injection h with h; rw [h]

theorem tableC_length {B : Nat} {nu : Bool} {a src dst : Nat} {buf buf' : List Byte} (h : tableC B nu a src dst buf = some buf') :
    buf'.length = buf.length := by
  simp only [tableC, Option.bind_eq_bind] at h
  obtain ⟨p, _, h⟩ := bind_inv h
  split at h
  · obtain ⟨b, hb, h⟩ := bind_inv h
    obtain ⟨n, _, h⟩ := bind_inv h
    rw [ptrLoopC_length _ _ _ _ _ _ _ _ _ h, (put64_inv hb).2.1]
  · exact (put64_inv h).2.1

/-- A record that was processed lies inside the buffer. -/
theorem expandClassC_inv {B a : Nat} {buf buf' : List Byte} (h : expandClassC B a buf = some buf') :
    a + 56 ≤ buf.length ∧ buf'.length = buf.length := by
  simp only [expandClassC, Option.bind_eq_bind] at h
  obtain ⟨ty, _, h⟩ := bind_inv h
  obtain ⟨b1, h1, h⟩ := bind_inv h
  obtain ⟨b2, h2, h⟩ := bind_inv h
  obtain ⟨cn, _, h⟩ := bind_inv h
  obtain ⟨b3, h3, h⟩ := bind_inv h
  obtain ⟨b4, h4, h⟩ := bind_inv h
  obtain ⟨ah, _, h⟩ := bind_inv h
  obtain ⟨b5, h5, h⟩ := bind_inv h
  obtain ⟨ds, _, h⟩ := bind_inv h
  have l1 := (put64_inv h1).2.1
  have l2 := tableC_length h2
  have l3 := (put64_inv h3).2.1
  have l4 := tableC_length h4
  have l5 : b5.length = b4.length := by
    unfold hashesC at h5
    split at h5 <;> exact (put64_inv h5).2.1
  split at h
  · obtain ⟨b6, h6, h⟩ := bind_inv h
    obtain ⟨n, _, h⟩ := bind_inv h
    have l6 := put64_inv h6
    have l7 := descLoopC_length _ _ _ _ _ _ _ _ h
    omega
  · have l6 := put64_inv h
    omega

theorem expandAllC_inv {B : Nat} : ∀ (k a : Nat) (buf buf' : List Byte), expandAllC B k a buf = some buf' →
    (0 < k → a + 56 * k ≤ buf.length) ∧ buf'.length = buf.length := by
  intro k
  induction k with
  | zero => intro a buf buf' h; simp only [expandAllC, Option.some.injEq] at h; subst h; exact ⟨by omega, rfl⟩
  | succ k ih =>
    intro a buf buf' h
    simp only [expandAllC] at h
    obtain ⟨b, h1, h2⟩ := bind_inv h
    have i1 := expandClassC_inv h1
    have i2 := ih _ _ _ h2
    refine ⟨fun _ => ?_, by omega⟩
    rcases Nat.eq_zero_or_pos k with hk | hk
    · subst hk; omega
    · have := i2.1 hk; omega

/-- The iterator of the enums never moves back, and what was read lies inside. -/
theorem enumLoopC_inv {buf : List Byte} : ∀ (k it : Nat) (r : List (BitVec 32 × Nat × Nat) × Nat), enumLoopC buf k it = some r →
    it + 8 * k ≤ r.2 ∧ (0 < k → it + 8 * k ≤ buf.length + 1) ∧ r.1.length = k := by
  intro k
  induction k with
  | zero => intro it r h; simp only [enumLoopC, Option.some.injEq] at h; subst h; simp
  | succ k ih =>
    intro it r h
    simp only [enumLoopC, Option.bind_eq_bind] at h
    obtain ⟨hh, _, h⟩ := bind_inv h
    obtain ⟨n, hn, h⟩ := bind_inv h
    obtain ⟨r', hr, h⟩ := bind_inv h
    injection h with h
    subst h
    have i := ih _ _ hr
    have g := get32_inv hn
    refine ⟨by simp only; omega, fun _ => ?_, by simp [i.2.2]⟩
    rcases Nat.eq_zero_or_pos k with hk | hk
    · subst hk; omega
    · have := i.2.1 hk; omega

/-- A pointer table that was converted lies inside the buffer. -/
theorem ptrLoopC_const_inv {B : Nat} {nu : Bool} {tbl offs n : Nat} :
    ∀ (fuel t : Nat) (buf buf' : List Byte), n ≤ fuel + t → t < n → ptrLoopC B nu tbl offs (fun _ => some n) fuel t buf = some buf' →
      tbl + 8 * n ≤ buf.length := by
  intro fuel
  induction fuel with
  | zero => intro t buf buf' h1 h2; omega
  | succ f ih =>
    intro t buf buf' h1 h2 h
    simp only [ptrLoopC, Option.bind_eq_bind, Option.bind_some] at h
    rw [if_pos h2] at h
    obtain ⟨o, _, h⟩ := bind_inv h
    obtain ⟨b, hb, h⟩ := bind_inv h
    have l := put64_inv hb
    rcases Nat.lt_or_ge (t + 1) n with h3 | h3
    · have := ih _ _ _ (by omega) h3 h; omega
    · omega

/-! ## Agreement -/

theorem ptrLoopC_eq (B : Nat) (nu : Bool) (tbl n : Nat) (bound : List Byte → Option Nat)
    (hb : ∀ b b' : List Byte, b'.length = b.length → (∀ x, x < tbl → memL b' x = memL b x) → bound b = some n → bound b' = some n) :
    ∀ (left t fuel : Nat) (buf : List Byte), left + t = n → left < fuel → tbl + 8 * n ≤ buf.length → bound buf = some n →
      ∃ buf', ptrLoopC B nu tbl (tbl + 4 * n) bound fuel t buf = some buf' ∧ buf'.length = buf.length ∧
        memL buf' = ptrLoop B nu tbl n left t (memL buf) := by
  intro left
  induction left with
  | zero =>
    intro t fuel buf h1 h2 h3 h4
    obtain ⟨f, rfl⟩ : ∃ f, fuel = f + 1 := ⟨fuel - 1, by omega⟩
    refine ⟨buf, ?_, rfl, rfl⟩
    simp only [ptrLoopC, h4, Option.bind_eq_bind, Option.bind_some]
    rw [if_neg (by omega)]
  | succ left ih =>
    intro t fuel buf h1 h2 h3 h4
    obtain ⟨f, rfl⟩ : ∃ f, fuel = f + 1 := ⟨fuel - 1, by omega⟩
    have g := get32_ok (buf := buf) (a := tbl + 4 * n + 4 * t) (by omega)
    obtain ⟨b1, p1, p2, p3⟩ := put64_ok (buf := buf) (a := tbl + 8 * t)
      (v := if nu ∧ rd32 (memL buf) (tbl + 4 * n + 4 * t) = 0 then 0 else B + rd32 (memL buf) (tbl + 4 * n + 4 * t)) (by omega)
    obtain ⟨b2, q1, q2, q3⟩ := ih (t + 1) f b1 (by omega) (by omega) (by omega)
      (hb buf b1 p2 (fun x hx => by rw [p3]; exact wr64_frame _ _ _ _ (by omega)) h4)
    refine ⟨b2, ?_, by omega, ?_⟩
    · simp only [ptrLoopC, h4, Option.bind_eq_bind, Option.bind_some]
      rw [if_pos (by omega), g]
      simp only [Option.bind_some]
      rw [p1]
      exact q1
    · rw [q3, p3]; rfl

theorem descLoopC_eq (B tbl n : Nat) (hn : 2 * n < 2 ^ 32) (bound : List Byte → Option Nat)
    (hb : ∀ b b' : List Byte, b'.length = b.length → (∀ x, x < tbl → memL b' x = memL b x) → bound b = some n → bound b' = some n) :
    ∀ (left t fuel : Nat) (buf : List Byte), left + t = 2 * n → left < fuel → tbl + 32 * n ≤ buf.length → bound buf = some n →
      ∃ buf', descLoopC B tbl (tbl + 16 * n) bound fuel t buf = some buf' ∧ buf'.length = buf.length ∧
        memL buf' = descLoop B tbl n left t (memL buf) := by
  intro left
  induction left with
  | zero =>
    intro t fuel buf h1 h2 h3 h4
    obtain ⟨f, rfl⟩ : ∃ f, fuel = f + 1 := ⟨fuel - 1, by omega⟩
    refine ⟨buf, ?_, rfl, rfl⟩
    simp only [descLoopC, h4, Option.bind_eq_bind, Option.bind_some]
    rw [if_neg (by omega)]
  | succ left ih =>
    intro t fuel buf h1 h2 h3 h4
    obtain ⟨f, rfl⟩ : ∃ f, fuel = f + 1 := ⟨fuel - 1, by omega⟩
    have g := get32_ok (buf := buf) (a := tbl + 16 * n + 8 * t) (by omega)
    have st : ∃ b1, descPtrC B (tbl + 16 * t) (tbl + 16 * n + 8 * t) (rd32 (memL buf) (tbl + 16 * n + 8 * t)) buf = some b1 ∧ b1.length = buf.length ∧
        memL b1 = (if rd32 (memL buf) (tbl + 16 * n + 8 * t) ≠ 0 then wr64 (memL buf) (tbl + 16 * t) (B + rd32 (memL buf) (tbl + 16 * n + 8 * t))
          else wr (wr64 (memL buf) (tbl + 16 * t) 0) (tbl + 16 * n + 8 * t) (toLE 4 0)) := by
      unfold descPtrC
      split
      · exact put64_ok (by omega)
      · obtain ⟨b0, p1, p2, p3⟩ := put64_ok (buf := buf) (a := tbl + 16 * t) (v := 0) (by omega)
        rw [p1]
        obtain ⟨b1, r1, r2, r3⟩ := put_ok (buf := b0) (a := tbl + 16 * n + 8 * t) (bs := toLE 4 0) (by rw [toLE_length]; omega)
        exact ⟨b1, r1, by omega, by rw [r3, p3]⟩
    obtain ⟨b1, s1, s2, s3⟩ := st
    have g' := get32_ok (buf := b1) (a := tbl + 16 * n + 8 * t + 4) (by omega)
    obtain ⟨b2, p1, p2, p3⟩ := put64_ok (buf := b1) (a := tbl + 16 * t + 8) (v := rd32 (memL b1) (tbl + 16 * n + 8 * t + 4)) (by omega)
    have fr : ∀ x, x < tbl → memL b2 x = memL buf x := by
      intro x hx
      rw [p3, wr64_frame _ _ _ _ (by omega), s3]
      split
      · exact wr64_frame _ _ _ _ (by omega)
      · rw [wr_frame _ _ _ _ (by omega), wr64_frame _ _ _ _ (by omega)]
    obtain ⟨b3, q1, q2, q3⟩ := ih (t + 1) f b2 (by omega) (by omega) (by omega) (hb buf b2 (by omega) fr h4)
    refine ⟨b3, ?_, by omega, ?_⟩
    · simp only [descLoopC, h4, Option.bind_eq_bind, Option.bind_some]
      rw [if_pos (by omega), g]
      simp only [Option.bind_some]
      rw [s1]
      simp only [Option.bind_some]
      rw [g']
      simp only [Option.bind_some]
      rw [p1]
      exact q1
    · rw [q3, p3]
      simp only [descLoop]
      rw [s3]

/-- The number of items stays readable while memory from `tbl` on changes. -/
theorem bound_keep {a tbl n : Nat} (h : a + 8 ≤ tbl) (b b' : List Byte) (hl : b'.length = b.length) (hf : ∀ x, x < tbl → memL b' x = memL b x)
    (hb : get32 b (a + 4) = some n) : get32 b' (a + 4) = some n := by
  obtain ⟨g1, g2⟩ := get32_inv hb
  unfold get32
  rw [if_pos (by omega), g2, rd32_congr (m := memL b) (fun x _ _ => hf x (by omega))]

theorem tableC_eq (B : Nat) (nu : Bool) (a src dst n p : Nat) (buf : List Byte) (hs : src + 4 ≤ 56) (hd : dst + 8 ≤ 56) (hd' : 8 ≤ dst) (ha : a + 56 ≤ buf.length)
    (hp : rd32 (memL buf) (a + src) = p) (hn : rd32 (memL buf) (a + 4) = n) (hin : p ≠ 0 → a + 56 ≤ p ∧ p + 8 * n ≤ buf.length) :
    ∃ buf', tableC B nu a src dst buf = some buf' ∧ buf'.length = buf.length ∧
      memL buf' = (if p ≠ 0 then ptrLoop B nu p n n 0 (wr64 (memL buf) (a + dst) (B + p)) else wr64 (memL buf) (a + dst) 0) := by
  have hn32 : n < 2 ^ 32 := by rw [← hn]; exact rd32_lt _ _
  simp only [tableC, Option.bind_eq_bind]
  rw [get32_ok (by omega), hp]
  simp only [Option.bind_some]
  by_cases h0 : p ≠ 0
  · obtain ⟨i1, i2⟩ := hin h0
    rw [if_pos h0, if_pos h0]
    obtain ⟨b1, p1, p2, p3⟩ := put64_ok (buf := buf) (a := a + dst) (v := B + p) (by omega)
    have hn1 : rd32 (memL b1) (a + 4) = n := by rw [p3, ← hn]; exact rd32_wr64_ne _ _ _ _ (by omega)
    have g1 : get32 b1 (a + 4) = some n := by rw [get32_ok (by omega), hn1]
    rw [p1]
    simp only [Option.bind_some, g1]
    obtain ⟨b2, q1, q2, q3⟩ := ptrLoopC_eq B nu p n (fun b => get32 b (a + 4)) (bound_keep (by omega)) n 0 (2 ^ 32) b1 (by omega) hn32
      (by omega) g1
    exact ⟨b2, q1, by omega, by rw [q3, p3]⟩
  · rw [if_neg h0, if_neg h0]
    exact put64_ok (by omega)

/-- All that `Load` touches for a class lies inside a buffer of `L` bytes. -/
def Inside (L : Nat) (I : Info) : Prop :=
  I.a + 56 ≤ L ∧ I.N + opt I.c.names (8 * I.c.types.length) ≤ L ∧ I.A + opt I.c.aliases (8 * I.c.types.length) ≤ L ∧
  I.P + opt I.c.descs (32 * I.c.types.length) ≤ L ∧ 2 * I.c.types.length < 2 ^ 31

theorem opt_ne {α : Type} {X : Option α} {k : Nat} (h : opt X k ≠ 0) : X.isSome = true ∧ opt X k = k := by
  cases X with
  | none => exact absurd rfl h
  | some v => exact ⟨rfl, rfl⟩

theorem opt_of {α : Type} {X : Option α} (k : Nat) (h : X.isSome = true) : opt X k = k := by
  unfold opt; rw [if_pos h]

theorem expandClassC_eq (B : Nat) (I : Info) (buf : List Byte) (hsep : Sep I) (hsm : Small B I) (h : Before (memL buf) I)
    (hin : Inside buf.length I) :
    ∃ buf', expandClassC B I.a buf = some buf' ∧ buf'.length = buf.length ∧ memL buf' = expandClass B I.a (memL buf) := by
  obtain ⟨s1, s2, s3⟩ := hsep
  obtain ⟨i1, i2, i3, i4, i5⟩ := hin
  generalize hN : opt I.c.names (8 * I.c.types.length) = nl at s2 i2
  generalize hA : opt I.c.aliases (8 * I.c.types.length) = al at s3 i3
  simp only [expandClassC, Option.bind_eq_bind]
  rw [get32_ok (by omega), h.types]
  simp only [Option.bind_some]
  -- types
  obtain ⟨b1, p1, l1, m1⟩ := put64_ok (buf := buf) (a := I.a + 8) (v := B + I.T) (by omega)
  rw [p1]
  simp only [Option.bind_some]
  have f1 : ∀ x, (x < I.a + 8 ∨ I.a + 16 ≤ x) → memL b1 x = memL buf x := by
    intro x hx; rw [m1]; exact wr64_frame _ _ _ _ (by omega)
  -- names
  have e2 : rd32 (memL b1) (I.a + 36) = opt I.c.names I.N := by
    rw [← h.names]; exact rd32_congr (fun x _ _ => f1 x (by omega))
  have n2 : rd32 (memL b1) (I.a + 4) = I.c.types.length := by
    rw [← h.n]; exact rd32_congr (fun x _ _ => f1 x (by omega))
  obtain ⟨b2, p2, l2, m2⟩ := tableC_eq B false I.a 36 16 I.c.types.length _ b1 (by omega) (by omega) (by omega) (by omega) e2 n2
    (fun hx => by
      obtain ⟨o1, o2⟩ := opt_ne hx
      have := opt_of (8 * I.c.types.length) o1
      omega)
  rw [p2]
  simp only [Option.bind_some]
  obtain ⟨v2, w2, f2⟩ := ptrStage B false I.c.names I.N (I.a + 16) I.c.types.length I.sN (memL b1) hsm.posN hsm.n (by omega) hsm.sN
    (by
      intro hx u hu
      rw [← h.nameS hx u hu]
      exact rd32_congr (fun x _ _ => f1 x (by omega))) (memL b2) m2.symm
  rw [hN] at f2
  -- class name
  have e3 : rd32 (memL b2) (I.a + 40) = opt I.c.className I.C := by
    rw [← h.cls]; exact rd32_congr (fun x _ _ => by rw [f2 x (by omega) (by omega), f1 x (by omega)])
  rw [get32_ok (by omega), e3]
  simp only [Option.bind_some]
  obtain ⟨b3, p3, l3, m3⟩ := put64_ok (buf := b2) (a := I.a + 24) (v := if opt I.c.className I.C ≠ 0 then B + opt I.c.className I.C else 0)
    (by omega)
  rw [p3]
  simp only [Option.bind_some]
  have m3' : (if opt I.c.className I.C ≠ 0 then wr64 (memL b2) (I.a + 24) (B + opt I.c.className I.C)
    else wr64 (memL b2) (I.a + 24) 0) = memL b3 := by rw [m3]; split <;> rfl
  obtain ⟨v3, f3⟩ := nameStage B I.c.className I.C (I.a + 24) (memL b2) hsm.posC hsm.c (memL b3) m3'
  -- aliases
  have e4 : rd32 (memL b3) (I.a + 44) = opt I.c.aliases I.A := by
    rw [← h.alias]
    exact rd32_congr (fun x _ _ => by rw [f3 x (by omega), f2 x (by omega) (by omega), f1 x (by omega)])
  have n4 : rd32 (memL b3) (I.a + 4) = I.c.types.length := by
    rw [← h.n]; exact rd32_congr (fun x _ _ => by rw [f3 x (by omega), f2 x (by omega) (by omega), f1 x (by omega)])
  obtain ⟨b4, p4, l4, m4⟩ := tableC_eq B true I.a 44 32 I.c.types.length _ b3 (by omega) (by omega) (by omega) (by omega) e4 n4
    (fun hx => by
      obtain ⟨o1, o2⟩ := opt_ne hx
      have := opt_of (8 * I.c.types.length) o1
      omega)
  rw [p4]
  simp only [Option.bind_some]
  obtain ⟨v4, w4, f4⟩ := ptrStage B true I.c.aliases I.A (I.a + 32) I.c.types.length I.sA (memL b3) hsm.posA hsm.a (by omega) hsm.sA
    (by
      intro hx u hu
      rw [← h.aliasS hx u hu]
      exact rd32_congr (fun x _ _ => by rw [f3 x (by omega), f2 x (by omega) (by omega), f1 x (by omega)])) (memL b4) m4.symm
  rw [hA] at f4
  -- alias hashes
  have e5 : rd32 (memL b4) (I.a + 48) = 0 := by
    rw [← h.ahash]
    exact rd32_congr (fun x _ _ => by
      rw [f4 x (by omega) (by omega), f3 x (by omega), f2 x (by omega) (by omega), f1 x (by omega)])
  rw [get32_ok (by omega), e5]
  simp only [Option.bind_some, hashesC, ne_eq, not_true_eq_false, if_false]
  obtain ⟨b5, p5, l5, m5⟩ := put64_ok (buf := b4) (a := I.a + 40) (v := 0) (by omega)
  rw [p5]
  simp only [Option.bind_some]
  have f5 : ∀ x, (x < I.a + 40 ∨ I.a + 48 ≤ x) → memL b5 x = memL b4 x := by
    intro x hx; rw [m5]; exact wr64_frame _ _ _ _ (by omega)
  -- descriptions
  have e6 : rd32 (memL b5) (I.a + 52) = opt I.c.descs I.P := by
    rw [← h.desc]
    exact rd32_congr (fun x _ _ => by
      rw [f5 x (by omega), f4 x (by omega) (by omega), f3 x (by omega), f2 x (by omega) (by omega), f1 x (by omega)])
  have n6 : rd32 (memL b5) (I.a + 4) = I.c.types.length := by
    rw [← h.n]
    exact rd32_congr (fun x _ _ => by
      rw [f5 x (by omega), f4 x (by omega) (by omega), f3 x (by omega), f2 x (by omega) (by omega), f1 x (by omega)])
  rw [get32_ok (by omega), e6]
  simp only [Option.bind_some]
  have hgoal : memL b5 = wr64 (memL b4) (I.a + 40) 0 := m5
  have key : expandClass B I.a (memL buf) = (if opt I.c.descs I.P ≠ 0 then descLoop B (opt I.c.descs I.P) I.c.types.length
      (2 * I.c.types.length) 0 (wr64 (memL b5) (I.a + 48) (B + opt I.c.descs I.P)) else wr64 (memL b5) (I.a + 48) 0) := by
    simp only [expandClass, h.n, h.types]
    rw [← m1, e2, ← m2, e3, m3', e4, ← m4, e5]
    simp only [ne_eq, not_true_eq_false, if_false]
    rw [← m5, e6]
  rw [key]
  by_cases h0 : opt I.c.descs I.P ≠ 0
  · obtain ⟨o1, o2⟩ := opt_ne h0
    have o3 := opt_of (32 * I.c.types.length) o1
    have h0' := h0
    simp only [ne_eq] at h0'
    rw [if_pos (show ¬ (opt I.c.descs I.P = 0) from h0), if_pos h0, o2]
    obtain ⟨b6, p6, l6, m6⟩ := put64_ok (buf := b5) (a := I.a + 48) (v := B + I.P) (by omega)
    have n7 : get32 b6 (I.a + 4) = some I.c.types.length := by
      rw [get32_ok (by omega), m6, rd32_wr64_ne _ _ _ _ (by omega), n6]
    rw [p6]
    simp only [Option.bind_some, n7]
    rw [Nat.mod_eq_of_lt (by omega), show I.P + 4 * (I.c.types.length * 4) = I.P + 16 * I.c.types.length from by omega]
    obtain ⟨b7, q1, q2, q3⟩ := descLoopC_eq B I.P I.c.types.length (by omega) (fun b => get32 b (I.a + 4)) (bound_keep (by omega))
      (2 * I.c.types.length) 0 (2 ^ 32) b6 (by omega) (by omega) (by omega) n7
    exact ⟨b7, q1, by omega, by rw [q3, m6]⟩
  · have h0' : opt I.c.descs I.P = 0 := by omega
    rw [if_neg (show ¬ ¬ (opt I.c.descs I.P = 0) from fun q => q h0'), if_neg h0]
    obtain ⟨b6, p6, l6, m6⟩ := put64_ok (buf := b5) (a := I.a + 48) (v := 0) (by omega)
    exact ⟨b6, p6, by omega, m6⟩

theorem expandAllC_eq (B : Nat) (I : Nat → Info) (K : Nat) (ha : ∀ i, i < K → (I i).a = 56 * i) (hsep : ∀ i, i < K → Sep (I i))
    (hsm : ∀ i, i < K → Small B (I i)) (hdis : ∀ i j x, i < K → j < K → i ≠ j → Area (I i) x → ¬ Area (I j) x) :
    ∀ (k i : Nat) (buf : List Byte), k + i = K → (∀ j, i ≤ j → j < K → Before (memL buf) (I j)) → (∀ j, j < K → Inside buf.length (I j)) →
      ∃ buf', expandAllC B k (56 * i) buf = some buf' ∧ buf'.length = buf.length ∧ memL buf' = expandAll B k (56 * i) (memL buf) := by
  intro k
  induction k with
  | zero => intro i buf _ _ _; exact ⟨buf, rfl, rfl, rfl⟩
  | succ k ih =>
    intro i buf hk hb hin
    obtain ⟨b1, p1, l1, m1⟩ := expandClassC_eq B (I i) buf (hsep i (by omega)) (hsm i (by omega)) (hb i (by omega) (by omega))
      (hin i (by omega))
    have sp := expandClass_spec B (I i) (memL buf) (hsep i (by omega)) (hsm i (by omega)) (hb i (by omega) (by omega))
    obtain ⟨b2, p2, l2, m2⟩ := ih (i + 1) b1 (by omega) (fun j h1 h2 => by
      refine (hb j (by omega) h2).congr ?_
      intro x hx
      rw [m1]
      exact sp.2 x (fun hy => hdis i j x (by omega) h2 (by omega) hy hx)) (fun j hj => by rw [l1]; exact hin j hj)
    rw [ha i (by omega)] at p1 m1
    refine ⟨b2, ?_, by omega, ?_⟩
    · simp only [expandAllC, p1, Option.bind_some]
      exact p2
    · rw [m2, m1]; rfl

theorem enumLoopC_eq (buf : List Byte) : ∀ (k it : Nat), (enumLoop (memL buf) k it).2 ≤ buf.length →
    enumLoopC buf k it = some (enumLoop (memL buf) k it) := by
  intro k
  induction k with
  | zero => intro it _; rfl
  | succ k ih =>
    intro it h
    have mono : ∀ (k it : Nat), it ≤ (enumLoop (memL buf) k it).2 := by
      intro k
      induction k with
      | zero => intro it; exact Nat.le_refl _
      | succ k ih => intro it; have := ih (it + 8 + 8 * rd32 (memL buf) (it + 4)); simp only [enumLoop]; omega
    simp only [enumLoop] at h
    have := mono k (it + 8 + 8 * rd32 (memL buf) (it + 4))
    simp only [enumLoopC, Option.bind_eq_bind]
    rw [get32_ok (by omega), get32_ok (by omega)]
    simp only [Option.bind_some]
    rw [ih _ h]
    rfl

end PreCore.ReflIO
