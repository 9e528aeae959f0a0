import Verif.Props.Crypt
import Verif.Spec.Blowfish
/-!
# C57: the encoder is the published Blowfish cipher

Both classes compute textbook Blowfish (Spec/Blowfish): `BlowfishEncoder` with the published byte order, `BlowfishEncoder2` with the
bytes of a word taken from the other end. The constant tables are a parameter.
-/
namespace PreCore.Crypt
open PreCore

/-- Which byte indexes which box: textbook for `BlowfishEncoder`, reversed for `BlowfishEncoder2`. -/
def orderOf (rev : Bool) (j : Nat) : Nat := if rev then j else 3 - j

/-- The array of the specification holding the boxes of the encoder. -/
def arr (bx : Boxes) : Nat → BitVec 32 := fun i => if i < 18 then bx.p i else bx.s (i - 18)

theorem sbKey1_eq (bx : Boxes) (d : BitVec 32) (j : Nat) (hj : j < 4) :
    sbKey1 bx d j = Blowfish.box (arr bx) j (Blowfish.byteOf d (orderOf bx.rev j)) := by
  have hb : ∀ n, arr bx (18 + n) = bx.s n := by intro n; simp [arr, show ¬ 18 + n < 18 by omega]
  simp only [Blowfish.box, Nat.add_assoc, hb, sbKey1, Nat.mul_comm j 256]
  cases bx.rev <;> (have : j = 0 ∨ j = 1 ∨ j = 2 ∨ j = 3 := by omega) <;> rcases this with h | h | h | h <;> subst h <;> rfl

theorem sbKey_eq (bx : Boxes) (d : BitVec 32) : sbKey bx d = Blowfish.F (arr bx) (orderOf bx.rev) d := by
  simp only [sbKey, Blowfish.F, sbKey1_eq bx d 0 (by omega), sbKey1_eq bx d 1 (by omega), sbKey1_eq bx d 2 (by omega),
    sbKey1_eq bx d 3 (by omega)]

theorem arr_p (bx : Boxes) (i : Nat) (h : i < 18) : arr bx i = bx.p i := by simp [arr, h]

/-- Two steps of the unrolled code are two textbook rounds, with the whitening of the next round already done. -/
theorem two_rounds (bx : Boxes) (i n : Nat) (hi : i + 2 < 18) (h : Halves) :
    Blowfish.rounds (arr bx) (orderOf bx.rev) (n + 2) i (h.v0 ^^^ bx.p i, h.v1) =
      Blowfish.rounds (arr bx) (orderOf bx.rev) n (i + 2)
        ((xor0 bx (i + 2) (xor1 bx (i + 1) h)).v0 ^^^ bx.p (i + 2), (xor0 bx (i + 2) (xor1 bx (i + 1) h)).v1) := by
  have c : ∀ x y : BitVec 32, x ^^^ y ^^^ y = x := fun x y => xor_cancel x y
  have d : ∀ x y z : BitVec 32, x ^^^ (y ^^^ z) = x ^^^ y ^^^ z := fun x y z => (BitVec.xor_assoc x y z).symm
  simp only [Blowfish.rounds, xor0, xor1, sbKey_eq, arr_p bx i (by omega), arr_p bx (i + 1) (by omega), d, c]

/-- **C57**: `EncodeBlock` encrypts one block exactly as published: for every content of the boxes and every block, the low half of
the 64 bit word being L and the high half R. -/
theorem encodeBlock_textbook (bx : Boxes) (b : BitVec 64) :
    ((encodeBlock bx b).extractLsb' 0 32, (encodeBlock bx b).extractLsb' 32 32) =
      Blowfish.encrypt (arr bx) (orderOf bx.rev) (b.extractLsb' 0 32, b.extractLsb' 32 32) := by
  have hs := split_join (encodeHalves bx (split b))
  have e1 : (encodeBlock bx b).extractLsb' 0 32 = (encodeHalves bx (split b)).v0 := congrArg Halves.v0 hs
  have e2 : (encodeBlock bx b).extractLsb' 32 32 = (encodeHalves bx (split b)).v1 := congrArg Halves.v1 hs
  rw [e1, e2]
  have hsp : split b = ⟨b.extractLsb' 0 32, b.extractLsb' 32 32⟩ := rfl
  rw [hsp]
  generalize b.extractLsb' 0 32 = l
  generalize b.extractLsb' 32 32 = r
  have h0 : (l, r) = ((⟨l ^^^ bx.p 0, r⟩ : Halves).v0 ^^^ bx.p 0, (⟨l ^^^ bx.p 0, r⟩ : Halves).v1) := by
    simp only [xor_cancel]
  unfold Blowfish.encrypt
  rw [h0]
  rw [two_rounds bx 0 14 (by omega), two_rounds bx 2 12 (by omega), two_rounds bx 4 10 (by omega), two_rounds bx 6 8 (by omega),
    two_rounds bx 8 6 (by omega), two_rounds bx 10 4 (by omega), two_rounds bx 12 2 (by omega), two_rounds bx 14 0 (by omega)]
  simp only [Blowfish.rounds, arr_p bx 16 (by omega), arr_p bx 17 (by omega), xor_cancel, encodeHalves]

/-- A published step of the schedule on both representations. -/
theorem arr_pStep (bx : Boxes) (lb : BitVec 64) (i : Nat) (hi : i + 1 < 18) :
    arr (pStep (bx, lb) i).1 = (fun j => if j = i then (split (encodeBlock bx lb)).v0
      else if j = i + 1 then (split (encodeBlock bx lb)).v1 else arr bx j) := by
  funext j
  simp only [pStep, arr, upd]
  by_cases h1 : j = i
  · subst h1; simp [show j < 18 by omega]
  · by_cases h2 : j = i + 1
    · subst h2; simp [show i + 1 < 18 by omega]
    · simp [h1, h2]

theorem arr_sStep (bx : Boxes) (lb : BitVec 64) (i : Nat) :
    arr (sStep (bx, lb) i).1 = (fun j => if j = 18 + i then (split (encodeBlock bx lb)).v0
      else if j = 18 + i + 1 then (split (encodeBlock bx lb)).v1 else arr bx j) := by
  funext j
  simp only [sStep, arr, upd]
  by_cases h1 : j = 18 + i
  · subst h1; simp [show ¬ 18 + i < 18 by omega]
  · by_cases h2 : j = 18 + i + 1
    · subst h2; simp [show ¬ 18 + i + 1 < 18 by omega, show 18 + i + 1 - 18 = i + 1 by omega]
    · by_cases h3 : j < 18
      · simp [h1, h2, h3]
      · simp [h1, h2, h3, show ¬ j - 18 = i + 1 by omega, show ¬ j - 18 = i by omega]

theorem pairs_cons (k n : Nat) : (List.range' k (n + 1)).map (2 * ·) = (2 * k) :: (List.range' (k + 1) n).map (2 * ·) := by
  simp [List.range'_succ]

theorem pFold (n : Nat) : ∀ (k : Nat) (bx : Boxes) (lb : BitVec 64) (m : Nat), k + n ≤ 9 →
    let r := ((List.range' k n).map (2 * ·)).foldl pStep (bx, lb)
    r.1.rev = bx.rev ∧
    Blowfish.schedule (orderOf bx.rev) (n + m) (2 * k) (arr bx) ((split lb).v0, (split lb).v1) =
      Blowfish.schedule (orderOf bx.rev) m (2 * (k + n)) (arr r.1) ((split r.2).v0, (split r.2).v1) := by
  induction n with
  | zero => intro k bx lb m _; simp
  | succ n ih =>
    intro k bx lb m hk
    rw [pairs_cons]
    simp only [List.foldl_cons]
    have := ih (k + 1) (pStep (bx, lb) (2 * k)).1 (pStep (bx, lb) (2 * k)).2 m (by omega)
    simp only at this
    have hrev : (pStep (bx, lb) (2 * k)).1.rev = bx.rev := rfl
    rw [hrev] at this
    refine ⟨this.1, ?_⟩
    rw [show 2 * (k + (n + 1)) = 2 * (k + 1 + n) by omega, ← this.2]
    rw [show n + 1 + m = n + m + 1 by omega]
    simp only [Blowfish.schedule]
    have ht : Blowfish.encrypt (arr bx) (orderOf bx.rev) ((split lb).v0, (split lb).v1) =
        ((split (encodeBlock bx lb)).v0, (split (encodeBlock bx lb)).v1) := (encodeBlock_textbook bx lb).symm
    rw [ht, arr_pStep bx lb (2 * k) (by omega)]
    rfl

theorem sFold (n : Nat) : ∀ (k : Nat) (bx : Boxes) (lb : BitVec 64) (m : Nat),
    let r := ((List.range' k n).map (2 * ·)).foldl sStep (bx, lb)
    r.1.rev = bx.rev ∧
    Blowfish.schedule (orderOf bx.rev) (n + m) (18 + 2 * k) (arr bx) ((split lb).v0, (split lb).v1) =
      Blowfish.schedule (orderOf bx.rev) m (18 + 2 * (k + n)) (arr r.1) ((split r.2).v0, (split r.2).v1) := by
  induction n with
  | zero => intro k bx lb m; simp
  | succ n ih =>
    intro k bx lb m
    rw [pairs_cons]
    simp only [List.foldl_cons]
    have := ih (k + 1) (sStep (bx, lb) (2 * k)).1 (sStep (bx, lb) (2 * k)).2 m
    simp only at this
    have hrev : (sStep (bx, lb) (2 * k)).1.rev = bx.rev := rfl
    rw [hrev] at this
    refine ⟨this.1, ?_⟩
    rw [show 18 + 2 * (k + (n + 1)) = 18 + 2 * (k + 1 + n) by omega, ← this.2]
    rw [show n + 1 + m = n + m + 1 by omega]
    simp only [Blowfish.schedule]
    have ht : Blowfish.encrypt (arr bx) (orderOf bx.rev) ((split lb).v0, (split lb).v1) =
        ((split (encodeBlock bx lb)).v0, (split (encodeBlock bx lb)).v1) := (encodeBlock_textbook bx lb).symm
    rw [ht, arr_sStep bx lb (2 * k)]
    rfl

theorem mapM_some {α β : Type} (f : α → Option β) (g : α → β) (l : List α) (h : ∀ a ∈ l, f a = some (g a)) :
    l.mapM f = some (l.map g) := by
  induction l with
  | nil => rfl
  | cons a l ih =>
    rw [List.mapM_cons, h a (by simp), ih (fun b hb => h b (by simp [hb]))]
    rfl

/-- **C57** (partial: keys of 7 bit characters, see C50 for the others): `SetKey` leaves the boxes of the published key schedule,
for every initial table, so that encryption of any block under any such key is the published one (with `encodeBlock_textbook`). -/
theorem setKey_textbook_partial (P0 S0 : Nat → BitVec 32) (rev : Bool) (key : List Byte) (hk : key ≠ [])
    (ascii : ∀ c ∈ key, c.toNat < 128) :
    ∃ bx, setKey P0 S0 rev key = some bx ∧ bx.rev = rev ∧
      arr bx = Blowfish.keySetup (orderOf rev) (fun i => if i < 18 then P0 i else S0 (i - 18)) (keyWordSpec rev key) := by
  have hm := mapM_some (keyEntry rev key) (keyWordSpec rev key) (List.range 18) (fun i _ => keyEntry_packs_partial rev key hk ascii i)
  unfold setKey keyMaterial
  rw [hm]
  simp only [Option.map_some, Option.some.injEq, exists_eq_left']
  generalize hb0 : (⟨fun i => P0 i ^^^ ((List.range 18).map (keyWordSpec rev key)).getD i 0#32, S0, rev⟩ : Boxes) = b0
  have hr0 : b0.rev = rev := by rw [← hb0]
  have ha0 : arr b0 = (fun i => if i < 18 then (if i < 18 then P0 i else S0 (i - 18)) ^^^ keyWordSpec rev key i else
      (if i < 18 then P0 i else S0 (i - 18))) := by
    funext i
    rw [← hb0]
    by_cases h : i < 18
    · simp [arr, h, List.getD_eq_getElem?_getD]
    · simp [arr, h]
  have p := pFold 9 0 b0 0#64 512 (by omega)
  simp only at p
  rw [show ∀ n, List.range n = List.range' 0 n from fun n => List.range_eq_range', List.range_eq_range']
  generalize hr : ((List.range' 0 9).map (2 * ·)).foldl pStep (b0, 0#64) = r at p ⊢
  have s := sFold 512 0 r.1 r.2 0
  simp only [Nat.add_zero] at s
  have er : (r.1, r.2) = r := rfl
  rw [er] at s
  generalize hq : ((List.range' 0 512).map (2 * ·)).foldl sStep r = q at s ⊢
  refine ⟨by rw [s.1, p.1, hr0], ?_⟩
  unfold Blowfish.keySetup
  rw [← ha0]
  have h1 := p.2
  rw [hr0] at h1
  have h2 := s.2
  rw [p.1, hr0] at h2
  have hz : ((split 0#64).v0, (split 0#64).v1) = ((0 : BitVec 32), (0 : BitVec 32)) := by decide
  rw [hz] at h1
  exact (h1.trans h2).symm

/-- The hypotheses are met by an ordinary key. -/
example : ∃ bx, setKey (fun i => BitVec.ofNat 32 (i * 0x243f6a88)) (fun i => BitVec.ofNat 32 (i * 0xd1310ba6)) true [0x61#8, 0x62#8, 0x63#8] =
    some bx := by
  obtain ⟨bx, h, _⟩ := setKey_textbook_partial (fun i => BitVec.ofNat 32 (i * 0x243f6a88)) (fun i => BitVec.ofNat 32 (i * 0xd1310ba6))
    true [0x61#8, 0x62#8, 0x63#8] (by decide) (by decide)
  exact ⟨bx, h⟩

end PreCore.Crypt
