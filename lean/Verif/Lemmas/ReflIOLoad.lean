import Verif.Lemmas.ReflIO
/-!
# Lemmas about `Model/ReflIO`: turning offsets into pointers in place
-/
namespace PreCore.ReflIO
open PreCore

/-! ## Memory -/

theorem rd_length (m : Mem) (a n : Nat) : (rd m a n).length = n := by simp [rd]

theorem rd_congr {m m' : Mem} {a n : Nat} (h : ∀ x, a ≤ x → x < a + n → m' x = m x) : rd m' a n = rd m a n := by
  unfold rd
  apply List.map_congr_left
  intro i hi
  have := List.mem_range.mp hi
  exact h _ (by omega) (by omega)

theorem rd32_congr {m m' : Mem} {a : Nat} (h : ∀ x, a ≤ x → x < a + 4 → m' x = m x) : rd32 m' a = rd32 m a := by
  unfold rd32; rw [rd_congr h]

theorem rd64_congr {m m' : Mem} {a : Nat} (h : ∀ x, a ≤ x → x < a + 8 → m' x = m x) : rd64 m' a = rd64 m a := by
  unfold rd64; rw [rd_congr h]

theorem rd_add (m : Mem) (a n k : Nat) : rd m a (n + k) = rd m a n ++ rd m (a + n) k := by
  simp only [rd, List.range_add, List.map_append, List.map_map]
  congr 1
  apply List.map_congr_left
  intro i _
  simp [Nat.add_assoc]

theorem wr_frame (m : Mem) (a : Nat) (bs : List Byte) (x : Nat) (h : x < a ∨ a + bs.length ≤ x) : wr m a bs x = m x := by
  unfold wr; rw [if_neg (by omega)]

theorem wr64_frame (m : Mem) (a v x : Nat) (h : x < a ∨ a + 8 ≤ x) : wr64 m a v x = m x := by
  unfold wr64; exact wr_frame _ _ _ _ (by rw [toLE_length]; exact h)

theorem rd_wr (m : Mem) (a : Nat) (bs : List Byte) : rd (wr m a bs) a bs.length = bs := by
  apply List.ext_getElem
  · simp [rd]
  · intro i h1 h2
    simp only [rd, List.getElem_map, List.getElem_range, wr]
    rw [if_pos (by omega)]
    simp [List.getD_eq_getElem?_getD, h2]

theorem rd64_wr64 (m : Mem) (a v : Nat) (h : v < 2 ^ 64) : rd64 (wr64 m a v) a = v := by
  have := rd_wr m a (toLE 8 v)
  rw [toLE_length] at this
  unfold rd64 wr64
  rw [this, leNat_toLE]
  exact Nat.mod_eq_of_lt h

theorem rd64_wr64_ne (m : Mem) (a b v : Nat) (h : b + 8 ≤ a ∨ a + 8 ≤ b) : rd64 (wr64 m a v) b = rd64 m b :=
  rd64_congr (fun x h1 h2 => wr64_frame _ _ _ _ (by omega))

theorem rd32_wr64_ne (m : Mem) (a b v : Nat) (h : b + 4 ≤ a ∨ a + 8 ≤ b) : rd32 (wr64 m a v) b = rd32 m b :=
  rd32_congr (fun x h1 h2 => wr64_frame _ _ _ _ (by omega))

theorem rd32_lt (m : Mem) (a : Nat) : rd32 m a < 2 ^ 32 := by
  have := leNat_lt (rd m a 4)
  rw [rd_length] at this
  exact this

/-! ## The loops -/

/-- What the pointer made of an offset is. -/
def ptrVal (B : Nat) (nullable : Bool) (o : Nat) : Nat := if nullable ∧ o = 0 then 0 else B + o

theorem ptrLoop_spec (B : Nat) (nullable : Bool) (tbl n : Nat) (s : Nat → Nat) (hs : ∀ u, u < n → B + s u < 2 ^ 64) :
    ∀ (left t : Nat) (m : Mem), left + t = n → (∀ u, t ≤ u → u < n → rd32 m (tbl + 4 * n + 4 * u) = s u) →
      (∀ u, t ≤ u → u < n → rd64 (ptrLoop B nullable tbl n left t m) (tbl + 8 * u) = ptrVal B nullable (s u)) ∧
      (∀ x, x < tbl + 8 * t ∨ tbl + 8 * n ≤ x → ptrLoop B nullable tbl n left t m x = m x) := by
  intro left
  induction left with
  | zero => intro t m ht _; exact ⟨fun u h1 h2 => by omega, fun _ _ => rfl⟩
  | succ k ih =>
    intro t m ht h
    simp only [ptrLoop]
    rw [h t (Nat.le_refl _) (by omega)]
    have hv : ptrVal B nullable (s t) < 2 ^ 64 := by
      have := hs t (by omega)
      unfold ptrVal; split <;> omega
    generalize hm : wr64 m (tbl + 8 * t) (if nullable ∧ s t = 0 then 0 else B + s t) = m'
    have fr : ∀ x, x < tbl + 8 * t ∨ tbl + 8 * t + 8 ≤ x → m' x = m x := by
      intro x hx; rw [← hm]; exact wr64_frame _ _ _ _ hx
    obtain ⟨i1, i2⟩ := ih (t + 1) m' (by omega) (by
      intro u h1 h2
      rw [← h u (by omega) h2]
      exact rd32_congr (fun x _ _ => fr x (by omega)))
    refine ⟨?_, ?_⟩
    · intro u h1 h2
      by_cases hu : u = t
      · subst hu
        rw [rd64_congr (m := m') (fun x _ _ => i2 x (by omega)), ← hm]
        exact rd64_wr64 _ _ _ hv
      · exact i1 u (by omega) h2
    · intro x hx
      rw [i2 x (by omega)]
      exact fr x (by omega)

theorem descLoop_spec (B tbl n : Nat) (s l : Nat → Nat) (hs : ∀ u, u < 2 * n → B + s u < 2 ^ 64) :
    ∀ (left t : Nat) (m : Mem), left + t = 2 * n →
      (∀ u, t ≤ u → u < 2 * n → rd32 m (tbl + 16 * n + 8 * u) = s u ∧ rd32 m (tbl + 16 * n + 8 * u + 4) = l u) →
      (∀ u, t ≤ u → u < 2 * n → rd64 (descLoop B tbl n left t m) (tbl + 16 * u) = ptrVal B true (s u) ∧
        rd64 (descLoop B tbl n left t m) (tbl + 16 * u + 8) = l u) ∧
      (∀ x, x < tbl + 16 * t ∨ tbl + 32 * n ≤ x → descLoop B tbl n left t m x = m x) := by
  intro left
  induction left with
  | zero => intro t m ht _; exact ⟨fun u h1 h2 => by omega, fun _ _ => rfl⟩
  | succ k ih =>
    intro t m ht h
    simp only [descLoop]
    rw [(h t (Nat.le_refl _) (by omega)).1]
    generalize hm1 : (if s t ≠ 0 then wr64 m (tbl + 16 * t) (B + s t)
      else wr (wr64 m (tbl + 16 * t) 0) (tbl + 16 * n + 8 * t) (toLE 4 0)) = m1
    have hv : ptrVal B true (s t) < 2 ^ 64 := by
      have := hs t (by omega)
      unfold ptrVal; split <;> omega
    have fr1 : ∀ x, x < tbl + 16 * t ∨ (tbl + 16 * t + 8 ≤ x ∧ x < tbl + 16 * n + 8 * t) ∨ tbl + 16 * n + 8 * t + 4 ≤ x → m1 x = m x := by
      intro x hx; rw [← hm1]
      split
      · exact wr64_frame _ _ _ _ (by omega)
      · rw [wr_frame _ _ _ _ (by rw [toLE_length]; omega)]
        exact wr64_frame _ _ _ _ (by omega)
    have v1 : rd64 m1 (tbl + 16 * t) = ptrVal B true (s t) := by
      rw [← hm1]
      unfold ptrVal at hv ⊢
      by_cases h0 : s t = 0
      · rw [if_neg (by simpa using h0), if_pos ⟨rfl, h0⟩]
        rw [rd64_congr (m := wr64 m (tbl + 16 * t) 0) (fun x _ _ => wr_frame _ _ _ _ (by rw [toLE_length]; omega))]
        exact rd64_wr64 _ _ _ (by omega)
      · rw [if_pos h0, if_neg (fun e => h0 e.2)]
        rw [if_neg (fun e => h0 e.2)] at hv
        exact rd64_wr64 _ _ _ hv
    have v2 : rd32 m1 (tbl + 16 * n + 8 * t + 4) = l t := by
      rw [← (h t (Nat.le_refl _) (by omega)).2]
      exact rd32_congr (fun x _ _ => fr1 x (by omega))
    rw [v2]
    generalize hm2 : wr64 m1 (tbl + 16 * t + 8) (l t) = m2
    have hl : l t < 2 ^ 64 := by
      rw [← v2]; have := rd32_lt m1 (tbl + 16 * n + 8 * t + 4); omega
    have fr2 : ∀ x, x < tbl + 16 * t + 8 ∨ tbl + 16 * t + 16 ≤ x → m2 x = m1 x := by
      intro x hx; rw [← hm2]; exact wr64_frame _ _ _ _ (by omega)
    obtain ⟨i1, i2⟩ := ih (t + 1) m2 (by omega) (by
      intro u h1 h2
      rw [← (h u (by omega) h2).1, ← (h u (by omega) h2).2]
      exact ⟨rd32_congr (fun x _ _ => by rw [fr2 x (by omega), fr1 x (by omega)]),
        rd32_congr (fun x _ _ => by rw [fr2 x (by omega), fr1 x (by omega)])⟩)
    refine ⟨?_, ?_⟩
    · intro u h1 h2
      by_cases hu : u = t
      · subst hu
        refine ⟨?_, ?_⟩
        · rw [← v1]
          exact rd64_congr (fun x _ _ => by rw [i2 x (by omega), fr2 x (by omega)])
        · rw [rd64_congr (m := m2) (fun x _ _ => i2 x (by omega)), ← hm2]
          exact rd64_wr64 _ _ _ hl
      · exact i1 u (by omega) h2
    · intro x hx
      rw [i2 x (by omega), fr2 x (by omega)]
      exact fr1 x (by omega)

/-! ## One class -/

/-- Where the parts of a class are. -/
structure Info where
  c : Cls
  a : Nat
  T : Nat
  N : Nat
  C : Nat
  A : Nat
  P : Nat
  sN : Nat → Nat
  sA : Nat → Nat
  sD : Nat → Nat
  lD : Nat → Nat

def opt {α : Type} (o : Option α) (k : Nat) : Nat := if o.isSome then k else 0

/-- The tables of a class do not overlap. -/
def Sep (I : Info) : Prop :=
  I.a + 56 ≤ I.N ∧ I.N + opt I.c.names (8 * I.c.types.length) ≤ I.A ∧ I.A + opt I.c.aliases (8 * I.c.types.length) ≤ I.P

/-- What `Load` reads and writes for a class. -/
def Area (I : Info) (x : Nat) : Prop :=
  (I.a ≤ x ∧ x < I.a + 56) ∨ (I.N ≤ x ∧ x < I.N + opt I.c.names (8 * I.c.types.length)) ∨
  (I.A ≤ x ∧ x < I.A + opt I.c.aliases (8 * I.c.types.length)) ∨ (I.P ≤ x ∧ x < I.P + opt I.c.descs (32 * I.c.types.length))

/-- A class in the file. -/
structure Before (m : Mem) (I : Info) : Prop where
  hash : rd32 m I.a = I.c.hash.toNat
  n : rd32 m (I.a + 4) = I.c.types.length
  types : rd32 m (I.a + 32) = I.T
  names : rd32 m (I.a + 36) = opt I.c.names I.N
  cls : rd32 m (I.a + 40) = opt I.c.className I.C
  alias : rd32 m (I.a + 44) = opt I.c.aliases I.A
  ahash : rd32 m (I.a + 48) = 0
  desc : rd32 m (I.a + 52) = opt I.c.descs I.P
  nameS : I.c.names.isSome → ∀ t, t < I.c.types.length → rd32 m (I.N + 4 * I.c.types.length + 4 * t) = I.sN t
  aliasS : I.c.aliases.isSome → ∀ t, t < I.c.types.length → rd32 m (I.A + 4 * I.c.types.length + 4 * t) = I.sA t
  descS : I.c.descs.isSome → ∀ t, t < 2 * I.c.types.length → rd32 m (I.P + 16 * I.c.types.length + 8 * t) = I.sD t ∧
    rd32 m (I.P + 16 * I.c.types.length + 8 * t + 4) = I.lD t

/-- A class after `Load`. -/
structure After (B : Nat) (m : Mem) (I : Info) : Prop where
  hash : rd32 m I.a = I.c.hash.toNat
  n : rd32 m (I.a + 4) = I.c.types.length
  types : rd64 m (I.a + 8) = B + I.T
  names : rd64 m (I.a + 16) = opt I.c.names (B + I.N)
  cls : rd64 m (I.a + 24) = opt I.c.className (B + I.C)
  alias : rd64 m (I.a + 32) = opt I.c.aliases (B + I.A)
  ahash : rd64 m (I.a + 40) = 0
  desc : rd64 m (I.a + 48) = opt I.c.descs (B + I.P)
  nameS : I.c.names.isSome → ∀ t, t < I.c.types.length → rd64 m (I.N + 8 * t) = B + I.sN t
  aliasS : I.c.aliases.isSome → ∀ t, t < I.c.types.length → rd64 m (I.A + 8 * t) = ptrVal B true (I.sA t)
  descS : I.c.descs.isSome → ∀ t, t < 2 * I.c.types.length → rd64 m (I.P + 16 * t) = ptrVal B true (I.sD t) ∧
    rd64 m (I.P + 16 * t + 8) = I.lD t

/-- All offsets are small enough. -/
structure Small (B : Nat) (I : Info) : Prop where
  posN : 0 < I.N
  posC : 0 < I.C
  posA : 0 < I.A
  posP : 0 < I.P
  t : B + I.T < 2 ^ 64
  n : B + I.N < 2 ^ 64
  c : B + I.C < 2 ^ 64
  a : B + I.A < 2 ^ 64
  p : B + I.P < 2 ^ 64
  sN : ∀ t, t < I.c.types.length → B + I.sN t < 2 ^ 64
  sA : ∀ t, t < I.c.types.length → B + I.sA t < 2 ^ 64
  sD : ∀ t, t < 2 * I.c.types.length → B + I.sD t < 2 ^ 64

theorem Before.congr {m m' : Mem} {I : Info} (h : Before m I) (hf : ∀ x, Area I x → m' x = m x) : Before m' I := by
  have o : ∀ k, k + 4 ≤ 56 → rd32 m' (I.a + k) = rd32 m (I.a + k) := fun k hk =>
    rd32_congr (fun x _ _ => hf x (Or.inl (by omega)))
  refine ⟨?_, ?_, ?_, ?_, ?_, ?_, ?_, ?_, ?_, ?_, ?_⟩
  · rw [← h.hash]; exact o 0 (by omega)
  · rw [o _ (by omega), h.n]
  · rw [o _ (by omega), h.types]
  · rw [o _ (by omega), h.names]
  · rw [o _ (by omega), h.cls]
  · rw [o _ (by omega), h.alias]
  · rw [o _ (by omega), h.ahash]
  · rw [o _ (by omega), h.desc]
  · intro hs t ht
    rw [← h.nameS hs t ht]
    exact rd32_congr (fun x _ _ => hf x (Or.inr (Or.inl (by rw [opt, if_pos hs]; omega))))
  · intro hs t ht
    rw [← h.aliasS hs t ht]
    exact rd32_congr (fun x _ _ => hf x (Or.inr (Or.inr (Or.inl (by rw [opt, if_pos hs]; omega)))))
  · intro hs t ht
    rw [← (h.descS hs t ht).1, ← (h.descS hs t ht).2]
    exact ⟨rd32_congr (fun x _ _ => hf x (Or.inr (Or.inr (Or.inr (by rw [opt, if_pos hs]; omega))))),
      rd32_congr (fun x _ _ => hf x (Or.inr (Or.inr (Or.inr (by rw [opt, if_pos hs]; omega)))))⟩

theorem After.congr {B : Nat} {m m' : Mem} {I : Info} (h : After B m I) (hf : ∀ x, Area I x → m' x = m x) : After B m' I := by
  have o : ∀ k, k + 4 ≤ 56 → rd32 m' (I.a + k) = rd32 m (I.a + k) := fun k hk =>
    rd32_congr (fun x _ _ => hf x (Or.inl (by omega)))
  have o8 : ∀ k, k + 8 ≤ 56 → rd64 m' (I.a + k) = rd64 m (I.a + k) := fun k hk =>
    rd64_congr (fun x _ _ => hf x (Or.inl (by omega)))
  refine ⟨?_, ?_, ?_, ?_, ?_, ?_, ?_, ?_, ?_, ?_, ?_⟩
  · rw [← h.hash]; exact o 0 (by omega)
  · rw [o _ (by omega), h.n]
  · rw [o8 _ (by omega), h.types]
  · rw [o8 _ (by omega), h.names]
  · rw [o8 _ (by omega), h.cls]
  · rw [o8 _ (by omega), h.alias]
  · rw [o8 _ (by omega), h.ahash]
  · rw [o8 _ (by omega), h.desc]
  · intro hs t ht
    rw [← h.nameS hs t ht]
    exact rd64_congr (fun x _ _ => hf x (Or.inr (Or.inl (by rw [opt, if_pos hs]; omega))))
  · intro hs t ht
    rw [← h.aliasS hs t ht]
    exact rd64_congr (fun x _ _ => hf x (Or.inr (Or.inr (Or.inl (by rw [opt, if_pos hs]; omega)))))
  · intro hs t ht
    rw [← (h.descS hs t ht).1, ← (h.descS hs t ht).2]
    exact ⟨rd64_congr (fun x _ _ => hf x (Or.inr (Or.inr (Or.inr (by rw [opt, if_pos hs]; omega))))),
      rd64_congr (fun x _ _ => hf x (Or.inr (Or.inr (Or.inr (by rw [opt, if_pos hs]; omega)))))⟩

theorem ptrStage {α : Type} (B : Nat) (nullable : Bool) (X : Option α) (k p n : Nat) (s : Nat → Nat) (m : Mem) (hk : 0 < k)
    (hb : B + k < 2 ^ 64) (hp : p + 8 ≤ k) (hs : ∀ u, u < n → B + s u < 2 ^ 64)
    (h : X.isSome → ∀ u, u < n → rd32 m (k + 4 * n + 4 * u) = s u) (m' : Mem)
    (hm : (if opt X k ≠ 0 then ptrLoop B nullable (opt X k) n n 0 (wr64 m p (B + opt X k)) else wr64 m p 0) = m') :
    rd64 m' p = opt X (B + k) ∧ (X.isSome → ∀ u, u < n → rd64 m' (k + 8 * u) = ptrVal B nullable (s u)) ∧
    (∀ x, (x < p ∨ p + 8 ≤ x) → (x < k ∨ k + opt X (8 * n) ≤ x) → m' x = m x) := by
  cases X with
  | none =>
    simp only [opt, Option.isSome_none, Bool.false_eq_true, if_false, ne_eq, not_true_eq_false] at hm ⊢
    subst hm
    refine ⟨rd64_wr64 _ _ _ (by omega), fun e => e.elim, fun x h1 _ => wr64_frame _ _ _ _ h1⟩
  | some v =>
    simp only [opt, Option.isSome_some, if_true, ne_eq] at hm ⊢
    rw [if_pos (by omega)] at hm
    obtain ⟨i1, i2⟩ := ptrLoop_spec B nullable k n s hs n 0 (wr64 m p (B + k)) (by omega) (by
      intro u _ hu
      rw [← h rfl u hu]
      exact rd32_wr64_ne _ _ _ _ (by omega))
    rw [hm] at i1 i2
    refine ⟨?_, fun _ u hu => i1 u (by omega) hu, ?_⟩
    · rw [rd64_congr (m := wr64 m p (B + k)) (fun x _ _ => i2 x (by omega))]
      exact rd64_wr64 _ _ _ hb
    · intro x h1 h2
      rw [i2 x (by omega)]
      exact wr64_frame _ _ _ _ h1

theorem descStage {α : Type} (B : Nat) (X : Option α) (k p n : Nat) (s l : Nat → Nat) (m : Mem) (hk : 0 < k)
    (hb : B + k < 2 ^ 64) (hp : p + 8 ≤ k) (hs : ∀ u, u < 2 * n → B + s u < 2 ^ 64)
    (h : X.isSome → ∀ u, u < 2 * n → rd32 m (k + 16 * n + 8 * u) = s u ∧ rd32 m (k + 16 * n + 8 * u + 4) = l u) (m' : Mem)
    (hm : (if opt X k ≠ 0 then descLoop B (opt X k) n (2 * n) 0 (wr64 m p (B + opt X k)) else wr64 m p 0) = m') :
    rd64 m' p = opt X (B + k) ∧
    (X.isSome → ∀ u, u < 2 * n → rd64 m' (k + 16 * u) = ptrVal B true (s u) ∧ rd64 m' (k + 16 * u + 8) = l u) ∧
    (∀ x, (x < p ∨ p + 8 ≤ x) → (x < k ∨ k + opt X (32 * n) ≤ x) → m' x = m x) := by
  cases X with
  | none =>
    simp only [opt, Option.isSome_none, Bool.false_eq_true, if_false, ne_eq, not_true_eq_false] at hm ⊢
    subst hm
    refine ⟨rd64_wr64 _ _ _ (by omega), fun e => e.elim, fun x h1 _ => wr64_frame _ _ _ _ h1⟩
  | some v =>
    simp only [opt, Option.isSome_some, if_true, ne_eq] at hm ⊢
    rw [if_pos (by omega)] at hm
    obtain ⟨i1, i2⟩ := descLoop_spec B k n s l hs (2 * n) 0 (wr64 m p (B + k)) (by omega) (by
      intro u _ hu
      rw [← (h rfl u hu).1, ← (h rfl u hu).2]
      exact ⟨rd32_wr64_ne _ _ _ _ (by omega), rd32_wr64_ne _ _ _ _ (by omega)⟩)
    rw [hm] at i1 i2
    refine ⟨?_, fun _ u hu => i1 u (by omega) hu, ?_⟩
    · rw [rd64_congr (m := wr64 m p (B + k)) (fun x _ _ => i2 x (by omega))]
      exact rd64_wr64 _ _ _ hb
    · intro x h1 h2
      rw [i2 x (by omega)]
      exact wr64_frame _ _ _ _ h1

theorem nameStage {α : Type} (B : Nat) (X : Option α) (k p : Nat) (m : Mem) (hk : 0 < k) (hb : B + k < 2 ^ 64) (m' : Mem)
    (hm : (if opt X k ≠ 0 then wr64 m p (B + opt X k) else wr64 m p 0) = m') :
    rd64 m' p = opt X (B + k) ∧ (∀ x, (x < p ∨ p + 8 ≤ x) → m' x = m x) := by
  cases X with
  | none =>
    simp only [opt, Option.isSome_none, Bool.false_eq_true, if_false, ne_eq, not_true_eq_false] at hm ⊢
    subst hm
    exact ⟨rd64_wr64 _ _ _ (by omega), fun x h1 => wr64_frame _ _ _ _ h1⟩
  | some v =>
    simp only [opt, Option.isSome_some, if_true, ne_eq] at hm ⊢
    rw [if_pos (by omega)] at hm
    subst hm
    exact ⟨rd64_wr64 _ _ _ hb, fun x h1 => wr64_frame _ _ _ _ h1⟩

theorem expandClass_spec (B : Nat) (I : Info) (m : Mem) (hsep : Sep I) (hsm : Small B I) (h : Before m I) :
    After B (expandClass B I.a m) I ∧ ∀ x, ¬ Area I x → expandClass B I.a m x = m x := by
  obtain ⟨s1, s2, s3⟩ := hsep
  generalize hN : opt I.c.names (8 * I.c.types.length) = nl at s2
  generalize hA : opt I.c.aliases (8 * I.c.types.length) = al at s3
  generalize hP : opt I.c.descs (32 * I.c.types.length) = pl
  generalize hm' : expandClass B I.a m = m'
  simp only [expandClass, h.n, h.types] at hm'
  -- types
  generalize hm1 : wr64 m (I.a + 8) (B + I.T) = m1 at hm'
  have v1 : rd64 m1 (I.a + 8) = B + I.T := by rw [← hm1]; exact rd64_wr64 _ _ _ hsm.t
  have f1 : ∀ x, (x < I.a + 8 ∨ I.a + 16 ≤ x) → m1 x = m x := by
    intro x hx; rw [← hm1]; exact wr64_frame _ _ _ _ (by omega)
  -- names
  have e2 : rd32 m1 (I.a + 36) = opt I.c.names I.N := by
    rw [← h.names]; exact rd32_congr (fun x _ _ => f1 x (by omega))
  rw [e2] at hm'
  generalize hm2 : (if opt I.c.names I.N ≠ 0 then ptrLoop B false (opt I.c.names I.N) I.c.types.length I.c.types.length 0
    (wr64 m1 (I.a + 16) (B + opt I.c.names I.N)) else wr64 m1 (I.a + 16) 0) = m2 at hm'
  obtain ⟨v2, w2, f2⟩ := ptrStage B false I.c.names I.N (I.a + 16) I.c.types.length I.sN m1 hsm.posN hsm.n (by omega) hsm.sN
    (by
      intro hx u hu
      rw [← h.nameS hx u hu]
      exact rd32_congr (fun x _ _ => f1 x (by omega))) m2 hm2
  rw [hN] at f2
  -- class name
  have e3 : rd32 m2 (I.a + 40) = opt I.c.className I.C := by
    rw [← h.cls]; exact rd32_congr (fun x _ _ => by rw [f2 x (by omega) (by omega), f1 x (by omega)])
  rw [e3] at hm'
  generalize hm3 : (if opt I.c.className I.C ≠ 0 then wr64 m2 (I.a + 24) (B + opt I.c.className I.C)
    else wr64 m2 (I.a + 24) 0) = m3 at hm'
  obtain ⟨v3, f3⟩ := nameStage B I.c.className I.C (I.a + 24) m2 hsm.posC hsm.c m3 hm3
  -- aliases
  have e4 : rd32 m3 (I.a + 44) = opt I.c.aliases I.A := by
    rw [← h.alias]
    exact rd32_congr (fun x _ _ => by rw [f3 x (by omega), f2 x (by omega) (by omega), f1 x (by omega)])
  rw [e4] at hm'
  generalize hm4 : (if opt I.c.aliases I.A ≠ 0 then ptrLoop B true (opt I.c.aliases I.A) I.c.types.length I.c.types.length 0
    (wr64 m3 (I.a + 32) (B + opt I.c.aliases I.A)) else wr64 m3 (I.a + 32) 0) = m4 at hm'
  obtain ⟨v4, w4, f4⟩ := ptrStage B true I.c.aliases I.A (I.a + 32) I.c.types.length I.sA m3 hsm.posA hsm.a (by omega) hsm.sA
    (by
      intro hx u hu
      rw [← h.aliasS hx u hu]
      exact rd32_congr (fun x _ _ => by rw [f3 x (by omega), f2 x (by omega) (by omega), f1 x (by omega)])) m4 hm4
  rw [hA] at f4
  -- alias hashes
  have e5 : rd32 m4 (I.a + 48) = 0 := by
    rw [← h.ahash]
    exact rd32_congr (fun x _ _ => by
      rw [f4 x (by omega) (by omega), f3 x (by omega), f2 x (by omega) (by omega), f1 x (by omega)])
  rw [e5] at hm'
  simp only [ne_eq, not_true_eq_false, if_false] at hm'
  generalize hm5 : wr64 m4 (I.a + 40) 0 = m5 at hm'
  have v5 : rd64 m5 (I.a + 40) = 0 := by rw [← hm5]; exact rd64_wr64 _ _ _ (by omega)
  have f5 : ∀ x, (x < I.a + 40 ∨ I.a + 48 ≤ x) → m5 x = m4 x := by
    intro x hx; rw [← hm5]; exact wr64_frame _ _ _ _ (by omega)
  -- descriptions
  have e6 : rd32 m5 (I.a + 52) = opt I.c.descs I.P := by
    rw [← h.desc]
    exact rd32_congr (fun x _ _ => by
      rw [f5 x (by omega), f4 x (by omega) (by omega), f3 x (by omega), f2 x (by omega) (by omega), f1 x (by omega)])
  rw [e6] at hm'
  obtain ⟨v6, w6, f6⟩ := descStage B I.c.descs I.P (I.a + 48) I.c.types.length I.sD I.lD m5 hsm.posP hsm.p (by omega) hsm.sD
    (by
      intro hx u hu
      rw [← (h.descS hx u hu).1, ← (h.descS hx u hu).2]
      constructor <;> exact rd32_congr (fun x _ _ => by
        rw [f5 x (by omega), f4 x (by omega) (by omega), f3 x (by omega), f2 x (by omega) (by omega), f1 x (by omega)])) m' hm'
  rw [hP] at f6
  refine ⟨⟨?_, ?_, ?_, ?_, ?_, ?_, ?_, v6, ?_, ?_, w6⟩, ?_⟩
  · rw [← h.hash]
    exact rd32_congr (fun x _ _ => by
      rw [f6 x (by omega) (by omega), f5 x (by omega), f4 x (by omega) (by omega), f3 x (by omega), f2 x (by omega) (by omega),
        f1 x (by omega)])
  · rw [← h.n]
    exact rd32_congr (fun x _ _ => by
      rw [f6 x (by omega) (by omega), f5 x (by omega), f4 x (by omega) (by omega), f3 x (by omega), f2 x (by omega) (by omega),
        f1 x (by omega)])
  · rw [← v1]
    exact rd64_congr (fun x _ _ => by
      rw [f6 x (by omega) (by omega), f5 x (by omega), f4 x (by omega) (by omega), f3 x (by omega), f2 x (by omega) (by omega)])
  · rw [← v2]
    exact rd64_congr (fun x _ _ => by
      rw [f6 x (by omega) (by omega), f5 x (by omega), f4 x (by omega) (by omega), f3 x (by omega)])
  · rw [← v3]
    exact rd64_congr (fun x _ _ => by rw [f6 x (by omega) (by omega), f5 x (by omega), f4 x (by omega) (by omega)])
  · rw [← v4]
    exact rd64_congr (fun x _ _ => by rw [f6 x (by omega) (by omega), f5 x (by omega)])
  · rw [← v5]
    exact rd64_congr (fun x _ _ => by rw [f6 x (by omega) (by omega)])
  · intro hx t ht
    have := w2 hx t ht
    simp only [ptrVal, Bool.false_eq_true, false_and, if_false] at this
    rw [← this]
    have hnl : nl = 8 * I.c.types.length := by rw [← hN, opt, if_pos hx]
    exact rd64_congr (fun x _ _ => by
      rw [f6 x (by omega) (by omega), f5 x (by omega), f4 x (by omega) (by omega), f3 x (by omega)])
  · intro hx t ht
    rw [← w4 hx t ht]
    have hal : al = 8 * I.c.types.length := by rw [← hA, opt, if_pos hx]
    exact rd64_congr (fun x _ _ => by rw [f6 x (by omega) (by omega), f5 x (by omega)])
  · intro x hx
    simp only [Area, hN, hA, hP, not_or] at hx
    obtain ⟨h1, h2, h3, h4⟩ := hx
    rw [f6 x (by omega) (by omega), f5 x (by omega), f4 x (by omega) (by omega), f3 x (by omega), f2 x (by omega) (by omega),
      f1 x (by omega)]

/-! ## All classes -/

theorem expandAll_spec (B : Nat) (I : Nat → Info) (K : Nat) (ha : ∀ i, i < K → (I i).a = 56 * i) (hsep : ∀ i, i < K → Sep (I i))
    (hsm : ∀ i, i < K → Small B (I i)) (hdis : ∀ i j x, i < K → j < K → i ≠ j → Area (I i) x → ¬ Area (I j) x) :
    ∀ (k i : Nat) (m : Mem), k + i = K → (∀ j, i ≤ j → j < K → Before m (I j)) → (∀ j, j < i → After B m (I j)) →
      (∀ j, j < K → After B (expandAll B k (56 * i) m) (I j)) ∧
      (∀ x, (∀ j, j < K → ¬ Area (I j) x) → expandAll B k (56 * i) m x = m x) := by
  intro k
  induction k with
  | zero => intro i m hk _ ha; exact ⟨fun j hj => ha j (by omega), fun _ _ => rfl⟩
  | succ k ih =>
    intro i m hk hb haf
    have hi : i < K := by omega
    simp only [expandAll]
    obtain ⟨e1, e2⟩ := expandClass_spec B (I i) m (hsep i hi) (hsm i hi) (hb i (Nat.le_refl _) hi)
    rw [ha i hi] at e1 e2
    have ih' := ih (i + 1) (expandClass B (56 * i) m) (by omega)
      (fun j h1 h2 => (hb j (by omega) h2).congr (fun x hx => e2 x (hdis j i x h2 hi (by omega) hx)))
      (fun j hj => by
        by_cases hji : j = i
        · subst hji; exact e1
        · exact (haf j (by omega)).congr (fun x hx => e2 x (hdis j i x (by omega) hi hji hx)))
    rw [show 56 * (i + 1) = 56 * i + 56 by omega] at ih'
    refine ⟨ih'.1, fun x hx => ?_⟩
    rw [ih'.2 x hx]
    exact e2 x (hx i hi)

end PreCore.ReflIO
